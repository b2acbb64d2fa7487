import Verif.Props.RefineTet

/-!
C34: conformity of the refinement of tetrahedra.

Specification.  Points of the refined mesh are named independently of the tetrahedron from which they
are reached: the vertex with id `x` is `(x, x)`, the new vertex on the edge between the vertices with
ids `x` and `y` is `(min x y, max x y)`.
-/

namespace VG

def ptName (x y : Int) : Int × Int := (min x y, max x y)

/-- The name of a label of a tetrahedron with vertex ids `id`. -/
def labelName (id : Nat → Int) : Nat → Int × Int
  | 0 => ptName (id 0) (id 0)
  | 1 => ptName (id 1) (id 1)
  | 2 => ptName (id 2) (id 2)
  | 3 => ptName (id 3) (id 3)
  | 4 => ptName (id 0) (id 1)
  | 5 => ptName (id 0) (id 2)
  | 6 => ptName (id 0) (id 3)
  | 7 => ptName (id 1) (id 2)
  | 8 => ptName (id 1) (id 3)
  | _ => ptName (id 2) (id 3)

/-- The three points `S` are on the face with vertices `a`, `b`, `c` and span a facet of a child. -/
def Induced (id : Nat → Int) (cells : List (List Nat)) (a b c : Int) (S : Finset (Int × Int)) : Prop :=
  S.card = 3 ∧ (∀ q ∈ S, (q.1 = a ∨ q.1 = b ∨ q.1 = c) ∧ (q.2 = a ∨ q.2 = b ∨ q.2 = c)) ∧
  ∃ cell ∈ cells, ∀ q ∈ S, ∃ l ∈ cell, labelName id l = q

/-- The line between `x` and `y` is longer than that between `z` and `w`; lines of the same length are
compared by ids. -/
def LongerLine {K : Type} [LT K] (glen : Int → Int → K) (x y z w : Int) : Prop :=
  glen z w < glen x y ∨ glen x y = glen z w ∧
    (min z w < min x y ∨ min x y = min z w ∧ max z w < max x y)

/-- A triangle of the refined face, for one order of the vertices of the face: no marked edges, one
marked edge xy, two marked edges xy and xz of which xy is longer (or the triangle at x), or three. -/
def FaceTriangle1 {K : Type} [LT K] (mark : Int → Int → Bool) (glen : Int → Int → K) (x y z : Int)
    (S : Finset (Int × Int)) : Prop :=
  (mark x y = false ∧ mark x z = false ∧ mark y z = false ∧ S = {ptName x x, ptName y y, ptName z z}) ∨
  (mark x y = true ∧ mark x z = false ∧ mark y z = false ∧ S = {ptName x x, ptName x y, ptName z z}) ∨
  (mark x y = true ∧ mark x z = true ∧ mark y z = false ∧
    (S = {ptName x x, ptName x y, ptName x z} ∨
     LongerLine glen x y x z ∧ (S = {ptName x y, ptName y y, ptName z z} ∨ S = {ptName x y, ptName x z, ptName z z}))) ∨
  (mark x y = true ∧ mark x z = true ∧ mark y z = true ∧
    (S = {ptName x x, ptName x y, ptName x z} ∨ S = {ptName x y, ptName x z, ptName y z}))

/-- A triangle of the refined face. -/
def FaceTriangle {K : Type} [LT K] (mark : Int → Int → Bool) (glen : Int → Int → K) (a b c : Int)
    (S : Finset (Int × Int)) : Prop :=
  FaceTriangle1 mark glen a b c S ∨ FaceTriangle1 mark glen a c b S ∨ FaceTriangle1 mark glen b a c S ∨
  FaceTriangle1 mark glen b c a S ∨ FaceTriangle1 mark glen c a b S ∨ FaceTriangle1 mark glen c b a S

/-! ### Names -/

theorem labelName_injective {id : Nat → Int} (hid : ∀ a < 4, ∀ b < 4, id a = id b → a = b) :
    ∀ k < 10, ∀ l < 10, labelName id k = labelName id l → k = l := by
  have h01 : id 0 ≠ id 1 := fun h => by have := hid 0 (by omega) 1 (by omega) h; omega
  have h02 : id 0 ≠ id 2 := fun h => by have := hid 0 (by omega) 2 (by omega) h; omega
  have h03 : id 0 ≠ id 3 := fun h => by have := hid 0 (by omega) 3 (by omega) h; omega
  have h12 : id 1 ≠ id 2 := fun h => by have := hid 1 (by omega) 2 (by omega) h; omega
  have h13 : id 1 ≠ id 3 := fun h => by have := hid 1 (by omega) 3 (by omega) h; omega
  have h23 : id 2 ≠ id 3 := fun h => by have := hid 2 (by omega) 3 (by omega) h; omega
  intro k hk l hl h
  interval_cases k <;> interval_cases l <;> first
    | rfl
    | (exfalso; simp only [labelName, ptName, Prod.mk.injEq] at h; omega)

theorem onTetFace_iff_name {id : Nat → Int} (hid : ∀ a < 4, ∀ b < 4, id a = id b → a = b) {q : Nat × Nat × Nat}
    (hq : q ∈ tetFaces) {l : Nat} (hl : l < 10) :
    onTetFace q.1 q.2.1 q.2.2 l = true ↔
      ((labelName id l).1 = id q.1 ∨ (labelName id l).1 = id q.2.1 ∨ (labelName id l).1 = id q.2.2) ∧
      ((labelName id l).2 = id q.1 ∨ (labelName id l).2 = id q.2.1 ∨ (labelName id l).2 = id q.2.2) := by
  have h01 : id 0 ≠ id 1 := fun h => by have := hid 0 (by omega) 1 (by omega) h; omega
  have h02 : id 0 ≠ id 2 := fun h => by have := hid 0 (by omega) 2 (by omega) h; omega
  have h03 : id 0 ≠ id 3 := fun h => by have := hid 0 (by omega) 3 (by omega) h; omega
  have h12 : id 1 ≠ id 2 := fun h => by have := hid 1 (by omega) 2 (by omega) h; omega
  have h13 : id 1 ≠ id 3 := fun h => by have := hid 1 (by omega) 3 (by omega) h; omega
  have h23 : id 2 ≠ id 3 := fun h => by have := hid 2 (by omega) 3 (by omega) h; omega
  simp only [tetFaces, List.mem_cons, List.not_mem_nil, or_false] at hq
  rcases hq with rfl | rfl | rfl | rfl <;> interval_cases l <;>
    simp only [labelName, ptName] <;> first
      | (refine iff_of_true (by decide) ?_; omega)
      | (refine iff_of_false (by decide) ?_; omega)

theorem sort_eq_iff {l g : List Nat} (hl : l.Nodup) (hg : g.Nodup) :
    l.insertionSort (· ≤ ·) = g.insertionSort (· ≤ ·) ↔ l.toFinset = g.toFinset := by
  constructor
  · intro h
    rw [← List.toFinset_eq_of_perm _ _ (List.perm_insertionSort (· ≤ ·) l), h,
      List.toFinset_eq_of_perm _ _ (List.perm_insertionSort (· ≤ ·) g)]
  · intro h
    have hp : l.Perm g := List.perm_of_nodup_nodup_toFinset_eq hl hg h
    have hp' : (l.insertionSort (· ≤ ·)).Perm (g.insertionSort (· ≤ ·)) :=
      (List.perm_insertionSort _ l).trans (hp.trans (List.perm_insertionSort _ g).symm)
    exact hp'.eq_of_pairwise (fun a b _ _ => Nat.le_antisymm) (List.pairwise_insertionSort _ l)
      (List.pairwise_insertionSort _ g)

/-- Three of four elements are one of the four triples. -/
theorem three_of_four {i j k l : Nat} (h : [i, j, k, l].Nodup) {T : Finset Nat} (hT : T ⊆ {i, j, k, l}) (hc : T.card = 3) :
    T = {j, k, l} ∨ T = {i, k, l} ∨ T = {i, j, l} ∨ T = {i, j, k} := by
  have h4 : ({i, j, k, l} : Finset Nat).card = 4 := by
    have := List.toFinset_card_of_nodup h
    simpa using this
  obtain ⟨x, hx, hxT⟩ := Finset.exists_mem_notMem_of_card_lt_card (show T.card < ({i, j, k, l} : Finset Nat).card by omega)
  have he : T = ({i, j, k, l} : Finset Nat).erase x := by
    refine Finset.eq_of_subset_of_card_le (fun y hy => Finset.mem_erase.2 ⟨fun e => hxT (e ▸ hy), hT hy⟩) ?_
    rw [Finset.card_erase_of_mem hx, h4, hc]
  simp only [List.nodup_cons, List.mem_cons, List.not_mem_nil, or_false, not_or, List.nodup_nil, and_true,
    not_false_eq_true] at h
  simp only [Finset.mem_insert, Finset.mem_singleton] at hx
  rw [he]
  rcases hx with rfl | rfl | rfl | rfl
  · left; ext y; simp only [Finset.mem_erase, Finset.mem_insert, Finset.mem_singleton]; omega
  · right; left; ext y; simp only [Finset.mem_erase, Finset.mem_insert, Finset.mem_singleton]; omega
  · right; right; left; ext y; simp only [Finset.mem_erase, Finset.mem_insert, Finset.mem_singleton]; omega
  · right; right; right; ext y; simp only [Finset.mem_erase, Finset.mem_insert, Finset.mem_singleton]; omega

theorem mem_cellFacets {cell : List Nat} (h : CellOK cell = true) {T : Finset Nat} (hT : T ⊆ cell.toFinset)
    (hc : T.card = 3) : ∃ f ∈ cellFacets cell, f.toFinset = T := by
  obtain ⟨i, j, k, l, rfl, hi, hj, hk, hl, hij, hik, hil, hjk, hjl, hkl⟩ := cellOK_elim h
  have hnd : [i, j, k, l].Nodup := by simp [hij, hik, hil, hjk, hjl, hkl]
  have hT' : T ⊆ {i, j, k, l} := by simpa using hT
  have key : ∀ g : List Nat, (g.insertionSort (· ≤ ·)).toFinset = g.toFinset := fun g =>
    List.toFinset_eq_of_perm _ _ (List.perm_insertionSort (· ≤ ·) g)
  rcases three_of_four hnd hT' hc with e | e | e | e
  · exact ⟨[j, k, l].insertionSort (· ≤ ·), by simp [cellFacets], by rw [key, e]; simp⟩
  · exact ⟨[i, k, l].insertionSort (· ≤ ·), by simp [cellFacets], by rw [key, e]; simp⟩
  · exact ⟨[i, j, l].insertionSort (· ≤ ·), by simp [cellFacets], by rw [key, e]; simp⟩
  · exact ⟨[i, j, k].insertionSort (· ≤ ·), by simp [cellFacets], by rw [key, e]; simp⟩

theorem cellFacets_sub {cell : List Nat} (h : CellOK cell = true) {f : List Nat} (hf : f ∈ cellFacets cell) :
    f.toFinset ⊆ cell.toFinset ∧ f.toFinset.card = 3 ∧ ∀ l ∈ f, l < 10 := by
  obtain ⟨i, j, k, l, rfl, hi, hj, hk, hl, hij, hik, hil, hjk, hjl, hkl⟩ := cellOK_elim h
  have key : ∀ g : List Nat, (g.insertionSort (· ≤ ·)).toFinset = g.toFinset := fun g =>
    List.toFinset_eq_of_perm _ _ (List.perm_insertionSort (· ≤ ·) g)
  simp only [cellFacets, List.mem_map, List.mem_cons, List.not_mem_nil, or_false] at hf
  obtain ⟨g, hg, rfl⟩ := hf
  rw [key]
  have hmem : ∀ x, x ∈ g.insertionSort (· ≤ ·) ↔ x ∈ g := fun x => List.mem_insertionSort _
  have hnd : g.Nodup := by
    rcases hg with rfl | rfl | rfl | rfl <;> simp [hij, hik, hil, hjk, hjl, hkl]
  refine ⟨?_, ?_, fun x hx => ?_⟩
  · intro x hx
    rcases hg with rfl | rfl | rfl | rfl <;> simp at hx ⊢ <;> omega
  · rw [List.toFinset_card_of_nodup hnd]
    rcases hg with rfl | rfl | rfl | rfl <;> rfl
  · rw [hmem] at hx
    rcases hg with rfl | rfl | rfl | rfl <;> simp at hx <;> omega

theorem cell_lt {cell : List Nat} (h : CellOK cell = true) : ∀ l ∈ cell, l < 10 := by
  obtain ⟨i, j, k, l, rfl, hi, hj, hk, hl, _⟩ := cellOK_elim h
  intro x hx
  simp at hx
  omega

theorem induced_iff {id : Nat → Int} (hid : ∀ a < 4, ∀ b < 4, id a = id b → a = b) {cells : List (List Nat)}
    (hcells : ∀ c ∈ cells, CellOK c = true) {q : Nat × Nat × Nat} (hq : q ∈ tetFaces) (S : Finset (Int × Int)) :
    Induced id cells (id q.1) (id q.2.1) (id q.2.2) S ↔
      ∃ f ∈ (cells.flatMap cellFacets).filter (fun f => f.all (onTetFace q.1 q.2.1 q.2.2)),
        S = f.toFinset.image (labelName id) := by
  have hinj := labelName_injective hid
  constructor
  · rintro ⟨hc, hon, cell, hcell, hS⟩
    have hlt := cell_lt (hcells cell hcell)
    have himg : (cell.toFinset.filter (fun l => labelName id l ∈ S)).image (labelName id) = S := by
      ext r
      simp only [Finset.mem_image, Finset.mem_filter, List.mem_toFinset]
      constructor
      · rintro ⟨l, ⟨_, h1⟩, rfl⟩; exact h1
      · intro hr
        obtain ⟨l, hl, rfl⟩ := hS r hr
        exact ⟨l, ⟨hl, hr⟩, rfl⟩
    have hcard : (cell.toFinset.filter (fun l => labelName id l ∈ S)).card = 3 := by
      rw [← hc, ← himg, Finset.card_image_of_injOn]
      · rw [himg]
      · intro x hx y hy hxy
        simp only [Finset.coe_filter, List.mem_toFinset, Set.mem_ofPred_eq] at hx hy
        exact hinj x (hlt x hx.1) y (hlt y hy.1) hxy
    obtain ⟨f, hf, hfT⟩ := mem_cellFacets (hcells cell hcell) (Finset.filter_subset _ _) hcard
    refine ⟨f, List.mem_filter.2 ⟨List.mem_flatMap.2 ⟨cell, hcell, hf⟩, List.all_eq_true.2 fun l hl => ?_⟩, ?_⟩
    · have hlT : l ∈ cell.toFinset.filter (fun l => labelName id l ∈ S) := by
        rw [← hfT]; exact List.mem_toFinset.2 hl
      have h2 := Finset.mem_filter.1 hlT
      exact (onTetFace_iff_name hid hq (hlt l (List.mem_toFinset.1 h2.1))).2 (hon _ h2.2)
    · rw [hfT, himg]
  · rintro ⟨f, hf, rfl⟩
    obtain ⟨hf1, hf2⟩ := List.mem_filter.1 hf
    obtain ⟨cell, hcell, hfc⟩ := List.mem_flatMap.1 hf1
    obtain ⟨hsub, hcard, hlt⟩ := cellFacets_sub (hcells cell hcell) hfc
    refine ⟨?_, fun r hr => ?_, cell, hcell, fun r hr => ?_⟩
    · rw [Finset.card_image_of_injOn, hcard]
      intro x hx y hy hxy
      exact hinj x (hlt x (by simpa using hx)) y (hlt y (by simpa using hy)) hxy
    · obtain ⟨l, hl, rfl⟩ := Finset.mem_image.1 hr
      have hl := List.mem_toFinset.1 hl
      exact (onTetFace_iff_name hid hq (hlt l hl)).1 (List.all_eq_true.1 hf2 l hl)
    · obtain ⟨l, hl, rfl⟩ := Finset.mem_image.1 hr
      exact ⟨l, List.mem_toFinset.1 (hsub hl), rfl⟩

theorem labelName_vertex (id : Nat → Int) : ∀ a < 4, labelName id a = ptName (id a) (id a) := by
  intro a ha
  interval_cases a <;> rfl

theorem ptName_comm (x y : Int) : ptName x y = ptName y x := by
  simp [ptName, min_comm, max_comm]

theorem labelName_edge (id : Nat → Int) : ∀ a < 4, ∀ b < 4, a ≠ b → labelName id (4 + tetEdge a b) = ptName (id a) (id b) := by
  intro a ha b hb hab
  interval_cases a <;> interval_cases b <;> first
    | (exfalso; omega)
    | rfl
    | exact ptName_comm _ _

variable {K : Type} [LinearOrder K]

theorem faceRule1_iff {id : Nat → Int} {mark : Int → Int → Bool} {glen : Int → Int → K}
    {m : Nat → Bool} {gt : Nat → Nat → Bool} (hm : ∀ a < 4, ∀ b < 4, a ≠ b → m (tetEdge a b) = mark (id a) (id b))
    {x y z : Nat} (hx : x < 4) (hy : y < 4) (hz : z < 4) (hxy : x ≠ y) (hxz : x ≠ z) (hyz : y ≠ z)
    (hgt : m (tetEdge x y) = true → m (tetEdge x z) = true → m (tetEdge y z) = false →
      (gt (tetEdge x y) (tetEdge x z) = true ↔ LongerLine glen (id x) (id y) (id x) (id z)))
    (S : Finset (Int × Int)) :
    FaceTriangle1 mark glen (id x) (id y) (id z) S ↔
      ∃ f ∈ faceRule1 m gt x y z, S = f.toFinset.image (labelName id) := by
  have n1 := labelName_vertex id x hx
  have n2 := labelName_vertex id y hy
  have n3 := labelName_vertex id z hz
  have n4 := labelName_edge id x hx y hy hxy
  have n5 := labelName_edge id x hx z hz hxz
  have n6 := labelName_edge id y hy z hz hyz
  unfold FaceTriangle1 faceRule1
  dsimp only
  rw [← hm x hx y hy hxy, ← hm x hx z hz hxz, ← hm y hy z hz hyz]
  cases h1 : m (tetEdge x y) <;> cases h2 : m (tetEdge x z) <;> cases h3 : m (tetEdge y z)
  · simp [n1, n2, n3]
  · simp
  · simp
  · simp
  · simp [n1, n4, n3]
  · simp
  · rw [← hgt h1 h2 h3]
    cases h4 : gt (tetEdge x y) (tetEdge x z)
    · simp [n1, n4, n5]
    · simp [n1, n4, n5, n2, n3]
  · simp [n1, n4, n5, n6]

theorem faceRule_iff {id : Nat → Int} {mark : Int → Int → Bool} {glen : Int → Int → K}
    {m : Nat → Bool} {gt : Nat → Nat → Bool} (hm : ∀ a < 4, ∀ b < 4, a ≠ b → m (tetEdge a b) = mark (id a) (id b))
    {a b c : Nat} (ha : a < 4) (hb : b < 4) (hc : c < 4) (hab : a ≠ b) (hac : a ≠ c) (hbc : b ≠ c)
    (hgt : ∀ q ∈ perms3 a b c, m (tetEdge q.1 q.2.1) = true → m (tetEdge q.1 q.2.2) = true →
      m (tetEdge q.2.1 q.2.2) = false →
      (gt (tetEdge q.1 q.2.1) (tetEdge q.1 q.2.2) = true ↔ LongerLine glen (id q.1) (id q.2.1) (id q.1) (id q.2.2)))
    (S : Finset (Int × Int)) :
    FaceTriangle mark glen (id a) (id b) (id c) S ↔
      ∃ f ∈ faceRule m gt a b c, S = f.toFinset.image (labelName id) := by
  have key : ∀ g : List Nat, (g.insertionSort (· ≤ ·)).toFinset = g.toFinset := fun g =>
    List.toFinset_eq_of_perm _ _ (List.perm_insertionSort (· ≤ ·) g)
  have hr : (∃ f ∈ faceRule m gt a b c, S = f.toFinset.image (labelName id)) ↔
      ∃ q ∈ perms3 a b c, ∃ f ∈ faceRule1 m gt q.1 q.2.1 q.2.2, S = f.toFinset.image (labelName id) := by
    unfold faceRule
    constructor
    · rintro ⟨f, hf, rfl⟩
      obtain ⟨g, hg, rfl⟩ := List.mem_map.1 hf
      obtain ⟨q, hq, hg⟩ := List.mem_flatMap.1 hg
      exact ⟨q, hq, g, hg, by rw [key]⟩
    · rintro ⟨q, hq, g, hg, rfl⟩
      exact ⟨_, List.mem_map.2 ⟨g, List.mem_flatMap.2 ⟨q, hq, hg⟩, rfl⟩, by rw [key]⟩
  rw [hr]
  unfold FaceTriangle
  rw [faceRule1_iff hm ha hb hc hab hac hbc (hgt (a, b, c) (by simp [perms3])),
    faceRule1_iff hm ha hc hb hac hab hbc.symm (hgt (a, c, b) (by simp [perms3])),
    faceRule1_iff hm hb ha hc hab.symm hbc hac (hgt (b, a, c) (by simp [perms3])),
    faceRule1_iff hm hb hc ha hbc hab.symm hac.symm (hgt (b, c, a) (by simp [perms3])),
    faceRule1_iff hm hc ha hb hac.symm hbc.symm hab (hgt (c, a, b) (by simp [perms3])),
    faceRule1_iff hm hc hb ha hbc.symm hac.symm hab.symm (hgt (c, b, a) (by simp [perms3]))]
  simp [perms3]

theorem tetFaces_lt : ∀ q ∈ tetFaces, q.1 < 4 ∧ q.2.1 < 4 ∧ q.2.2 < 4 ∧ q.1 ≠ q.2.1 ∧ q.1 ≠ q.2.2 ∧ q.2.1 ≠ q.2.2 := by
  decide

theorem perms3_distinct {a b c : Nat} (ha : a < 4) (hb : b < 4) (hc : c < 4) (hab : a ≠ b) (hac : a ≠ c) (hbc : b ≠ c) :
    ∀ q ∈ perms3 a b c, q.1 < 4 ∧ q.2.1 < 4 ∧ q.2.2 < 4 ∧ q.1 ≠ q.2.1 ∧ q.1 ≠ q.2.2 ∧ q.2.1 ≠ q.2.2 := by
  intro q hq
  simp only [perms3, List.mem_cons, List.not_mem_nil, or_false] at hq
  rcases hq with rfl | rfl | rfl | rfl | rfl | rfl <;> refine ⟨?_, ?_, ?_, ?_, ?_, ?_⟩ <;> dsimp only <;> omega

theorem cornerFn_mark {id : Nat → Int} {mark : Int → Int → Bool} (hs : ∀ x y, mark x y = mark y x) {m : Nat → Bool}
    (hm : [m 0, m 1, m 2, m 3, m 4, m 5] = [mark (id 0) (id 1), mark (id 0) (id 2), mark (id 0) (id 3),
      mark (id 1) (id 2), mark (id 1) (id 3), mark (id 2) (id 3)]) :
    ∀ a < 4, ∀ b < 4, a ≠ b → cornerFn [m 0, m 1, m 2, m 3, m 4, m 5] (tetEdge a b) = mark (id a) (id b) := by
  rw [hm]
  intro a ha b hb hab
  interval_cases a <;> interval_cases b <;> first
    | (exfalso; omega)
    | rfl
    | exact hs _ _

theorem Induced.comm12 {id : Nat → Int} {cells : List (List Nat)} {a b c : Int} {S : Finset (Int × Int)} :
    Induced id cells a b c S ↔ Induced id cells b a c S := by
  unfold Induced
  simp only [or_left_comm (a := _ = a)]

theorem Induced.comm23 {id : Nat → Int} {cells : List (List Nat)} {a b c : Int} {S : Finset (Int × Int)} :
    Induced id cells a b c S ↔ Induced id cells a c b S := by
  unfold Induced
  simp only [or_comm (a := _ = b)]

theorem FaceTriangle.comm12 {mark : Int → Int → Bool} {glen : Int → Int → K} {a b c : Int} {S : Finset (Int × Int)} :
    FaceTriangle mark glen a b c S ↔ FaceTriangle mark glen b a c S := by
  unfold FaceTriangle; tauto

theorem FaceTriangle.comm23 {mark : Int → Int → Bool} {glen : Int → Int → K} {a b c : Int} {S : Finset (Int × Int)} :
    FaceTriangle mark glen a b c S ↔ FaceTriangle mark glen a c b S := by
  unfold FaceTriangle; tauto

theorem sorted_face : ∀ a < 4, ∀ b < 4, ∀ c < 4, a ≠ b → a ≠ c → b ≠ c →
    (a, b, c) ∈ tetFaces ∨ (a, c, b) ∈ tetFaces ∨ (b, a, c) ∈ tetFaces ∨ (b, c, a) ∈ tetFaces ∨ (c, a, b) ∈ tetFaces ∨
      (c, b, a) ∈ tetFaces := by
  intro a ha b hb c hc
  interval_cases a <;> interval_cases b <;> interval_cases c <;> decide

theorem face_triangles (len : Nat → Nat → K) (hsym : ∀ a b, len a b = len b a) (glen : Int → Int → K) (mark : Int → Int → Bool)
    (hmark : ∀ x y, mark x y = mark y x) (id : Nat → Int) (hid : ∀ a < 4, ∀ b < 4, id a = id b → a = b)
    (hlen : ∀ a < 4, ∀ b < 4, len a b = glen (id a) (id b)) (dist : Nat → Nat → K) (m : Nat → Bool)
    (hm : [m 0, m 1, m 2, m 3, m 4, m 5] = [mark (id 0) (id 1), mark (id 0) (id 2), mark (id 0) (id 3),
      mark (id 1) (id 2), mark (id 1) (id 3), mark (id 2) (id 3)]) :
    ∃ cells, refineTet len dist id m = some cells ∧
      ∀ a < 4, ∀ b < 4, ∀ c < 4, a ≠ b → a ≠ c → b ≠ c → ∀ S,
        Induced id cells (id a) (id b) (id c) S ↔ FaceTriangle mark glen (id a) (id b) (id c) S := by
  obtain ⟨cells, path, h1, h2, h3⟩ := refineTet_leaf len hsym dist id hid m
  obtain ⟨hok, _, _, _, _, hface, _⟩ := leafOK_elim h3
  refine ⟨cells, h1, ?_⟩
  have hord := edgeOrder len hsym id hid
  have hmk := cornerFn_mark hmark hm
  have main : ∀ q ∈ tetFaces, ∀ S, Induced id cells (id q.1) (id q.2.1) (id q.2.2) S ↔
      FaceTriangle mark glen (id q.1) (id q.2.1) (id q.2.2) S := by
    intro q hq S
    have hf := hface q hq
    unfold faceOK at hf
    simp only [Bool.and_eq_true] at hf
    obtain ⟨⟨f1, f2⟩, f3⟩ := hf
    obtain ⟨ha, hb, hc, hab, hac, hbc⟩ := tetFaces_lt q hq
    rw [induced_iff hid hok hq, faceRule_iff (gt := fun e f => (chain path).contains (e, f)) hmk ha hb hc hab hac hbc]
    · constructor
      · rintro ⟨f, hf, rfl⟩
        exact ⟨f, by simpa using List.all_eq_true.1 f1 f hf, rfl⟩
      · rintro ⟨f, hf, rfl⟩
        exact ⟨f, by simpa using List.all_eq_true.1 f2 f hf, rfl⟩
    · intro r hr m1 m2 m3
      obtain ⟨rx, ry, rz, rxy, rxz, ryz⟩ := perms3_distinct ha hb hc hab hac hbc r hr
      have hch := chain_sound hord.trans h2
      have hsl := stableLonger_iff len id r.1 r.2.1 r.1 r.2.2
      rw [hlen r.1 rx r.2.1 ry, hlen r.1 rx r.2.2 rz] at hsl
      have e1 := hord.lg r.1 r.2.1 r.1 r.2.2 rx ry rx rz rxy rxz
      constructor
      · intro hg
        have hg : (tetEdge r.1 r.2.1, tetEdge r.1 r.2.2) ∈ chain path := by simpa using hg
        exact hsl.1 (e1.2 (hch _ hg))
      · intro hl
        have h5 := List.all_eq_true.1 f3 r hr
        rw [m1, m2, m3] at h5
        simp only [Bool.not_false, Bool.and_self, Bool.not_true, Bool.false_or, Bool.or_eq_true] at h5
        rcases h5 with h5 | h5
        · exact h5
        · exfalso
          have hg : (tetEdge r.1 r.2.2, tetEdge r.1 r.2.1) ∈ chain path := by simpa using h5
          exact hord.irrefl _ (hord.trans _ _ _ (e1.1 (hsl.2 hl)) (hch _ hg))
  intro a ha b hb c hc hab hac hbc S
  rcases sorted_face a ha b hb c hc hab hac hbc with h | h | h | h | h | h
  · exact main _ h S
  · rw [Induced.comm23, FaceTriangle.comm23]; exact main _ h S
  · rw [Induced.comm12, FaceTriangle.comm12]; exact main _ h S
  · rw [Induced.comm12, FaceTriangle.comm12, Induced.comm23, FaceTriangle.comm23]; exact main _ h S
  · rw [Induced.comm23, FaceTriangle.comm23, Induced.comm12, FaceTriangle.comm12]; exact main _ h S
  · rw [Induced.comm12, FaceTriangle.comm12, Induced.comm23, FaceTriangle.comm23, Induced.comm12, FaceTriangle.comm12]
    exact main _ h S

/-- C34: the facets of the children on a face of the tetrahedron are the triangles of
`FaceTriangle`, which depend only on the ids, marks and lengths on this face. -/
theorem C34_face (glen : Int → Int → K) (hlen : ∀ x y, glen x y = glen y x) (mark : Int → Int → Bool)
    (hmark : ∀ x y, mark x y = mark y x) (id : Nat → Int) (hid : ∀ a < 4, ∀ b < 4, id a = id b → a = b)
    (dist : Nat → Nat → K) (m : Nat → Bool)
    (hm : [m 0, m 1, m 2, m 3, m 4, m 5] = [mark (id 0) (id 1), mark (id 0) (id 2), mark (id 0) (id 3),
      mark (id 1) (id 2), mark (id 1) (id 3), mark (id 2) (id 3)]) :
    ∃ cells, refineTet (fun a b => glen (id a) (id b)) dist id m = some cells ∧
      ∀ a < 4, ∀ b < 4, ∀ c < 4, a ≠ b → a ≠ c → b ≠ c → ∀ S,
        Induced id cells (id a) (id b) (id c) S ↔ FaceTriangle mark glen (id a) (id b) (id c) S :=
  face_triangles (fun a b => glen (id a) (id b)) (fun _ _ => hlen _ _) glen mark hmark id hid (fun _ _ _ _ => rfl) dist m hm

/-- C34: two tetrahedra of a mesh with a common face are refined to the same triangles on that face,
whatever the numbering of the vertices inside the two tetrahedra. -/
theorem C34_two_cells (glen : Int → Int → K) (hlen : ∀ x y, glen x y = glen y x) (mark : Int → Int → Bool)
    (hmark : ∀ x y, mark x y = mark y x) (id id' : Nat → Int) (hid : ∀ a < 4, ∀ b < 4, id a = id b → a = b)
    (hid' : ∀ a < 4, ∀ b < 4, id' a = id' b → a = b) (dist dist' : Nat → Nat → K) (m m' : Nat → Bool)
    (hm : [m 0, m 1, m 2, m 3, m 4, m 5] = [mark (id 0) (id 1), mark (id 0) (id 2), mark (id 0) (id 3),
      mark (id 1) (id 2), mark (id 1) (id 3), mark (id 2) (id 3)])
    (hm' : [m' 0, m' 1, m' 2, m' 3, m' 4, m' 5] = [mark (id' 0) (id' 1), mark (id' 0) (id' 2), mark (id' 0) (id' 3),
      mark (id' 1) (id' 2), mark (id' 1) (id' 3), mark (id' 2) (id' 3)]) :
    ∃ cells cells', refineTet (fun a b => glen (id a) (id b)) dist id m = some cells ∧
      refineTet (fun a b => glen (id' a) (id' b)) dist' id' m' = some cells' ∧
      ∀ a < 4, ∀ b < 4, ∀ c < 4, a ≠ b → a ≠ c → b ≠ c → ∀ a' < 4, ∀ b' < 4, ∀ c' < 4,
        id' a' = id a → id' b' = id b → id' c' = id c → ∀ S,
        (Induced id cells (id a) (id b) (id c) S ↔ Induced id' cells' (id a) (id b) (id c) S) := by
  obtain ⟨cells, h1, h2⟩ := C34_face glen hlen mark hmark id hid dist m hm
  obtain ⟨cells', h1', h2'⟩ := C34_face glen hlen mark hmark id' hid' dist' m' hm'
  refine ⟨cells, cells', h1, h1', ?_⟩
  intro a ha b hb c hc hab hac hbc a' ha' b' hb' c' hc' ea eb ec S
  have h := h2' a' ha' b' hb' c' hc' (fun e => hab (hid a ha b hb (by rw [← ea, ← eb, e])))
    (fun e => hac (hid a ha c hc (by rw [← ea, ← ec, e]))) (fun e => hbc (hid b hb c hc (by rw [← eb, ← ec, e]))) S
  rw [ea, eb, ec] at h
  rw [h, h2 a ha b hb c hc hab hac hbc]

theorem facet_count {cell : List Nat} (h : CellOK cell = true) {g : List Nat} (hg : g.Nodup) (hc : g.length = 3) :
    (cellFacets cell).count (g.insertionSort (· ≤ ·)) = if g ⊆ cell then 1 else 0 := by
  have hcell := h
  obtain ⟨i, j, k, l, rfl, hi, hj, hk, hl, hij, hik, hil, hjk, hjl, hkl⟩ := cellOK_elim h
  have hnd : [i, j, k, l].Nodup := by simp [hij, hik, hil, hjk, hjl, hkl]
  have e1 := sort_eq_iff (l := [j, k, l]) (by simp [hjk, hjl, hkl]) hg
  have e2 := sort_eq_iff (l := [i, k, l]) (by simp [hik, hil, hkl]) hg
  have e3 := sort_eq_iff (l := [i, j, l]) (by simp [hij, hil, hjl]) hg
  have e4 := sort_eq_iff (l := [i, j, k]) (by simp [hij, hik, hjk]) hg
  have hcard : g.toFinset.card = 3 := by rw [List.toFinset_card_of_nodup hg, hc]
  have hsub : g ⊆ [i, j, k, l] ↔ g.toFinset ⊆ {i, j, k, l} := by
    constructor
    · intro h x hx; simpa using h (List.mem_toFinset.1 hx)
    · intro h x hx; simpa using h (List.mem_toFinset.2 hx)
  have hne : ∀ {x y : Nat} {s t : List Nat}, x ∈ s → x ∉ t → s.toFinset ≠ t.toFinset := by
    intro x y s t h1 h2 e
    exact h2 (List.mem_toFinset.1 (e ▸ List.mem_toFinset.2 h1))
  simp only [cellFacets, List.map_cons, List.map_nil, List.count_cons, List.count_nil, beq_iff_eq, e1, e2, e3, e4]
  have ne (s t : List Nat) (x : Nat) (hx : x ∈ s) (hx' : x ∉ t) : s.toFinset ≠ t.toFinset :=
    fun e => hx' (List.mem_toFinset.1 (e ▸ List.mem_toFinset.2 hx))
  have n12 := ne [j, k, l] [i, k, l] j (by simp) (by simp [hij.symm, hjk, hjl])
  have n13 := ne [j, k, l] [i, j, l] k (by simp) (by simp [hik.symm, hjk.symm, hkl])
  have n14 := ne [j, k, l] [i, j, k] l (by simp) (by simp [hil.symm, hjl.symm, hkl.symm])
  have n23 := ne [i, k, l] [i, j, l] k (by simp) (by simp [hik.symm, hjk.symm, hkl])
  have n24 := ne [i, k, l] [i, j, k] l (by simp) (by simp [hil.symm, hjl.symm, hkl.symm])
  have n34 := ne [i, j, l] [i, j, k] l (by simp) (by simp [hil.symm, hjl.symm, hkl.symm])
  by_cases hgs : g ⊆ [i, j, k, l]
  · rw [if_pos hgs]
    rcases three_of_four hnd (hsub.1 hgs) hcard with e | e | e | e
    · have e : g.toFinset = [j, k, l].toFinset := by rw [e]; simp
      rw [e, if_neg n14.symm, if_neg n13.symm, if_neg n12.symm, if_pos rfl]
    · have e : g.toFinset = [i, k, l].toFinset := by rw [e]; simp
      rw [e, if_neg n24.symm, if_neg n23.symm, if_neg n12, if_pos rfl]
    · have e : g.toFinset = [i, j, l].toFinset := by rw [e]; simp
      rw [e, if_neg n34.symm, if_neg n23, if_neg n13, if_pos rfl]
    · have e : g.toFinset = [i, j, k].toFinset := by rw [e]; simp
      rw [e, if_neg n34, if_neg n24, if_neg n14, if_pos rfl]
  · rw [if_neg hgs]
    have hno : ∀ s : List Nat, s ⊆ [i, j, k, l] → s.toFinset ≠ g.toFinset := by
      intro s hs e
      exact hgs fun x hx => hs (List.mem_toFinset.1 (e.symm ▸ List.mem_toFinset.2 hx))
    rw [if_neg (hno _ (by simp)), if_neg (hno _ (by simp)), if_neg (hno _ (by simp)), if_neg (hno _ (by simp))]

theorem facets_count {cells : List (List Nat)} (hok : ∀ c ∈ cells, CellOK c = true) {g : List Nat} (hg : g.Nodup)
    (hc : g.length = 3) : (cells.flatMap cellFacets).count (g.insertionSort (· ≤ ·)) =
      (cells.filter (fun c => decide (g ⊆ c))).length := by
  induction cells with
  | nil => rfl
  | cons a cells ih =>
    rw [List.flatMap_cons, List.count_append, ih (fun c hc => hok c (List.mem_cons_of_mem _ hc)),
      facet_count (hok a List.mem_cons_self) hg hc, List.filter_cons]
    by_cases hga : g ⊆ a
    · rw [if_pos hga, if_pos (by simpa using hga), List.length_cons, Nat.add_comm]
    · rw [if_neg hga, if_neg (by simpa using hga), Nat.zero_add]

/-- C34: inside the tetrahedron the children fit together: three points of a child are the corners of
a facet of exactly one child if they are on a face of the tetrahedron, and of exactly two children
otherwise. -/
theorem C34_inside (len : Nat → Nat → K) (hlen : ∀ a b, len a b = len b a) (dist : Nat → Nat → K)
    (id : Nat → Int) (hid : ∀ a < 4, ∀ b < 4, id a = id b → a = b) (m : Nat → Bool) :
    ∃ cells, refineTet len dist id m = some cells ∧
      ∀ g : List Nat, g.Nodup → g.length = 3 → (∃ c ∈ cells, g ⊆ c) →
        (cells.filter (fun c => decide (g ⊆ c))).length =
          if (∀ l ∈ g, l ∈ [0, 1, 2, 4, 5, 7]) ∨ (∀ l ∈ g, l ∈ [0, 1, 3, 4, 6, 8]) ∨ (∀ l ∈ g, l ∈ [0, 2, 3, 5, 6, 9]) ∨
            (∀ l ∈ g, l ∈ [1, 2, 3, 7, 8, 9]) then 1 else 2 := by
  obtain ⟨cells, path, h1, h2, h3⟩ := refineTet_leaf len hlen dist id hid m
  obtain ⟨hok, _, _, _, _, _, hfac⟩ := leafOK_elim h3
  refine ⟨cells, h1, fun g hg hc ⟨c, hcc, hgc⟩ => ?_⟩
  have hcount := facets_count hok hg hc
  have hmem : g.insertionSort (· ≤ ·) ∈ cells.flatMap cellFacets := by
    rw [← List.count_pos_iff, hcount, List.length_pos_iff_exists_mem]
    exact ⟨c, List.mem_filter.2 ⟨hcc, by simpa using hgc⟩⟩
  unfold facetsOK at hfac
  have hf := List.all_eq_true.1 hfac _ hmem
  rw [hcount] at hf
  have hf := beq_iff_eq.1 hf
  rw [hf]
  have hall : ∀ q : Nat × Nat × Nat, ((g.insertionSort (· ≤ ·)).all (onTetFace q.1 q.2.1 q.2.2) = true ↔
      ∀ l ∈ g, onTetFace q.1 q.2.1 q.2.2 l = true) := by
    intro q
    rw [List.all_eq_true]
    constructor
    · intro h l hl; exact h l ((List.mem_insertionSort _).2 hl)
    · intro h l hl; exact h l ((List.mem_insertionSort _).1 hl)
  have hon : ∀ l, (onTetFace 0 1 2 l = true ↔ l ∈ [0, 1, 2, 4, 5, 7]) ∧ (onTetFace 0 1 3 l = true ↔ l ∈ [0, 1, 3, 4, 6, 8]) ∧
      (onTetFace 0 2 3 l = true ↔ l ∈ [0, 2, 3, 5, 6, 9]) ∧ (onTetFace 1 2 3 l = true ↔ l ∈ [1, 2, 3, 7, 8, 9]) := by
    intro l
    simp [onTetFace, tetEdge, or_assoc]
  have : (tetFaces.any (fun q => (g.insertionSort (· ≤ ·)).all (onTetFace q.1 q.2.1 q.2.2)) = true) ↔
      ((∀ l ∈ g, l ∈ [0, 1, 2, 4, 5, 7]) ∨ (∀ l ∈ g, l ∈ [0, 1, 3, 4, 6, 8]) ∨ (∀ l ∈ g, l ∈ [0, 2, 3, 5, 6, 9]) ∨
            (∀ l ∈ g, l ∈ [1, 2, 3, 7, 8, 9])) := by
    rw [List.any_eq_true]
    simp only [hall, tetFaces, List.mem_cons, List.not_mem_nil, or_false, exists_eq_or_imp, exists_eq_left,
      (hon _).1, (hon _).2.1, (hon _).2.2.1, (hon _).2.2.2]
  simp only [this]

/-- Two tetrahedra with the common face 1, 2, 3 and lengths and marks given by ids meet the hypotheses
of `C34_two_cells`; the edges 12 and 23 of the face are marked. -/
def conformMark (x y : Int) : Bool := (min x y == 1 && max x y == 2) || (min x y == 2 && max x y == 3)

example : (∀ x y, conformMark x y = conformMark y x) ∧
    refineTet (fun _ _ => (1 : Rat)) (fun _ _ => 0) (fun a => (a : Int))
      (fun e => [conformMark 0 1, conformMark 0 2, conformMark 0 3, conformMark 1 2, conformMark 1 3, conformMark 2 3].getD e false) =
      some [[9, 2, 7, 0], [3, 9, 1, 0], [9, 7, 1, 0]] ∧
    refineTet (fun _ _ => (1 : Rat)) (fun _ _ => 0) (fun a => [3, 4, 2, 1].getD a 0)
      (fun e => [conformMark 3 4, conformMark 3 2, conformMark 3 1, conformMark 4 2, conformMark 4 1, conformMark 2 1].getD e false) =
      some [[5, 2, 9, 1], [0, 5, 3, 1], [5, 9, 3, 1]] := by
  refine ⟨fun x y => ?_, by decide +kernel, by decide +kernel⟩
  unfold conformMark
  rw [min_comm, max_comm]

end VG
