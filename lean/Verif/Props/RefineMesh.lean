import Verif.Props.Segments
import Verif.Lemmas.RefineParts
import Verif.Props.RefineTet
import Verif.Props.RefineTri
import Mathlib.Algebra.BigOperators.Group.Finset.Basic
import Mathlib.Algebra.BigOperators.Group.Finset.Piecewise
import Mathlib.Algebra.BigOperators.Group.Finset.Sigma

/-!
C37: `refine` of a mesh with a segmentation; with it C32 and C33 for whole meshes.

Specification.  Points are given by their coordinates.  The cells of the refined mesh are told apart by
the points of their vertices.
-/

namespace VG

/-- The points of the vertices of a cell. -/
def cellPoints {P : Type} (m : Mesh P) (n t : Nat) : List P := (m.vertsOf n t).filterMap m.ptOf

/-- The point is in the list, or halfway between two points of the list. -/
def CornerOrMid {K : Type} [Add K] [Div K] [OfNat K 2] (l : List (Nat → K)) (q : Nat → K) : Prop :=
  q ∈ l ∨ ∃ a ∈ l, ∃ b ∈ l, q = fun k => (a k + b k) / 2

/-- Sum of `f` over the numbers below `N` with `p`. -/
def sumOver {K : Type} [AddCommMonoid K] (N : Nat) (p : Nat → Prop) [DecidablePred p] (f : Nat → K) : K :=
  ((List.range N).map (fun i => if p i then f i else 0)).sum

/-- Volume of a tetrahedron given by its vertices. -/
def tetVol {K : Type} [Field K] [LinearOrder K] : List (Nat → K) → K
  | [a, b, c, d] => |tetVolume6 a b c d| / 6
  | _ => 0

/-- A measure of triangles: function of the areas of the projections to the coordinate planes. -/
def triMeasure {K : Type} [Field K] (mu : (Nat → Nat → K) → K) : List (Nat → K) → K
  | [a, b, c] => mu (area2 a b c)
  | _ => 0

/-! ### Sums -/

section
variable {K : Type} [Field K]

theorem sumOver_list {α : Type} (l : List α) (d : α) (f : α → K) :
    ((List.range l.length).map (fun i => f (l.getD i d))).sum = (l.map f).sum := by
  congr 1
  refine List.ext_getElem? (fun i => ?_)
  simp only [List.getElem?_map]
  by_cases hi : i < l.length
  · rw [List.getElem?_eq_getElem hi, List.getElem?_eq_getElem (by simpa using hi)]
    simp [hi]
  · rw [List.getElem?_eq_none (l := l) (by omega), List.getElem?_eq_none (by simp; omega)]; rfl

theorem sum_flatMap {α β : Type} (l : List α) (g : α → List β) (f : β → K) :
    ((l.flatMap g).map f).sum = (l.map (fun a => ((g a).map f).sum)).sum := by
  induction l with
  | nil => rfl
  | cons a l ih => simp [ih]

theorem sum_zero {α : Type} (l : List α) (f : α → K) (h : ∀ a ∈ l, f a = 0) : (l.map f).sum = 0 := by
  induction l with
  | nil => rfl
  | cons a l ih => simp [h a (by simp), ih (fun b hb => h b (by simp [hb]))]

theorem sum_single (N t : Nat) (ht : t < N) (x : K) : ((List.range N).map (fun u => if u = t then x else 0)).sum = x := by
  induction N with
  | zero => omega
  | succ N ih =>
    rw [List.range_succ, List.map_append, List.sum_append]
    by_cases h : t = N
    · subst h
      rw [sum_zero _ _ (fun u hu => by rw [if_neg]; have := List.mem_range.1 hu; omega)]
      simp
    · rw [ih (by omega)]
      simp [Ne.symm h]

/-- The sum over all children, arranged by parents. -/
theorem sum_kids {N : Nat} (C : Nat → List (List Nat)) (f : Nat × List Nat → K) :
    ((((List.range N).flatMap (fun t => (C t).map (fun ls => (t, ls))))).map f).sum =
      ((List.range N).map (fun t => ((C t).map (fun ls => f (t, ls))).sum)).sum := by
  rw [sum_flatMap]
  simp only [List.map_map]
  rfl

end

/-! ### The cells of `refine` -/

section
variable {K : Type} [Field K] [LinearOrder K] [IsStrictOrderedRing K]

theorem midLabel_tet (p : Nat → Nat → K) {l : Nat} (hl : l < 10) : midLabel 3 p l = labelPoint p (fun _ => 1 / 2) l := by
  have he : edgeIdx (3 + 1) = [[0, 1], [0, 2], [0, 3], [1, 2], [1, 3], [2, 3]] := by decide
  funext k
  unfold midLabel
  rw [he]
  interval_cases l <;> simp [labelPoint] <;> ring

theorem midLabel_tri (p : Nat → Nat → K) {l : Nat} (hl : l < 6) : midLabel 2 p l = triPoint p (fun _ => 1 / 2) l := by
  have he : edgeIdx (2 + 1) = [[0, 1], [0, 2], [1, 2]] := by decide
  funext k
  unfold midLabel
  rw [he]
  interval_cases l <;> simp [triPoint] <;> ring

omit [Field K] [LinearOrder K] [IsStrictOrderedRing K] in
theorem vtxDist_symm {P : Type} [Zero K] {dist : P → P → K} (hd : ∀ a b, dist a b = dist b a) (vs : List (Option (Vtx P))) (a b : Nat) :
    vtxDist dist vs a b = vtxDist dist vs b a := by
  unfold vtxDist
  cases vs[a]?.join <;> cases vs[b]?.join <;> simp [hd]

/-- What is known of the children of a tetrahedron. -/
def TetParts (cells : List (List Nat)) : Prop :=
  (∀ c ∈ cells, c.length = 4 ∧ ∀ l ∈ c, l < 10) ∧
  ∀ p : Nat → Nat → K, (cells.map (fun c => |childVolume6 p (fun _ => 1 / 2) c|)).sum = |tetVolume6 (p 0) (p 1) (p 2) (p 3)| ∧
    (tetVolume6 (p 0) (p 1) (p 2) (p 3) ≠ 0 → ∀ c ∈ cells, childVolume6 p (fun _ => 1 / 2) c ≠ 0)

theorem half_between : (0 : K) < 1 / 2 ∧ (1 / 2 : K) < 1 := ⟨by norm_num, by norm_num⟩

theorem tetKids_ok {P : Type} {dist : P → P → K} (hd : ∀ a b, dist a b = dist b a) :
    KidsOK (fun _ _ cells => TetParts (K := K) cells) 4 6 (tetKids dist) := by
  intro ls m hx hinj
  have hid : ∀ a < 4, ∀ b < 4, (ls[a]?.join.map (·.id)).getD 0 = (ls[b]?.join.map (·.id)).getD 0 → a = b := by
    intro a ha b hb h
    obtain ⟨x, hx1⟩ := hx a ha
    obtain ⟨y, hy1⟩ := hx b hb
    refine hinj a ha b hb x y hx1 hy1 ?_
    simpa [hx1, hy1] using h
  obtain ⟨cells, path, h1, _, h3⟩ := refineTet_leaf (vtxDist dist ls) (vtxDist_symm hd ls) (vtxDist dist ls)
    (fun a => (ls[a]?.join.map (·.id)).getD 0) hid m
  obtain ⟨hok, hm, _⟩ := leafOK_elim h3
  have hlab : ∀ c ∈ cells, c.Nodup ∧ c.length = 4 ∧ ∀ l ∈ c, l < 10 := by
    intro c hc
    obtain ⟨i, j, k, l, rfl, hi, hj, hk, hl, hij, hik, hil, hjk, hjl, hkl⟩ := cellOK_elim (hok c hc)
    refine ⟨by simp [hij, hik, hil, hjk, hjl, hkl], rfl, fun x hx => ?_⟩
    simp at hx; omega
  refine ⟨cells, h1, ⟨fun c hc => (hlab c hc).2, fun p => ?_⟩, fun c hc => ⟨(hlab c hc).1, (hlab c hc).2.1, fun l hl => ?_⟩⟩
  · obtain ⟨cells', e1, h4, h5⟩ := C33_volume (vtxDist dist ls) (vtxDist_symm hd ls) (vtxDist dist ls)
      (fun a => (ls[a]?.join.map (·.id)).getD 0) hid m p (fun _ => 1 / 2) (fun _ _ => half_between)
    rw [h1] at e1
    have := Option.some.inj e1
    subst this
    exact ⟨h4, h5⟩
  · have h6 := List.all_eq_true.1 (hm c hc) l hl
    rw [Bool.or_eq_true] at h6
    have hlt := (hlab c hc).2.2 l hl
    by_cases h4 : l < 4
    · left; exact h4
    · right
      rcases h6 with h6 | h6
      · exact absurd (of_decide_eq_true h6) h4
      refine ⟨by omega, by omega, ?_⟩
      obtain ⟨q, rfl⟩ : ∃ q, l = q + 4 := ⟨l - 4, by omega⟩
      have hq : q < 6 := by omega
      simp only [Nat.add_sub_cancel] at h6 ⊢
      interval_cases q <;> simpa [cornerFn] using h6

/-- What is known of the children of a triangle. -/
def TriParts (cells : List (List Nat)) : Prop :=
  (∀ c ∈ cells, c.length = 3 ∧ ∀ l ∈ c, l < 6) ∧
  ∃ share : List Nat → K, (∀ c ∈ cells, 0 < share c) ∧ (cells.map share).sum = 1 ∧
    ∀ (p : Nat → Nat → K), ∀ c ∈ cells, ∀ k l, childArea2 p (fun _ => 1 / 2) k l c = share c * area2 (p 0) (p 1) (p 2) k l

theorem triKids_ok {P : Type} (dist : P → P → K) :
    KidsOK (fun _ _ cells => TriParts (K := K) cells) 3 3 (triKids dist) := by
  intro ls m _ _
  obtain ⟨cells, h1, h2, h3, _⟩ := C32_edges (vtxDist dist ls) m
  refine ⟨cells, h1, ⟨fun c hc => (h3 c hc).2, ?_⟩, fun c hc => ⟨(h3 c hc).1, (h3 c hc).2.1, fun l hl => ?_⟩⟩
  · obtain ⟨cells', e1, h4⟩ := C32_area (vtxDist dist ls) m (fun _ => (1 / 2 : K)) (fun _ _ => half_between)
    rw [h1] at e1
    have := Option.some.inj e1
    subst this
    exact h4
  · have hlt := (h3 c hc).2.2 l hl
    by_cases h : l < 3
    · exact Or.inl h
    · right
      refine ⟨by omega, hlt, ?_⟩
      by_contra hm
      rw [Bool.not_eq_true] at hm
      obtain ⟨q, rfl⟩ : ∃ q, l = 3 + q := ⟨l - 3, by omega⟩
      have hq : q < 3 := by omega
      rw [Nat.add_sub_cancel_left] at hm
      interval_cases q
      · exact ((h2 (0, 1, 0) (by simp)).2 hm).2 c hc hl
      · exact ((h2 (0, 2, 1) (by simp)).2 hm).2 c hc hl
      · exact ((h2 (1, 2, 2) (by simp)).2 hm).2 c hc hl

omit [Field K] [LinearOrder K] [IsStrictOrderedRing K] in
theorem cellPoints_eq {n : Nat} {m : Mesh (Nat → K)} {i : Nat} {ls : List Nat} {f : Nat → Nat → K}
    (h : (m.vertsOf n i).map m.ptOf = ls.map (fun l => some (f l))) : cellPoints m n i = ls.map f := by
  unfold cellPoints
  have h1 : (m.vertsOf n i).filterMap m.ptOf = ((m.vertsOf n i).map m.ptOf).filterMap id := by
    rw [List.filterMap_map]; rfl
  rw [h1, h, List.filterMap_map]
  exact congrFun (List.filterMap_eq_map (f := f)) ls

omit [LinearOrder K] [IsStrictOrderedRing K] in
theorem cellPoints_src {n : Nat} (hn : 2 ≤ n) {m : Mesh (Nat → K)} (hI : Inv (simplexTopo n) m) {t : Nat} (ht : t < m.count n) :
    cellPoints m n t = (List.range (n + 1)).map (m.corner n t) := by
  have ht' : t < (m.elems n).length := by simpa [Mesh.count, show n ≠ 0 by omega] using ht
  have hvo : m.vertsOf n t = (m.elems n)[t].verts := by
    unfold Mesh.vertsOf
    rw [List.getD_eq_getElem _ _ (by simpa using ht')]; simp
  obtain ⟨_, hvl, hvv⟩ := hI.verts n _ (List.getElem_mem ht')
  rw [← hvo] at hvl hvv
  have hvl : (m.vertsOf n t).length = n + 1 := hvl.fixed
  refine cellPoints_eq ?_
  refine List.ext_getElem? (fun a => ?_)
  simp only [List.getElem?_map]
  by_cases ha : a < n + 1
  · rw [List.getElem?_eq_getElem (l := m.vertsOf n t) (by omega), List.getElem?_eq_getElem (by simpa using ha)]
    have := corner_spec hvv (a := a) (by omega)
    rw [List.getD_eq_getElem _ _ (by omega)] at this
    simp [this]
  · rw [List.getElem?_eq_none (l := m.vertsOf n t) (by omega), List.getElem?_eq_none (by simp; omega)]; rfl

omit [LinearOrder K] [IsStrictOrderedRing K] in
theorem midLabel_mem {n : Nat} {p : Nat → Nat → K} {l : Nat} (hl : l < n + 1 + (edgeIdx (n + 1)).length) :
    CornerOrMid ((List.range (n + 1)).map p) (midLabel n p l) := by
  unfold midLabel
  split
  · rename_i h
    exact Or.inl (List.mem_map.2 ⟨l, List.mem_range.2 h, rfl⟩)
  · rename_i h
    have hlt : l - (n + 1) < (edgeIdx (n + 1)).length := by omega
    obtain ⟨a, b, hab, hb, he⟩ := mem_edgeIdx.1 (List.getElem_mem hlt)
    rw [List.getElem?_eq_getElem hlt, he]
    exact Or.inr ⟨p a, List.mem_map.2 ⟨a, List.mem_range.2 (by omega), rfl⟩, p b, List.mem_map.2 ⟨b, List.mem_range.2 hb, rfl⟩, rfl⟩

omit [LinearOrder K] [IsStrictOrderedRing K] in
/-- The sum over the children of one parent. -/
theorem sumOver_parent {N : Nat} {kids : List (Nat × List Nat)} {C : Nat → List (List Nat)}
    (hk : kids = (List.range N).flatMap (fun t => (C t).map (fun ls => (t, ls)))) {t : Nat} (ht : t < N)
    (F : Nat → K) (f : Nat × List Nat → K) (hF : ∀ (i : Nat) k, kids[i]? = some k → F i = f k) :
    sumOver kids.length (fun i => (kids.getD i (0, [])).1 = t) F = ((C t).map (fun ls => f (t, ls))).sum := by
  have h1 : sumOver kids.length (fun i => (kids.getD i (0, [])).1 = t) F =
      ((List.range kids.length).map (fun i => (fun k : Nat × List Nat => if k.1 = t then f k else 0) (kids.getD i (0, [])))).sum := by
    unfold sumOver
    congr 1
    refine List.map_congr_left (fun i hi => ?_)
    have hi := List.mem_range.1 hi
    have : kids[i]? = some (kids.getD i (0, [])) := by
      rw [List.getD_eq_getElem _ _ hi]; exact List.getElem?_eq_getElem hi
    simp only
    rw [hF i _ this]
  rw [h1, sumOver_list kids (0, []) (fun k : Nat × List Nat => if k.1 = t then f k else 0)]
  conv_lhs => rw [hk]
  rw [sum_kids]
  rw [show ((List.range N).map (fun u => ((C u).map (fun ls => if (u, ls).1 = t then f (u, ls) else 0)).sum)) =
      (List.range N).map (fun u => if u = t then ((C t).map (fun ls => f (t, ls))).sum else 0) from ?_]
  · exact sum_single N t ht _
  · refine List.map_congr_left (fun u _ => ?_)
    by_cases hu : u = t
    · subst hu; simp
    · rw [if_neg hu]
      exact sum_zero _ _ (fun ls _ => if_neg hu)

/-! ### C37 -/

/-- C33: for every mesh of tetrahedra after any history of creations and additions (with segments or without), all marks, all symmetric distances, and every order of the edges: `refine` into an empty mesh succeeds; each cell
of the result has a parent, is spanned by vertices of the parent and midpoints of its edges, and is
in exactly the segments of its parent; the volumes of the children of each cell add up to the volume of the
cell, and they are positive if that is. -/
theorem C33_refine_mesh {src : SegState (Nat → K)} (hsrc : SegReached (simplexTopo 3) src) {dist : (Nat → K) → (Nat → K) → K}
    (hd : ∀ a b, dist a b = dist b a) (mark : Nat → Bool) {order : List Nat} (hord : order.Nodup)
    (hall : ∀ e < src.mesh.count 1, e ∈ order) :
    ∃ (r : RefSt (Nat → K)) (parent : Nat → Nat),
      refineMesh (simplexTopo 3) src (tetKids dist) mark (edgeMid src.mesh) order = some r ∧
      (∀ i < r.out.mesh.count 3, parent i < src.mesh.count 3 ∧ (cellPoints r.out.mesh 3 i).length = 4 ∧
        (∀ q ∈ cellPoints r.out.mesh 3 i, CornerOrMid (cellPoints src.mesh 3 (parent i)) q) ∧
        (∀ g, g ∈ r.out.segmentIds 3 i ↔ g ∈ src.segmentIds 3 (parent i)) ∧
        (0 < tetVol (cellPoints src.mesh 3 (parent i)) → 0 < tetVol (cellPoints r.out.mesh 3 i))) ∧
      ∀ t < src.mesh.count 3, sumOver (r.out.mesh.count 3) (fun i => parent i = t) (fun i => tetVol (cellPoints r.out.mesh 3 i)) =
        tetVol (cellPoints src.mesh 3 t) := by
  have hI := hsrc.inv (simplexTopo_wf 3) (simplexTopo_closed 3)
  have he : (edgeIdx (3 + 1)).length = 6 := by decide
  obtain ⟨r, C, _, e1, _, _, hcount, hk, hparts, hQ⟩ := refine_parts (n := 3) (by omega) hsrc (he ▸ tetKids_ok hd) mark hord hall
  have hC : ∀ (i t : Nat) (ls : List Nat), r.kids[i]? = some (t, ls) → ls ∈ C t := by
    intro i t ls hi
    have := List.mem_of_getElem? hi
    rw [hk] at this
    obtain ⟨u, _, hm⟩ := List.mem_flatMap.1 this
    obtain ⟨ls', h1, he⟩ := List.mem_map.1 hm
    simp only [Prod.mk.injEq] at he
    rw [← he.1, ← he.2]; exact h1
  have hsrcPts : ∀ t < src.mesh.count 3, cellPoints src.mesh 3 t =
      [src.mesh.corner 3 t 0, src.mesh.corner 3 t 1, src.mesh.corner 3 t 2, src.mesh.corner 3 t 3] := by
    intro t ht; rw [cellPoints_src (by omega) hI.mesh ht]; rfl
  have hvol : ∀ (i t : Nat) (ls : List Nat), r.kids[i]? = some (t, ls) →
      tetVol (cellPoints r.out.mesh 3 i) = |childVolume6 (src.mesh.corner 3 t) (fun _ => 1 / 2) ls| / 6 := by
    intro i t ls hi
    obtain ⟨ht, hp, _⟩ := hparts i t ls hi
    obtain ⟨hl1, hl2⟩ := (hQ t ht).1 ls (hC i t ls hi)
    rw [cellPoints_eq hp]
    match ls, hl1 with
    | [a, b, c, d], _ =>
      simp only [List.map_cons, List.map_nil, tetVol, childVolume6]
      rw [midLabel_tet _ (hl2 a (by simp)), midLabel_tet _ (hl2 b (by simp)), midLabel_tet _ (hl2 c (by simp)),
        midLabel_tet _ (hl2 d (by simp))]
  refine ⟨r, fun i => (r.kids.getD i (0, [])).1, e1, ?_, ?_⟩
  · intro i hi
    rw [hcount] at hi
    beta_reduce
    have hi' : r.kids[i]? = some (r.kids.getD i (0, [])) := by
      rw [List.getD_eq_getElem _ _ hi]; exact List.getElem?_eq_getElem hi
    generalize r.kids.getD i (0, []) = k at hi' ⊢
    obtain ⟨t, ls⟩ := k
    obtain ⟨ht, hp, hg⟩ := hparts i t ls hi'
    obtain ⟨hl1, hl2⟩ := (hQ t ht).1 ls (hC i t ls hi')
    refine ⟨ht, by rw [cellPoints_eq hp, List.length_map, hl1], ?_, hg, ?_⟩
    · intro q hq
      rw [cellPoints_eq hp] at hq
      obtain ⟨l, hl, rfl⟩ := List.mem_map.1 hq
      rw [cellPoints_src (by omega) hI.mesh ht]
      exact midLabel_mem (by rw [he]; have := hl2 l hl; omega)
    · rw [hvol i t ls hi', hsrcPts t ht]
      simp only [tetVol]
      intro h
      have h1 : 0 < |tetVolume6 (src.mesh.corner 3 t 0) (src.mesh.corner 3 t 1) (src.mesh.corner 3 t 2) (src.mesh.corner 3 t 3)| := by
        by_contra hn
        have := div_nonpos_of_nonpos_of_nonneg (not_lt.1 hn) (by norm_num : (0 : K) ≤ 6)
        linarith
      have := ((hQ t ht).2 (src.mesh.corner 3 t)).2 (abs_pos.1 h1) ls (hC i t ls hi')
      exact div_pos (abs_pos.2 this) (by norm_num)
  · intro t ht
    rw [hcount, sumOver_parent hk ht _ (fun k => |childVolume6 (src.mesh.corner 3 k.1) (fun _ => 1 / 2) k.2| / 6)
      (fun i k hi => hvol i k.1 k.2 hi), hsrcPts t ht]
    simp only [tetVol]
    rw [← ((hQ t ht).2 (src.mesh.corner 3 t)).1]
    have := sum_map_mul ((C t).map (fun c => |childVolume6 (src.mesh.corner 3 t) (fun _ => 1 / 2) c|)) (6 : K)⁻¹
    rw [List.map_map] at this
    rw [div_eq_mul_inv (b := (6 : K)), ← this]
    refine congrArg List.sum (List.map_congr_left (fun c _ => ?_))
    simp only [Function.comp, div_eq_mul_inv (b := (6 : K))]

/-- C32: the same for meshes of triangles in any number of dimensions; instead of the volume any measure
which is a homogeneous function of the areas of the projections to the coordinate planes. -/
theorem C32_refine_mesh {src : SegState (Nat → K)} (hsrc : SegReached (simplexTopo 2) src) (dist : (Nat → K) → (Nat → K) → K)
    (mark : Nat → Bool) {order : List Nat} (hord : order.Nodup) (hall : ∀ e < src.mesh.count 1, e ∈ order) :
    ∃ (r : RefSt (Nat → K)) (parent : Nat → Nat),
      refineMesh (simplexTopo 2) src (triKids dist) mark (edgeMid src.mesh) order = some r ∧
      (∀ i < r.out.mesh.count 2, parent i < src.mesh.count 2 ∧ (cellPoints r.out.mesh 2 i).length = 3 ∧
        (∀ q ∈ cellPoints r.out.mesh 2 i, CornerOrMid (cellPoints src.mesh 2 (parent i)) q) ∧
        (∀ g, g ∈ r.out.segmentIds 2 i ↔ g ∈ src.segmentIds 2 (parent i)) ∧
        ∀ k l, 0 < triMeasure (fun M => |M k l|) (cellPoints src.mesh 2 (parent i)) →
          0 < triMeasure (fun M => M k l) (cellPoints r.out.mesh 2 i) * triMeasure (fun M => M k l) (cellPoints src.mesh 2 (parent i))) ∧
      ∀ mu : (Nat → Nat → K) → K, (∀ s M, 0 < s → mu (fun k l => s * M k l) = s * mu M) →
        ∀ t < src.mesh.count 2, sumOver (r.out.mesh.count 2) (fun i => parent i = t) (fun i => triMeasure mu (cellPoints r.out.mesh 2 i)) =
          triMeasure mu (cellPoints src.mesh 2 t) := by
  have hI := hsrc.inv (simplexTopo_wf 2) (simplexTopo_closed 2)
  have he : (edgeIdx (2 + 1)).length = 3 := by decide
  obtain ⟨r, C, _, e1, _, _, hcount, hk, hparts, hQ⟩ := refine_parts (n := 2) (by omega) hsrc (he ▸ triKids_ok dist) mark hord hall
  have hC : ∀ (i t : Nat) (ls : List Nat), r.kids[i]? = some (t, ls) → ls ∈ C t := by
    intro i t ls hi
    have := List.mem_of_getElem? hi
    rw [hk] at this
    obtain ⟨u, _, hm⟩ := List.mem_flatMap.1 this
    obtain ⟨ls', h1, he⟩ := List.mem_map.1 hm
    simp only [Prod.mk.injEq] at he
    rw [← he.1, ← he.2]; exact h1
  have hsrcPts : ∀ t < src.mesh.count 2, cellPoints src.mesh 2 t =
      [src.mesh.corner 2 t 0, src.mesh.corner 2 t 1, src.mesh.corner 2 t 2] := by
    intro t ht; rw [cellPoints_src (by omega) hI.mesh ht]; rfl
  choose! share hs1 hs2 hs3 using fun t ht => (hQ t ht).2
  have hvol : ∀ (mu : (Nat → Nat → K) → K) (i t : Nat) (ls : List Nat), r.kids[i]? = some (t, ls) →
      triMeasure mu (cellPoints r.out.mesh 2 i) =
        mu (fun k l => share t ls * area2 (src.mesh.corner 2 t 0) (src.mesh.corner 2 t 1) (src.mesh.corner 2 t 2) k l) := by
    intro mu i t ls hi
    obtain ⟨ht, hp, _⟩ := hparts i t ls hi
    obtain ⟨hl1, hl2⟩ := (hQ t ht).1 ls (hC i t ls hi)
    have h3 := hs3 t ht (src.mesh.corner 2 t) ls (hC i t ls hi)
    rw [cellPoints_eq hp]
    match ls, hl1, h3 with
    | [a, b, c], _, h3 =>
      simp only [List.map_cons, List.map_nil, triMeasure]
      rw [midLabel_tri _ (hl2 a (by simp)), midLabel_tri _ (hl2 b (by simp)), midLabel_tri _ (hl2 c (by simp))]
      congr 1
      funext k l
      exact h3 k l
  refine ⟨r, fun i => (r.kids.getD i (0, [])).1, e1, ?_, ?_⟩
  · intro i hi
    rw [hcount] at hi
    beta_reduce
    have hi' : r.kids[i]? = some (r.kids.getD i (0, [])) := by
      rw [List.getD_eq_getElem _ _ hi]; exact List.getElem?_eq_getElem hi
    generalize r.kids.getD i (0, []) = k at hi' ⊢
    obtain ⟨t, ls⟩ := k
    obtain ⟨ht, hp, hg⟩ := hparts i t ls hi'
    obtain ⟨hl1, hl2⟩ := (hQ t ht).1 ls (hC i t ls hi')
    refine ⟨ht, by rw [cellPoints_eq hp, List.length_map, hl1], ?_, hg, ?_⟩
    · intro q hq
      rw [cellPoints_eq hp] at hq
      obtain ⟨l, hl, rfl⟩ := List.mem_map.1 hq
      rw [cellPoints_src (by omega) hI.mesh ht]
      exact midLabel_mem (by rw [he]; have := hl2 l hl; omega)
    · intro k l
      rw [hvol _ i t ls hi', hsrcPts t ht]
      simp only [triMeasure]
      intro h
      have := hs1 t ht ls (hC i t ls hi')
      rw [mul_assoc]
      exact mul_pos this (mul_self_pos.2 (abs_pos.1 h))
  · intro mu hmu t ht
    rw [hcount, sumOver_parent hk ht _ (fun k => share k.1 k.2 *
        mu (area2 (src.mesh.corner 2 k.1 0) (src.mesh.corner 2 k.1 1) (src.mesh.corner 2 k.1 2))) (fun i k hi => ?_), hsrcPts t ht]
    · simp only [triMeasure]
      have := sum_map_mul ((C t).map (share t)) (mu (area2 (src.mesh.corner 2 t 0) (src.mesh.corner 2 t 1) (src.mesh.corner 2 t 2)))
      rw [hs2 t ht, one_mul, List.map_map] at this
      exact this
    · obtain ⟨t, ls⟩ := k
      rw [hvol mu i t ls hi]
      exact hmu _ _ (hs1 t (hparts i t ls hi).1 ls (hC i t ls hi))

omit [LinearOrder K] [IsStrictOrderedRing K] in
theorem sumOver_finset (N : Nat) (p : Nat → Prop) [DecidablePred p] (f : Nat → K) :
    sumOver N p f = ∑ i ∈ Finset.range N, if p i then f i else 0 := by
  unfold sumOver
  induction N with
  | zero => rfl
  | succ N ih => rw [List.range_succ, List.map_append, List.sum_append, ih, Finset.sum_range_succ]; simp

omit [LinearOrder K] [IsStrictOrderedRing K] in
theorem sumOver_regroup {N M : Nat} {parent : Nat → Nat} (hp : ∀ i < N, parent i < M) {p q : Nat → Prop} [DecidablePred p]
    [DecidablePred q] (hpq : ∀ i < N, (p i ↔ q (parent i))) {f h : Nat → K}
    (hs : ∀ t < M, sumOver N (fun i => parent i = t) f = h t) : sumOver N p f = sumOver M q h := by
  rw [sumOver_finset, sumOver_finset]
  have h1 : ∀ t ∈ Finset.range M, (if q t then h t else 0) =
      ∑ i ∈ Finset.range N, if parent i = t then (if q t then f i else 0) else 0 := by
    intro t ht
    rw [← hs t (Finset.mem_range.1 ht), sumOver_finset]
    by_cases hq : q t
    · simp [hq]
    · simp [hq]
  rw [Finset.sum_congr rfl h1, Finset.sum_comm]
  refine Finset.sum_congr rfl (fun i hi => ?_)
  have hi := Finset.mem_range.1 hi
  rw [Finset.sum_ite_eq, if_pos (Finset.mem_range.2 (hp i hi))]
  by_cases h : p i
  · rw [if_pos h, if_pos ((hpq i hi).1 h)]
  · rw [if_neg h, if_neg (fun h' => h ((hpq i hi).2 h'))]

/-- C33: the volume of each segment, and of the mesh, is kept. -/
theorem C33_mesh_volume {src : SegState (Nat → K)} (hsrc : SegReached (simplexTopo 3) src) {dist : (Nat → K) → (Nat → K) → K}
    (hd : ∀ a b, dist a b = dist b a) (mark : Nat → Bool) {order : List Nat} (hord : order.Nodup)
    (hall : ∀ e < src.mesh.count 1, e ∈ order) :
    ∃ r : RefSt (Nat → K), refineMesh (simplexTopo 3) src (tetKids dist) mark (edgeMid src.mesh) order = some r ∧
      (∀ g, sumOver (r.out.mesh.count 3) (fun i => g ∈ r.out.segmentIds 3 i) (fun i => tetVol (cellPoints r.out.mesh 3 i)) =
        sumOver (src.mesh.count 3) (fun t => g ∈ src.segmentIds 3 t) (fun t => tetVol (cellPoints src.mesh 3 t))) ∧
      sumOver (r.out.mesh.count 3) (fun _ => True) (fun i => tetVol (cellPoints r.out.mesh 3 i)) =
        sumOver (src.mesh.count 3) (fun _ => True) (fun t => tetVol (cellPoints src.mesh 3 t)) := by
  obtain ⟨r, parent, h1, h2, h3⟩ := C33_refine_mesh hsrc hd mark hord hall
  refine ⟨r, h1, fun g => ?_, ?_⟩
  · exact sumOver_regroup (p := fun i => g ∈ r.out.segmentIds 3 i) (q := fun t => g ∈ src.segmentIds 3 t) (fun i hi => (h2 i hi).1)
      (fun i hi => (h2 i hi).2.2.2.1 g) h3
  · exact sumOver_regroup (p := fun _ => True) (q := fun _ => True) (fun i hi => (h2 i hi).1) (fun _ _ => Iff.rfl) h3

theorem refineSegMesh_eq {P : Type} {n : Nat} {src : SegState P} (hsrc : SegReached (simplexTopo n) src)
    (hrec : ∀ t < src.mesh.count n, HasRecord src n t) (kids : List (Option (Vtx P)) → (Nat → Bool) → Option (List (List Nat)))
    (mark : Nat → Bool) (mid : Nat → P) (order : List Nat) :
    refineSegMesh (simplexTopo n) src kids mark mid order = refineMesh (simplexTopo n) src kids mark mid order := by
  unfold refineSegMesh
  rw [if_pos]
  rw [List.all_eq_true]
  intro t ht
  exact (hasRecord_iff (Or.inl ⟨n, rfl⟩) hsrc).2 (hrec t (List.mem_range.1 ht))

/-- C37.  The full statement, for all segmented meshes, is false (see below).  Proved, for every mesh of tetrahedra with
segments after any history of creations and additions in which the last cell is in a segment (more precisely: each cell has a
record, `HasRecord`), all marks, all symmetric distances, and every order of the edges: `refine` with segmentations into an
empty mesh succeeds; each cell of the result has a parent and is in exactly the segments of its parent. -/
theorem C37_tetrahedra_partial {src : SegState (Nat → K)} (hsrc : SegReached (simplexTopo 3) src) {dist : (Nat → K) → (Nat → K) → K}
    (hd : ∀ a b, dist a b = dist b a) (mark : Nat → Bool) {order : List Nat} (hord : order.Nodup)
    (hall : ∀ e < src.mesh.count 1, e ∈ order)
    (hrec : ∀ t < src.mesh.count 3, HasRecord src 3 t) :
    ∃ (r : RefSt (Nat → K)) (parent : Nat → Nat),
      refineSegMesh (simplexTopo 3) src (tetKids dist) mark (edgeMid src.mesh) order = some r ∧
      (∀ i < r.out.mesh.count 3, parent i < src.mesh.count 3 ∧ (cellPoints r.out.mesh 3 i).length = 4 ∧
        (∀ q ∈ cellPoints r.out.mesh 3 i, CornerOrMid (cellPoints src.mesh 3 (parent i)) q) ∧
        (∀ g, g ∈ r.out.segmentIds 3 i ↔ g ∈ src.segmentIds 3 (parent i)) ∧
        (0 < tetVol (cellPoints src.mesh 3 (parent i)) → 0 < tetVol (cellPoints r.out.mesh 3 i))) ∧
      ∀ t < src.mesh.count 3, sumOver (r.out.mesh.count 3) (fun i => parent i = t) (fun i => tetVol (cellPoints r.out.mesh 3 i)) =
        tetVol (cellPoints src.mesh 3 t) := by
  obtain ⟨r, parent, h1, h2⟩ := C33_refine_mesh hsrc hd mark hord hall
  exact ⟨r, parent, (refineSegMesh_eq hsrc hrec _ _ _ _).trans h1, h2⟩

/-- C37: the same for meshes of triangles. -/
theorem C37_triangles_partial {src : SegState (Nat → K)} (hsrc : SegReached (simplexTopo 2) src) (dist : (Nat → K) → (Nat → K) → K)
    (mark : Nat → Bool) {order : List Nat} (hord : order.Nodup) (hall : ∀ e < src.mesh.count 1, e ∈ order)
    (hrec : ∀ t < src.mesh.count 2, HasRecord src 2 t) :
    ∃ (r : RefSt (Nat → K)) (parent : Nat → Nat),
      refineSegMesh (simplexTopo 2) src (triKids dist) mark (edgeMid src.mesh) order = some r ∧
      (∀ i < r.out.mesh.count 2, parent i < src.mesh.count 2 ∧ (cellPoints r.out.mesh 2 i).length = 3 ∧
        (∀ q ∈ cellPoints r.out.mesh 2 i, CornerOrMid (cellPoints src.mesh 2 (parent i)) q) ∧
        (∀ g, g ∈ r.out.segmentIds 2 i ↔ g ∈ src.segmentIds 2 (parent i)) ∧
        ∀ k l, 0 < triMeasure (fun M => |M k l|) (cellPoints src.mesh 2 (parent i)) →
          0 < triMeasure (fun M => M k l) (cellPoints r.out.mesh 2 i) * triMeasure (fun M => M k l) (cellPoints src.mesh 2 (parent i))) ∧
      ∀ mu : (Nat → Nat → K) → K, (∀ s M, 0 < s → mu (fun k l => s * M k l) = s * mu M) →
        ∀ t < src.mesh.count 2, sumOver (r.out.mesh.count 2) (fun i => parent i = t) (fun i => triMeasure mu (cellPoints r.out.mesh 2 i)) =
          triMeasure mu (cellPoints src.mesh 2 t) := by
  obtain ⟨r, parent, h1, h2⟩ := C32_refine_mesh hsrc dist mark hord hall
  exact ⟨r, parent, (refineSegMesh_eq hsrc hrec _ _ _ _).trans h1, h2⟩

/-- C37: the volume of each segment, and of the mesh, is kept. -/
theorem C37_segment_volume_partial {src : SegState (Nat → K)} (hsrc : SegReached (simplexTopo 3) src) {dist : (Nat → K) → (Nat → K) → K}
    (hd : ∀ a b, dist a b = dist b a) (mark : Nat → Bool) {order : List Nat} (hord : order.Nodup)
    (hall : ∀ e < src.mesh.count 1, e ∈ order)
    (hrec : ∀ t < src.mesh.count 3, HasRecord src 3 t) :
    ∃ r : RefSt (Nat → K), refineSegMesh (simplexTopo 3) src (tetKids dist) mark (edgeMid src.mesh) order = some r ∧
      (∀ g, sumOver (r.out.mesh.count 3) (fun i => g ∈ r.out.segmentIds 3 i) (fun i => tetVol (cellPoints r.out.mesh 3 i)) =
        sumOver (src.mesh.count 3) (fun t => g ∈ src.segmentIds 3 t) (fun t => tetVol (cellPoints src.mesh 3 t))) ∧
      sumOver (r.out.mesh.count 3) (fun _ => True) (fun i => tetVol (cellPoints r.out.mesh 3 i)) =
        sumOver (src.mesh.count 3) (fun _ => True) (fun t => tetVol (cellPoints src.mesh 3 t)) := by
  obtain ⟨r, h1, h2⟩ := C33_mesh_volume hsrc hd mark hord hall
  exact ⟨r, (refineSegMesh_eq hsrc hrec _ _ _ _).trans h1, h2⟩

/-- C37 is violated: with a cell that has no record, `refine` with segmentations is undefined, whatever is marked. -/
theorem C37_violated {P : Type} {T : Topo} (hT : ClosedTopo T) {src : SegState P} (hsrc : SegReached T src) {t : Nat}
    (ht : t < src.mesh.count T.cellDim) (hrec : ¬ HasRecord src T.cellDim t)
    (kids : List (Option (Vtx P)) → (Nat → Bool) → Option (List (List Nat)))
    (mark : Nat → Bool) (mid : Nat → P) (order : List Nat) : refineSegMesh T src kids mark mid order = none := by
  unfold refineSegMesh
  rw [if_neg]
  rw [List.all_eq_true]
  intro h
  exact hrec ((hasRecord_iff hT hsrc).1 (h t (List.mem_range.2 ht)))

end

/-- Two triangles, one in segment 3, the other in segments 3 and 5. -/
def refinedOps : List (SOp (Nat → Rat)) :=
  [.mesh (.vertex none (fun _ => 0)), .mesh (.vertex none (fun k => if k = 0 then 4 else 0)),
   .mesh (.vertex none (fun k => if k = 0 then 0 else 3)), .mesh (.vertex none (fun k => if k = 0 then 4 else 3)),
   .mesh (.elem 2 [0, 1, 2]), .mesh (.elem 2 [3, 1, 2]), .add 3 2 0, .add 3 2 1, .add 5 2 1]

/-- The hypotheses of C37 are met; with the edges of the first triangle marked there are 4 + 2 cells, and the
last two are in both segments. -/
example : ∃ src : SegState (Nat → Rat), SegReached (simplexTopo 2) src ∧ src.mesh.count 1 = 5 ∧
    ((refineSegMesh (simplexTopo 2) src (triKids (fun a b => (a 0 - b 0) ^ 2 + (a 1 - b 1) ^ 2)) (fun e => decide (e < 3))
      (edgeMid src.mesh) [0, 1, 2, 3, 4]).map (fun r => (List.range (r.out.mesh.count 2)).map (r.out.segmentIds 2))) =
      some [[3], [3], [3], [3], [3, 5], [3, 5]] := by
  refine ⟨((SegState.empty : SegState (Nat → Rat)).run (simplexTopo 2) refinedOps).getD SegState.empty,
    ⟨refinedOps, ?_, rfl, ?_⟩, by decide +kernel, by decide +kernel⟩
  · intro op hop o ho
    simp only [refinedOps, List.mem_cons, List.not_mem_nil, or_false] at hop
    rcases hop with rfl | rfl | rfl | rfl | rfl | rfl | rfl | rfl | rfl <;>
      (simp [SOp.creation] at ho; try (subst ho; first | trivial | (simp [MOp.Distinct])))
  · unfold UniqueVids; decide +kernel

/-- The hypotheses of `C37_violated` hold: two triangles, the first one in a segment. -/
example : ∃ st : SegState Unit, SegReached (simplexTopo 2) st ∧ 1 < st.mesh.count 2 ∧ ¬ HasRecord st 2 1 := by
  have hr : SegReached (simplexTopo 2) ((SegState.empty.run (simplexTopo 2) earlySeg).getD SegState.empty) :=
    ⟨earlySeg, by simp [earlySeg, SOp.creation, MOp.Distinct], rfl, by unfold UniqueVids; decide⟩
  refine ⟨_, hr, by decide, ?_⟩
  rw [← hasRecord_iff (Or.inl ⟨2, rfl⟩) hr]
  decide

end VG
