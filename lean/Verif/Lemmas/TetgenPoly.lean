import Verif.Model.TetgenPoly
import Verif.Lemmas.Netgen

/-! How the reader of TetGen files runs over the lines of a file. -/

namespace VG

variable {C : Type}

/-! ### Parts of the reader -/

/-- The part reads exactly the given lines, whatever follows, and throws if some of them are missing. -/
structure PolyR.Reads {A : Type} (r : PolyR C A) (ls : List (List (Tok C))) (a : A) : Prop where
  all : ∀ rest, r (ls ++ rest) = .ok (rest, a)
  cut : ∀ k, k < ls.length → r (ls.take k) = .error .throws

theorem PolyR.Reads.done {A : Type} (a : A) : (PolyR.done a : PolyR C A).Reads [] a :=
  ⟨fun _ => rfl, fun k h => absurd h (by simp)⟩

theorem PolyR.Reads.lift {A : Type} {x : Except ReadFail A} {a : A} (h : x = .ok a) :
    (PolyR.lift x : PolyR C A).Reads [] a :=
  ⟨fun _ => by simp [PolyR.lift, h], fun k h => absurd h (by simp)⟩

theorem PolyR.Reads.line (l : List (Tok C)) : PolyR.line.Reads [l] l :=
  ⟨fun _ => rfl, fun k h => by
    have : k = 0 := by simpa using h
    subst this
    rfl⟩

theorem PolyR.Reads.andThen {A B : Type} {r : PolyR C A} {f : A → PolyR C B} {l₁ l₂ : List (List (Tok C))} {a : A} {b : B}
    (h₁ : r.Reads l₁ a) (h₂ : (f a).Reads l₂ b) : (r.andThen f).Reads (l₁ ++ l₂) b := by
  refine ⟨fun rest => ?_, fun k hk => ?_⟩
  · unfold PolyR.andThen
    rw [List.append_assoc, h₁.all]
    exact h₂.all rest
  · unfold PolyR.andThen
    by_cases h : k < l₁.length
    · rw [List.take_append_of_le_length h.le, h₁.cut k h]
    · rw [List.take_append, List.take_of_length_le (by omega), h₁.all]
      simp only
      refine h₂.cut _ ?_
      rw [List.length_append] at hk
      omega

/-- A result made from that of the part before. -/
theorem PolyR.Reads.thenDone {A B : Type} {r : PolyR C A} {ls : List (List (Tok C))} {a : A} (g : A → B)
    (h : r.Reads ls a) : (r.andThen fun x => PolyR.done (g x)).Reads ls (g a) := by
  have := h.andThen (f := fun x => PolyR.done (g x)) (PolyR.Reads.done (g a))
  rwa [List.append_nil] at this

theorem PolyR.Reads.lineThen {A : Type} {f : List (Tok C) → PolyR C A} {l : List (Tok C)} {ls : List (List (Tok C))} {a : A}
    (h : (f l).Reads ls a) : (PolyR.line.andThen f).Reads (l :: ls) a :=
  (PolyR.Reads.line l).andThen h

theorem PolyR.Reads.liftThen {A B : Type} {x : Except ReadFail A} {f : A → PolyR C B} {ls : List (List (Tok C))} {a : A}
    {b : B} (hx : x = .ok a) (h : (f a).Reads ls b) : ((PolyR.lift x).andThen f).Reads ls b :=
  (PolyR.Reads.lift hx).andThen h

/-! ### Lines -/

/-- The stream over the words. -/
theorem getInt_cons (i : Int) (ts : List (Tok C)) (old : Option Int) :
    (lineIn (.int i :: ts)).getInt old = .ok (i, lineIn ts) := by
  simp [TokIn.getInt, TokIn.readInt, lineIn, TokIn.next, useInt]

theorem readInt_cons (i : Int) (ts : List (Tok C)) (old : Option Int) :
    (lineIn (.int i :: ts)).readInt old = .ok (some i, lineIn ts) := by
  simp [TokIn.readInt, lineIn, TokIn.next]

theorem getInt_nil (i : Int) : ∃ s, (lineIn ([] : List (Tok C))).getInt (some i) = .ok (i, s) ∧
    ∀ j : Int, s.getInt (some j) = .ok (j, s) := by
  refine ⟨⟨[], true, false⟩, by simp [TokIn.getInt, TokIn.readInt, lineIn, useInt], fun j => ?_⟩
  simp [TokIn.getInt, TokIn.readInt, useInt]

theorem readPoint_line (ofInt : Int → C) (rest : List (Tok C)) : ∀ (p : List (Coord C)),
    (lineIn (p.map coordTok ++ rest)).readPoint ofInt p.length = (p.map (coordVal ofInt), lineIn rest)
  | [] => rfl
  | c :: p => by
    have h : (lineIn (coordTok c :: (p.map coordTok ++ rest))).readCoord ofInt =
        (coordVal ofInt c, lineIn (p.map coordTok ++ rest)) := by
      cases c <;> simp [lineIn, TokIn.readCoord, TokIn.next, coordTok, coordVal]
    simp only [List.map_cons, List.cons_append, List.length_cons, TokIn.readPoint, h]
    rw [readPoint_line ofInt rest p]

theorem nodeLine_ok (ofInt : Int → C) {dim : Nat} {id : Int} {p : List (Coord C)} (hp : p.length = dim) {l : List (Tok C)}
    (h : (.int id :: p.map coordTok) <+: l) : nodeLine ofInt dim l = .ok (id, p.map (coordVal ofInt)) := by
  obtain ⟨t, rfl⟩ := h
  subst hp
  simp only [nodeLine, List.cons_append, getInt_cons, readPoint_line]

theorem holeLine_ok (ofInt : Int → C) {dim : Nat} {i : Int} {p : List (Coord C)} (hp : p.length = dim) {l : List (Tok C)}
    (h : (.int i :: p.map coordTok) <+: l) : holeLine ofInt dim l = .ok (p.map (coordVal ofInt)) := by
  obtain ⟨t, rfl⟩ := h
  subst hp
  simp only [holeLine, List.cons_append, readInt_cons, readPoint_line]

theorem seedLine_ok (ofInt : Int → C) {dim : Nat} {i g : Int} {p : List (Coord C)} (hp : p.length = dim)
    {l : List (Tok C)} (h : (.int i :: (p.map coordTok ++ [.int g])) <+: l) :
    seedLine ofInt dim l = .ok (p.map (coordVal ofInt), g) := by
  obtain ⟨t, rfl⟩ := h
  subst hp
  simp only [seedLine, List.cons_append, readInt_cons, List.append_assoc, readPoint_line, List.nil_append, getInt_cons]

theorem countLine_ok {n : Nat} {l : List (Tok C)} (h : [.int n] <+: l) : countLine l = .ok n := by
  obtain ⟨t, rfl⟩ := h
  simp only [countLine, List.cons_append, getInt_cons]
  rw [if_neg (by omega), Int.toNat_natCast]

theorem facetLine_ok {n h : Nat} {l : List (Tok C)} (hl : [.int n, .int h] <+: l) : facetLine l = .ok (n, h) := by
  obtain ⟨t, rfl⟩ := hl
  simp only [facetLine, List.cons_append, getInt_cons]
  rw [if_neg (by omega), Int.toNat_natCast, Int.toNat_natCast]

/-! ### Vertices -/

/-- The mesh after the vertices were made. -/
def addNodes (ofInt : Int → C) : Mesh (List C) → List (Int × List (Coord C)) → Mesh (List C)
  | m, [] => m
  | m, x :: xs => addNodes ofInt (m.makeVertex (some x.1) (x.2.map (coordVal ofInt))) xs

theorem readNodes_reads (ofInt : Int → C) {dim : Nat} : ∀ (nodes : List (Int × List (Coord C))) (ns : List (List (Tok C)))
    (m : Mesh (List C)), (∀ x ∈ nodes, x.2.length = dim) →
    List.Forall₂ (fun x l => (.int x.1 :: x.2.map coordTok) <+: l) nodes ns →
    (readNodes ofInt dim nodes.length m).Reads ns (addNodes ofInt m nodes)
  | [], _, m, _, h => by
    cases h
    exact .done m
  | x :: nodes, _, m, hd, h => by
    cases h with
    | cons h1 h2 =>
      exact .lineThen (.liftThen (nodeLine_ok ofInt (hd x (by simp)) h1)
        (readNodes_reads ofInt nodes _ _ (fun y hy => hd y (by simp [hy])) h2))

theorem addNodes_spec (T : Topo) (ofInt : Int → C) : ∀ (nodes : List (Int × List (Coord C))) (m : Mesh (List C)), Inv T m →
    Inv T (addNodes ofInt m nodes) ∧
    (addNodes ofInt m nodes).verts = m.verts ++ nodes.map (fun x => ⟨x.1, x.2.map (coordVal ofInt)⟩) ∧
    (addNodes ofInt m nodes).elems = m.elems
  | [], m, h => ⟨h, by simp [addNodes], rfl⟩
  | x :: nodes, m, h => by
    obtain ⟨h1, h2, h3⟩ := addNodes_spec T ofInt nodes (m.makeVertex (some x.1) (x.2.map (coordVal ofInt)))
      (h.makeVertex _ _)
    refine ⟨h1, ?_, h3⟩
    rw [addNodes, h2]
    simp [Mesh.makeVertex]

/-! ### Lines of a polygon -/

/-- The line `s` has the ends `a` and `b`. -/
def IsLine {P : Type} (m : Mesh P) (s a b : Nat) : Prop := ∃ e, (m.elems 1)[s]? = some e ∧ e.verts.Perm [a, b]

theorem IsLine.ext {P : Type} {m m' : Mesh P} (h : Ext m m') {s a b : Nat} (hl : IsLine m s a b) : IsLine m' s a b := by
  obtain ⟨e, h1, h2⟩ := hl
  exact ⟨e, prefix_getElem? (h.elems 1) h1, h2⟩

/-- What making lines gives. -/
structure LinesMade (m m' : Mesh (List C)) (ps : List (Nat × Nat)) (ss : List Nat) : Prop where
  inv : Inv (simplexTopo 2) m'
  ext : Ext m m'
  higher : ∀ j, 1 < j → m'.elems j = m.elems j
  lines : List.Forall₂ (fun p s => IsLine m' s p.1 p.2) ps ss
  new : ∀ i, (m.elems 1).length ≤ i → i < (m'.elems 1).length → i ∈ ss

theorem UniqueVids.of_verts {P : Type} {m m' : Mesh P} (h : m'.verts = m.verts) (hu : UniqueVids m) : UniqueVids m' := by
  unfold UniqueVids
  rw [h]
  exact hu

theorem makeLines_spec : ∀ (ps : List (Nat × Nat)) (m : Mesh (List C)), Inv (simplexTopo 2) m → UniqueVids m →
    (∀ p ∈ ps, p.1 ≠ p.2 ∧ p.1 < m.verts.length ∧ p.2 < m.verts.length) →
    LinesMade m (makeLines m ps).1 ps (makeLines m ps).2
  | [], m, hI, _, _ => ⟨hI, .refl m, fun _ _ => rfl, .nil, fun i h1 h2 => absurd h2 (by simpa [makeLines] using h1)⟩
  | p :: ps, m, hI, hu, hp => by
    obtain ⟨h1, h2, h3⟩ := hp p (by simp)
    have hs := makeElem_spec (simplexTopo_wf 2) hI hu (d := 1) (le_refl 1) (vs := [p.1, p.2])
      ⟨by simpa using h1, Or.inl rfl, by simp [h2, h3]⟩
    set r := m.makeElem (simplexTopo 2) 1 [p.1, p.2] with hr
    have hv := hs.ext.verts
    have ih := makeLines_spec ps r.mesh hs.inv (hu.of_verts hv) (fun q hq => by
      rw [hv]
      exact hp q (by simp [hq]))
    have hm : makeLines m (p :: ps) = ((makeLines r.mesh ps).1, r.slot :: (makeLines r.mesh ps).2) := by
      simp [makeLines, hr]
    rw [hm]
    refine ⟨ih.inv, hs.ext.trans ih.ext, fun j hj => (ih.higher j hj).trans (hs.higher j hj), .cons ?_ ih.lines,
      fun i hi hi' => ?_⟩
    · obtain ⟨f, hf, hf', -⟩ := hs.found
      exact ⟨f, prefix_getElem? (ih.ext.elems 1) hf, hf'⟩
    · by_cases h : (r.mesh.elems 1).length ≤ i
      · exact List.mem_cons_of_mem _ (ih.new i h hi')
      · rcases hs.same with h' | ⟨h', e, -, h''⟩
        · rw [h'] at h
          exact absurd hi h
        · rw [h''] at h
          simp only [List.length_append, List.length_singleton, not_le] at h
          have : i = r.slot := by omega
          simp [this]

theorem mem_zip_tail {α : Type} : ∀ {l : List α} {a b : α}, (a, b) ∈ l.zip l.tail ↔ ∃ i, l[i]? = some a ∧ l[i + 1]? = some b := by
  intro l a b
  rw [List.mem_iff_getElem?]
  simp only [List.getElem?_zip_eq_some, List.getElem?_tail]

theorem mem_closedSides {l : List Nat} {a b : Nat} :
    (a, b) ∈ closedSides l ↔ ∃ i, i < l.length ∧ l[i]? = some a ∧ l[(i + 1) % l.length]? = some b := by
  cases l with
  | nil => simp [closedSides]
  | cons x l =>
    have hz : (a, b) ∈ (x :: l).zip l ↔ ∃ i, (x :: l)[i]? = some a ∧ (x :: l)[i + 1]? = some b := mem_zip_tail (l := x :: l)
    rw [closedSides, List.mem_append, hz, List.mem_singleton, Prod.mk.injEq]
    constructor
    · rintro (⟨i, h1, h2⟩ | ⟨rfl, rfl⟩)
      · have hi := (List.getElem?_eq_some_iff.1 h2).1
        exact ⟨i, by omega, h1, by rw [Nat.mod_eq_of_lt hi]; exact h2⟩
      · refine ⟨l.length, by simp, ?_, by simp⟩
        rw [List.getLast_eq_getElem]
        simp
    · rintro ⟨i, h1, h2, h3⟩
      simp only [List.length_cons] at h1 h3
      by_cases h : i + 1 < l.length + 1
      · rw [Nat.mod_eq_of_lt h] at h3
        exact Or.inl ⟨i, h2, h3⟩
      · have : i = l.length := by omega
        subst this
        rw [Nat.mod_self] at h3
        right
        constructor
        · rw [List.getLast_eq_getElem]
          have := (List.getElem?_eq_some_iff.1 h2).2
          simpa using this.symm
        · simpa using h3.symm

theorem mem_insUnique : ∀ (hs l : List Nat) (x : Nat), x ∈ insUnique l hs ↔ x ∈ l ∨ x ∈ hs
  | [], l, x => by simp [insUnique]
  | h :: hs, l, x => by
    rw [insUnique, mem_insUnique hs]
    split
    · rename_i hm
      simp only [List.mem_cons]
      constructor
      · rintro (h1 | h1)
        · exact Or.inl h1
        · exact Or.inr (Or.inr h1)
      · rintro (h1 | rfl | h1)
        · exact Or.inl h1
        · exact Or.inl hm
        · exact Or.inr h1
    · simp only [List.mem_append, List.mem_cons, List.not_mem_nil, or_false, or_assoc]

theorem nodup_insUnique : ∀ (hs l : List Nat), l.Nodup → (insUnique l hs).Nodup
  | [], l, h => h
  | x :: hs, l, h => by
    rw [insUnique]
    refine nodup_insUnique hs _ ?_
    split
    · exact h
    · rename_i hm
      rw [List.nodup_append]
      exact ⟨h, by simp, fun a ha b hb => by
        rw [List.mem_singleton] at hb
        subst hb
        exact fun he => hm (he ▸ ha)⟩

/-! ### Corners -/

theorem cornerOf_spec {m : Mesh (List C)} {id : Int} (h : id ∈ m.verts.map (·.id)) :
    ∃ v, cornerOf m id = .ok v ∧ v < m.verts.length ∧ m.vid v = id := by
  have hids : m.idsOf 0 = m.verts.map (·.id) := by
    refine List.ext_getElem (by simp [Mesh.idsOf, Mesh.count]) fun i h1 h2 => ?_
    have hi : i < m.verts.length := by simpa using h2
    simp [Mesh.idsOf, Mesh.eid, Mesh.vid, List.getElem?_eq_getElem hi]
  unfold cornerOf Mesh.findById
  rw [hids]
  cases hf : (m.verts.map (·.id)).findIdx? (fun x => x == id) with
  | none =>
    rw [List.findIdx?_eq_none_iff] at hf
    exact absurd (hf id h) (by simp)
  | some v =>
    rw [List.findIdx?_eq_some_iff_getElem] at hf
    obtain ⟨h1, h2, -⟩ := hf
    refine ⟨v, rfl, by simpa using h1, ?_⟩
    unfold Mesh.vid
    rw [List.getD_eq_getElem _ _ h1]
    simpa using h2

theorem readCorners_spec {m : Mesh (List C)} (t : List (Tok C)) : ∀ (ids : List Int), (∀ i ∈ ids, i ∈ m.verts.map (·.id)) →
    ∃ vs, readCorners m ids.length (lineIn (ids.map .int ++ t)) = .ok vs ∧ vs.map m.vid = ids ∧ ∀ v ∈ vs, v < m.verts.length
  | [], _ => ⟨[], rfl, rfl, by simp⟩
  | i :: ids, h => by
    obtain ⟨v, h1, h2, h3⟩ := cornerOf_spec (h i (by simp))
    obtain ⟨vs, h4, h5, h6⟩ := readCorners_spec t ids fun j hj => h j (by simp [hj])
    refine ⟨v :: vs, ?_, by simp [h3, h5], ?_⟩
    · simp only [List.map_cons, List.cons_append, List.length_cons, readCorners, getInt_cons, h1, h4]
    · intro w hw
      rcases List.mem_cons.1 hw with rfl | hw
      · exact h2
      · exact h6 w hw

theorem polygonLine_spec {m : Mesh (List C)} {ids : List Int} (h : ∀ i ∈ ids, i ∈ m.verts.map (·.id)) {l : List (Tok C)}
    (hl : (.int ids.length :: ids.map .int) <+: l) :
    ∃ vs, polygonLine m l = .ok vs ∧ vs.map m.vid = ids ∧ ∀ v ∈ vs, v < m.verts.length := by
  obtain ⟨t, rfl⟩ := hl
  obtain ⟨vs, h1, h2⟩ := readCorners_spec t ids h
  refine ⟨vs, ?_, h2⟩
  simp only [polygonLine, List.cons_append, getInt_cons]
  rw [if_neg (by omega), Int.toNat_natCast, h1]

/-! ### Facets -/

/-- `a` and `b` are the ends of a side of the polygon with the given corners. -/
def Side {α : Type} (l : List α) (a b : α) : Prop :=
  2 ≤ l.length ∧ ∃ i, i < l.length ∧ l[i]? = some a ∧ l[(i + 1) % l.length]? = some b

theorem Side.map {α β : Type} (f : α → β) {l : List α} {a b : α} (h : Side l a b) : Side (l.map f) (f a) (f b) := by
  obtain ⟨h1, i, h2, h3, h4⟩ := h
  refine ⟨by simpa using h1, i, by simpa using h2, by simp [h3], ?_⟩
  rw [List.length_map, List.getElem?_map, h4]
  rfl

theorem Side.of_map {α β : Type} {f : α → β} {l : List α} {x y : β} (h : Side (l.map f) x y) :
    ∃ a b, Side l a b ∧ f a = x ∧ f b = y := by
  obtain ⟨h1, i, h2, h3, h4⟩ := h
  rw [List.length_map] at h1 h2 h4
  rw [List.getElem?_map, Option.map_eq_some_iff] at h3 h4
  obtain ⟨a, h3, rfl⟩ := h3
  obtain ⟨b, h4, rfl⟩ := h4
  exact ⟨a, b, ⟨h1, i, h2, h3, h4⟩, rfl, rfl⟩

theorem Side.mem {α : Type} {l : List α} {a b : α} (h : Side l a b) : a ∈ l ∧ b ∈ l := by
  obtain ⟨-, i, -, h1, h2⟩ := h
  exact ⟨List.mem_of_getElem? h1, List.mem_of_getElem? h2⟩

/-- Every corner is the end of a side, unless it is the only one. -/
theorem Side.of_mem {α : Type} {l : List α} {a : α} (h : a ∈ l) (hl : 2 ≤ l.length) : ∃ b, Side l a b := by
  obtain ⟨i, hi, rfl⟩ := List.getElem_of_mem h
  have : (i + 1) % l.length < l.length := Nat.mod_lt _ (by omega)
  exact ⟨l[(i + 1) % l.length], hl, i, hi, List.getElem?_eq_getElem hi, List.getElem?_eq_getElem this⟩

theorem IsLine.symm {P : Type} {m : Mesh P} {s a b : Nat} (h : IsLine m s a b) : IsLine m s b a := by
  obtain ⟨e, h1, h2⟩ := h
  exact ⟨e, h1, h2.trans (List.Perm.swap _ _ _)⟩

/-- The lines and single vertices made for polygons. -/
structure FacetMade (m m' : Mesh (List C)) (polys : List (List Nat)) (lines loose : List Nat) : Prop where
  inv : Inv (simplexTopo 2) m'
  ext : Ext m m'
  higher : ∀ j, 1 < j → m'.elems j = m.elems j
  side : ∀ s ∈ lines, ∃ vs ∈ polys, ∃ a b, Side vs a b ∧ IsLine m' s a b
  line : ∀ vs ∈ polys, ∀ a b, Side vs a b → ∃ s ∈ lines, IsLine m' s a b
  loose : ∀ v, v ∈ loose ↔ [v] ∈ polys
  new : ∀ i, (m.elems 1).length ≤ i → i < (m'.elems 1).length → i ∈ lines

theorem FacetMade.append {m m' m'' : Mesh (List C)} {p p' : List (List Nat)} {l l' v v' : List Nat}
    (h : FacetMade m m' p l v) (h' : FacetMade m' m'' p' l' v') : FacetMade m m'' (p ++ p') (l ++ l') (v ++ v') := by
  refine ⟨h'.inv, h.ext.trans h'.ext, fun j hj => (h'.higher j hj).trans (h.higher j hj), ?_, ?_, ?_, ?_⟩
  · intro s hs
    rcases List.mem_append.1 hs with hs | hs
    · obtain ⟨vs, h1, a, b, h2, h3⟩ := h.side s hs
      exact ⟨vs, List.mem_append_left _ h1, a, b, h2, h3.ext h'.ext⟩
    · obtain ⟨vs, h1, a, b, h2, h3⟩ := h'.side s hs
      exact ⟨vs, List.mem_append_right _ h1, a, b, h2, h3⟩
  · intro vs hvs a b hab
    rcases List.mem_append.1 hvs with hvs | hvs
    · obtain ⟨s, h1, h2⟩ := h.line vs hvs a b hab
      exact ⟨s, List.mem_append_left _ h1, h2.ext h'.ext⟩
    · obtain ⟨s, h1, h2⟩ := h'.line vs hvs a b hab
      exact ⟨s, List.mem_append_right _ h1, h2⟩
  · intro x
    rw [List.mem_append, List.mem_append, h.loose, h'.loose]
  · intro i hi hi'
    by_cases hm : i < (m'.elems 1).length
    · exact List.mem_append_left _ (h.new i hi hm)
    · exact List.mem_append_right _ (h'.new i (by omega) hi')

theorem FacetMade.none {m : Mesh (List C)} (hI : Inv (simplexTopo 2) m) : FacetMade m m [] [] [] :=
  ⟨hI, .refl m, fun _ _ => rfl, by simp, by simp, by simp, fun i h1 h2 => absurd h2 (by omega)⟩

theorem forall₂_right {α β : Type} {R : α → β → Prop} {l : List α} {l' : List β} (h : List.Forall₂ R l l') {b : β}
    (hb : b ∈ l') : ∃ a ∈ l, R a b := by
  induction h with
  | nil => simp at hb
  | cons h1 _ ih =>
    rcases List.mem_cons.1 hb with rfl | hb
    · exact ⟨_, by simp, h1⟩
    · obtain ⟨a, h2, h3⟩ := ih hb
      exact ⟨a, by simp [h2], h3⟩

theorem forall₂_to {α β : Type} {R : α → β → Prop} {l : List α} {l' : List β} (h : List.Forall₂ R l l') {a : α}
    (ha : a ∈ l) : ∃ b ∈ l', R a b := by
  induction h with
  | nil => simp at ha
  | cons h1 _ ih =>
    rcases List.mem_cons.1 ha with rfl | ha
    · exact ⟨_, by simp, h1⟩
    · obtain ⟨b, h2, h3⟩ := ih ha
      exact ⟨b, by simp [h2], h3⟩

/-- One polygon. -/
theorem polygon_spec (f : FacetIn C) (hI : Inv (simplexTopo 2) f.mesh) (hu : UniqueVids f.mesh) {vs : List Nat}
    (hne : vs ≠ []) (hlt : ∀ v ∈ vs, v < f.mesh.verts.length) (hd : ∀ a b, Side vs a b → a ≠ b) :
    ∃ m' ls lo, f.polygon vs = .ok ⟨m', f.lines ++ ls, f.loose ++ lo⟩ ∧ FacetMade f.mesh m' [vs] ls lo := by
  match vs, hne with
  | [v], _ =>
    refine ⟨f.mesh, [], [v], by simp [FacetIn.polygon], hI, .refl _, fun _ _ => rfl, by simp, ?_, ?_,
      fun i h1 h2 => absurd h2 (by omega)⟩
    · intro ws hws a b hab
      rw [List.mem_singleton] at hws
      subst hws
      exact absurd hab.1 (by simp)
    · intro x
      simp
  | [v, w], _ =>
    have hs : Side [v, w] v w := ⟨le_refl 2, 0, by simp, by simp, by simp⟩
    have hl := makeLines_spec [(v, w)] f.mesh hI hu (by
      intro p hp
      rw [List.mem_singleton] at hp
      subst hp
      exact ⟨hd v w hs, hlt v (by simp), hlt w (by simp)⟩)
    refine ⟨_, _, [], by simp only [FacetIn.polygon, List.append_nil], hl.inv, hl.ext, hl.higher, ?_, ?_, by simp, hl.new⟩
    · intro s hs'
      obtain ⟨p, hp, hp'⟩ := forall₂_right hl.lines hs'
      rw [List.mem_singleton] at hp
      subst hp
      exact ⟨_, by simp, v, w, hs, hp'⟩
    · intro ws hws a b hab
      rw [List.mem_singleton] at hws
      subst hws
      obtain ⟨s, h1, h2⟩ := forall₂_to hl.lines (a := (v, w)) (by simp)
      refine ⟨s, h1, ?_⟩
      obtain ⟨-, i, hi, h3, h4⟩ := hab
      have : i = 0 ∨ i = 1 := by simp at hi; omega
      rcases this with rfl | rfl
      · simp only [List.getElem?_cons_zero, Option.some.injEq] at h3
        simp only [List.length_cons, List.length_nil, Nat.zero_add, Nat.reduceAdd, Nat.reduceMod,
          List.getElem?_cons_succ, List.getElem?_cons_zero, Option.some.injEq] at h4
        subst h3 h4
        exact h2
      · simp only [List.getElem?_cons_succ, List.getElem?_cons_zero, Option.some.injEq] at h3
        simp only [List.length_cons, List.length_nil, Nat.zero_add, Nat.reduceAdd, Nat.reduceMod,
          List.getElem?_cons_zero, Option.some.injEq] at h4
        subst h3 h4
        exact h2.symm
  | v :: w :: x :: l, _ =>
    have hside : ∀ a b, (a, b) ∈ closedSides (v :: w :: x :: l) ↔ Side (v :: w :: x :: l) a b := by
      intro a b
      rw [mem_closedSides]
      unfold Side
      simp
    have hl := makeLines_spec (closedSides (v :: w :: x :: l)) f.mesh hI hu (by
      rintro ⟨a, b⟩ hp
      have hs := (hside a b).1 hp
      exact ⟨hd a b hs, hlt a hs.mem.1, hlt b hs.mem.2⟩)
    refine ⟨_, _, [], by simp only [FacetIn.polygon, List.append_nil], hl.inv, hl.ext, hl.higher, ?_, ?_, by simp, hl.new⟩
    · intro s hs'
      obtain ⟨⟨a, b⟩, hp, hp'⟩ := forall₂_right hl.lines hs'
      exact ⟨_, by simp, a, b, (hside a b).1 hp, hp'⟩
    · intro ws hws a b hab
      rw [List.mem_singleton] at hws
      subst hws
      exact forall₂_to hl.lines ((hside a b).2 hab)

/-- The polygons of a facet: existing ids, at least one corner, and sides with different ends. -/
def PolygonsOK (ids : List Int) (polygons : List (List Int)) : Prop :=
  ∀ p ∈ polygons, p ≠ [] ∧ (∀ i ∈ p, i ∈ ids) ∧ ∀ a b, Side p a b → a ≠ b

theorem readPolygons_reads : ∀ (polygons : List (List Int)) (ls : List (List (Tok C))) (f : FacetIn C),
    Inv (simplexTopo 2) f.mesh → UniqueVids f.mesh → PolygonsOK (f.mesh.verts.map (·.id)) polygons →
    List.Forall₂ (fun (p : List Int) l => (.int p.length :: p.map .int) <+: l) polygons ls →
    ∃ m' lines loose polys, (readPolygons polygons.length f).Reads ls ⟨m', f.lines ++ lines, f.loose ++ loose⟩ ∧
      polys.map (·.map f.mesh.vid) = polygons ∧ (∀ p ∈ polys, ∀ v ∈ p, v < f.mesh.verts.length) ∧
      FacetMade f.mesh m' polys lines loose
  | [], _, f, hI, hu, _, h => by
    cases h
    refine ⟨f.mesh, [], [], [], ?_, rfl, by simp, .none hI⟩
    rw [List.append_nil, List.append_nil]
    exact .done f
  | p :: polygons, _, f, hI, hu, hp, h => by
    cases h with
    | cons h1 h2 =>
      obtain ⟨hne, hids, hd⟩ := hp p (by simp)
      obtain ⟨vs, h3, h4, h5⟩ := polygonLine_spec hids h1
      obtain ⟨m₁, l₁, lo₁, h6, h7⟩ := polygon_spec f hI hu (vs := vs) (by
          rintro rfl
          exact hne h4.symm) h5 (fun a b hab => by
          rintro rfl
          exact hd _ _ (h4 ▸ hab.map f.mesh.vid) rfl)
      have hv := h7.ext.verts
      have hvid : m₁.vid = f.mesh.vid := by
        funext s
        simp only [Mesh.vid, hv]
      obtain ⟨m₂, l₂, lo₂, polys, h8, h9, h10, h11⟩ := readPolygons_reads polygons _ ⟨m₁, f.lines ++ l₁, f.loose ++ lo₁⟩ h7.inv
        (hu.of_verts hv) (by
          intro q hq
          have := hp q (by simp [hq])
          rw [hv]
          exact this) h2
      refine ⟨m₂, l₁ ++ l₂, lo₁ ++ lo₂, vs :: polys, ?_, ?_, ?_, h7.append h11⟩
      · rw [← List.append_assoc, ← List.append_assoc]
        exact .lineThen (.liftThen h3 (.liftThen h6 h8))
      · rw [List.map_cons, h4]
        simp only [hvid] at h9
        rw [h9]
      · intro q hq v hvq
        rcases List.mem_cons.1 hq with rfl | hq
        · exact h5 v hvq
        · have := h10 q hq v hvq
          rw [← hv]
          exact this

theorem readHoles_reads (ofInt : Int → C) {dim : Nat} : ∀ (holes : List (Int × List (Coord C))) (ls : List (List (Tok C))),
    (∀ x ∈ holes, x.2.length = dim) → List.Forall₂ (fun x l => (.int x.1 :: x.2.map coordTok) <+: l) holes ls →
    (readHoles ofInt dim holes.length).Reads ls (holes.map fun x => x.2.map (coordVal ofInt))
  | [], _, _, h => by
    cases h
    exact .done _
  | x :: holes, _, hd, h => by
    cases h with
    | @cons _ l _ ls h1 h2 =>
      exact .lineThen (.liftThen (holeLine_ok ofInt (hd x (by simp)) h1)
        ((readHoles_reads ofInt holes ls (fun y hy => hd y (by simp [hy])) h2).thenDone _))

theorem readSeeds_reads (ofInt : Int → C) {dim : Nat} : ∀ (seeds : List (Int × List (Coord C) × Int))
    (ls : List (List (Tok C))), (∀ x ∈ seeds, x.2.1.length = dim) →
    List.Forall₂ (fun x l => (.int x.1 :: (x.2.1.map coordTok ++ [.int x.2.2])) <+: l) seeds ls →
    (readSeeds ofInt dim seeds.length).Reads ls (seeds.map fun x => (x.2.1.map (coordVal ofInt), x.2.2))
  | [], _, _, h => by
    cases h
    exact .done _
  | x :: seeds, _, hd, h => by
    cases h with
    | @cons _ l _ ls h1 h2 =>
      exact .lineThen (.liftThen (seedLine_ok ofInt (hd x (by simp)) h1)
        ((readSeeds_reads ofInt seeds ls (fun y hy => hd y (by simp [hy])) h2).thenDone _))

end VG
