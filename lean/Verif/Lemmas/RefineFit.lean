import Verif.Lemmas.RefineNames
import Verif.Props.RefineMesh

/-!
How often three vertices of a refined mesh of tetrahedra are together in a cell.
-/

namespace VG

/-- The two vertices of which a label is made. -/
def labelEnds (l : Nat) : Nat × Nat :=
  [(0, 0), (1, 1), (2, 2), (3, 3), (0, 1), (0, 2), (0, 3), (1, 2), (1, 3), (2, 3)].getD l (0, 0)

theorem labelEnds_lt (l : Nat) : (labelEnds l).1 < 4 ∧ (labelEnds l).2 < 4 := by
  by_cases h : l < 10
  · interval_cases l <;> decide
  · unfold labelEnds
    rw [List.getD_eq_default _ _ (by simp; omega)]; decide

theorem labelName_ends (id : Nat → Int) {l : Nat} (hl : l < 10) :
    labelName id l = ptName (id (labelEnds l).1) (id (labelEnds l).2) := by
  interval_cases l <;> rfl

theorem onTetFace_ends : ∀ q ∈ tetFaces, ∀ l < 10, (onTetFace q.1 q.2.1 q.2.2 l = true ↔
    ((labelEnds l).1 = q.1 ∨ (labelEnds l).1 = q.2.1 ∨ (labelEnds l).1 = q.2.2) ∧
    ((labelEnds l).2 = q.1 ∨ (labelEnds l).2 = q.2.1 ∨ (labelEnds l).2 = q.2.2)) := by decide

theorem face_without : ∀ a < 4, ∃ q ∈ tetFaces, ∀ x < 4, x ≠ a → x = q.1 ∨ x = q.2.1 ∨ x = q.2.2 := by decide

theorem ptName_fst {x y z : Int} (h : x = z ∨ y = z) : (ptName x y).1 = z ∨ (ptName x y).2 = z := by
  unfold ptName; dsimp only; omega

theorem ptName_parts {x y : Int} : ((ptName x y).1 = x ∨ (ptName x y).1 = y) ∧ ((ptName x y).2 = x ∨ (ptName x y).2 = y) := by
  unfold ptName; dsimp only; omega

theorem faceTriangle1_covers {K : Type} [LT K] {mark : Int → Int → Bool} {glen : Int → Int → K} {x y z : Int} {S : Finset (Int × Int)}
    (h : FaceTriangle1 mark glen x y z S) : (∃ s ∈ S, s.1 = x ∨ s.2 = x) ∧ (∃ s ∈ S, s.1 = y ∨ s.2 = y) ∧ ∃ s ∈ S, s.1 = z ∨ s.2 = z := by
  have mem : ∀ {a b c : Int × Int}, S = {a, b, c} → a ∈ S ∧ b ∈ S ∧ c ∈ S := by
    intro a b c e; rw [e]; simp
  have p1 : ∀ {a b : Int}, (ptName a b).1 = a ∨ (ptName a b).2 = a := fun {a b} => ptName_fst (Or.inl rfl)
  have p2 : ∀ {a b : Int}, (ptName a b).1 = b ∨ (ptName a b).2 = b := fun {a b} => ptName_fst (Or.inr rfl)
  rcases h with ⟨_, _, _, e⟩ | ⟨_, _, _, e⟩ | ⟨_, _, _, e | ⟨_, e | e⟩⟩ | ⟨_, _, _, e | e⟩ <;> obtain ⟨m1, m2, m3⟩ := mem e
  · exact ⟨⟨_, m1, p1⟩, ⟨_, m2, p1⟩, ⟨_, m3, p1⟩⟩
  · exact ⟨⟨_, m1, p1⟩, ⟨_, m2, p2⟩, ⟨_, m3, p1⟩⟩
  · exact ⟨⟨_, m1, p1⟩, ⟨_, m2, p2⟩, ⟨_, m3, p2⟩⟩
  · exact ⟨⟨_, m1, p1⟩, ⟨_, m2, p1⟩, ⟨_, m3, p1⟩⟩
  · exact ⟨⟨_, m1, p1⟩, ⟨_, m1, p2⟩, ⟨_, m3, p1⟩⟩
  · exact ⟨⟨_, m1, p1⟩, ⟨_, m2, p2⟩, ⟨_, m3, p2⟩⟩
  · exact ⟨⟨_, m1, p1⟩, ⟨_, m1, p2⟩, ⟨_, m2, p2⟩⟩

theorem faceTriangle_covers {K : Type} [LT K] {mark : Int → Int → Bool} {glen : Int → Int → K} {x y z : Int} {S : Finset (Int × Int)}
    (h : FaceTriangle mark glen x y z S) : (∃ s ∈ S, s.1 = x ∨ s.2 = x) ∧ (∃ s ∈ S, s.1 = y ∨ s.2 = y) ∧ ∃ s ∈ S, s.1 = z ∨ s.2 = z := by
  rcases h with h | h | h | h | h | h <;> obtain ⟨h1, h2, h3⟩ := faceTriangle1_covers h
  · exact ⟨h1, h2, h3⟩
  · exact ⟨h1, h3, h2⟩
  · exact ⟨h2, h1, h3⟩
  · exact ⟨h3, h1, h2⟩
  · exact ⟨h2, h3, h1⟩
  · exact ⟨h3, h2, h1⟩

section
variable {P : Type} {K : Type} [Field K] [LinearOrder K] {src : SegState P} {dist : P → P → K}
  {mark : Nat → Bool} {r : RefSt P} {C : Nat → List (List Nat)} {R : Nat → List (Option (Vtx P))} {w ev : Nat → Nat}

/-- The edge between two vertices of a cell. -/
theorem edge_slot {m : Mesh P} (hI : Inv (simplexTopo 3) m) {t : Nat} (ht : t < m.count 3) {a b : Nat} (ha : a < 4) (hb : b < 4) (hab : a ≠ b) :
    ∃ f, (m.elems 1)[(m.bndOf 3 t 1).getD (tetEdge a b) 0]? = some f ∧ f.verts.Perm [(m.vertsOf 3 t).getD a 0, (m.vertsOf 3 t).getD b 0] := by
  have he : edgeIdx (3 + 1) = [[0, 1], [0, 2], [0, 3], [1, 2], [1, 3], [2, 3]] := by decide
  obtain ⟨hlen, h⟩ := simplex_edge (by omega) hI ht
  rw [he] at hlen
  have hp : tetEdge a b < (m.bndOf 3 t 1).length := by
    rw [hlen]
    clear h hlen hI ht
    interval_cases a <;> interval_cases b <;> decide
  obtain ⟨a', b', f, e1, _, _, e2, e3⟩ := h _ _ (List.getElem?_eq_getElem hp)
  rw [List.getD_eq_getElem _ _ hp]
  refine ⟨f, e2, e3.trans ?_⟩
  rw [he] at e1
  have : (a' = a ∧ b' = b) ∨ (a' = b ∧ b' = a) := by
    clear h hlen hI ht hp e2 e3
    interval_cases a <;> interval_cases b <;> simp [tetEdge] at e1 hab ⊢ <;> omega
  rcases this with ⟨rfl, rfl⟩ | ⟨rfl, rfl⟩
  · exact List.Perm.refl _
  · exact List.Perm.swap _ _ _

/-- A marked edge between two vertices of the refined mesh. -/
def MarkedPair (m : Mesh P) (mark : Nat → Bool) (w : Nat → Nat) (x y : Int) : Prop :=
  ∃ t < m.count 3, ∃ a < 4, ∃ b < 4, a ≠ b ∧ outId 3 m w t a = x ∧ outId 3 m w t b = y ∧
    mark ((m.bndOf 3 t 1).getD (tetEdge a b) 0) = true

/-- The marks in terms of the vertices of the refined mesh. -/
noncomputable def outMark (m : Mesh P) (mark : Nat → Bool) (w : Nat → Nat) (x y : Int) : Bool :=
  @decide (MarkedPair m mark w x y) (Classical.propDecidable _)

theorem tetEdge_symm : ∀ a < 4, ∀ b < 4, tetEdge a b = tetEdge b a := by decide

theorem outMark_symm (m : Mesh P) (mark : Nat → Bool) (w : Nat → Nat) (x y : Int) : outMark m mark w x y = outMark m mark w y x := by
  unfold outMark
  refine decide_eq_decide.2 ⟨?_, ?_⟩
  all_goals
    rintro ⟨t, ht, a, ha, b, hb, hab, e1, e2, hm⟩
    exact ⟨t, ht, b, hb, a, ha, hab.symm, e2, e1, by rw [tetEdge_symm b hb a ha]; exact hm⟩

omit [Field K] [LinearOrder K] in
theorem outMark_eq {kids : List (Option (Vtx P)) → (Nat → Bool) → Option (List (List Nat))}
    (h : Refined 3 src kids mark r C R w ev) (hI : Inv (simplexTopo 3) src.mesh) {t : Nat} (ht : t < src.mesh.count 3)
    {a b : Nat} (ha : a < 4) (hb : b < 4) (hab : a ≠ b) :
    mark ((src.mesh.bndOf 3 t 1).getD (tetEdge a b) 0) = outMark src.mesh mark w (outId 3 src.mesh w t a) (outId 3 src.mesh w t b) := by
  rw [Bool.eq_iff_iff]
  unfold outMark
  refine Iff.trans ?_ (@decide_eq_true_iff _ (Classical.propDecidable _)).symm
  constructor
  · intro hm
    exact ⟨t, ht, a, ha, b, hb, hab, rfl, rfl, hm⟩
  · rintro ⟨t', ht', a', ha', b', hb', hab', e1, e2, hm⟩
    rw [h.outId_inj hI (by omega) ht' ht (by omega) (by omega)] at e1 e2
    obtain ⟨f, f1, f2⟩ := edge_slot hI ht ha hb hab
    obtain ⟨f', f1', f2'⟩ := edge_slot hI ht' ha' hb' hab'
    rw [e1, e2] at f2'
    rw [hI.slot_unique (d := 1) (by decide) f1 f1' (f2.trans f2'.symm)]
    exact hm

/-- Distance of vertices given by handles. -/
def outLen (m : Mesh P) (dist : P → P → K) (x y : Int) : K :=
  match m.verts[x.toNat]?, m.verts[y.toNat]? with
  | some a, some b => dist a.pt b.pt
  | _, _ => 0

omit [Field K] [LinearOrder K] in
theorem labelName_congr {id id' : Nat → Int} (h : ∀ a < 4, id a = id' a) (l : Nat) : labelName id l = labelName id' l := by
  have h0 := h 0 (by omega)
  have h1 := h 1 (by omega)
  have h2 := h 2 (by omega)
  have h3 := h 3 (by omega)
  unfold labelName
  split <;> simp only [h0, h1, h2, h3]

theorem Induced.congr {id id' : Nat → Int} (h : ∀ a < 4, id a = id' a) {cells : List (List Nat)} {a b c : Int} {S : Finset (Int × Int)} :
    Induced id cells a b c S ↔ Induced id' cells a b c S := by
  unfold Induced
  simp only [labelName_congr h]

/-- The children of one cell: the triangles of its faces, and how often three labels are together. -/
theorem Refined.tet_children (h : Refined 3 src (tetKids dist) mark r C R w ev) (hd : ∀ a b, dist a b = dist b a)
    (hI : Inv (simplexTopo 3) src.mesh) {t : Nat} (ht : t < src.mesh.count 3) :
    (∀ a < 4, ∀ b < 4, ∀ c < 4, a ≠ b → a ≠ c → b ≠ c → ∀ S,
      Induced (outId 3 src.mesh w t) (C t) (outId 3 src.mesh w t a) (outId 3 src.mesh w t b) (outId 3 src.mesh w t c) S ↔
        FaceTriangle (outMark src.mesh mark w) (outLen r.out.mesh dist) (outId 3 src.mesh w t a) (outId 3 src.mesh w t b)
          (outId 3 src.mesh w t c) S) ∧
    ∀ g : List Nat, g.Nodup → g.length = 3 → (∃ c ∈ C t, g ⊆ c) →
      ((∃ q ∈ tetFaces, ∀ l ∈ g, onTetFace q.1 q.2.1 q.2.2 l = true) → ((C t).filter (fun c => decide (g ⊆ c))).length = 1) ∧
      ((¬ ∃ q ∈ tetFaces, ∀ l ∈ g, onTetFace q.1 q.2.1 q.2.2 l = true) → ((C t).filter (fun c => decide (g ⊆ c))).length = 2) := by
  obtain ⟨hvn, hvl, _⟩ := simplex_verts (by omega) hI ht
  have hrec := h.recs t ht
  have hmade := h.made t ht
  unfold tetKids at hmade
  generalize hid' : (fun a : Nat => ((R t)[a]?.join.map (fun v : Vtx P => v.id)).getD 0) = id' at hmade
  have hidd : ∀ a < 4, id' a = outId 3 src.mesh w t a := by
    intro a ha
    obtain ⟨x, h1, h2⟩ := hrec a ha
    rw [← hid']
    simp only [h1, Option.join_some, Option.map_some, Option.getD_some]
    exact h.vid h2
  have hid : ∀ a < 4, ∀ b < 4, id' a = id' b → a = b := by
    intro a ha b hb e
    rw [hidd a ha, hidd b hb, h.outId_inj hI (by omega) ht ht (by omega) (by omega), List.getD_eq_getElem _ _ (by omega),
      List.getD_eq_getElem _ _ (by omega)] at e
    exact hvn.getElem_inj_iff.1 e
  have hlen : ∀ a < 4, ∀ b < 4, vtxDist dist (R t) a b = outLen r.out.mesh dist (id' a) (id' b) := by
    intro a ha b hb
    obtain ⟨x, h1, h2⟩ := hrec a ha
    obtain ⟨y, h3, h4⟩ := hrec b hb
    rw [hidd a ha, hidd b hb]
    unfold vtxDist outLen outId
    simp only [Int.toNat_natCast, h1, h2, h3, h4, Option.join_some]
  constructor
  · obtain ⟨cells, e1, e2⟩ := face_triangles (vtxDist dist (R t)) (vtxDist_symm hd (R t)) (outLen r.out.mesh dist) (outMark src.mesh mark w)
      (outMark_symm _ _ _) id' hid hlen (vtxDist dist (R t)) (fun i => mark ((src.mesh.bndOf 3 t 1).getD i 0)) (by
        have he := fun a ha b hb hab => outMark_eq h hI ht (a := a) (b := b) ha hb hab
        rw [hidd 0 (by omega), hidd 1 (by omega), hidd 2 (by omega), hidd 3 (by omega)]
        rw [← he 0 (by omega) 1 (by omega) (by omega), ← he 0 (by omega) 2 (by omega) (by omega),
          ← he 0 (by omega) 3 (by omega) (by omega), ← he 1 (by omega) 2 (by omega) (by omega),
          ← he 1 (by omega) 3 (by omega) (by omega), ← he 2 (by omega) 3 (by omega) (by omega)]
        rfl)
    rw [hmade] at e1
    have e1 := Option.some.inj e1
    subst e1
    intro a ha b hb c hc hab hac hbc S
    have := e2 a ha b hb c hc hab hac hbc S
    rw [Induced.congr hidd, hidd a ha, hidd b hb, hidd c hc] at this
    exact this
  · obtain ⟨cells, e1, e2⟩ := C34_inside (vtxDist dist (R t)) (vtxDist_symm hd (R t)) (vtxDist dist (R t)) id' hid
      (fun i => mark ((src.mesh.bndOf 3 t 1).getD i 0))
    rw [hmade] at e1
    have e1 := Option.some.inj e1
    subst e1
    intro g hg hg3 hex
    have hon : ∀ l, (onTetFace 0 1 2 l = true ↔ l ∈ [0, 1, 2, 4, 5, 7]) ∧ (onTetFace 0 1 3 l = true ↔ l ∈ [0, 1, 3, 4, 6, 8]) ∧
        (onTetFace 0 2 3 l = true ↔ l ∈ [0, 2, 3, 5, 6, 9]) ∧ (onTetFace 1 2 3 l = true ↔ l ∈ [1, 2, 3, 7, 8, 9]) := by
      intro l
      simp [onTetFace, tetEdge, or_assoc]
    have hiff : (∃ q ∈ tetFaces, ∀ l ∈ g, onTetFace q.1 q.2.1 q.2.2 l = true) ↔
        ((∀ l ∈ g, l ∈ [0, 1, 2, 4, 5, 7]) ∨ (∀ l ∈ g, l ∈ [0, 1, 3, 4, 6, 8]) ∨ (∀ l ∈ g, l ∈ [0, 2, 3, 5, 6, 9]) ∨
            (∀ l ∈ g, l ∈ [1, 2, 3, 7, 8, 9])) := by
      simp only [tetFaces, List.mem_cons, List.not_mem_nil, or_false, exists_eq_or_imp, exists_eq_left,
        (hon _).1, (hon _).2.1, (hon _).2.2.1, (hon _).2.2.2]
    rw [hiff, e2 g hg hg3 hex]
    exact ⟨fun hq => if_pos hq, fun hq => if_neg hq⟩

theorem Refined.label_lt {kids : List (Option (Vtx P)) → (Nat → Bool) → Option (List (List Nat))}
    (h : Refined 3 src kids mark r C R w ev) {t : Nat} (ht : t < src.mesh.count 3) {c : List Nat} (hc : c ∈ C t) {l : Nat} (hl : l ∈ c) :
    UsedLabel 3 src.mesh mark t l ∧ l < 10 := by
  have h1 := (h.labels t ht c hc).2.2 l hl
  refine ⟨h1, ?_⟩
  have he : (edgeIdx (3 + 1)).length = 6 := by decide
  rw [he] at h1
  omega

theorem Refined.tet_label_iff {kids : List (Option (Vtx P)) → (Nat → Bool) → Option (List (List Nat))}
    (h : Refined 3 src kids mark r C R w ev) (hI : Inv (simplexTopo 3) src.mesh) {t t' : Nat} (ht : t < src.mesh.count 3)
    (ht' : t' < src.mesh.count 3) {c c' : List Nat} (hc : c ∈ C t) (hc' : c' ∈ C t') {l l' : Nat} (hl : l ∈ c) (hl' : l' ∈ c') :
    labelVertex 3 src.mesh w ev t l = labelVertex 3 src.mesh w ev t' l' ↔
      labelName (outId 3 src.mesh w t) l = labelName (outId 3 src.mesh w t') l' := by
  obtain ⟨u, hlt⟩ := h.label_lt ht hc hl
  obtain ⟨u', hlt'⟩ := h.label_lt ht' hc' hl'
  rw [h.label_iff hI (by omega) ht ht' u u', simplexName_tet _ hlt, simplexName_tet _ hlt']

theorem Refined.label_inj {kids : List (Option (Vtx P)) → (Nat → Bool) → Option (List (List Nat))}
    (h : Refined 3 src kids mark r C R w ev) (hI : Inv (simplexTopo 3) src.mesh) {t : Nat} (ht : t < src.mesh.count 3)
    {c c' : List Nat} (hc : c ∈ C t) (hc' : c' ∈ C t) {l l' : Nat} (hl : l ∈ c) (hl' : l' ∈ c')
    (e : labelVertex 3 src.mesh w ev t l = labelVertex 3 src.mesh w ev t l') : l = l' := by
  rw [h.tet_label_iff hI ht ht hc hc' hl hl'] at e
  obtain ⟨hvn, hvl, _⟩ := simplex_verts (by omega) hI ht
  refine labelName_injective ?_ l (h.label_lt ht hc hl).2 l' (h.label_lt ht hc' hl').2 e
  intro a ha b hb e
  rw [h.outId_inj hI (by omega) ht ht (by omega) (by omega), List.getD_eq_getElem _ _ (by omega), List.getD_eq_getElem _ _ (by omega)] at e
  exact hvn.getElem_inj_iff.1 e

/-- Labels in a child, by their vertices. -/
theorem Refined.subset_iff {kids : List (Option (Vtx P)) → (Nat → Bool) → Option (List (List Nat))}
    (h : Refined 3 src kids mark r C R w ev) (hI : Inv (simplexTopo 3) src.mesh) {t : Nat} (ht : t < src.mesh.count 3)
    {c c' : List Nat} (hc : c ∈ C t) (hc' : c' ∈ C t) {g : List Nat} (hg : g ⊆ c) :
    g.map (labelVertex 3 src.mesh w ev t) ⊆ c'.map (labelVertex 3 src.mesh w ev t) ↔ g ⊆ c' := by
  constructor
  · intro hs l hl
    obtain ⟨l', hl', e⟩ := List.mem_map.1 (hs (List.mem_map_of_mem hl))
    rw [← h.label_inj hI ht hc' hc hl' (hg hl) e]
    exact hl'
  · intro hs x hx
    obtain ⟨l, hl, rfl⟩ := List.mem_map.1 hx
    exact List.mem_map_of_mem (hs hl)

/-- A vertex of the cell `t` which is an end of a label in `g` is a vertex of every cell with a child with the vertices of `g`. -/
theorem Refined.end_mem {kids : List (Option (Vtx P)) → (Nat → Bool) → Option (List (List Nat))}
    (h : Refined 3 src kids mark r C R w ev) (hI : Inv (simplexTopo 3) src.mesh) {t t' : Nat} (ht : t < src.mesh.count 3)
    (ht' : t' < src.mesh.count 3) {c c' : List Nat} (hc : c ∈ C t) (hc' : c' ∈ C t') {g : List Nat} (hg : g ⊆ c)
    (hs : g.map (labelVertex 3 src.mesh w ev t) ⊆ c'.map (labelVertex 3 src.mesh w ev t')) {l : Nat} (hl : l ∈ g) {a : Nat} (ha : a < 4)
    (hla : (labelName (outId 3 src.mesh w t) l).1 = outId 3 src.mesh w t a ∨ (labelName (outId 3 src.mesh w t) l).2 = outId 3 src.mesh w t a) :
    (src.mesh.vertsOf 3 t).getD a 0 ∈ src.mesh.vertsOf 3 t' := by
  obtain ⟨l', hl', e⟩ := List.mem_map.1 (hs (List.mem_map_of_mem hl))
  rw [h.tet_label_iff hI ht' ht hc' hc hl' (hg hl)] at e
  rw [← e, labelName_ends _ (h.label_lt ht' hc' hl').2] at hla
  obtain ⟨_, hvl', _⟩ := simplex_verts (by omega) hI ht'
  have hlt := labelEnds_lt l'
  have : ∃ b < 4, outId 3 src.mesh w t' b = outId 3 src.mesh w t a := by
    have hp := @ptName_parts (outId 3 src.mesh w t' (labelEnds l').1) (outId 3 src.mesh w t' (labelEnds l').2)
    rcases hla with hla | hla
    · rcases hp.1 with hp | hp
      · exact ⟨_, hlt.1, by rw [← hp, hla]⟩
      · exact ⟨_, hlt.2, by rw [← hp, hla]⟩
    · rcases hp.2 with hp | hp
      · exact ⟨_, hlt.1, by rw [← hp, hla]⟩
      · exact ⟨_, hlt.2, by rw [← hp, hla]⟩
  obtain ⟨b, hb, e⟩ := this
  rw [h.outId_inj hI (by omega) ht' ht (by omega) (by omega)] at e
  rw [← e]
  exact getD_mem (by omega)

theorem filter_length_sum {α : Type} (l : List α) (p : α → Bool) : (l.filter p).length = (l.map (fun x => if p x then 1 else 0)).sum := by
  induction l with
  | nil => rfl
  | cons a l ih =>
    rw [List.filter_cons, List.map_cons, List.sum_cons, ← ih]
    cases p a
    · simp
    · simp [Nat.add_comm]

theorem nat_sum_single (N t x : Nat) (ht : t < N) : ((List.range N).map (fun u => if u = t then x else 0)).sum = x := by
  induction N with
  | zero => omega
  | succ N ih =>
    rw [List.range_succ, List.map_append, List.sum_append]
    by_cases h : t = N
    · subst h
      have : (List.range t).map (fun u => if u = t then x else 0) = (List.range t).map (fun _ => 0) :=
        List.map_congr_left (fun u hu => if_neg (by have := List.mem_range.1 hu; omega))
      rw [this]
      simp
    · rw [ih (by omega)]
      simp [Ne.symm h]

/-- Three labels of a child on a face of its parent: their vertices are together in as many cells as the vertices of the face. -/
theorem Refined.face_count (h : Refined 3 src (tetKids dist) mark r C R w ev) (hd : ∀ a b, dist a b = dist b a)
    (hI : Inv (simplexTopo 3) src.mesh) {t : Nat} (ht : t < src.mesh.count 3) {c : List Nat} (hc : c ∈ C t) {g : List Nat}
    (hg : g.Nodup) (hg3 : g.length = 3) (hgc : g ⊆ c) {q : Nat × Nat × Nat} (hq : q ∈ tetFaces)
    (hon : ∀ l ∈ g, onTetFace q.1 q.2.1 q.2.2 l = true) :
    cellsWith r.out.mesh 3 (g.map (labelVertex 3 src.mesh w ev t)) =
      cellsWith src.mesh 3 [(src.mesh.vertsOf 3 t).getD q.1 0, (src.mesh.vertsOf 3 t).getD q.2.1 0, (src.mesh.vertsOf 3 t).getD q.2.2 0] := by
  obtain ⟨hvn, hvl, _⟩ := simplex_verts (by omega) hI ht
  obtain ⟨qa, qb, qc, qab, qac, qbc⟩ := tetFaces_lt q hq
  have hidi : ∀ t' < src.mesh.count 3, ∀ a < 4, ∀ b < 4, outId 3 src.mesh w t' a = outId 3 src.mesh w t' b → a = b := by
    intro t' ht' a ha b hb e
    obtain ⟨hvn, hvl, _⟩ := simplex_verts (by omega) hI ht'
    rw [h.outId_inj hI (by omega) ht' ht' (by omega) (by omega), List.getD_eq_getElem _ _ (by omega), List.getD_eq_getElem _ _ (by omega)] at e
    exact hvn.getElem_inj_iff.1 e
  have hlt : ∀ l ∈ g, l < 10 := fun l hl => (h.label_lt ht hc (hgc hl)).2
  -- the names
  obtain ⟨S, hS⟩ : ∃ S : Finset (Int × Int), S = g.toFinset.image (labelName (outId 3 src.mesh w t)) := ⟨_, rfl⟩
  have hcard : S.card = 3 := by
    rw [hS, Finset.card_image_of_injOn, List.toFinset_card_of_nodup hg, hg3]
    intro x hx y hy hxy
    exact labelName_injective (hidi t ht) x (hlt x (by simpa using hx)) y (hlt y (by simpa using hy)) hxy
  have hface : ∀ l ∈ g, _ := fun l hl => (onTetFace_iff_name (hidi t ht) hq (hlt l hl)).1 (hon l hl)
  have hind : Induced (outId 3 src.mesh w t) (C t) (outId 3 src.mesh w t q.1) (outId 3 src.mesh w t q.2.1) (outId 3 src.mesh w t q.2.2) S := by
    refine ⟨hcard, fun s hs => ?_, c, hc, fun s hs => ?_⟩
    · rw [hS] at hs
      obtain ⟨l, hl, rfl⟩ := Finset.mem_image.1 hs
      exact hface l (List.mem_toFinset.1 hl)
    · rw [hS] at hs
      obtain ⟨l, hl, rfl⟩ := Finset.mem_image.1 hs
      exact ⟨l, hgc (List.mem_toFinset.1 hl), rfl⟩
  have htri := ((h.tet_children hd hI ht).1 q.1 qa q.2.1 qb q.2.2 qc qab qac qbc S).1 hind
  obtain ⟨c1, c2, c3⟩ := faceTriangle_covers htri
  have hends : ∀ a < 4, (∃ s ∈ S, s.1 = outId 3 src.mesh w t a ∨ s.2 = outId 3 src.mesh w t a) → ∃ l ∈ g,
      (labelName (outId 3 src.mesh w t) l).1 = outId 3 src.mesh w t a ∨ (labelName (outId 3 src.mesh w t) l).2 = outId 3 src.mesh w t a := by
    rintro a _ ⟨s, hs, e⟩
    rw [hS] at hs
    obtain ⟨l, hl, rfl⟩ := Finset.mem_image.1 hs
    exact ⟨l, List.mem_toFinset.1 hl, e⟩
  rw [h.count_with]
  unfold cellsWith
  rw [filter_length_sum (List.range (src.mesh.count 3))]
  congr 1
  refine List.map_congr_left (fun t' ht' => ?_)
  have ht' := List.mem_range.1 ht'
  obtain ⟨hvn', hvl', _⟩ := simplex_verts (by omega) hI ht'
  by_cases hsub : [(src.mesh.vertsOf 3 t).getD q.1 0, (src.mesh.vertsOf 3 t).getD q.2.1 0, (src.mesh.vertsOf 3 t).getD q.2.2 0] ⊆ src.mesh.vertsOf 3 t'
  · rw [if_pos (by simpa using hsub)]
    have pos : ∀ v ∈ src.mesh.vertsOf 3 t', ∃ a < 4, (src.mesh.vertsOf 3 t').getD a 0 = v := by
      intro v hv
      obtain ⟨i, hi, e⟩ := List.getElem_of_mem hv
      exact ⟨i, by omega, by rw [List.getD_eq_getElem _ _ hi]; exact e⟩
    obtain ⟨a, ha, ea⟩ := pos _ (hsub (by simp : (src.mesh.vertsOf 3 t).getD q.1 0 ∈ _))
    obtain ⟨b, hb, eb⟩ := pos _ (hsub (by simp : (src.mesh.vertsOf 3 t).getD q.2.1 0 ∈ _))
    obtain ⟨d, hd', ed⟩ := pos _ (hsub (by simp : (src.mesh.vertsOf 3 t).getD q.2.2 0 ∈ _))
    have ia := (h.outId_inj hI (by omega) ht' ht (by omega) (by omega)).2 ea
    have ib := (h.outId_inj hI (by omega) ht' ht (by omega) (by omega)).2 eb
    have ic := (h.outId_inj hI (by omega) ht' ht (by omega) (by omega)).2 ed
    have hab : a ≠ b := fun e => qab (hidi t ht _ qa _ qb (by rw [← ia, ← ib, e]))
    have hac : a ≠ d := fun e => qac (hidi t ht _ qa _ qc (by rw [← ia, ← ic, e]))
    have hbc : b ≠ d := fun e => qbc (hidi t ht _ qb _ qc (by rw [← ib, ← ic, e]))
    obtain ⟨hface', hcnt'⟩ := h.tet_children hd hI ht'
    have hi' := hface' a ha b hb d hd' hab hac hbc S
    rw [ia, ib, ic] at hi'
    obtain ⟨_, hon', c', hc', hS'⟩ := hi'.2 htri
    -- the labels in the other cell
    have hex : ∀ l ∈ g, ∃ l' ∈ c', labelName (outId 3 src.mesh w t') l' = labelName (outId 3 src.mesh w t) l := fun l hl =>
      hS' _ (by rw [hS]; exact Finset.mem_image_of_mem _ (List.mem_toFinset.2 hl))
    have hlift : ∃ g' : List Nat, g' ⊆ c' ∧ g'.map (labelName (outId 3 src.mesh w t')) = g.map (labelName (outId 3 src.mesh w t)) := by
      clear hg hg3 hgc hon hlt hS hcard hface hS' hends
      induction g with
      | nil => exact ⟨[], by simp, rfl⟩
      | cons l g ih =>
        obtain ⟨l', hl', e⟩ := hex l (by simp)
        obtain ⟨g', h1, h2⟩ := ih (fun x hx => hex x (by simp [hx]))
        exact ⟨l' :: g', by simp [hl', h1], by rw [List.map_cons, List.map_cons, e, h2]⟩
    obtain ⟨g', hg'c, hg'n⟩ := hlift
    have hg'3 : g'.length = 3 := by rw [← hg3]; simpa using congrArg List.length hg'n
    have hg' : g'.Nodup := by
      have : (g'.map (labelName (outId 3 src.mesh w t'))).Nodup := by
        rw [hg'n]
        exact List.Nodup.map_on (fun x hx y hy e => labelName_injective (hidi t ht) x (hlt x hx) y (hlt y hy) e) hg
      exact List.Nodup.of_map _ this
    have hverts : g.map (labelVertex 3 src.mesh w ev t) = g'.map (labelVertex 3 src.mesh w ev t') := by
      have key : ∀ (g g' : List Nat), g ⊆ c → g' ⊆ c' → g'.map (labelName (outId 3 src.mesh w t')) = g.map (labelName (outId 3 src.mesh w t)) →
          g.map (labelVertex 3 src.mesh w ev t) = g'.map (labelVertex 3 src.mesh w ev t') := by
        intro g
        induction g with
        | nil => intro g' _ _ e; cases g' with
          | nil => rfl
          | cons x g' => simp at e
        | cons l g ih => intro g' h1 h2 e; cases g' with
          | nil => simp at e
          | cons x g' =>
            simp only [List.map_cons, List.cons.injEq] at e ⊢
            refine ⟨((h.tet_label_iff hI ht ht' hc hc' (h1 (by simp)) (h2 (by simp))).2 e.1.symm), ih g' ?_ ?_ e.2⟩
            · exact fun y hy => h1 (by simp [hy])
            · exact fun y hy => h2 (by simp [hy])
      exact key g g' hgc hg'c hg'n
    have hq' : ∃ q ∈ tetFaces, ∀ l ∈ g', onTetFace q.1 q.2.1 q.2.2 l = true := by
      have hlab : ∀ l ∈ g', _ := fun l hl => hon' _ (show labelName (outId 3 src.mesh w t') l ∈ S by
        have : labelName (outId 3 src.mesh w t') l ∈ g.map (labelName (outId 3 src.mesh w t)) := by
          rw [← hg'n]; exact List.mem_map_of_mem hl
        obtain ⟨y, hy, e⟩ := List.mem_map.1 this
        rw [hS, ← e]; exact Finset.mem_image_of_mem _ (List.mem_toFinset.2 hy))
      rw [← ia, ← ib, ← ic] at hlab
      have hlt' : ∀ l ∈ g', l < 10 := fun l hl => (h.label_lt ht' hc' (hg'c hl)).2
      rcases sorted_face a ha b hb d hd' hab hac hbc with hm | hm | hm | hm | hm | hm <;> refine ⟨_, hm, fun l hl => ?_⟩ <;>
        rw [onTetFace_iff_name (hidi t' ht') hm (hlt' l hl)] <;> have := hlab l hl <;> dsimp only <;> omega
    have := (hcnt' g' hg' hg'3 ⟨c', hc', hg'c⟩).1 hq'
    rw [← this]
    congr 1
    refine List.filter_congr (fun c'' hc'' => ?_)
    rw [hverts]
    exact decide_eq_decide.2 (h.subset_iff hI ht' hc' hc'' hg'c)
  · rw [if_neg (by simpa using hsub), List.length_eq_zero_iff, List.filter_eq_nil_iff]
    intro c' hc' hs
    have hs := of_decide_eq_true hs
    apply hsub
    intro x hx
    simp only [List.mem_cons, List.not_mem_nil, or_false] at hx
    rcases hx with rfl | rfl | rfl
    · obtain ⟨l, hl, e⟩ := hends q.1 qa c1
      exact h.end_mem hI ht ht' hc hc' hgc hs hl qa e
    · obtain ⟨l, hl, e⟩ := hends q.2.1 qb c2
      exact h.end_mem hI ht ht' hc hc' hgc hs hl qb e
    · obtain ⟨l, hl, e⟩ := hends q.2.2 qc c3
      exact h.end_mem hI ht ht' hc hc' hgc hs hl qc e

/-- Three labels of a child which are not on a face of its parent: their vertices are together in two cells. -/
theorem Refined.inner_count (h : Refined 3 src (tetKids dist) mark r C R w ev) (hd : ∀ a b, dist a b = dist b a)
    (hI : Inv (simplexTopo 3) src.mesh) {t : Nat} (ht : t < src.mesh.count 3)
    (hone : ∀ t' < src.mesh.count 3, src.mesh.vertsOf 3 t ⊆ src.mesh.vertsOf 3 t' → t' = t) {c : List Nat} (hc : c ∈ C t) {g : List Nat}
    (hg : g.Nodup) (hg3 : g.length = 3) (hgc : g ⊆ c) (hon : ¬ ∃ q ∈ tetFaces, ∀ l ∈ g, onTetFace q.1 q.2.1 q.2.2 l = true) :
    cellsWith r.out.mesh 3 (g.map (labelVertex 3 src.mesh w ev t)) = 2 := by
  obtain ⟨hvn, hvl, _⟩ := simplex_verts (by omega) hI ht
  have hlt : ∀ l ∈ g, l < 10 := fun l hl => (h.label_lt ht hc (hgc hl)).2
  have hcov : ∀ a < 4, ∃ l ∈ g, (labelName (outId 3 src.mesh w t) l).1 = outId 3 src.mesh w t a ∨
      (labelName (outId 3 src.mesh w t) l).2 = outId 3 src.mesh w t a := by
    intro a ha
    by_contra hne
    push Not at hne
    obtain ⟨q, hq, hqa⟩ := face_without a ha
    refine hon ⟨q, hq, fun l hl => (onTetFace_ends q hq l (hlt l hl)).2 ?_⟩
    have hle := labelEnds_lt l
    have hnl := hne l hl
    rw [labelName_ends _ (hlt l hl)] at hnl
    refine ⟨hqa _ hle.1 fun e => ?_, hqa _ hle.2 fun e => ?_⟩
    · rcases ptName_fst (x := outId 3 src.mesh w t (labelEnds l).1) (y := outId 3 src.mesh w t (labelEnds l).2)
        (z := outId 3 src.mesh w t a) (Or.inl (by rw [e])) with h1 | h1
      · exact hnl.1 h1
      · exact hnl.2 h1
    · rcases ptName_fst (x := outId 3 src.mesh w t (labelEnds l).1) (y := outId 3 src.mesh w t (labelEnds l).2)
        (z := outId 3 src.mesh w t a) (Or.inr (by rw [e])) with h1 | h1
      · exact hnl.1 h1
      · exact hnl.2 h1
  rw [h.count_with, ← nat_sum_single (src.mesh.count 3) t 2 ht]
  congr 1
  refine List.map_congr_left (fun t' ht' => ?_)
  have ht' := List.mem_range.1 ht'
  by_cases he : t' = t
  · subst he
    rw [if_pos rfl, ← ((h.tet_children hd hI ht).2 g hg hg3 ⟨c, hc, hgc⟩).2 hon]
    congr 1
    exact List.filter_congr (fun c'' hc'' => decide_eq_decide.2 (h.subset_iff hI ht hc hc'' hgc))
  · rw [if_neg he, List.length_eq_zero_iff, List.filter_eq_nil_iff]
    intro c' hc' hs
    have hs := of_decide_eq_true hs
    refine he (hone t' ht' fun v hv => ?_)
    obtain ⟨a, ha, rfl⟩ := List.getElem_of_mem hv
    obtain ⟨l, hl, e⟩ := hcov a (by omega)
    have := h.end_mem hI ht ht' hc hc' hgc hs hl (by omega) e
    rwa [List.getD_eq_getElem _ _ ha] at this

end

end VG
