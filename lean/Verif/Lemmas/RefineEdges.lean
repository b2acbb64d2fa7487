import Verif.Lemmas.RefineNames
import Verif.Lemmas.TetSlots
import Verif.Props.RefineTri
import Verif.Props.RefineMesh

/-!
The edges of a refined mesh of triangles.
-/

namespace VG

/-- The ends of the edge `p` of a triangle. -/
def triEnds (p : Nat) : Nat × Nat := [(0, 1), (0, 2), (1, 2)].getD p (0, 0)

section
variable {P : Type}

/-- The vertex `a` of the cell. -/
def triVtx (m : Mesh P) (t a : Nat) : Nat := (m.vertsOf 2 t).getD a 0

/-- The edge `p` of the cell. -/
def triEdg (m : Mesh P) (t p : Nat) : Nat := (m.bndOf 2 t 1).getD p 0

/-- What is known of a triangle. -/
structure TriCell (m : Mesh P) (t : Nat) : Prop where
  verts : m.vertsOf 2 t = [triVtx m t 0, triVtx m t 1, triVtx m t 2]
  inj : ∀ a < 3, ∀ b < 3, triVtx m t a = triVtx m t b → a = b
  edges : m.bndOf 2 t 1 = [triEdg m t 0, triEdg m t 1, triEdg m t 2]
  lt : ∀ p < 3, triEdg m t p < m.count 1
  ends : ∀ p < 3, (m.vertsOf 1 (triEdg m t p)).Perm [triVtx m t (triEnds p).1, triVtx m t (triEnds p).2]

variable {m : Mesh P}

theorem triCell_of (hI : Inv (simplexTopo 2) m) {t : Nat} (ht : t < m.count 2) : TriCell m t := by
  obtain ⟨hn, hl, _⟩ := simplex_verts (by omega) hI ht
  obtain ⟨hel, hes⟩ := simplex_edge (by omega) hI ht
  have he : edgeIdx (2 + 1) = [[0, 1], [0, 2], [1, 2]] := by decide
  rw [he] at hel hes
  have key : ∀ p < 3, triEdg m t p < m.count 1 ∧ (m.vertsOf 1 (triEdg m t p)).Perm [triVtx m t (triEnds p).1, triVtx m t (triEnds p).2] := by
    intro p hp
    have hp' : p < (m.bndOf 2 t 1).length := by rw [hel]; exact hp
    have heq : (m.bndOf 2 t 1)[p]? = some (triEdg m t p) := by
      unfold triEdg; rw [List.getD_eq_getElem _ _ hp']; exact List.getElem?_eq_getElem hp'
    obtain ⟨a, b, f, h1, h2, h3, h4, h5⟩ := hes p _ heq
    refine ⟨by simpa [Mesh.count] using (List.getElem?_eq_some_iff.1 h4).1, ?_⟩
    rw [vertsOf_elem h4]
    have : a = (triEnds p).1 ∧ b = (triEnds p).2 := by
      have hp : p = 0 ∨ p = 1 ∨ p = 2 := by omega
      rcases hp with rfl | rfl | rfl <;> simp at h1 <;> obtain ⟨rfl, rfl⟩ := h1 <;> exact ⟨rfl, rfl⟩
    rw [this.1, this.2] at h5
    exact h5
  refine ⟨?_, ?_, ?_, fun p hp => (key p hp).1, fun p hp => (key p hp).2⟩
  · unfold triVtx
    match h : m.vertsOf 2 t, hl with
    | [a, b, c], _ => rfl
  · intro a ha b hb e
    unfold triVtx at e
    rw [List.getD_eq_getElem _ _ (by omega), List.getD_eq_getElem _ _ (by omega)] at e
    exact hn.getElem_inj_iff.1 e
  · unfold triEdg
    match h : m.bndOf 2 t 1, hel with
    | [a, b, c], _ => rfl

theorem line_nodup (hI : Inv (simplexTopo 2) m) {f : Nat} (hf : f < m.count 1) :
    (m.vertsOf 1 f).Nodup ∧ (m.vertsOf 1 f).length = 2 := by
  obtain ⟨e, he⟩ := elem_of_lt (by omega) hf
  obtain ⟨hn, hl, _⟩ := hI.verts 1 e (List.mem_of_getElem? he)
  rw [vertsOf_elem he]
  exact ⟨hn, hl.fixed⟩

theorem line_same (hI : Inv (simplexTopo 2) m) {f g : Nat} (hf : f < m.count 1) (hg : g < m.count 1)
    (h : (m.vertsOf 1 f).Perm (m.vertsOf 1 g)) : f = g := by
  obtain ⟨e, he⟩ := elem_of_lt (by omega) hf
  obtain ⟨e', he'⟩ := elem_of_lt (by omega) hg
  rw [vertsOf_elem he, vertsOf_elem he'] at h
  exact hI.slot_unique (d := 1) (by decide) he he' h

theorem triEnds_lt : ∀ p < 3, (triEnds p).1 < 3 ∧ (triEnds p).2 < 3 ∧ (triEnds p).1 ≠ (triEnds p).2 := by decide

theorem triEnds_pair : ∀ i < 3, ∀ j < 3, i ≠ j → ∃ p < 3, ((triEnds p).1 = i ∧ (triEnds p).2 = j) ∨ ((triEnds p).1 = j ∧ (triEnds p).2 = i) := by
  decide

theorem TriCell.mem_edges (h : TriCell m t) {e : Nat} : e ∈ m.bndOf 2 t 1 ↔ ∃ p < 3, triEdg m t p = e := by
  rw [h.edges]
  simp only [List.mem_cons, List.not_mem_nil, or_false]
  constructor
  · rintro (rfl | rfl | rfl)
    · exact ⟨0, by omega, rfl⟩
    · exact ⟨1, by omega, rfl⟩
    · exact ⟨2, by omega, rfl⟩
  · rintro ⟨p, hp, rfl⟩
    have hp : p = 0 ∨ p = 1 ∨ p = 2 := by omega
    rcases hp with rfl | rfl | rfl <;> simp

theorem TriCell.mem_verts (h : TriCell m t) {v : Nat} : v ∈ m.vertsOf 2 t ↔ ∃ a < 3, triVtx m t a = v := by
  rw [h.verts]
  simp only [List.mem_cons, List.not_mem_nil, or_false]
  constructor
  · rintro (rfl | rfl | rfl)
    · exact ⟨0, by omega, rfl⟩
    · exact ⟨1, by omega, rfl⟩
    · exact ⟨2, by omega, rfl⟩
  · rintro ⟨p, hp, rfl⟩
    have hp : p = 0 ∨ p = 1 ∨ p = 2 := by omega
    rcases hp with rfl | rfl | rfl <;> simp

/-- An edge belongs to a cell iff its ends do. -/
theorem line_mem (hI : Inv (simplexTopo 2) m) {t f : Nat} (ht : t < m.count 2) (hf : f < m.count 1) :
    f ∈ m.bndOf 2 t 1 ↔ m.vertsOf 1 f ⊆ m.vertsOf 2 t := by
  have h := triCell_of hI ht
  rw [h.mem_edges]
  constructor
  · rintro ⟨p, hp, rfl⟩ v hv
    have := (h.ends p hp).mem_iff.1 hv
    obtain ⟨h1, h2, _⟩ := triEnds_lt p hp
    simp only [List.mem_cons, List.not_mem_nil, or_false] at this
    rcases this with rfl | rfl
    · exact h.mem_verts.2 ⟨_, h1, rfl⟩
    · exact h.mem_verts.2 ⟨_, h2, rfl⟩
  · intro hs
    obtain ⟨hn, hl⟩ := line_nodup hI hf
    match hv : m.vertsOf 1 f, hl with
    | [x, y], _ =>
      rw [hv] at hs hn
      obtain ⟨i, hi, ei⟩ := h.mem_verts.1 (hs (by simp : x ∈ [x, y]))
      obtain ⟨j, hj, ej⟩ := h.mem_verts.1 (hs (by simp : y ∈ [x, y]))
      have hij : i ≠ j := by
        rintro rfl
        rw [ei] at ej; simp [ej] at hn
      obtain ⟨p, hp, hpe⟩ := triEnds_pair i hi j hj hij
      refine ⟨p, hp, line_same hI (h.lt p hp) hf ?_⟩
      refine (h.ends p hp).trans ?_
      rw [hv]
      rcases hpe with ⟨h1, h2⟩ | ⟨h1, h2⟩
      · rw [h1, h2, ei, ej]
      · rw [h1, h2, ei, ej]; exact List.Perm.swap _ _ _

theorem lines_with {m : Mesh P} (hI : Inv (simplexTopo 2) m) {f : Nat} (hf : f < m.count 1) :
    numCells (simplexTopo 2) m f = cellsWith m 2 (m.vertsOf 1 f) := by
  unfold numCells cellsWith
  congr 1
  refine List.filter_congr (fun i hi => decide_eq_decide.2 ?_)
  exact line_mem hI (List.mem_range.1 hi) hf

theorem cellsWith_perm2 (m : Mesh P) (n : Nat) {g g' : List Nat} (h : g.Perm g') : cellsWith m n g = cellsWith m n g' := by
  unfold cellsWith
  congr 1
  refine List.filter_congr (fun i _ => decide_eq_decide.2 ⟨fun hs => ?_, fun hs => ?_⟩)
  · exact fun x hx => hs (h.mem_iff.2 hx)
  · exact fun x hx => hs (h.mem_iff.1 hx)

end

section
variable {P : Type} {K : Type} [Field K] [LinearOrder K] {src : SegState P} {dist : P → P → K}
  {mark : Nat → Bool} {r : RefSt P} {C : Nat → List (List Nat)} {R : Nat → List (Option (Vtx P))} {w ev : Nat → Nat}

/-- A label which may be used, in a triangle. -/
theorem Refined.tri_label {kids : List (Option (Vtx P)) → (Nat → Bool) → Option (List (List Nat))}
    (h : Refined 2 src kids mark r C R w ev) {t : Nat} (ht : t < src.mesh.count 2) {c : List Nat} (hc : c ∈ C t) {l : Nat} (hl : l ∈ c) :
    (l < 3 ∧ labelVertex 2 src.mesh w ev t l = w (triVtx src.mesh t l)) ∨
    ∃ p < 3, l = 3 + p ∧ mark (triEdg src.mesh t p) = true ∧ labelVertex 2 src.mesh w ev t l = ev (triEdg src.mesh t p) := by
  have he : edgeIdx (2 + 1) = [[0, 1], [0, 2], [1, 2]] := by decide
  rcases (h.labels t ht c hc).2.2 l hl with h1 | ⟨h1, h2, h3⟩
  · exact Or.inl ⟨h1, if_pos h1⟩
  · right
    rw [he] at h2
    simp only [List.length_cons, List.length_nil] at h2
    exact ⟨l - 3, by omega, by omega, h3, if_neg (by omega)⟩

theorem labelVertex_lt {t l : Nat} (hl : l < 3) : labelVertex 2 src.mesh w ev t l = w (triVtx src.mesh t l) := if_pos hl

theorem labelVertex_ge {t p : Nat} : labelVertex 2 src.mesh w ev t (3 + p) = ev (triEdg src.mesh t p) := by
  unfold labelVertex
  rw [if_neg (by omega), show 3 + p - (2 + 1) = p by omega]
  rfl

/-- Which label is an old vertex. -/
theorem Refined.label_old {kids : List (Option (Vtx P)) → (Nat → Bool) → Option (List (List Nat))}
    (h : Refined 2 src kids mark r C R w ev) (hI : Inv (simplexTopo 2) src.mesh) {t t' : Nat} (ht : t < src.mesh.count 2)
    (ht' : t' < src.mesh.count 2) {c : List Nat} (hc : c ∈ C t) {l v : Nat} (hl : l ∈ c) (hv : v ∈ src.mesh.vertsOf 2 t')
    (e : labelVertex 2 src.mesh w ev t l = w v) : l < 3 ∧ triVtx src.mesh t l = v := by
  have hT := triCell_of hI ht
  rcases h.tri_label ht hc hl with ⟨h1, h2⟩ | ⟨p, hp, _, h2, h3⟩
  · refine ⟨h1, h.winj t ht _ (hT.mem_verts.2 ⟨l, h1, rfl⟩) t' ht' v hv (h2.symm.trans e)⟩
  · exact absurd (e.symm.trans h3) (h.sep t' ht' v hv _ (hT.lt p hp) h2)

/-- Which label is a new vertex. -/
theorem Refined.label_new {kids : List (Option (Vtx P)) → (Nat → Bool) → Option (List (List Nat))}
    (h : Refined 2 src kids mark r C R w ev) (hI : Inv (simplexTopo 2) src.mesh) {t E : Nat} (ht : t < src.mesh.count 2)
    (hE : E < src.mesh.count 1) (hm : mark E = true) {c : List Nat} (hc : c ∈ C t) {l : Nat} (hl : l ∈ c)
    (e : labelVertex 2 src.mesh w ev t l = ev E) : ∃ p < 3, l = 3 + p ∧ triEdg src.mesh t p = E := by
  have hT := triCell_of hI ht
  rcases h.tri_label ht hc hl with ⟨h1, h2⟩ | ⟨p, hp, h1, h2, h3⟩
  · exact absurd (h2.symm.trans e) (h.sep t ht _ (hT.mem_verts.2 ⟨l, h1, rfl⟩) E hE hm)
  · exact ⟨p, hp, h1, h.einj _ (hT.lt p hp) E hE h2 hm (h3.symm.trans e)⟩

theorem TriCell.edge_inj {m : Mesh P} {t : Nat} (hT : TriCell m t) {p p' : Nat} (hp : p < 3) (hp' : p' < 3)
    (e : triEdg m t p = triEdg m t p') : p = p' := by
  have h1 := (hT.ends p hp).symm.trans (e ▸ hT.ends p' hp')
  rw [perm_pair_iff] at h1
  have i1 := hT.inj
  have key : ∀ p < 3, ∀ p' < 3, (((triEnds p).1 = (triEnds p').1 ∧ (triEnds p).2 = (triEnds p').2) ∨
      ((triEnds p).1 = (triEnds p').2 ∧ (triEnds p).2 = (triEnds p').1)) → p = p' := by decide
  refine key p hp p' hp' ?_
  obtain ⟨a1, a2, _⟩ := triEnds_lt p hp
  obtain ⟨b1, b2, _⟩ := triEnds_lt p' hp'
  rcases h1 with ⟨x, y⟩ | ⟨x, y⟩
  · exact Or.inl ⟨i1 _ a1 _ b1 x, i1 _ a2 _ b2 y⟩
  · exact Or.inr ⟨i1 _ a1 _ b2 x, i1 _ a2 _ b1 y⟩

/-- The children of a triangle at an old vertex and a new one. -/
theorem Refined.sharing_new {kids : List (Option (Vtx P)) → (Nat → Bool) → Option (List (List Nat))}
    (h : Refined 2 src kids mark r C R w ev) (hI : Inv (simplexTopo 2) src.mesh) {t : Nat} (ht : t < src.mesh.count 2) {i p : Nat}
    (hi : i < 3) (hp : p < 3) (hm : mark (triEdg src.mesh t p) = true) :
    ((C t).filter (fun c => decide ([w (triVtx src.mesh t i), ev (triEdg src.mesh t p)] ⊆ c.map (labelVertex 2 src.mesh w ev t)))).length =
      sharing (C t) i (3 + p) := by
  have hT := triCell_of hI ht
  unfold sharing
  congr 1
  refine List.filter_congr fun c hc => decide_eq_decide.2 ?_
  constructor
  · intro hs
    obtain ⟨l, hl, e⟩ := List.mem_map.1 (hs (by simp : w (triVtx src.mesh t i) ∈ _))
    obtain ⟨l', hl', e'⟩ := List.mem_map.1 (hs (by simp : ev (triEdg src.mesh t p) ∈ _))
    obtain ⟨h1, h2⟩ := h.label_old hI ht ht hc hl (hT.mem_verts.2 ⟨i, hi, rfl⟩) e
    obtain ⟨p', h3, h4, h5⟩ := h.label_new hI ht (hT.lt p hp) hm hc hl' e'
    rw [hT.inj l h1 i hi h2] at hl
    rw [h4, hT.edge_inj h3 hp h5] at hl'
    exact ⟨hl, hl'⟩
  · rintro ⟨h1, h2⟩ x hx
    simp only [List.mem_cons, List.not_mem_nil, or_false] at hx
    rcases hx with rfl | rfl
    · exact List.mem_map.2 ⟨_, h1, labelVertex_lt hi⟩
    · exact List.mem_map.2 ⟨_, h2, labelVertex_ge⟩

/-- The children of a triangle at two old vertices. -/
theorem Refined.sharing_old {kids : List (Option (Vtx P)) → (Nat → Bool) → Option (List (List Nat))}
    (h : Refined 2 src kids mark r C R w ev) (hI : Inv (simplexTopo 2) src.mesh) {t : Nat} (ht : t < src.mesh.count 2) {i j : Nat}
    (hi : i < 3) (hj : j < 3) :
    ((C t).filter (fun c => decide ([w (triVtx src.mesh t i), w (triVtx src.mesh t j)] ⊆ c.map (labelVertex 2 src.mesh w ev t)))).length =
      sharing (C t) i j := by
  have hT := triCell_of hI ht
  unfold sharing
  congr 1
  refine List.filter_congr fun c hc => decide_eq_decide.2 ?_
  constructor
  · intro hs
    obtain ⟨l, hl, e⟩ := List.mem_map.1 (hs (by simp : w (triVtx src.mesh t i) ∈ _))
    obtain ⟨l', hl', e'⟩ := List.mem_map.1 (hs (by simp : w (triVtx src.mesh t j) ∈ _))
    obtain ⟨h1, h2⟩ := h.label_old hI ht ht hc hl (hT.mem_verts.2 ⟨i, hi, rfl⟩) e
    obtain ⟨h3, h4⟩ := h.label_old hI ht ht hc hl' (hT.mem_verts.2 ⟨j, hj, rfl⟩) e'
    rw [hT.inj l h1 i hi h2] at hl
    rw [hT.inj l' h3 j hj h4] at hl'
    exact ⟨hl, hl'⟩
  · rintro ⟨h1, h2⟩ x hx
    simp only [List.mem_cons, List.not_mem_nil, or_false] at hx
    rcases hx with rfl | rfl
    · exact List.mem_map.2 ⟨_, h1, labelVertex_lt hi⟩
    · exact List.mem_map.2 ⟨_, h2, labelVertex_lt hj⟩

/-- The children of a triangle, by its marks (C32). -/
theorem Refined.tri_children (h : Refined 2 src (triKids dist) mark r C R w ev) {t : Nat} (ht : t < src.mesh.count 2) :
    (∀ p < 3, (mark (triEdg src.mesh t p) = true → sharing (C t) (triEnds p).1 (3 + p) = 1 ∧ sharing (C t) (triEnds p).2 (3 + p) = 1 ∧
        sharing (C t) (triEnds p).1 (triEnds p).2 = 0) ∧
      (mark (triEdg src.mesh t p) = false → sharing (C t) (triEnds p).1 (triEnds p).2 = 1 ∧ ∀ c ∈ C t, 3 + p ∉ c)) ∧
    ∀ x < 6, ∀ y < 6, x ≠ y → ¬ (x ∈ [0, 1, 3] ∧ y ∈ [0, 1, 3]) → ¬ (x ∈ [0, 2, 4] ∧ y ∈ [0, 2, 4]) →
        ¬ (x ∈ [1, 2, 5] ∧ y ∈ [1, 2, 5]) → sharing (C t) x y = 0 ∨ sharing (C t) x y = 2 := by
  obtain ⟨cells, h1, h2, _, h3⟩ := C32_edges (vtxDist dist (R t)) (fun i => mark ((src.mesh.bndOf 2 t 1).getD i 0))
  have h4 := h.made t ht
  unfold triKids at h4
  rw [h1] at h4
  have := Option.some.inj h4
  subst this
  refine ⟨fun p hp => ?_, h3⟩
  have hp : p = 0 ∨ p = 1 ∨ p = 2 := by omega
  rcases hp with rfl | rfl | rfl
  · exact h2 (0, 1, 0) (by simp)
  · exact h2 (0, 2, 1) (by simp)
  · exact h2 (1, 2, 2) (by simp)

theorem sum_filter_length (N : Nat) (p : Nat → Prop) [DecidablePred p] (f : Nat → Nat) (h : ∀ t < N, f t = if p t then 1 else 0) :
    ((List.range N).map f).sum = ((List.range N).filter (fun t => decide (p t))).length := by
  have key : ∀ l : List Nat, (∀ t ∈ l, t < N) → (l.map f).sum = (l.filter (fun t => decide (p t))).length := by
    intro l
    induction l with
    | nil => intro _; rfl
    | cons a l ih =>
      intro hl
      rw [List.map_cons, List.sum_cons, List.filter_cons, ih (fun t ht => hl t (List.mem_cons_of_mem _ ht)), h a (hl a List.mem_cons_self)]
      by_cases hp : p a
      · simp [hp]; omega
      · simp [hp]
  exact key _ fun t ht => List.mem_range.1 ht

/-- The edge `f` of the refined mesh is on the edge `E` of the source. -/
def EdgeOn (src : SegState P) (r : RefSt P) (mark : Nat → Bool) (w ev : Nat → Nat) (f E : Nat) : Prop :=
  E < src.mesh.count 1 ∧ (∃ t < src.mesh.count 2, E ∈ src.mesh.bndOf 2 t 1) ∧ ∃ a b, (src.mesh.vertsOf 1 E).Perm [a, b] ∧
    ((mark E = true ∧ (r.out.mesh.vertsOf 1 f).Perm [w a, ev E]) ∨ (mark E = false ∧ (r.out.mesh.vertsOf 1 f).Perm [w a, w b]))

/-- The ends of an edge of a cell. -/
theorem TriCell.end_of {m : Mesh P} {t : Nat} (hT : TriCell m t) {p a b : Nat} (hp : p < 3) (h : (m.vertsOf 1 (triEdg m t p)).Perm [a, b]) :
    (a = triVtx m t (triEnds p).1 ∧ b = triVtx m t (triEnds p).2) ∨ (a = triVtx m t (triEnds p).2 ∧ b = triVtx m t (triEnds p).1) :=
  perm_pair_iff.1 (h.symm.trans (hT.ends p hp))

/-- An edge on an edge of the source belongs to as many cells as that. -/
theorem Refined.edge_uses (h : Refined 2 src (triKids dist) mark r C R w ev) (hI : Inv (simplexTopo 2) src.mesh) {f E : Nat}
    (hf : f < r.out.mesh.count 1) (hE : EdgeOn src r mark w ev f E) :
    numCells (simplexTopo 2) r.out.mesh f = numCells (simplexTopo 2) src.mesh E := by
  have hI' := (h.reached.inv (simplexTopo_wf 2) (simplexTopo_closed 2)).mesh
  obtain ⟨hlt, ⟨t0, ht0, hEt0⟩, a, b, hab, hcase⟩ := hE
  have hT0 := triCell_of hI ht0
  have hmem0 : ∀ v ∈ [a, b], v ∈ src.mesh.vertsOf 2 t0 := fun v hv => (line_mem hI ht0 hlt).1 hEt0 (hab.mem_iff.2 hv)
  rw [lines_with hI' hf]
  have hcomm : ∀ (c : List (List Nat)) x y, sharing c x y = sharing c y x := by
    intro c x y; unfold sharing; congr 1; exact List.filter_congr fun c _ => decide_eq_decide.2 and_comm
  rcases hcase with ⟨hm, hv⟩ | ⟨hm, hv⟩
  · rw [cellsWith_perm2 _ _ hv, h.count_with]
    refine sum_filter_length _ (fun t => E ∈ src.mesh.bndOf 2 t 1) _ fun t ht => ?_
    have hT := triCell_of hI ht
    split
    · rename_i hmem
      obtain ⟨p, hp, rfl⟩ := hT.mem_edges.1 hmem
      obtain ⟨e1, e2, _⟩ := triEnds_lt p hp
      obtain ⟨s1, s2, _⟩ := ((h.tri_children ht).1 p hp).1 hm
      rcases hT.end_of hp hab with ⟨rfl, rfl⟩ | ⟨rfl, rfl⟩
      · rw [h.sharing_new hI ht e1 hp hm, s1]
      · rw [h.sharing_new hI ht e2 hp hm, s2]
    · rename_i hmem
      rw [List.length_eq_zero_iff, List.filter_eq_nil_iff]
      intro c hc hs
      obtain ⟨l, hl, e⟩ := List.mem_map.1 (of_decide_eq_true hs (by simp : ev E ∈ _))
      obtain ⟨p, hp, _, rfl⟩ := h.label_new hI ht hlt hm hc hl e
      exact hmem (hT.mem_edges.2 ⟨p, hp, rfl⟩)
  · rw [cellsWith_perm2 _ _ hv, h.count_with]
    refine sum_filter_length _ (fun t => E ∈ src.mesh.bndOf 2 t 1) _ fun t ht => ?_
    have hT := triCell_of hI ht
    split
    · rename_i hmem
      obtain ⟨p, hp, rfl⟩ := hT.mem_edges.1 hmem
      obtain ⟨e1, e2, _⟩ := triEnds_lt p hp
      obtain ⟨s1, _⟩ := ((h.tri_children ht).1 p hp).2 hm
      rcases hT.end_of hp hab with ⟨rfl, rfl⟩ | ⟨rfl, rfl⟩
      · rw [h.sharing_old hI ht e1 e2, s1]
      · rw [h.sharing_old hI ht e2 e1, hcomm, s1]
    · rename_i hmem
      rw [List.length_eq_zero_iff, List.filter_eq_nil_iff]
      intro c hc hs
      have hs := of_decide_eq_true hs
      obtain ⟨l, hl, e⟩ := List.mem_map.1 (hs (by simp : w a ∈ _))
      obtain ⟨l', hl', e'⟩ := List.mem_map.1 (hs (by simp : w b ∈ _))
      obtain ⟨h1, h2⟩ := h.label_old hI ht ht0 hc hl (hmem0 a (by simp)) e
      obtain ⟨h3, h4⟩ := h.label_old hI ht ht0 hc hl' (hmem0 b (by simp)) e'
      refine hmem ((line_mem hI ht hlt).2 fun v hv' => ?_)
      have := hab.mem_iff.1 hv'
      simp only [List.mem_cons, List.not_mem_nil, or_false] at this
      rcases this with rfl | rfl
      · exact hT.mem_verts.2 ⟨l, h1, h2⟩
      · exact hT.mem_verts.2 ⟨l', h3, h4⟩


/-- The ends of a label of a triangle. -/
def triLabelEnds (l : Nat) : Nat × Nat := [(0, 0), (1, 1), (2, 2), (0, 1), (0, 2), (1, 2)].getD l (0, 0)

theorem triLabelEnds_old : ∀ l < 3, triLabelEnds l = (l, l) := by decide

theorem triLabelEnds_new : ∀ p < 3, triLabelEnds (3 + p) = triEnds p := by decide

/-- Two labels of a triangle are equal, or on one edge, or their ends are all vertices. -/
def triSpans (x y : Nat) : Bool :=
  decide (x = y) || decide (x ∈ [0, 1, 3] ∧ y ∈ [0, 1, 3]) || decide (x ∈ [0, 2, 4] ∧ y ∈ [0, 2, 4]) ||
    decide (x ∈ [1, 2, 5] ∧ y ∈ [1, 2, 5]) ||
    decide (0 ∈ [(triLabelEnds x).1, (triLabelEnds x).2, (triLabelEnds y).1, (triLabelEnds y).2] ∧
        1 ∈ [(triLabelEnds x).1, (triLabelEnds x).2, (triLabelEnds y).1, (triLabelEnds y).2] ∧
        2 ∈ [(triLabelEnds x).1, (triLabelEnds x).2, (triLabelEnds y).1, (triLabelEnds y).2])

theorem triSpans_all : ∀ x < 6, ∀ y < 6, triSpans x y = true := by decide

theorem triLabelEnds_all : ∀ x < 6, ∀ y < 6, x ≠ y → ¬ (x ∈ [0, 1, 3] ∧ y ∈ [0, 1, 3]) → ¬ (x ∈ [0, 2, 4] ∧ y ∈ [0, 2, 4]) →
    ¬ (x ∈ [1, 2, 5] ∧ y ∈ [1, 2, 5]) →
    ∀ a < 3, a ∈ [(triLabelEnds x).1, (triLabelEnds x).2, (triLabelEnds y).1, (triLabelEnds y).2] := by
  intro x hx y hy h1 h2 h3 h4 a ha
  have key := triSpans_all x hx y hy
  unfold triSpans at key
  rw [decide_eq_false h1, decide_eq_false h2, decide_eq_false h3, decide_eq_false h4] at key
  simp only [Bool.false_or, decide_eq_true_eq] at key
  obtain ⟨k0, k1, k2⟩ := key
  obtain rfl | rfl | rfl : a = 0 ∨ a = 1 ∨ a = 2 := by omega
  · exact k0
  · exact k1
  · exact k2

theorem sum_single_nat (N t : Nat) (ht : t < N) (x : Nat) : ((List.range N).map (fun u => if u = t then x else 0)).sum = x := by
  induction N with
  | zero => omega
  | succ N ih =>
    rw [List.range_succ, List.map_append, List.sum_append]
    by_cases h : t = N
    · subst h
      have : ∀ n ≤ t, ((List.range n).map (fun u => if u = t then x else 0)).sum = 0 := by
        intro n hn
        rw [List.sum_eq_zero]
        intro y hy
        obtain ⟨u, hu, rfl⟩ := List.mem_map.1 hy
        rw [if_neg (by have := List.mem_range.1 hu; omega)]
      rw [this t (Nat.le_refl _)]; simp
    · rw [ih (by omega)]; simp [Ne.symm h]

/-- A vertex of the refined mesh which two cells have. -/
theorem Refined.shared_label {kids : List (Option (Vtx P)) → (Nat → Bool) → Option (List (List Nat))}
    (h : Refined 2 src kids mark r C R w ev) (hI : Inv (simplexTopo 2) src.mesh) {t t' : Nat} (ht : t < src.mesh.count 2)
    (ht' : t' < src.mesh.count 2) {c c' : List Nat} (hc : c ∈ C t) (hc' : c' ∈ C t') {l l' : Nat} (hl : l ∈ c) (hl' : l' ∈ c')
    (e : labelVertex 2 src.mesh w ev t' l' = labelVertex 2 src.mesh w ev t l) :
    triVtx src.mesh t (triLabelEnds l).1 ∈ src.mesh.vertsOf 2 t' ∧ triVtx src.mesh t (triLabelEnds l).2 ∈ src.mesh.vertsOf 2 t' := by
  have hT := triCell_of hI ht
  have hT' := triCell_of hI ht'
  rcases h.tri_label ht hc hl with ⟨h1, h2⟩ | ⟨p, hp, rfl, hm, h2⟩
  · rw [h2] at e
    obtain ⟨h3, h4⟩ := h.label_old hI ht' ht hc' hl' (hT.mem_verts.2 ⟨l, h1, rfl⟩) e
    rw [triLabelEnds_old l h1]
    exact ⟨hT'.mem_verts.2 ⟨l', h3, h4⟩, hT'.mem_verts.2 ⟨l', h3, h4⟩⟩
  · rw [h2] at e
    obtain ⟨p', h3, _, h4⟩ := h.label_new hI ht' (hT.lt p hp) hm hc' hl' e
    rw [triLabelEnds_new p hp]
    have hs := (line_mem hI ht' (hT.lt p hp)).1 (hT'.mem_edges.2 ⟨p', h3, h4⟩)
    exact ⟨hs ((hT.ends p hp).mem_iff.2 (by simp)), hs ((hT.ends p hp).mem_iff.2 (by simp))⟩

theorem Refined.tri_label_inj {kids : List (Option (Vtx P)) → (Nat → Bool) → Option (List (List Nat))}
    (h : Refined 2 src kids mark r C R w ev) (hI : Inv (simplexTopo 2) src.mesh) {t : Nat} (ht : t < src.mesh.count 2)
    {c c' : List Nat} (hc : c ∈ C t) (hc' : c' ∈ C t) {l l' : Nat} (hl : l ∈ c) (hl' : l' ∈ c')
    (e : labelVertex 2 src.mesh w ev t l' = labelVertex 2 src.mesh w ev t l) : l' = l := by
  have hT := triCell_of hI ht
  rcases h.tri_label ht hc hl with ⟨h1, h2⟩ | ⟨p, hp, rfl, hm, h2⟩
  · rw [h2] at e
    obtain ⟨h3, h4⟩ := h.label_old hI ht ht hc' hl' (hT.mem_verts.2 ⟨l, h1, rfl⟩) e
    exact hT.inj _ h3 _ h1 h4
  · rw [h2] at e
    obtain ⟨p', h3, h5, h4⟩ := h.label_new hI ht (hT.lt p hp) hm hc' hl' e
    rw [h5, hT.edge_inj h3 hp h4]

/-- An edge inside of a cell has two cells. -/
theorem Refined.inner_edge (h : Refined 2 src (triKids dist) mark r C R w ev) (hI : Inv (simplexTopo 2) src.mesh)
    (hone : ∀ t < src.mesh.count 2, ∀ t' < src.mesh.count 2, src.mesh.vertsOf 2 t ⊆ src.mesh.vertsOf 2 t' → t' = t)
    {f t x y : Nat} {c : List Nat} (hf : f < r.out.mesh.count 1) (ht : t < src.mesh.count 2) (hc : c ∈ C t) (hx : x ∈ c) (hy : y ∈ c)
    (hxy : x ≠ y) (h0 : ¬ (x ∈ [0, 1, 3] ∧ y ∈ [0, 1, 3])) (h1 : ¬ (x ∈ [0, 2, 4] ∧ y ∈ [0, 2, 4]))
    (h2 : ¬ (x ∈ [1, 2, 5] ∧ y ∈ [1, 2, 5]))
    (hv : (r.out.mesh.vertsOf 1 f).Perm [labelVertex 2 src.mesh w ev t x, labelVertex 2 src.mesh w ev t y]) :
    numCells (simplexTopo 2) r.out.mesh f = 2 := by
  have hI' := (h.reached.inv (simplexTopo_wf 2) (simplexTopo_closed 2)).mesh
  have hT := triCell_of hI ht
  have hlt : ∀ l ∈ c, l < 6 := by
    intro l hl
    rcases h.tri_label ht hc hl with ⟨h1, _⟩ | ⟨p, hp, e, _⟩ <;> omega
  rw [lines_with hI' hf, cellsWith_perm2 _ _ hv, h.count_with]
  refine Eq.trans ?_ (sum_single_nat _ t ht 2)
  refine congrArg List.sum (List.map_congr_left fun t' ht' => ?_)
  have ht' := List.mem_range.1 ht'
  split
  · rename_i e
    subst e
    have : ((C t').filter (fun c => decide ([labelVertex 2 src.mesh w ev t' x, labelVertex 2 src.mesh w ev t' y] ⊆
        c.map (labelVertex 2 src.mesh w ev t')))).length = sharing (C t') x y := by
      unfold sharing
      congr 1
      refine List.filter_congr fun c' hc' => decide_eq_decide.2 ?_
      constructor
      · intro hs
        obtain ⟨l, hl, e⟩ := List.mem_map.1 (hs (List.mem_cons_self))
        obtain ⟨l', hl', e'⟩ := List.mem_map.1 (hs (List.mem_cons_of_mem _ List.mem_cons_self))
        rw [h.tri_label_inj hI ht hc hc' hx hl e] at hl
        rw [h.tri_label_inj hI ht hc hc' hy hl' e'] at hl'
        exact ⟨hl, hl'⟩
      · rintro ⟨a, b⟩ z hz
        simp only [List.mem_cons, List.not_mem_nil, or_false] at hz
        rcases hz with rfl | rfl
        · exact List.mem_map_of_mem a
        · exact List.mem_map_of_mem b
    rw [this]
    rcases (h.tri_children ht).2 x (hlt x hx) y (hlt y hy) hxy h0 h1 h2 with e | e
    · exfalso
      unfold sharing at e
      rw [List.length_eq_zero_iff, List.filter_eq_nil_iff] at e
      exact e c hc (decide_eq_true ⟨hx, hy⟩)
    · exact e
  · rename_i hne
    rw [List.length_eq_zero_iff, List.filter_eq_nil_iff]
    intro c' hc' hs
    have hs := of_decide_eq_true hs
    obtain ⟨l, hl, e⟩ := List.mem_map.1 (hs (List.mem_cons_self))
    obtain ⟨l', hl', e'⟩ := List.mem_map.1 (hs (List.mem_cons_of_mem _ List.mem_cons_self))
    obtain ⟨a1, a2⟩ := h.shared_label hI ht ht' hc hc' hx hl e
    obtain ⟨b1, b2⟩ := h.shared_label hI ht ht' hc hc' hy hl' e'
    refine hne (hone t ht t' ht' fun v hv => ?_)
    obtain ⟨a, ha, rfl⟩ := hT.mem_verts.1 hv
    have := triLabelEnds_all x (hlt x hx) y (hlt y hy) hxy h0 h1 h2 a ha
    simp only [List.mem_cons, List.not_mem_nil, or_false] at this
    rcases this with e | e | e | e <;> rw [e] <;> assumption

theorem sharing_pos {cells : List (List Nat)} {c : List Nat} {x y : Nat} (hc : c ∈ cells) (hx : x ∈ c) (hy : y ∈ c) :
    sharing cells x y ≠ 0 := by
  unfold sharing
  rw [Ne, List.length_eq_zero_iff, List.filter_eq_nil_iff]
  exact fun e => e c hc (decide_eq_true ⟨hx, hy⟩)

theorem sharing_comm (c : List (List Nat)) (x y : Nat) : sharing c x y = sharing c y x := by
  unfold sharing; congr 1; exact List.filter_congr fun c _ => decide_eq_decide.2 and_comm

/-- Two labels on the edge `p`. -/
theorem Refined.on_edge (h : Refined 2 src (triKids dist) mark r C R w ev) (hI : Inv (simplexTopo 2) src.mesh)
    {f t x y p : Nat} {c : List Nat} (ht : t < src.mesh.count 2) (hc : c ∈ C t) (hx : x ∈ c) (hy : y ∈ c)
    (hxy : x ≠ y) (hp : p < 3) (h0 : x ∈ [(triEnds p).1, (triEnds p).2, 3 + p]) (h1 : y ∈ [(triEnds p).1, (triEnds p).2, 3 + p])
    (hv : (r.out.mesh.vertsOf 1 f).Perm [labelVertex 2 src.mesh w ev t x, labelVertex 2 src.mesh w ev t y]) :
    EdgeOn src r mark w ev f (triEdg src.mesh t p) := by
  have hT := triCell_of hI ht
  obtain ⟨a1, a2, _⟩ := triEnds_lt p hp
  obtain ⟨c1, c2⟩ := (h.tri_children ht).1 p hp
  refine ⟨hT.lt p hp, ⟨t, ht, hT.mem_edges.2 ⟨p, hp, rfl⟩⟩, ?_⟩
  cases hm : mark (triEdg src.mesh t p) with
  | true =>
    obtain ⟨_, _, s0⟩ := c1 hm
    have s0' := s0
    rw [sharing_comm] at s0'
    have hsw : [ev (triEdg src.mesh t p), w (triVtx src.mesh t (triEnds p).1)].Perm [w (triVtx src.mesh t (triEnds p).1), ev (triEdg src.mesh t p)] :=
      List.Perm.swap _ _ _
    have hsw2 : [ev (triEdg src.mesh t p), w (triVtx src.mesh t (triEnds p).2)].Perm [w (triVtx src.mesh t (triEnds p).2), ev (triEdg src.mesh t p)] :=
      List.Perm.swap _ _ _
    simp only [List.mem_cons, List.not_mem_nil, or_false] at h0 h1
    rcases h0 with rfl | rfl | rfl <;> rcases h1 with rfl | rfl | rfl
    · exact absurd rfl hxy
    · exact absurd s0 (sharing_pos hc hx hy)
    · rw [labelVertex_lt a1, labelVertex_ge] at hv
      exact ⟨_, _, hT.ends p hp, Or.inl ⟨rfl, hv⟩⟩
    · exact absurd s0 (sharing_pos hc hy hx)
    · exact absurd rfl hxy
    · rw [labelVertex_lt a2, labelVertex_ge] at hv
      exact ⟨_, _, (hT.ends p hp).trans (List.Perm.swap _ _ _), Or.inl ⟨rfl, hv⟩⟩
    · rw [labelVertex_lt a1, labelVertex_ge] at hv
      exact ⟨_, _, hT.ends p hp, Or.inl ⟨rfl, hv.trans hsw⟩⟩
    · rw [labelVertex_lt a2, labelVertex_ge] at hv
      exact ⟨_, _, (hT.ends p hp).trans (List.Perm.swap _ _ _), Or.inl ⟨rfl, hv.trans hsw2⟩⟩
    · exact absurd rfl hxy
  | false =>
    obtain ⟨_, s0⟩ := c2 hm
    refine ⟨_, _, hT.ends p hp, Or.inr ⟨rfl, ?_⟩⟩
    simp only [List.mem_cons, List.not_mem_nil, or_false] at h0 h1
    rcases h0 with rfl | rfl | rfl <;> rcases h1 with rfl | rfl | rfl
    · exact absurd rfl hxy
    · rw [labelVertex_lt a1, labelVertex_lt a2] at hv; exact hv
    · exact absurd hy (s0 c hc)
    · rw [labelVertex_lt a1, labelVertex_lt a2] at hv; exact hv.trans (List.Perm.swap _ _ _)
    · exact absurd rfl hxy
    · exact absurd hy (s0 c hc)
    · exact absurd hx (s0 c hc)
    · exact absurd hx (s0 c hc)
    · exact absurd hx (s0 c hc)

/-- Each edge of a cell is on an edge of the source, or has two cells. -/
theorem Refined.edge_cases (h : Refined 2 src (triKids dist) mark r C R w ev) (hI : Inv (simplexTopo 2) src.mesh)
    (hone : ∀ t < src.mesh.count 2, ∀ t' < src.mesh.count 2, src.mesh.vertsOf 2 t ⊆ src.mesh.vertsOf 2 t' → t' = t)
    {f i : Nat} (hf : f < r.out.mesh.count 1) (hi : i < r.out.mesh.count 2) (hfi : f ∈ r.out.mesh.bndOf 2 i 1) :
    (∃ E, EdgeOn src r mark w ev f E) ∨ numCells (simplexTopo 2) r.out.mesh f = 2 := by
  have hI' := (h.reached.inv (simplexTopo_wf 2) (simplexTopo_closed 2)).mesh
  have hki : i < r.kids.length := by rw [← h.count]; exact hi
  obtain ⟨t, c, hk⟩ : ∃ t c, r.kids[i]? = some (t, c) := ⟨_, _, List.getElem?_eq_getElem hki⟩
  have hmem := List.mem_of_getElem? hk
  rw [h.kids_eq] at hmem
  obtain ⟨t', ht', hm⟩ := List.mem_flatMap.1 hmem
  obtain ⟨c', hc, e⟩ := List.mem_map.1 hm
  simp only [Prod.mk.injEq] at e
  obtain ⟨rfl, rfl⟩ := e
  have ht := List.mem_range.1 ht'
  have hs := (line_mem hI' hi hf).1 hfi
  rw [h.verts i _ _ hk] at hs
  obtain ⟨hn, hl⟩ := line_nodup hI' hf
  match hv : r.out.mesh.vertsOf 1 f, hl with
  | [a, b], _ =>
    rw [hv] at hs hn
    obtain ⟨x, hx, ex⟩ := List.mem_map.1 (hs (by simp : a ∈ [a, b]))
    obtain ⟨y, hy, ey⟩ := List.mem_map.1 (hs (by simp : b ∈ [a, b]))
    have hxy : x ≠ y := by rintro rfl; rw [ex] at ey; simp [ey] at hn
    have hv' : (r.out.mesh.vertsOf 1 f).Perm [labelVertex 2 src.mesh w ev t' x, labelVertex 2 src.mesh w ev t' y] := by
      rw [hv, ex, ey]
    by_cases h0 : x ∈ [0, 1, 3] ∧ y ∈ [0, 1, 3]
    · exact Or.inl ⟨_, h.on_edge hI ht hc hx hy hxy (p := 0) (by omega) h0.1 h0.2 hv'⟩
    by_cases h1 : x ∈ [0, 2, 4] ∧ y ∈ [0, 2, 4]
    · exact Or.inl ⟨_, h.on_edge hI ht hc hx hy hxy (p := 1) (by omega) h1.1 h1.2 hv'⟩
    by_cases h2 : x ∈ [1, 2, 5] ∧ y ∈ [1, 2, 5]
    · exact Or.inl ⟨_, h.on_edge hI ht hc hx hy hxy (p := 2) (by omega) h2.1 h2.2 hv'⟩
    exact Or.inr (h.inner_edge hI hone hf ht hc hx hy hxy h0 h1 h2 hv')

/-- The edge of the source is unique. -/
theorem Refined.edgeOn_unique {kids : List (Option (Vtx P)) → (Nat → Bool) → Option (List (List Nat))}
    (h : Refined 2 src kids mark r C R w ev) (hI : Inv (simplexTopo 2) src.mesh) {f E E' : Nat} (hE : EdgeOn src r mark w ev f E)
    (hE' : EdgeOn src r mark w ev f E') : E = E' := by
  obtain ⟨hlt, ⟨t, ht, het⟩, a, b, hab, hcase⟩ := hE
  obtain ⟨hlt', ⟨t', ht', het'⟩, a', b', hab', hcase'⟩ := hE'
  have m1 : ∀ v ∈ [a, b], v ∈ src.mesh.vertsOf 2 t := fun v hv => (line_mem hI ht hlt).1 het (hab.mem_iff.2 hv)
  have m2 : ∀ v ∈ [a', b'], v ∈ src.mesh.vertsOf 2 t' := fun v hv => (line_mem hI ht' hlt').1 het' (hab'.mem_iff.2 hv)
  rcases hcase with ⟨hm, hv⟩ | ⟨hm, hv⟩ <;> rcases hcase' with ⟨hm', hv'⟩ | ⟨hm', hv'⟩
  · rcases perm_pair_iff.1 (hv.symm.trans hv') with ⟨_, e⟩ | ⟨e, _⟩
    · exact h.einj E hlt E' hlt' hm hm' e
    · exact absurd e (h.sep t ht a (m1 a (by simp)) E' hlt' hm')
  · rcases perm_pair_iff.1 (hv.symm.trans hv') with ⟨_, e⟩ | ⟨_, e⟩
    · exact absurd e.symm (h.sep t' ht' b' (m2 b' (by simp)) E hlt hm)
    · exact absurd e.symm (h.sep t' ht' a' (m2 a' (by simp)) E hlt hm)
  · rcases perm_pair_iff.1 (hv.symm.trans hv') with ⟨_, e⟩ | ⟨e, _⟩
    · exact absurd e (h.sep t ht b (m1 b (by simp)) E' hlt' hm')
    · exact absurd e (h.sep t ht a (m1 a (by simp)) E' hlt' hm')
  · refine line_same hI hlt hlt' (hab.trans (List.Perm.trans ?_ hab'.symm))
    have w1 : ∀ x ∈ [a, b], ∀ y ∈ [a', b'], w x = w y → x = y := fun x hx y hy => h.winj t ht x (m1 x hx) t' ht' y (m2 y hy)
    rcases perm_pair_iff.1 (hv.symm.trans hv') with ⟨e1, e2⟩ | ⟨e1, e2⟩
    · rw [w1 a (by simp) a' (by simp) e1, w1 b (by simp) b' (by simp) e2]
    · rw [w1 a (by simp) b' (by simp) e1, w1 b (by simp) a' (by simp) e2]; exact List.Perm.swap _ _ _

/-- An edge of the refined mesh with two given labels of a child. -/
theorem Refined.edge_exists (h : Refined 2 src (triKids dist) mark r C R w ev) (hI : Inv (simplexTopo 2) src.mesh)
    {t x y : Nat} (ht : t < src.mesh.count 2) (hxy : x ≠ y) (hs : sharing (C t) x y = 1) :
    ∃ f < r.out.mesh.count 1, (r.out.mesh.vertsOf 1 f).Perm [labelVertex 2 src.mesh w ev t x, labelVertex 2 src.mesh w ev t y] := by
  have hI' := (h.reached.inv (simplexTopo_wf 2) (simplexTopo_closed 2)).mesh
  unfold sharing at hs
  obtain ⟨c, hc⟩ := List.exists_mem_of_length_pos (by rw [hs]; omega : 0 < _)
  rw [List.mem_filter, decide_eq_true_iff] at hc
  obtain ⟨hc, hx, hy⟩ := hc
  obtain ⟨i, hi⟩ : ∃ i, r.kids[i]? = some (t, c) := by
    refine List.getElem?_of_mem ?_
    rw [h.kids_eq]
    exact List.mem_flatMap.2 ⟨t, List.mem_range.2 ht, List.mem_map.2 ⟨c, hc, rfl⟩⟩
  have hic : i < r.out.mesh.count 2 := by rw [h.count]; exact (List.getElem?_eq_some_iff.1 hi).1
  have hT := triCell_of hI' hic
  have hv := h.verts i t c hi
  obtain ⟨a, ha, ea⟩ := hT.mem_verts.1 (show labelVertex 2 src.mesh w ev t x ∈ r.out.mesh.vertsOf 2 i by rw [hv]; exact List.mem_map_of_mem hx)
  obtain ⟨b, hb, eb⟩ := hT.mem_verts.1 (show labelVertex 2 src.mesh w ev t y ∈ r.out.mesh.vertsOf 2 i by rw [hv]; exact List.mem_map_of_mem hy)
  have hab : a ≠ b := by
    rintro rfl
    rw [ea] at eb
    exact hxy (h.tri_label_inj hI ht hc hc hy hx eb)
  obtain ⟨p, hp, hpe⟩ := triEnds_pair a ha b hb hab
  refine ⟨triEdg r.out.mesh i p, hT.lt p hp, (hT.ends p hp).trans ?_⟩
  rcases hpe with ⟨h1, h2⟩ | ⟨h1, h2⟩
  · rw [h1, h2, ea, eb]
  · rw [h1, h2, ea, eb]; exact List.Perm.swap _ _ _

end

/-- The length of an edge, for a given measure of the difference of its ends. -/
def lineMeasure {K : Type} [Sub K] [Zero K] (mu : (Nat → K) → K) : List (Nat → K) → K
  | [p, q] => mu (fun k => q k - p k)
  | _ => 0

section
variable {K : Type} [Field K] [LinearOrder K] [IsStrictOrderedRing K] {src : SegState (Nat → K)} {dist : (Nat → K) → (Nat → K) → K}
  {mark : Nat → Bool} {r : RefSt (Nat → K)} {C : Nat → List (List Nat)} {R : Nat → List (Option (Vtx (Nat → K)))} {w ev : Nat → Nat}

omit [Field K] [LinearOrder K] [IsStrictOrderedRing K] in
/-- The points of an edge, by its vertices. -/
theorem line_points {m : Mesh (Nat → K)} {f a b : Nat} {x y : Nat → K} (h : (m.vertsOf 1 f).Perm [a, b]) (ha : m.ptOf a = some x)
    (hb : m.ptOf b = some y) : (cellPoints m 1 f).Perm [x, y] := by
  unfold cellPoints
  refine (h.filterMap _).trans ?_
  rw [List.filterMap_cons_some ha, List.filterMap_cons_some hb, List.filterMap_nil]

theorem line_swap {mu : (Nat → K) → K} (hmu : ∀ s v, mu (fun k => s * v k) = |s| * mu v) (x y : Nat → K) :
    lineMeasure mu [x, y] = lineMeasure mu [y, x] := by
  have := hmu (-1) (fun k => x k - y k)
  simp only [abs_neg, abs_one, one_mul] at this
  simp only [lineMeasure]
  rw [← this]
  congr 1; funext k; ring

theorem line_perm {mu : (Nat → K) → K} (hmu : ∀ s v, mu (fun k => s * v k) = |s| * mu v) {l : List (Nat → K)} {x y : Nat → K}
    (h : l.Perm [x, y]) : lineMeasure mu l = lineMeasure mu [x, y] := by
  have hl := h.length_eq
  match l, hl with
  | [a, b], _ =>
    have hc := List.mem_permutations.2 h
    simp [List.permutations, List.permutationsAux, List.permutationsAux.rec, List.permutationsAux2] at hc
    rcases hc with ⟨rfl, rfl⟩ | ⟨rfl, rfl⟩
    · rfl
    · exact line_swap hmu _ _

theorem line_half {mu : (Nat → K) → K} (hmu : ∀ s v, mu (fun k => s * v k) = |s| * mu v) (x y : Nat → K) :
    lineMeasure mu [x, fun k => (x k + y k) / 2] = 1 / 2 * lineMeasure mu [x, y] := by
  have := hmu (1 / 2) (fun k => y k - x k)
  rw [abs_of_pos (by norm_num)] at this
  simp only [lineMeasure]
  rw [← this]
  congr 1; funext k; ring

theorem edgeMid_of {m : Mesh (Nat → K)} {E a b : Nat} {x y : Nat → K} (h : (m.vertsOf 1 E).Perm [a, b]) (ha : m.ptOf a = some x)
    (hb : m.ptOf b = some y) : edgeMid m E = fun k => (x k + y k) / 2 := by
  have hl := h.length_eq
  match hv : m.vertsOf 1 E, hl with
  | [c, d], _ =>
    rw [hv] at h
    unfold edgeMid
    rcases perm_pair_iff.1 h with ⟨rfl, rfl⟩ | ⟨rfl, rfl⟩
    · rw [hv]; simp only [List.map_cons, List.map_nil, ha, hb]
    · rw [hv]; simp only [List.map_cons, List.map_nil, ha, hb]; funext k; ring

/-- The points of an edge of the source and of an edge on it. -/
theorem edgeOn_points (hp : RefinedPts 2 src mark (edgeMid src.mesh) r w ev)
    (hI : Inv (simplexTopo 2) src.mesh) {f E : Nat} (hE : EdgeOn src r mark w ev f E) :
    ∃ x y, (cellPoints src.mesh 1 E).Perm [x, y] ∧
      ((mark E = true ∧ (cellPoints r.out.mesh 1 f).Perm [x, fun k => (x k + y k) / 2]) ∨
        (mark E = false ∧ (cellPoints r.out.mesh 1 f).Perm [x, y])) := by
  obtain ⟨hlt, ⟨t, ht, het⟩, a, b, hab, hcase⟩ := hE
  have m1 : ∀ v ∈ [a, b], v ∈ src.mesh.vertsOf 2 t := fun v hv => (line_mem hI ht hlt).1 het (hab.mem_iff.2 hv)
  have pt : ∀ v ∈ [a, b], ∃ x, src.mesh.ptOf v = some x := by
    intro v hv
    have := (simplex_verts (by omega) hI ht).2.2 v (m1 v hv)
    unfold Mesh.ptOf
    rw [List.getElem?_eq_getElem this]
    exact ⟨_, rfl⟩
  obtain ⟨x, hx⟩ := pt a (by simp)
  obtain ⟨y, hy⟩ := pt b (by simp)
  have ox := (hp.old t ht a (m1 a (by simp))).trans hx
  have oy := (hp.old t ht b (m1 b (by simp))).trans hy
  refine ⟨x, y, line_points hab hx hy, ?_⟩
  rcases hcase with ⟨hm, hv⟩ | ⟨hm, hv⟩
  · have hmid := hp.mids E hlt hm
    rw [edgeMid_of hab hx hy] at hmid
    exact Or.inl ⟨hm, line_points hv ox hmid⟩
  · exact Or.inr ⟨hm, line_points hv ox oy⟩

open Classical in
/-- The edges on an edge of the source have together its length. -/
theorem Refined.edge_length (h : Refined 2 src (triKids dist) mark r C R w ev) (hp : RefinedPts 2 src mark (edgeMid src.mesh) r w ev)
    (hI : Inv (simplexTopo 2) src.mesh) {E t : Nat} (ht : t < src.mesh.count 2) (hEt : E ∈ src.mesh.bndOf 2 t 1)
    {mu : (Nat → K) → K} (hmu : ∀ s v, mu (fun k => s * v k) = |s| * mu v) :
    (((List.range (r.out.mesh.count 1)).filter (fun f => decide (EdgeOn src r mark w ev f E))).map
      (fun f => lineMeasure mu (cellPoints r.out.mesh 1 f))).sum = lineMeasure mu (cellPoints src.mesh 1 E) := by
  have hI' := (h.reached.inv (simplexTopo_wf 2) (simplexTopo_closed 2)).mesh
  have hT := triCell_of hI ht
  obtain ⟨p, hp3, rfl⟩ := hT.mem_edges.1 hEt
  obtain ⟨a1, a2, a3⟩ := triEnds_lt p hp3
  obtain ⟨c1, c2⟩ := (h.tri_children ht).1 p hp3
  have hlt := hT.lt p hp3
  have hends := hT.ends p hp3
  have hne : w (triVtx src.mesh t (triEnds p).1) ≠ w (triVtx src.mesh t (triEnds p).2) := by
    intro e
    exact a3 (hT.inj _ a1 _ a2 (h.winj t ht _ (hT.mem_verts.2 ⟨_, a1, rfl⟩) t ht _ (hT.mem_verts.2 ⟨_, a2, rfl⟩) e))
  have hmem : ∀ f, f ∈ (List.range (r.out.mesh.count 1)).filter (fun f => decide (EdgeOn src r mark w ev f (triEdg src.mesh t p))) ↔
      f < r.out.mesh.count 1 ∧ EdgeOn src r mark w ev f (triEdg src.mesh t p) := by
    intro f; rw [List.mem_filter, List.mem_range, decide_eq_true_iff]
  have hn : ((List.range (r.out.mesh.count 1)).filter (fun f => decide (EdgeOn src r mark w ev f (triEdg src.mesh t p)))).Nodup :=
    List.nodup_range.filter _
  cases hm : mark (triEdg src.mesh t p) with
  | true =>
    obtain ⟨s1, s2, _⟩ := c1 hm
    obtain ⟨f1, hf1, v1⟩ := h.edge_exists hI ht (by omega) s1
    obtain ⟨f2, hf2, v2⟩ := h.edge_exists hI ht (by omega) s2
    rw [labelVertex_lt a1, labelVertex_ge] at v1
    rw [labelVertex_lt a2, labelVertex_ge] at v2
    have o1 : EdgeOn src r mark w ev f1 (triEdg src.mesh t p) := ⟨hlt, ⟨t, ht, hEt⟩, _, _, hends, Or.inl ⟨hm, v1⟩⟩
    have o2 : EdgeOn src r mark w ev f2 (triEdg src.mesh t p) :=
      ⟨hlt, ⟨t, ht, hEt⟩, _, _, hends.trans (List.Perm.swap _ _ _), Or.inl ⟨hm, v2⟩⟩
    have hff : f1 ≠ f2 := by
      rintro rfl
      rcases perm_pair_iff.1 (v1.symm.trans v2) with ⟨e, _⟩ | ⟨e, _⟩
      · exact hne e
      · exact h.sep t ht _ (hT.mem_verts.2 ⟨_, a1, rfl⟩) _ hlt hm e
    have hperm : ((List.range (r.out.mesh.count 1)).filter (fun f => decide (EdgeOn src r mark w ev f (triEdg src.mesh t p)))).Perm [f1, f2] := by
      refine (List.perm_ext_iff_of_nodup hn (by simp [hff])).2 fun f => ?_
      rw [hmem]
      simp only [List.mem_cons, List.not_mem_nil, or_false]
      constructor
      · rintro ⟨hf, _, _, a, b, hab, ⟨_, hv⟩ | ⟨hm', _⟩⟩
        · rcases hT.end_of hp3 hab with ⟨rfl, rfl⟩ | ⟨rfl, rfl⟩
          · exact Or.inl (line_same hI' hf hf1 (hv.trans v1.symm))
          · exact Or.inr (line_same hI' hf hf2 (hv.trans v2.symm))
        · rw [hm] at hm'; exact absurd hm' (by simp)
      · rintro (rfl | rfl)
        · exact ⟨hf1, o1⟩
        · exact ⟨hf2, o2⟩
    rw [(hperm.map _).sum_eq]
    simp only [List.map_cons, List.map_nil, List.sum_cons, List.sum_nil]
    have half : ∀ f, EdgeOn src r mark w ev f (triEdg src.mesh t p) →
        lineMeasure mu (cellPoints r.out.mesh 1 f) = 1 / 2 * lineMeasure mu (cellPoints src.mesh 1 (triEdg src.mesh t p)) := by
      intro f hf
      obtain ⟨x, y, e1, ⟨_, e2⟩ | ⟨e2, _⟩⟩ := edgeOn_points hp hI hf
      · rw [line_perm hmu e1, line_perm hmu e2, line_half hmu]
      · rw [hm] at e2; exact absurd e2 (by simp)
    rw [half f1 o1, half f2 o2]; ring
  | false =>
    obtain ⟨s1, _⟩ := c2 hm
    obtain ⟨f1, hf1, v1⟩ := h.edge_exists hI ht a3 s1
    rw [labelVertex_lt a1, labelVertex_lt a2] at v1
    have o1 : EdgeOn src r mark w ev f1 (triEdg src.mesh t p) := ⟨hlt, ⟨t, ht, hEt⟩, _, _, hends, Or.inr ⟨hm, v1⟩⟩
    have hperm : ((List.range (r.out.mesh.count 1)).filter (fun f => decide (EdgeOn src r mark w ev f (triEdg src.mesh t p)))).Perm [f1] := by
      refine (List.perm_ext_iff_of_nodup hn (by simp)).2 fun f => ?_
      rw [hmem, List.mem_singleton]
      constructor
      · rintro ⟨hf, _, _, a, b, hab, ⟨hm', _⟩ | ⟨_, hv⟩⟩
        · rw [hm] at hm'; exact absurd hm' (by simp)
        · rcases hT.end_of hp3 hab with ⟨rfl, rfl⟩ | ⟨rfl, rfl⟩
          · exact line_same hI' hf hf1 (hv.trans v1.symm)
          · exact line_same hI' hf hf1 ((hv.trans (List.Perm.swap _ _ _)).trans v1.symm)
      · rintro rfl; exact ⟨hf1, o1⟩
    rw [(hperm.map _).sum_eq]
    simp only [List.map_cons, List.map_nil, List.sum_cons, List.sum_nil, add_zero]
    obtain ⟨x, y, e1, ⟨e2, _⟩ | ⟨_, e2⟩⟩ := edgeOn_points hp hI o1
    · rw [hm] at e2; exact absurd e2 (by simp)
    · rw [line_perm hmu e1, line_perm hmu e2]

end

end VG
