import Verif.Lemmas.Queries
import Verif.Props.Incidence

/-!
C13 coboundary, C14 neighbors, C16/C17 boundary: cached queries are exact at every moment.
-/

namespace VG

variable {P : Type}

/-! ### Specification of incidence: by vertices and the tables of the topology, without references
between elements -/

/-- The element `s` of dimension `k` is on the boundary of the element `t` of dimension `d`: its
vertices are those prescribed by one entry of the boundary table of the topology of `t`. -/
def OnBoundary (T : Topo) (m : Mesh P) (k s d t : Nat) : Prop :=
  if k = 0 then ∃ e, (m.elems d)[t]? = some e ∧ s ∈ e.verts
  else ∃ e f idxs ix, (m.elems d)[t]? = some e ∧ (m.elems k)[s]? = some f ∧
    (k, idxs) ∈ T.layers d e.verts.length ∧ ix ∈ idxs ∧ SameVerts f.verts (ix.map (fun i => e.verts.getD i 0))

/-- `elements<k>(t)` is right. -/
theorem mem_bndOf_iff {T : Topo} (hT : T.WF) {m : Mesh P} (hI : Inv T m) {k s d t : Nat}
    (hd : d ≤ T.cellDim) : s ∈ m.bndOf d t k ↔ OnBoundary T m k s d t := by
  unfold OnBoundary
  by_cases hk : k = 0
  · unfold Mesh.bndOf
    simp only [if_pos hk]
    cases h : (m.elems d)[t]? with
    | none => simp
    | some e => simp
  · unfold Mesh.bndOf
    simp only [if_neg hk]
    cases h : (m.elems d)[t]? with
    | none => simp
    | some e =>
      have he := List.mem_of_getElem? h
      constructor
      · intro hs
        simp only at hs
        unfold Elem.bndSlots at hs
        split at hs
        · simp at hs
        · rename_i l hl
          obtain ⟨k', refs⟩ := l
          have h1 := List.mem_of_find?_eq_some hl
          have h2 := List.find?_some hl
          simp only [beq_iff_eq] at h2
          subst h2
          obtain ⟨q, hq⟩ := List.mem_iff_getElem?.1 h1
          obtain ⟨⟨k'', idxs⟩, hlay, hk', hf2⟩ := forall₂_getElem?' (hI.bnd d e he) hq
          simp only at hk'
          subst hk'
          obtain ⟨r, hr, rfl⟩ := List.mem_map.1 hs
          obtain ⟨u, hu⟩ := List.mem_iff_getElem?.1 hr
          obtain ⟨ix, hix, g, hg, hgp, _⟩ := forall₂_getElem?' hf2 hu
          exact ⟨e, g, idxs, ix, rfl, hg, List.mem_of_getElem? hlay, List.mem_of_getElem? hix,
            sameVerts_of_perm hgp⟩
      · rintro ⟨e', f, idxs, ix, he', hf, hl, hix, hsv⟩
        cases he'
        obtain ⟨refs, h1, h2⟩ := (hI.bnd d e he).lookup (hT.once d _) hl
        have hbs : e.bndSlots k = refs.map (·.1) := by unfold Elem.bndSlots; rw [h1]
        obtain ⟨p, hp⟩ := List.mem_iff_getElem?.1 hix
        obtain ⟨r, hr, g, h3, h4, _, _⟩ := forall₂_getElem? h2 hp
        have hfv := hI.verts k f (List.mem_of_getElem? hf)
        have hgv := hI.verts k g (List.mem_of_getElem? h3)
        have hkd := (hT.dim d _ k idxs hl).2
        have : s = r.1 := hI.slot_unique (by omega) hf h3
          (sameVerts_perm hfv.1 hgv.1 (fun v => (hsv v).trans (sameVerts_of_perm h4 v).symm))
        simp only [hbs, this]
        exact List.mem_map.2 ⟨r, List.mem_of_getElem? hr, rfl⟩

/-- For simplices: on the boundary means that the vertices are among those of the other. -/
theorem onBoundary_simplex {n : Nat} {m : Mesh P} (hI : Inv (simplexTopo n) m) {k s d t : Nat}
    (hk : 1 ≤ k) (hk2 : k ≤ 2) (hkd : k < d) :
    OnBoundary (simplexTopo n) m k s d t ↔
      ∃ e f, (m.elems d)[t]? = some e ∧ (m.elems k)[s]? = some f ∧ f.verts ⊆ e.verts := by
  unfold OnBoundary
  rw [if_neg (by omega)]
  constructor
  · rintro ⟨e, f, idxs, ix, he, hf, hl, hix, hsv⟩
    refine ⟨e, f, he, hf, fun v hv => ?_⟩
    exact (pick_ok (simplexTopo_wf n) hix hl (hI.verts d e (List.mem_of_getElem? he))).2 ((hsv v).1 hv)
  · rintro ⟨e, f, he, hf, hsub⟩
    have hfv := hI.verts k f (List.mem_of_getElem? hf)
    have hev := hI.verts d e (List.mem_of_getElem? he)
    obtain ⟨ix, hix, hperm⟩ := exists_index_subset hfv.1 hsub
    have hlen : f.verts.length = k + 1 := hfv.2.1.fixed
    have hclen : e.verts.length = d + 1 := hev.2.1.fixed
    rw [hlen, hclen] at hix
    have hsv : SameVerts f.verts (ix.map (fun i => e.verts.getD i 0)) := sameVerts_of_perm hperm.symm
    have hk12 : k = 1 ∨ k = 2 := by omega
    rcases hk12 with rfl | rfl
    · exact ⟨e, f, edgeIdx (d + 1), ix, he, hf, by simp [simplexTopo]; omega,
        (C06_edges_are_pairs _ _).2 hix, hsv⟩
    · exact ⟨e, f, triIdx (d + 1), ix, he, hf, by simp [simplexTopo]; omega,
        (C06_triangles_are_triples _ _).2 hix, hsv⟩

theorem onBoundary_lt {T : Topo} {m : Mesh P} {k s d t : Nat} (hd1 : 1 ≤ d)
    (h : OnBoundary T m k s d t) : t < m.count d := by
  unfold Mesh.count
  rw [if_neg (by omega)]
  unfold OnBoundary at h
  split at h
  · obtain ⟨e, he, _⟩ := h; exact (List.getElem?_eq_some_iff.1 he).1
  · obtain ⟨e, _, _, _, he, _⟩ := h; exact (List.getElem?_eq_some_iff.1 he).1

/-! ### C13 -/

/-- C13: after any interleaving of creations and queries, the coboundary of `s` is exactly the set of
elements having it on their boundary, each once. -/
theorem C13_coboundary_exact {T : Topo} (hT : LibTopo T) {st : MState P} (h : Reached T st)
    {k d s : Nat} (hd1 : 1 ≤ d) (hd : d ≤ T.cellDim) (hs : s < st.mesh.count k) :
    (st.coboundary k d s).2.Nodup ∧
    ∀ t, t ∈ (st.coboundary k d s).2 ↔ OnBoundary T st.mesh k s d t := by
  have hI := h.inv hT.wf
  obtain ⟨_, _, _, hu⟩ := h
  have hf := (refreshCob_spec hT.wf hI.inv hu hI.cache k d).2 s hs
  have e : (st.coboundary k d s).2 =
      (List.range (st.mesh.count d)).filter (fun t => s ∈ st.mesh.bndOf d t k) := by
    unfold MState.coboundary
    simp only
    rw [refreshCob_mesh, hf]
  rw [e]
  refine ⟨List.Nodup.filter _ List.nodup_range, fun t => ?_⟩
  rw [← mem_bndOf_iff hT.wf hI.inv hd]
  simp only [List.mem_filter, List.mem_range, decide_eq_true_eq, and_iff_right_iff_imp]
  intro hs'
  exact onBoundary_lt hd1 ((mem_bndOf_iff hT.wf hI.inv hd).1 hs')

/-- C13 for simplices, in terms of vertices only: the coboundary of an edge or triangle consists of
the elements containing its vertices. -/
theorem C13_coboundary_simplex {n : Nat} {st : MState P} (h : Reached (simplexTopo n) st)
    {k d s : Nat} (hk : 1 ≤ k) (hk2 : k ≤ 2) (hkd : k < d) (hd : d ≤ n) {f : Elem}
    (hs : (st.mesh.elems k)[s]? = some f) (t : Nat) :
    t ∈ (st.coboundary k d s).2 ↔ ∃ e, (st.mesh.elems d)[t]? = some e ∧ f.verts ⊆ e.verts := by
  have hT : LibTopo (simplexTopo n) := Or.inl ⟨n, rfl⟩
  have hlt : s < st.mesh.count k := by
    unfold Mesh.count; rw [if_neg (by omega)]; exact (List.getElem?_eq_some_iff.1 hs).1
  rw [(C13_coboundary_exact hT h (by omega) hd hlt).2 t,
    onBoundary_simplex (h.inv hT.wf).inv hk hk2 hkd]
  constructor
  · rintro ⟨e, f', he, hf', hsub⟩
    rw [hs] at hf'
    cases hf'
    exact ⟨e, he, hsub⟩
  · rintro ⟨e, he, hsub⟩
    exact ⟨e, f, he, hs, hsub⟩

/-- C13, the coboundary is the inverse of the boundary as both are seen by the user. -/
theorem C13_inverse_of_boundary {T : Topo} (hT : LibTopo T) {st : MState P} (h : Reached T st)
    {k d s : Nat} (hd1 : 1 ≤ d) (hd : d ≤ T.cellDim) (hs : s < st.mesh.count k) (t : Nat) :
    t ∈ (st.coboundary k d s).2 ↔ s ∈ st.mesh.bndOf d t k := by
  rw [(C13_coboundary_exact hT h hd1 hd hs).2 t, mem_bndOf_iff hT.wf (h.inv hT.wf).inv hd]

/-- C13, asking does not change anything a user can see. -/
theorem C13_query_keeps_mesh (st : MState P) (k d s : Nat) :
    (st.coboundary k d s).1.mesh = st.mesh := refreshCob_mesh st k d

/-! ### C14 -/

/-- C14: after any interleaving of creations and queries, the neighbors of `t` are exactly the
elements different from `t` sharing a connector element with it, each once. -/
theorem C14_neighbors_exact {T : Topo} (hT : LibTopo T) {st : MState P} (h : Reached T st)
    {d c t : Nat} (hd1 : 1 ≤ d) (hd : d ≤ T.cellDim) (ht : t < st.mesh.count d) :
    (st.neighbors d c t).2.Nodup ∧
    ∀ u, u ∈ (st.neighbors d c t).2 ↔
      u ≠ t ∧ ∃ s, OnBoundary T st.mesh c s d t ∧ OnBoundary T st.mesh c s d u := by
  have hI := h.inv hT.wf
  obtain ⟨_, _, _, hu⟩ := h
  obtain ⟨h1, _, h3⟩ := refreshNb_spec hT.wf hI.inv hu hI.cache d c
  have h4 := h3 t ht
  have e : (st.neighbors d c t).2 = ((st.refreshNb d c).nb d c).data (st.mesh.eid d t) := by
    unfold MState.neighbors
    simp only
    rw [h1]
  rw [e]
  refine ⟨h4.1, fun u => ?_⟩
  rw [h4.2 u]
  constructor
  · rintro ⟨_, _, hne, s, hs1, hs2⟩
    exact ⟨hne.symm, s, (mem_bndOf_iff hT.wf hI.inv hd).1 hs1, (mem_bndOf_iff hT.wf hI.inv hd).1 hs2⟩
  · rintro ⟨hne, s, hs1, hs2⟩
    exact ⟨ht, onBoundary_lt hd1 hs2, hne.symm, s, (mem_bndOf_iff hT.wf hI.inv hd).2 hs1,
      (mem_bndOf_iff hT.wf hI.inv hd).2 hs2⟩

/-- C14: neighborship is symmetric. -/
theorem C14_neighbors_symmetric {T : Topo} (hT : LibTopo T) {st : MState P} (h : Reached T st)
    {d c t u : Nat} (hd1 : 1 ≤ d) (hd : d ≤ T.cellDim) (ht : t < st.mesh.count d)
    (hu : u < st.mesh.count d) :
    u ∈ (st.neighbors d c t).2 ↔ t ∈ (st.neighbors d c u).2 := by
  rw [(C14_neighbors_exact hT h hd1 hd ht).2, (C14_neighbors_exact hT h hd1 hd hu).2]
  constructor
  · rintro ⟨h1, s, h2, h3⟩; exact ⟨h1.symm, s, h3, h2⟩
  · rintro ⟨h1, s, h2, h3⟩; exact ⟨h1.symm, s, h3, h2⟩

/-- C14: no element is its own neighbor. -/
theorem C14_neighbors_irreflexive {T : Topo} (hT : LibTopo T) {st : MState P} (h : Reached T st)
    {d c t : Nat} (hd1 : 1 ≤ d) (hd : d ≤ T.cellDim) (ht : t < st.mesh.count d) :
    t ∉ (st.neighbors d c t).2 := by
  rw [(C14_neighbors_exact hT h hd1 hd ht).2]
  rintro ⟨h1, _⟩; exact h1 rfl

/-! ### C16 -/

/-- Specification: the cells using a facet. -/
def UsedBy (T : Topo) (m : Mesh P) (s c : Nat) : Prop := OnBoundary T m (T.cellDim - 1) s T.cellDim c

theorem numCells_spec {T : Topo} (hT : LibTopo T) (hn : 1 ≤ T.cellDim) {m : Mesh P} (hI : Inv T m) (s : Nat) :
    ∃ l : List Nat, l.Nodup ∧ (∀ c, c ∈ l ↔ UsedBy T m s c) ∧ numCells T m s = l.length := by
  refine ⟨_, List.Nodup.filter _ List.nodup_range, fun c => ?_, rfl⟩
  unfold UsedBy
  rw [← mem_bndOf_iff hT.wf hI (le_refl _)]
  simp only [List.mem_filter, List.mem_range, decide_eq_true_eq, and_iff_right_iff_imp]
  intro hs'
  exact onBoundary_lt hn ((mem_bndOf_iff hT.wf hI (le_refl _)).1 hs')

theorem isBoundary_iff {T : Topo} (hT : LibTopo T) {st : MState P} (h : Reached T st) {k s : Nat}
    (hk : k ≤ T.cellDim - 1) (hs : s < st.mesh.count k) :
    (st.isBoundary T k s).2 = true ↔
      if k = T.cellDim - 1 then numCells T st.mesh s % 2 = 1
      else ∃ f < st.mesh.count (T.cellDim - 1), numCells T st.mesh f % 2 = 1 ∧
        s ∈ st.mesh.bndOf (T.cellDim - 1) f k := by
  have hI := h.inv hT.wf
  obtain ⟨_, _, _, hu⟩ := h
  obtain ⟨h1, _, h3⟩ := isBoundary_spec hT.wf hI.inv hu hI.cache k s
  rw [← h3 hk s hs]
  have : (st.isBoundary T k s).2 = ((st.isBoundary T k s).1.bd k).data (st.mesh.eid k s) := by
    rw [← h1]; rfl
  rw [this]

/-- C16, what the code computes at every moment: a facet is on the boundary iff an odd number of cells
uses it. -/
theorem C16_boundary_iff_odd {T : Topo} (hT : LibTopo T) (hn : 1 ≤ T.cellDim) {st : MState P}
    (h : Reached T st) {s : Nat} (hs : s < st.mesh.count (T.cellDim - 1)) :
    (st.isBoundary T (T.cellDim - 1) s).2 = true ↔
      ∃ l : List Nat, l.Nodup ∧ (∀ c, c ∈ l ↔ UsedBy T st.mesh s c) ∧ l.length % 2 = 1 := by
  rw [isBoundary_iff hT h (le_refl _) hs, if_pos rfl]
  obtain ⟨l, h1, h2, h3⟩ := numCells_spec hT hn (h.inv hT.wf).inv s
  rw [h3]
  constructor
  · intro ho; exact ⟨l, h1, h2, ho⟩
  · rintro ⟨l', h1', h2', ho⟩
    have : l.Perm l' := (List.perm_ext_iff_of_nodup h1 h1').2 (fun c => (h2 c).trans (h2' c).symm)
    rw [this.length_eq]; exact ho

/-- C16.  The full statement is the same without the hypothesis `hman`; it is false, see
`C16_violated`.  Proved for facets used by at most two cells, as in a manifold mesh. -/
theorem C16_boundary_iff_one_cell_partial {T : Topo} (hT : LibTopo T) (hn : 1 ≤ T.cellDim)
    {st : MState P} (h : Reached T st) {s : Nat} (hs : s < st.mesh.count (T.cellDim - 1))
    (hman : ∀ a b c, UsedBy T st.mesh s a → UsedBy T st.mesh s b → UsedBy T st.mesh s c →
      a = b ∨ a = c ∨ b = c) :
    (st.isBoundary T (T.cellDim - 1) s).2 = true ↔ ∃! c, UsedBy T st.mesh s c := by
  rw [C16_boundary_iff_odd hT hn h hs]
  constructor
  · rintro ⟨l, h1, h2, ho⟩
    match l, h1, h2, ho with
    | [], _, _, ho => simp at ho
    | [a], _, h2, _ =>
      refine ⟨a, (h2 a).1 (by simp), fun b hb => ?_⟩
      simpa using (h2 b).2 hb
    | [a, b], _, _, ho => simp at ho
    | a :: b :: c :: l, h1, h2, _ =>
      exfalso
      have := hman a b c ((h2 a).1 (by simp)) ((h2 b).1 (by simp)) ((h2 c).1 (by simp))
      simp only [List.nodup_cons, List.mem_cons, not_or] at h1
      rcases this with e | e | e
      · exact h1.1.1 e
      · exact h1.1.2.1 e
      · exact h1.2.1.1 e
  · rintro ⟨c, hc, hc'⟩
    refine ⟨[c], by simp, fun d => ?_, by simp⟩
    simp only [List.mem_singleton]
    constructor
    · rintro rfl; exact hc
    · intro hd; exact hc' d hd

/-- Three triangles at one edge. -/
def threeTriangles : List (QOp Unit) :=
  [.mesh (.vertex none ()), .mesh (.vertex none ()), .mesh (.vertex none ()), .mesh (.vertex none ()),
   .mesh (.vertex none ()), .mesh (.elem 2 [0, 1, 2]), .mesh (.elem 2 [0, 1, 3]), .mesh (.elem 2 [1, 0, 4])]

def threeTrianglesState : MState Unit := (MState.empty.run (simplexTopo 2) threeTriangles).getD MState.empty

theorem threeTriangles_reached : Reached (simplexTopo 2) threeTrianglesState :=
  ⟨threeTriangles, by simp [threeTriangles, QOp.meshOps, MOp.Distinct], rfl, by unfold UniqueVids; decide⟩

/-- C16 is violated: the edge 0-1 is used by three triangles and reported to be on the boundary. -/
theorem C16_violated :
    Reached (simplexTopo 2) threeTrianglesState ∧
    (threeTrianglesState.isBoundary (simplexTopo 2) 1 0).2 = true ∧
    UsedBy (simplexTopo 2) threeTrianglesState.mesh 0 0 ∧
    UsedBy (simplexTopo 2) threeTrianglesState.mesh 0 1 ∧
    UsedBy (simplexTopo 2) threeTrianglesState.mesh 0 2 := by
  have hI := (threeTriangles_reached.inv (simplexTopo_wf 2)).inv
  refine ⟨threeTriangles_reached, by decide, ?_, ?_, ?_⟩ <;>
  · refine (mem_bndOf_iff (simplexTopo_wf 2) hI (le_refl _)).1 ?_
    decide

/-! ### C17 -/

/-- C17: an element below facets is on the boundary iff it is on a facet which is on the boundary. -/
theorem C17_lower_boundary_is_closure {T : Topo} (hT : LibTopo T) (hn : 1 ≤ T.cellDim)
    {st : MState P} (h : Reached T st) {k s : Nat} (hk : k < T.cellDim - 1)
    (hs : s < st.mesh.count k) :
    (st.isBoundary T k s).2 = true ↔
      ∃ f < st.mesh.count (T.cellDim - 1), (st.isBoundary T (T.cellDim - 1) f).2 = true ∧
        OnBoundary T st.mesh k s (T.cellDim - 1) f := by
  rw [isBoundary_iff hT h (by omega) hs, if_neg (by omega)]
  constructor
  · rintro ⟨f, hf, h1, h2⟩
    refine ⟨f, hf, ?_, (mem_bndOf_iff hT.wf (h.inv hT.wf).inv (by omega)).1 h2⟩
    rw [isBoundary_iff hT h (le_refl _) hf, if_pos rfl]
    exact h1
  · rintro ⟨f, hf, h1, h2⟩
    refine ⟨f, hf, ?_, (mem_bndOf_iff hT.wf (h.inv hT.wf).inv (by omega)).2 h2⟩
    rw [isBoundary_iff hT h (le_refl _) hf, if_pos rfl] at h1
    exact h1

/-! ### A concrete history: queries between creations -/

/-- Two tetrahedra, the second created after the caches were filled. -/
def askBetween : List (QOp Unit) :=
  [.mesh (.vertex none ()), .mesh (.vertex none ()), .mesh (.vertex none ()), .mesh (.vertex none ()),
   .mesh (.elem 3 [0, 1, 2, 3]), .coboundary 0 3 1, .neighbors 3 2 0, .isBoundary 2 3, .isBoundary 0 0,
   .mesh (.vertex none ()), .mesh (.elem 3 [3, 2, 1, 4])]

def askBetweenState : MState Unit := (MState.empty.run (simplexTopo 3) askBetween).getD MState.empty

example : Reached (simplexTopo 3) askBetweenState :=
  ⟨askBetween, by simp [askBetween, QOp.meshOps, MOp.Distinct], rfl, by unfold UniqueVids; decide⟩

example : (askBetweenState.coboundary 0 3 1).2 = [0, 1] ∧ (askBetweenState.neighbors 3 2 0).2 = [1] ∧
    (askBetweenState.neighbors 3 2 1).2 = [0] ∧ (askBetweenState.isBoundary (simplexTopo 3) 2 3).2 = false ∧
    (askBetweenState.isBoundary (simplexTopo 3) 2 0).2 = true ∧
    (askBetweenState.isBoundary (simplexTopo 3) 0 0).2 = true := by decide

end VG
