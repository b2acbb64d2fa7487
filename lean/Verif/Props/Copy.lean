import Verif.Lemmas.Copy
import Verif.Props.Queries

/-!
C19 extract_boundary, C22 copying selected cells.
-/

namespace VG

variable {P : Type}

/-! ### Specification -/

/-- `dst` is the mesh made of the given elements of `src` (each given by its vertices): there is a renaming
of vertices, injective on the vertices used and onto the vertices of `dst`, that keeps points and takes the
elements to the cells of `dst`, in order and with the order of vertices kept. -/
def MadeOf (T : Topo) (src : Mesh P) (els : List (List Nat)) (dst : Mesh P) : Prop :=
  ∃ φ : Nat → Nat,
    (∀ v w, (∃ vs ∈ els, v ∈ vs) → (∃ vs ∈ els, w ∈ vs) → φ v = φ w → v = w) ∧
    (∀ i, i < dst.verts.length ↔ ∃ vs ∈ els, ∃ v ∈ vs, φ v = i) ∧
    (∀ vs ∈ els, ∀ v ∈ vs, ∃ a b, dst.verts[φ v]? = some a ∧ src.verts[v]? = some b ∧ a.pt = b.pt) ∧
    (dst.elems T.cellDim).map (·.verts) = els.map (fun vs => vs.map φ)

theorem copyElements_madeOf {T : Topo} (hT : T.WF) (hn : 1 ≤ T.cellDim) {src : Mesh P} (hu : UniqueVids src)
    {L : List (List Nat)}
    (hL : ∀ vs ∈ L, vs.Nodup ∧ T.Arity T.cellDim vs.length ∧ ∀ v ∈ vs, v < src.verts.length) :
    ∃ dst, (copyElements T src ⟨Mesh.empty, []⟩ L).map (·.dst) = some dst ∧ MadeOf T src L dst ∧
      BuiltCells T dst := by
  obtain ⟨c, used, h1, h2, h3, h4⟩ := copyElements_spec hT hn hu (CInv.empty T src) (by simp) (by simp) hL
  rw [List.nil_append] at h2 h3 h4
  refine ⟨c.dst, by rw [h1]; rfl, ⟨fun v => used.idxOf v, ?_, ?_, ?_, h2.cells⟩, h2.built⟩
  · rintro v w ⟨vs, hvs, hv⟩ ⟨ws, hws, hw⟩ he
    have e1 := List.getElem_idxOf (List.idxOf_lt_length_iff.2 (h3 vs hvs hv))
    have e2 := List.getElem_idxOf (List.idxOf_lt_length_iff.2 (h3 ws hws hw))
    simp only at he
    rw [← e1, ← e2]; simp only [he]
  · intro i
    rw [h2.len]
    constructor
    · intro hi
      obtain ⟨vs, hvs, hv⟩ := h4 used[i] (List.getElem_mem hi)
      exact ⟨vs, hvs, _, hv, h2.nodup.idxOf_getElem i hi⟩
    · rintro ⟨vs, hvs, v, hv, rfl⟩
      exact List.idxOf_lt_length_iff.2 (h3 vs hvs hv)
  · intro vs hvs v hv
    have hlt := List.idxOf_lt_length_iff.2 (h3 vs hvs hv)
    have hp := h2.pts (used.idxOf v) v (by rw [List.getElem?_eq_getElem hlt, List.getElem_idxOf])
    have hv' := (hL vs hvs).2.2 v hv
    unfold Mesh.ptOf at hp
    have hb := List.getElem?_eq_getElem hv'
    have ha := List.getElem?_eq_getElem (l := c.dst.verts) (by rw [h2.len]; exact hlt)
    refine ⟨_, _, ha, hb, ?_⟩
    rw [ha, hb] at hp
    simpa using hp

/-! ### C22 -/

/-- C22: `copy` of the cells accepted by a predicate gives the mesh made of those cells, and what else is in
it was created with them. -/
theorem C22_copy_selected {T : Topo} (hT : LibTopo T) (hn : 1 ≤ T.cellDim) {src : Mesh P} (hb : Built T src)
    (sel : Nat → Bool) :
    ∃ dst, copySelected T src sel = some dst ∧
      MadeOf T src (((List.range (src.elems T.cellDim).length).filter sel).map (src.vertsOf T.cellDim)) dst ∧
      BuiltCells T dst := by
  have hI := hb.inv hT.wf
  have hu : UniqueVids src := hb.choose_spec.2.2
  have hc : src.count T.cellDim = (src.elems T.cellDim).length := by unfold Mesh.count; rw [if_neg (by omega)]
  unfold copySelected
  rw [hc]
  refine copyElements_madeOf hT.wf hn hu ?_
  intro vs hvs
  obtain ⟨t, ht, rfl⟩ := List.mem_map.1 hvs
  have ht' := (List.mem_filter.1 ht).1
  rw [List.mem_range] at ht'
  have : src.vertsOf T.cellDim t = ((src.elems T.cellDim)[t]).verts := by
    unfold Mesh.vertsOf
    rw [List.getD_eq_getElem _ _ (by rw [List.length_map]; exact ht')]
    simp
  rw [this]
  exact hI.verts T.cellDim _ (List.getElem_mem ht')

/-- C22: the copies of two accepted cells share a vertex iff the cells do. -/
theorem C22_sharing {T : Topo} {src dst : Mesh P} {els : List (List Nat)} (h : MadeOf T src els dst)
    {i j : Nat} {vs ws : List Nat} {e f : Elem} (hi : els[i]? = some vs) (hj : els[j]? = some ws)
    (he : (dst.elems T.cellDim)[i]? = some e) (hf : (dst.elems T.cellDim)[j]? = some f) :
    (∃ v, v ∈ vs ∧ v ∈ ws) ↔ ∃ x, x ∈ e.verts ∧ x ∈ f.verts := by
  obtain ⟨φ, h1, _, _, h4⟩ := h
  have hve : e.verts = vs.map φ := by
    have := congrArg (fun l => l[i]?) h4
    simp only [List.getElem?_map, he, hi, Option.map_some, Option.some.injEq] at this
    exact this
  have hvf : f.verts = ws.map φ := by
    have := congrArg (fun l => l[j]?) h4
    simp only [List.getElem?_map, hf, hj, Option.map_some, Option.some.injEq] at this
    exact this
  rw [hve, hvf]
  constructor
  · rintro ⟨v, hv, hw⟩
    exact ⟨φ v, List.mem_map.2 ⟨v, hv, rfl⟩, List.mem_map.2 ⟨v, hw, rfl⟩⟩
  · rintro ⟨x, hx, hx'⟩
    obtain ⟨v, hv, rfl⟩ := List.mem_map.1 hx
    obtain ⟨w, hw, he'⟩ := List.mem_map.1 hx'
    have := h1 w v ⟨ws, List.mem_of_getElem? hj, hw⟩ ⟨vs, List.mem_of_getElem? hi, hv⟩ he'
    subst this
    exact ⟨w, hv, hw⟩

/-- C22, distinct ids are needed: with two vertices of the same id (which the id generator permits, C01) the
copied line has the same vertex twice. -/
theorem C22_needs_distinct_ids :
    ∃ src dst : Mesh Bool,
      Mesh.empty.run (simplexTopo 1) [.vertex (some 0) false, .vertex none true, .elem 1 [0, 1]] = some src ∧
      copySelected (simplexTopo 1) src (fun _ => true) = some dst ∧
      (dst.elems 1).map (·.verts) = [[0, 0]] := by
  exact ⟨_, _, rfl, rfl, by decide⟩

/-! ### C19 -/

theorem boundaryFacets_eq {T : Topo} (hT : LibTopo T) : ∀ {fs : List Nat} {st : MState P}, Inv T st.mesh →
    UniqueVids st.mesh → CacheInv T st → (∀ f ∈ fs, f < st.mesh.count (T.cellDim - 1)) →
    (boundaryFacets T st fs).2 = fs.filter (fun f => numCells T st.mesh f % 2 = 1)
  | [], _, _, _, _, _ => rfl
  | f :: fs, st, hI, hu, hc, hf => by
    obtain ⟨h1, h2, h3⟩ := isBoundary_spec hT.wf hI hu hc (T.cellDim - 1) f
    have h4 := h3 (le_refl _) f (hf f (by simp))
    rw [if_pos rfl] at h4
    have h5 : (st.isBoundary T (T.cellDim - 1) f).2 =
        ((st.isBoundary T (T.cellDim - 1) f).1.bd (T.cellDim - 1)).data (st.mesh.eid (T.cellDim - 1) f) := by
      rw [← h1]; rfl
    rw [← h5] at h4
    have ih := boundaryFacets_eq hT (fs := fs) (st := (st.isBoundary T (T.cellDim - 1) f).1) (by rw [h1]; exact hI)
      (by rw [h1]; exact hu) h2 (by rw [h1]; exact fun g hg => hf g (by simp [hg]))
    rw [h1] at ih
    simp only [boundaryFacets, ih]
    by_cases hb : numCells T st.mesh f % 2 = 1
    · rw [if_pos (h4.2 hb), List.filter_cons_of_pos (by simpa using hb)]
    · rw [if_neg (fun h => hb (h4.1 h)), List.filter_cons_of_neg (by simpa using hb)]

/-- C19: the hull is the mesh made of the facets on the boundary, one cell for each, in the order in which the
facets are visited (any order that visits each facet once). -/
theorem C19_hull {T T' : Topo} (hT : LibTopo T) (hT' : LibTopo T') (hd : T'.cellDim + 1 = T.cellDim)
    (hn : 1 ≤ T'.cellDim) (hnv : T'.nv T'.cellDim = T.nv T'.cellDim) {st : MState P} (h : Reached T st)
    {order : List Nat} (ho : order.Perm (List.range (st.mesh.elems T'.cellDim).length)) :
    ∃ hull, extractBoundary T T' st order = some hull ∧
      MadeOf T' st.mesh ((order.filter (fun f => (st.isBoundary T (T.cellDim - 1) f).2)).map
        (st.mesh.vertsOf (T.cellDim - 1))) hull ∧
      BuiltCells T' hull := by
  have hI := h.inv hT.wf
  have hF : T.cellDim - 1 = T'.cellDim := by omega
  have hcount : st.mesh.count (T.cellDim - 1) = (st.mesh.elems T'.cellDim).length := by
    unfold Mesh.count; rw [if_neg (by omega), hF]
  have hlt : ∀ f ∈ order, f < st.mesh.count (T.cellDim - 1) := by
    intro f hf; rw [hcount]; exact List.mem_range.1 (ho.mem_iff.1 hf)
  have hu : UniqueVids st.mesh := h.choose_spec.2.2
  have e : order.filter (fun f => (st.isBoundary T (T.cellDim - 1) f).2) =
      order.filter (fun f => numCells T st.mesh f % 2 = 1) := by
    refine List.filter_congr (fun f hf => ?_)
    have := isBoundary_iff hT h (le_refl _) (hlt f hf)
    rw [if_pos rfl] at this
    rw [Bool.eq_iff_iff, this]; simp
  unfold extractBoundary
  rw [boundaryFacets_eq hT hI.inv hu hI.cache hlt, e]
  refine copyElements_madeOf hT'.wf hn hu ?_
  intro vs hvs
  obtain ⟨t, ht, rfl⟩ := List.mem_map.1 hvs
  have ht' := hlt t (List.mem_filter.1 ht).1
  rw [hcount] at ht'
  have : st.mesh.vertsOf (T.cellDim - 1) t = ((st.mesh.elems T'.cellDim)[t]).verts := by
    unfold Mesh.vertsOf
    rw [hF, List.getD_eq_getElem _ _ (by rw [List.length_map]; exact ht')]
    simp
  rw [this]
  obtain ⟨h1, h2, h3⟩ := hI.inv.verts T'.cellDim _ (List.getElem_mem ht')
  exact ⟨h1, Or.inl ((h2.lower (by omega)).trans hnv.symm), h3⟩

/-- C19: for a mesh in which no facet has more than two cells, a facet of the volume mesh is a cell of the
hull iff exactly one cell uses it. -/
theorem C19_manifold {T : Topo} (hT : LibTopo T) (hn : 1 ≤ T.cellDim) {st : MState P} (h : Reached T st)
    {order : List Nat} (ho : order.Perm (List.range (st.mesh.count (T.cellDim - 1))))
    (hman : ∀ s a b c, UsedBy T st.mesh s a → UsedBy T st.mesh s b → UsedBy T st.mesh s c →
      a = b ∨ a = c ∨ b = c) :
    (order.filter (fun f => (st.isBoundary T (T.cellDim - 1) f).2)).Nodup ∧
    ∀ f, f ∈ order.filter (fun f => (st.isBoundary T (T.cellDim - 1) f).2) ↔
      f < st.mesh.count (T.cellDim - 1) ∧ ∃! c, UsedBy T st.mesh f c := by
  refine ⟨List.Nodup.filter _ (ho.nodup_iff.2 List.nodup_range), fun f => ?_⟩
  rw [List.mem_filter, ho.mem_iff, List.mem_range]
  refine and_congr_right (fun hf => ?_)
  exact C16_boundary_iff_one_cell_partial hT hn h hf (hman f)

/-! ### Concrete cases -/

/-- Two tetrahedra at a common triangle and a vertex used by none. -/
def hullTets : List (QOp Nat) :=
  [.mesh (.vertex none 10), .mesh (.vertex none 11), .mesh (.vertex none 12), .mesh (.vertex none 13),
   .mesh (.vertex none 14), .mesh (.vertex none 15), .mesh (.elem 3 [0, 1, 2, 4]), .mesh (.elem 3 [1, 2, 4, 5])]

def hullTetsState : MState Nat := (MState.empty.run (simplexTopo 3) hullTets).getD MState.empty

theorem hullTets_reached : Reached (simplexTopo 3) hullTetsState :=
  ⟨hullTets, by simp [hullTets, QOp.meshOps, MOp.Distinct], rfl, by unfold UniqueVids; decide⟩

/-- The hull has 6 triangles and 5 vertices; the common triangle and vertex 3 are not in it. -/
example : ((extractBoundary (simplexTopo 3) (simplexTopo 2) hullTetsState [0, 1, 2, 3, 4, 5, 6]).map
      (fun m => ((m.elems 2).map (·.verts), m.verts.map (·.pt)))) =
    some ([[0, 1, 2], [0, 1, 3], [0, 2, 3], [1, 2, 4], [1, 3, 4], [2, 3, 4]], [10, 11, 12, 14, 15]) := by decide

example : (List.range (hullTetsState.mesh.elems 2).length) = [0, 1, 2, 3, 4, 5, 6] := by decide

example : ((copySelected (simplexTopo 3) hullTetsState.mesh (fun t => t == 1)).map
      (fun m => ((m.elems 3).map (·.verts), m.verts.map (·.pt)))) =
    some ([[0, 1, 2, 3]], [11, 12, 14, 15]) := by decide

end VG
