import Verif.Props.MeshMeasure
import Verif.Props.Volumes
import Verif.Props.MeshCopy
import Verif.Lemmas.FacetOrder

/-!
C48: the surface of meshes built from cells only, for any facets.
-/

namespace VG

variable {P K : Type} [Field K]

/-- States reached by creating vertices and cells, with queries and copies in between; nothing is erased and no facet or
edge is created by the user. -/
def CellHistory (T : Topo) (st : MState P) : Prop :=
  ∃ ops : List (QOp P), (∀ op ∈ QOp.meshOps ops, op.Distinct ∧ op.CellsOnly T) ∧ (∀ op ∈ ops, op.Keeps) ∧
    MState.empty.run T ops = some st ∧ UniqueVids st.mesh

theorem CellHistory.reached {T : Topo} {st : MState P} (h : CellHistory T st) : Reached T st := by
  obtain ⟨ops, h1, _, h2, h3⟩ := h
  exact ⟨ops, fun o ho => (h1 o ho).1, h2, h3⟩

theorem CellHistory.facets {T : Topo} (hT : T.WF) (hn : 1 ≤ T.cellDim) {st : MState P} (h : CellHistory T st) :
    FacetsAsCells T st.mesh := by
  obtain ⟨ops, h1, h2, h3, _⟩ := h
  refine qrun_facetsAsCells hT hn ?_ (fun o ho => (h1 o ho).2) h2 h3
  intro f hf
  simp [MState.empty, Mesh.empty] at hf

theorem pick_map {σ : Nat → Nat} {vs ix : List Nat} (h : ∀ i ∈ ix, i < vs.length) :
    pick (vs.map σ) ix = (pick vs ix).map σ := by
  rw [pick, pick, List.map_map]
  refine List.map_congr_left fun i hi => ?_
  simp [h i hi]

theorem pick_perm {vs ix ix' : List Nat} (hv : vs.Nodup) (h : ∀ i ∈ ix, i < vs.length) (h' : ∀ i ∈ ix', i < vs.length)
    (hp : (pick vs ix).Perm (pick vs ix')) (hnd : ix.Nodup) (hnd' : ix'.Nodup) : ix.Perm ix' := by
  have inj : ∀ i j, i < vs.length → j < vs.length → vs.getD i 0 = vs.getD j 0 → i = j := by
    intro i j hi hj e
    rw [List.getD_eq_getElem _ _ hi, List.getD_eq_getElem _ _ hj] at e
    exact (List.Nodup.getElem_inj_iff hv).1 e
  refine (List.perm_ext_iff_of_nodup hnd hnd').2 fun i => ?_
  constructor
  · intro hi
    obtain ⟨j, hj, e⟩ := List.mem_map.1 (hp.mem_iff.1 (List.mem_map.2 ⟨i, hi, rfl⟩))
    rw [← inj j i (h' j hj) (h i hi) e]; exact hj
  · intro hi
    obtain ⟨j, hj, e⟩ := List.mem_map.1 (hp.mem_iff.2 (List.mem_map.2 ⟨i, hi, rfl⟩))
    rw [← inj j i (h j hj) (h' i hi) e]; exact hj

/-- If meshes are built from vertices and cells only and no facet belongs to more than two cells, the surface does not
depend on the order of vertices and cells, whatever the volume of a facet is computed from.  The full statement is
without these hypotheses, it fails (`C48_violated`, `C48_violated_erase`). -/
theorem C48_surface_order_cells_partial {T : Topo} (hT : LibTopo T) (hn : 2 ≤ T.cellDim) (vol : List P → K)
    {st st' : MState P} (h : CellHistory T st) (h' : CellHistory T st')
    (hman : ∀ s a b c, UsedBy T st.mesh s a → UsedBy T st.mesh s b → UsedBy T st.mesh s c → a = b ∨ a = c ∨ b = c)
    (σ : Nat → Nat) (hσ : ∀ a b, σ a = σ b → a = b)
    (hpt : ∀ v < st.mesh.verts.length, st'.mesh.ptOf (σ v) = st.mesh.ptOf v)
    (hc : ((st'.mesh.elems T.cellDim).map (·.verts)).Perm ((st.mesh.elems T.cellDim).map fun e => e.verts.map σ)) :
    (st'.surface T vol).2 = (st.surface T vol).2 := by
  have hI := (h.reached.inv hT.wf).inv
  have hI' := (h'.reached.inv hT.wf).inv
  have inj : Function.Injective σ := fun a b => hσ a b
  refine surface_order hT hn vol h.reached h'.reached σ hσ (fun s s' f f' hf hf' ho _ hp => ?_) hc
  obtain ⟨e, he, idxs, ix, hl, hx, hv⟩ := h.facets hT.wf (by omega) f (List.mem_of_getElem? hf)
  obtain ⟨e', he', idxs', ix', hl', hx', hv'⟩ := h'.facets hT.wf (by omega) f' (List.mem_of_getElem? hf')
  obtain ⟨e1, he1, h1⟩ := List.mem_map.1 (hc.mem_iff.1 (List.mem_map.2 ⟨e', he', rfl⟩))
  have hve := hI.verts _ e he
  have hve1 := hI.verts _ e1 he1
  rw [← h1, List.length_map] at hl'
  have hi := hT.wf.idx _ _ _ _ hve.2.1 hl ix hx
  have hi' := hT.wf.idx _ _ _ _ hve1.2.1 hl' ix' hx'
  have hpick : f'.verts = (pick e1.verts ix').map σ := by
    rw [hv', ← h1, pick_map]
    exact hi'.2.2
  have hp1 : f.verts.Perm (pick e1.verts ix') := by
    rw [hpick] at hp
    exact (List.map_perm_map_iff inj).1 hp
  -- there is only one cell
  have hee : e = e1 := by
    obtain ⟨t, ht⟩ := List.mem_iff_getElem?.1 he
    obtain ⟨t1, ht1⟩ := List.mem_iff_getElem?.1 he1
    have hk : T.cellDim - 1 ≠ 0 := by omega
    have hu : UsedBy T st.mesh s t := by
      rw [UsedBy, OnBoundary, if_neg hk]
      exact ⟨e, f, idxs, ix, ht, hf, hl, hx, fun v => by rw [hv]; rfl⟩
    have hu1 : UsedBy T st.mesh s t1 := by
      rw [UsedBy, OnBoundary, if_neg hk]
      exact ⟨e1, f, idxs', ix', ht1, hf, hl', hx', sameVerts_of_perm hp1⟩
    obtain ⟨l, hl1, hl2, hl3⟩ := numCells_spec hT (by omega) hI s
    have htt : t = t1 := by
      by_contra hne
      have hm := (hl2 t).2 hu
      have hm1 := (hl2 t1).2 hu1
      have hsub : [t, t1].Subperm l := by
        refine List.subperm_of_subset (by simpa using hne) ?_
        intro x hx
        rcases List.mem_cons.1 hx with rfl | hx
        · exact hm
        · rw [List.mem_singleton.1 hx]; exact hm1
      have h2 : l ⊆ [t, t1] := by
        intro c hcl
        rcases hman s t t1 c hu hu1 ((hl2 c).1 hcl) with h | h | h
        · exact absurd h hne
        · simp [h]
        · simp [h]
      have h3 := (List.subperm_of_subset hl1 h2).length_le
      have h4 := hsub.length_le
      simp only [List.length_cons, List.length_nil] at h3 h4
      omega
    subst htt
    rw [ht] at ht1
    exact Option.some.inj ht1
  subst hee
  have hidx : idxs' = idxs :=
    congrArg Prod.snd ((List.inj_on_of_nodup_map (hT.wf.once T.cellDim e.verts.length)) hl' hl rfl)
  subst hidx
  have hix : ix.Perm ix' := by
    rw [hv] at hp1
    exact pick_perm hve.1 hi.2.2 hi'.2.2
      hp1 hi.1 hi'.1
  have hixe : ix = ix' := by
    by_contra hne
    have hd := hT.wf.distinct _ _ _ _ hve.2.1 hl
    obtain ⟨q, hq, hqe⟩ := List.mem_iff_getElem.1 hx
    obtain ⟨q', hq', hqe'⟩ := List.mem_iff_getElem.1 hx'
    rw [List.pairwise_iff_getElem] at hd
    rcases Nat.lt_trichotomy q q' with hlt | heq | hgt
    · exact hd q q' hq hq' hlt (by rw [hqe, hqe']; exact hix)
    · subst heq; exact hne (hqe.symm.trans hqe')
    · exact hd q' q hq' hq hgt (by rw [hqe, hqe']; exact hix.symm)
  rw [points_map hI hpt (List.mem_of_getElem? hf), hpick, ← hixe, ← hv]

/-! ### Other histories -/

/-- The area of a facet of a hexahedron, from its points. -/
noncomputable def facetArea (l : List (Fin 3 → ℝ)) : ℝ := volumeQuad3 fun i => l.getD i 0

/-- The corners of two prisms of height one over the quadrilateral of `C45_violated`, one above the other. -/
noncomputable def prismVertices : List (QOp (Fin 3 → ℝ)) :=
  ([![0, 0, 0], ![1, 0, 0], ![0, 1, 0], ![2, 2, 0], ![0, 0, 1], ![1, 0, 1], ![0, 1, 1], ![2, 2, 1],
    ![0, 0, -1], ![1, 0, -1], ![0, 1, -1], ![2, 2, -1]] : List (Fin 3 → ℝ)).map fun p => .mesh (.vertex none p)

/-- The upper prism. -/
noncomputable def prismOps : List (QOp (Fin 3 → ℝ)) := prismVertices ++ [.mesh (.elem 3 [0, 1, 2, 3, 4, 5, 6, 7])]

/-- The upper prism after its lower facet was created, numbered from the opposite corner. -/
noncomputable def prismOpsFacet : List (QOp (Fin 3 → ℝ)) :=
  prismVertices ++ [.mesh (.elem 2 [3, 2, 1, 0]), .mesh (.elem 3 [0, 1, 2, 3, 4, 5, 6, 7])]

/-- The lower prism, numbered from the opposite corner, then the upper prism, then the lower one is erased. -/
noncomputable def prismOpsErase : List (QOp (Fin 3 → ℝ)) :=
  prismVertices ++ [.mesh (.elem 3 [11, 10, 9, 8, 3, 2, 1, 0]), .mesh (.elem 3 [0, 1, 2, 3, 4, 5, 6, 7]), .eraseCell 0]

/-- The states reached. -/
noncomputable def prismState (ops : List (QOp (Fin 3 → ℝ))) : MState (Fin 3 → ℝ) :=
  (MState.empty.run (cubeTopo 3) ops).getD MState.empty

theorem prismState_history : CellHistory (cubeTopo 3) (prismState prismOps) :=
  ⟨prismOps, by simp [prismOps, prismVertices, QOp.meshOps, MOp.Distinct, MOp.CellsOnly, cubeTopo],
    by simp [prismOps, prismVertices, QOp.Keeps], rfl, by unfold UniqueVids; decide +kernel⟩

theorem prismFacet_reached : Reached (cubeTopo 3) (prismState prismOpsFacet) :=
  ⟨prismOpsFacet, by simp [prismOpsFacet, prismVertices, QOp.meshOps, MOp.Distinct], rfl,
    by unfold UniqueVids; decide +kernel⟩

theorem prismErase_reached : Reached (cubeTopo 3) (prismState prismOpsErase) :=
  ⟨prismOpsErase, by simp [prismOpsErase, prismVertices, QOp.meshOps, MOp.Distinct], rfl,
    by unfold UniqueVids; decide +kernel⟩

/-- The corners of the boundary facets. -/
def oddVerts (T : Topo) (m : Mesh P) : List (List Nat) :=
  ((List.range (m.count (T.cellDim - 1))).filter fun s => numCells T m s % 2 = 1).map (m.vertsOf (T.cellDim - 1))

theorem surface_oddVerts {T : Topo} (hT : LibTopo T) (vol : List P → K) {st : MState P} (h : Reached T st) :
    (st.surface T vol).2 = ((oddVerts T st.mesh).map fun w => vol (w.filterMap st.mesh.ptOf)).sum := by
  rw [surface_eq hT vol h, oddVerts, List.map_map]
  rfl

/-- The facets other than the lower one. -/
def prismSides : List (List Nat) :=
  [[0, 1, 4, 5], [0, 2, 4, 6], [1, 3, 5, 7], [2, 3, 6, 7], [4, 5, 6, 7]]

theorem prism_odd : oddVerts (cubeTopo 3) (prismState prismOps).mesh = [0, 1, 2, 3] :: prismSides := by decide +kernel

theorem prismFacet_odd : oddVerts (cubeTopo 3) (prismState prismOpsFacet).mesh = [3, 2, 1, 0] :: prismSides := by
  decide +kernel

theorem prismErase_odd : oddVerts (cubeTopo 3) (prismState prismOpsErase).mesh = [3, 2, 1, 0] :: prismSides := by
  decide +kernel

theorem spannedTriangle3_flat (x0 y0 x1 y1 x2 y2 z : ℝ) :
    spannedTriangle3 ![x0, y0, z] ![x1, y1, z] ![x2, y2, z]
      = |(x1 - x0) * (y2 - y0) - (y1 - y0) * (x2 - x0)| / 2 := by
  have h : euclNorm (crossProd (![x1, y1, z] - ![x0, y0, z]) (![x2, y2, z] - ![x0, y0, z]))
      = |(x1 - x0) * (y2 - y0) - (y1 - y0) * (x2 - x0)| := by
    rw [← Real.sqrt_sq_eq_abs, euclNorm]
    congr 1
    rw [sumSquares_eq, innerProd, Fin.sum_univ_three]
    simp [crossProd]
    ring
  rw [spannedTriangle3, signedTriangle3, h, abs_of_nonneg (by positivity)]

theorem prism_points {m : Mesh (Fin 3 → ℝ)} (h : m.verts = (prismState prismOps).mesh.verts) :
    m.ptOf = (prismState prismOps).mesh.ptOf := by
  funext v; simp [Mesh.ptOf, h]

theorem facetArea_lower :
    facetArea ([0, 1, 2, 3].filterMap (prismState prismOps).mesh.ptOf) = 5 / 2
    ∧ facetArea ([3, 2, 1, 0].filterMap (prismState prismOps).mesh.ptOf) = 3 / 2 := by
  have e1 : [0, 1, 2, 3].filterMap (prismState prismOps).mesh.ptOf
      = ([![0, 0, 0], ![1, 0, 0], ![0, 1, 0], ![2, 2, 0]] : List (Fin 3 → ℝ)) := rfl
  have e2 : [3, 2, 1, 0].filterMap (prismState prismOps).mesh.ptOf
      = ([![2, 2, 0], ![0, 1, 0], ![1, 0, 0], ![0, 0, 0]] : List (Fin 3 → ℝ)) := rfl
  rw [e1, e2]
  constructor
  · show spannedTriangle3 ![0, 0, 0] ![1, 0, 0] ![2, 2, 0] + spannedTriangle3 ![1, 0, 0] ![0, 1, 0] ![2, 2, 0] = _
    rw [spannedTriangle3_flat, spannedTriangle3_flat]
    norm_num [abs_of_pos, abs_of_neg]
  · show spannedTriangle3 ![2, 2, 0] ![0, 1, 0] ![0, 0, 0] + spannedTriangle3 ![0, 1, 0] ![1, 0, 0] ![0, 0, 0] = _
    rw [spannedTriangle3_flat, spannedTriangle3_flat]
    norm_num [abs_of_pos, abs_of_neg]

theorem prism_differ {st : MState (Fin 3 → ℝ)} (h : Reached (cubeTopo 3) st)
    (hv : st.mesh.verts = (prismState prismOps).mesh.verts)
    (ho : oddVerts (cubeTopo 3) st.mesh = [3, 2, 1, 0] :: prismSides) :
    (st.surface (cubeTopo 3) facetArea).2 + 1 = ((prismState prismOps).surface (cubeTopo 3) facetArea).2 := by
  have hT : LibTopo (cubeTopo 3) := Or.inr (Or.inl ⟨3, rfl⟩)
  rw [surface_oddVerts hT _ prismState_history.reached, surface_oddVerts hT _ h, prism_odd, ho, prism_points hv,
    List.map_cons, List.map_cons, List.sum_cons, List.sum_cons, facetArea_lower.1, facetArea_lower.2]
  ring

/-- The surface depends on the history: the area of a quadrilateral is computed from the order of its stored corners
(`C45_violated`), which is that of the first element that needed it.  A prism has a surface smaller by one if its lower
facet was created before, with another valid numbering of its corners. -/
theorem C48_violated :
    Reached (cubeTopo 3) (prismState prismOps) ∧ Reached (cubeTopo 3) (prismState prismOpsFacet)
    ∧ (prismState prismOpsFacet).mesh.verts = (prismState prismOps).mesh.verts
    ∧ ((prismState prismOpsFacet).mesh.elems 3).map (·.verts) = ((prismState prismOps).mesh.elems 3).map (·.verts)
    ∧ ((prismState prismOpsFacet).surface (cubeTopo 3) facetArea).2 + 1
      = ((prismState prismOps).surface (cubeTopo 3) facetArea).2 := by
  refine ⟨prismState_history.reached, prismFacet_reached, rfl, by decide +kernel,
    prism_differ prismFacet_reached rfl prismFacet_odd⟩

theorem prism_verts {ops b : List (QOp (Fin 3 → ℝ))} {st : MState (Fin 3 → ℝ)} (he : ops = prismVertices ++ b)
    (h : MState.empty.run (cubeTopo 3) ops = some st)
    (hl : st.mesh.verts.length = 12) : st.mesh.verts = (prismState prismVertices).mesh.verts := by
  have h0 : MState.empty.run (cubeTopo 3) prismVertices = some (prismState prismVertices) := rfl
  rw [he, mrun_append h0] at h
  exact ((qrun_verts h).eq_of_length (by rw [hl]; decide +kernel)).symm

theorem prismErase_verts : (prismState prismOpsErase).mesh.verts = (prismState prismOps).mesh.verts :=
  (prism_verts (ops := prismOpsErase) (st := prismState prismOpsErase) rfl rfl (by decide +kernel)).trans
    (prism_verts (ops := prismOps) (st := prismState prismOps) rfl rfl (by decide +kernel)).symm

/-- The same without creating facets, if a neighbour with another numbering was created before and erased again. -/
theorem C48_violated_erase :
    Reached (cubeTopo 3) (prismState prismOps) ∧ Reached (cubeTopo 3) (prismState prismOpsErase)
    ∧ (prismState prismOpsErase).mesh.verts = (prismState prismOps).mesh.verts
    ∧ ((prismState prismOpsErase).mesh.elems 3).map (·.verts) = ((prismState prismOps).mesh.elems 3).map (·.verts)
    ∧ ((prismState prismOpsErase).surface (cubeTopo 3) facetArea).2 + 1
      = ((prismState prismOps).surface (cubeTopo 3) facetArea).2 := by
  refine ⟨prismState_history.reached, prismErase_reached, prismErase_verts, by decide +kernel,
    prism_differ prismErase_reached prismErase_verts prismErase_odd⟩

/-- Both prisms, the lower one first. -/
noncomputable def prismBelowFirst : List (QOp (Fin 3 → ℝ)) :=
  prismVertices ++ [.mesh (.elem 3 [11, 10, 9, 8, 3, 2, 1, 0]), .mesh (.elem 3 [0, 1, 2, 3, 4, 5, 6, 7])]

/-- Both prisms, the upper one first. -/
noncomputable def prismAboveFirst : List (QOp (Fin 3 → ℝ)) :=
  prismVertices ++ [.mesh (.elem 3 [0, 1, 2, 3, 4, 5, 6, 7]), .mesh (.elem 3 [11, 10, 9, 8, 3, 2, 1, 0])]

/-- The hypotheses of `C48_surface_order_cells_partial` hold for two prisms which number the facet they share
differently, created in either order. -/
example : ∃ st st' : MState (Fin 3 → ℝ), CellHistory (cubeTopo 3) st ∧ CellHistory (cubeTopo 3) st'
    ∧ (∀ s a b c, UsedBy (cubeTopo 3) st.mesh s a → UsedBy (cubeTopo 3) st.mesh s b → UsedBy (cubeTopo 3) st.mesh s c →
      a = b ∨ a = c ∨ b = c)
    ∧ (∀ v < st.mesh.verts.length, st'.mesh.ptOf v = st.mesh.ptOf v)
    ∧ ((st'.mesh.elems 3).map (·.verts)).Perm ((st.mesh.elems 3).map fun e => e.verts.map id)
    ∧ (st.mesh.vertsOf 2 5, st'.mesh.vertsOf 2 0) = ([3, 2, 1, 0], [0, 1, 2, 3]) := by
  have lt : ∀ s a, UsedBy (cubeTopo 3) (prismState prismBelowFirst).mesh s a → a < 2 := by
    intro s a h
    rw [UsedBy, OnBoundary, if_neg (by decide)] at h
    obtain ⟨e, _, _, _, h1, _⟩ := h
    exact (List.getElem?_eq_some_iff.1 h1).1
  refine ⟨prismState prismBelowFirst, prismState prismAboveFirst,
    ⟨prismBelowFirst, by simp [prismBelowFirst, prismVertices, QOp.meshOps, MOp.Distinct, MOp.CellsOnly, cubeTopo],
      by simp [prismBelowFirst, prismVertices, QOp.Keeps], rfl, by unfold UniqueVids; decide +kernel⟩,
    ⟨prismAboveFirst, by simp [prismAboveFirst, prismVertices, QOp.meshOps, MOp.Distinct, MOp.CellsOnly, cubeTopo],
      by simp [prismAboveFirst, prismVertices, QOp.Keeps], rfl, by unfold UniqueVids; decide +kernel⟩,
    fun s a b c ha hb hc => ?_, fun v _ => ?_, by decide +kernel, by decide +kernel⟩
  · have := lt s a ha
    have := lt s b hb
    have := lt s c hc
    omega
  · rw [Mesh.ptOf, Mesh.ptOf, prism_verts (ops := prismBelowFirst) (st := prismState prismBelowFirst) rfl rfl
        (by decide +kernel),
      prism_verts (ops := prismAboveFirst) (st := prismState prismAboveFirst) rfl rfl (by decide +kernel)]
end VG
