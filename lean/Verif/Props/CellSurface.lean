import Verif.Model.CellSurface
import Verif.Props.MeshMeasure
import Mathlib.Algebra.BigOperators.Group.Finset.Sigma
import Mathlib.Algebra.BigOperators.Ring.Finset

/-!
C48: the surfaces of the cells and the surface of the mesh.
-/

namespace VG

variable {P K : Type} [Field K]

theorem surfaceOf_foldl (f : Nat → K) : ∀ (l : List Nat) (a : K), l.foldl (fun acc s => acc + f s) a = a + (l.map f).sum
  | [], a => by simp
  | s :: l, a => by rw [List.foldl_cons, surfaceOf_foldl f l, List.map_cons, List.sum_cons, add_assoc]

/-- The surface of a cell is the sum over its facets, each counted once. -/
theorem C48_cell_surface {T : Topo} (hT : LibTopo T) (vol : List P → K) {st : MState P} (h : Reached T st) (t : Nat) :
    ∃ l : List Nat, l.Nodup ∧ (∀ s, s ∈ l ↔ UsedBy T st.mesh s t) ∧
      st.mesh.surfaceOf T vol t = (l.map fun s => vol (st.mesh.pointsOf (T.cellDim - 1) s)).sum := by
  have hI := (h.inv hT.wf).inv
  refine ⟨_, bndOf_nodup hT.wf hI T.cellDim t (T.cellDim - 1), fun s => mem_bndOf_iff hT.wf hI (le_refl _), ?_⟩
  unfold Mesh.surfaceOf
  rw [surfaceOf_foldl (fun s => vol (st.mesh.pointsOf (T.cellDim - 1) s)), zero_add]

theorem sum_filter_list (p : Nat → Prop) [DecidablePred p] (f : Nat → K) (n : Nat) :
    (((List.range n).filter fun s => p s).map f).sum = ∑ s ∈ Finset.range n, if p s then f s else 0 := by
  induction n with
  | zero => simp
  | succ n ih =>
    rw [List.range_succ, List.filter_append, List.map_append, List.sum_append, ih, Finset.sum_range_succ]
    by_cases hp : p n <;> simp [hp]

theorem surfaceOf_sum {T : Topo} (hT : LibTopo T) (vol : List P → K) {st : MState P} (h : Reached T st) (t : Nat) :
    st.mesh.surfaceOf T vol t = ∑ s ∈ Finset.range (st.mesh.count (T.cellDim - 1)),
      if s ∈ st.mesh.bndOf T.cellDim t (T.cellDim - 1) then vol (st.mesh.pointsOf (T.cellDim - 1) s) else 0 := by
  have hI := (h.inv hT.wf).inv
  have hnd := bndOf_nodup hT.wf hI T.cellDim t (T.cellDim - 1)
  unfold Mesh.surfaceOf
  rw [surfaceOf_foldl (fun s => vol (st.mesh.pointsOf (T.cellDim - 1) s)), zero_add, ← Finset.sum_filter, ← List.sum_toFinset _ hnd]
  refine Finset.sum_congr ?_ fun _ _ => rfl
  ext s
  simp only [List.mem_toFinset, Finset.mem_filter, Finset.mem_range]
  exact ⟨fun hs => ⟨bndOf_valid hI hs, hs⟩, fun hs => hs.2⟩

/-- The surfaces of all cells together: each facet is counted once for each of its cells. -/
theorem surfaces_sum {T : Topo} (hT : LibTopo T) (vol : List P → K) {st : MState P} (h : Reached T st) :
    ((List.range (st.mesh.count T.cellDim)).map (st.mesh.surfaceOf T vol)).sum =
      ∑ s ∈ Finset.range (st.mesh.count (T.cellDim - 1)), (numCells T st.mesh s : K) * vol (st.mesh.pointsOf (T.cellDim - 1) s) := by
  have h1 : ((List.range (st.mesh.count T.cellDim)).map (st.mesh.surfaceOf T vol)).sum =
      ∑ t ∈ Finset.range (st.mesh.count T.cellDim), st.mesh.surfaceOf T vol t := by
    have := sum_filter_list (fun _ => True) (st.mesh.surfaceOf T vol) (st.mesh.count T.cellDim)
    simpa using this
  rw [h1, Finset.sum_congr rfl fun t _ => surfaceOf_sum hT vol h t, Finset.sum_comm]
  refine Finset.sum_congr rfl fun s _ => ?_
  rw [← Finset.sum_filter, Finset.sum_const, nsmul_eq_mul]
  congr 2

/-- If no facet belongs to more than two cells, the surfaces of all cells together are the surface of the mesh and twice the facets between two
cells. -/
theorem C48_cell_surfaces_partial {T : Topo} (hT : LibTopo T) (hn : 1 ≤ T.cellDim) (vol : List P → K) {st : MState P} (h : Reached T st)
    (hman : ∀ s a b c, UsedBy T st.mesh s a → UsedBy T st.mesh s b → UsedBy T st.mesh s c → a = b ∨ a = c ∨ b = c) :
    ∃ inner : List Nat, inner.Nodup ∧ (∀ s, s ∈ inner ↔ ∃ a b, a ≠ b ∧ UsedBy T st.mesh s a ∧ UsedBy T st.mesh s b) ∧
      ((List.range (st.mesh.count T.cellDim)).map (st.mesh.surfaceOf T vol)).sum =
        (st.surface T vol).2 + 2 * (inner.map fun s => vol (st.mesh.pointsOf (T.cellDim - 1) s)).sum := by
  have hI := (h.inv hT.wf).inv
  have hle : ∀ s, numCells T st.mesh s ≤ 2 := by
    intro s
    obtain ⟨l, hl, hm, he⟩ := numCells_spec hT hn hI s
    rw [he]
    match l, hl, hm with
    | [], _, _ => simp
    | [_], _, _ => simp
    | [_, _], _, _ => simp
    | a :: b :: c :: l, hl, hm =>
      exfalso
      have := hman s a b c ((hm a).1 (by simp)) ((hm b).1 (by simp)) ((hm c).1 (by simp))
      simp only [List.nodup_cons, List.mem_cons, not_or] at hl
      tauto
  refine ⟨(List.range (st.mesh.count (T.cellDim - 1))).filter fun s => numCells T st.mesh s = 2, List.nodup_range.filter _, fun s => ?_, ?_⟩
  · obtain ⟨l, hl, hm, he⟩ := numCells_spec hT hn hI s
    simp only [List.mem_filter, List.mem_range, decide_eq_true_eq]
    constructor
    · rintro ⟨-, h2⟩
      rw [he] at h2
      match l, hl, hm, h2 with
      | [a, b], hl, hm, _ => exact ⟨a, b, by simpa using hl, (hm a).1 (by simp), (hm b).1 (by simp)⟩
    · rintro ⟨a, b, hab, ha, hb⟩
      refine ⟨bndOf_valid hI ((mem_bndOf_iff hT.wf hI (le_refl _)).2 ha), ?_⟩
      have h2 := hle s
      have ha' := (hm a).2 ha
      have hb' := (hm b).2 hb
      rw [he] at h2 ⊢
      match l, ha', hb', h2 with
      | [x], ha', hb', _ => simp only [List.mem_singleton] at ha' hb'; exact absurd (ha'.trans hb'.symm) hab
      | [_, _], _, _, _ => rfl
  · rw [surfaces_sum hT vol h, surface_eq hT vol h, sum_filter_list, sum_filter_list, Finset.mul_sum, ← Finset.sum_add_distrib]
    refine Finset.sum_congr rfl fun s _ => ?_
    have := hle s
    generalize numCells T st.mesh s = n at this
    match n, this with
    | 0, _ => simp
    | 1, _ => simp
    | 2, _ => simp

/-- The square of two triangles: both triangles have the surface 3 (maximum norm), the square 4, and the diagonal has length 1. -/
example : (squareState.mesh.surfaceOf (simplexTopo 2) edgeLen 0, squareState.mesh.surfaceOf (simplexTopo 2) edgeLen 1) = (3, 3) ∧
    (squareState.surface (simplexTopo 2) edgeLen).2 = 4 := by decide +kernel

/-- The hypotheses hold for it. -/
example : ∃ inner : List Nat, inner.Nodup ∧ (3 + 3 : Rat) =
    4 + 2 * (inner.map fun s => edgeLen (squareState.mesh.pointsOf 1 s)).sum := by
  have hT : LibTopo (simplexTopo 2) := Or.inl ⟨2, rfl⟩
  have hc : squareState.mesh.count 2 = 2 := by decide +kernel
  have hlt : ∀ s c, UsedBy (simplexTopo 2) squareState.mesh s c → c < 2 := by
    rintro s c hu
    have := (mem_bndOf_iff hT.wf (squareState_reached.inv hT.wf).inv (le_refl _)).2 hu
    by_contra hge
    unfold Mesh.bndOf at this
    rw [show (squareState.mesh.elems (simplexTopo 2).cellDim)[c]? = none from List.getElem?_eq_none (by
      have : (squareState.mesh.elems (simplexTopo 2).cellDim).length = 2 := by decide +kernel
      omega)] at this
    simp at this
  obtain ⟨inner, h1, -, h2⟩ := C48_cell_surfaces_partial hT (by decide) edgeLen squareState_reached (fun s a b c ha hb hc => by
    have := hlt s a ha; have := hlt s b hb; have := hlt s c hc; omega)
  refine ⟨inner, h1, ?_⟩
  have h3 : ((List.range (squareState.mesh.count (simplexTopo 2).cellDim)).map (squareState.mesh.surfaceOf (simplexTopo 2) edgeLen)).sum = 3 + 3 := by
    decide +kernel
  have h4 : (squareState.surface (simplexTopo 2) edgeLen).2 = 4 := by decide +kernel
  rw [h3, h4] at h2
  exact h2

end VG
