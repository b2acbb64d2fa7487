import Verif.Lemmas.Normals
import Verif.Props.MeshMeasure
import Verif.Props.MphtxtExample
import Verif.Props.Voronoi
import Verif.Props.Vectors
import Mathlib.Tactic.IntervalCases

/-!
C106: normal vectors, turned away from the cells, close every cell and every mesh, and give its volume.
-/

namespace VG

/-! ### Tetrahedra -/

/-- The normal vector of a facet of a tetrahedron, turned away from it, is orthogonal to the edges of the facet, points
away from the fourth vertex, and its length is twice the area of the facet. -/
theorem C106_outward {m : Mesh (Fin 3 → ℝ)} (hI : Inv (simplexTopo 3) m) {s c a b w p : Nat}
    (hu : UsedBy (simplexTopo 3) m s c) (hs : m.vertsOf 2 s = [a, b, w]) (hc : (m.vertsOf 3 c).Perm [a, b, w, p])
    (hne : offPlane m a b w (m.at0 p) ≠ 0) :
    ∑ i, outward m s c i * (m.at0 b i - m.at0 a i) = 0
    ∧ ∑ i, outward m s c i * (m.at0 w i - m.at0 a i) = 0
    ∧ ∑ i, outward m s c i * (m.at0 p i - m.at0 a i) < 0
    ∧ ∑ i, outward m s c i ^ 2 = ∑ i, crossProd (m.at0 b - m.at0 a) (m.at0 w - m.at0 a) i ^ 2 := by
  have e := outward_eq hI (used_lt hI hu).1 (used_lt hI hu).2.1 hs hc
  simp only [e]
  unfold outAmt
  have e2 := sg_self hne
  have e3 := abs_pos.2 hne
  rw [← e2] at e3
  have e4 : sg (offPlane m a b w (m.at0 p)) ^ 2 = 1 := by unfold sg; split <;> norm_num
  generalize sg (offPlane m a b w (m.at0 p)) = σ at e3 e4 ⊢
  unfold offPlane determinant3 at e3
  simp only [Fin.sum_univ_three, crossProd_zero, crossProd_one, crossProd_two, Pi.sub_apply] at e3 ⊢
  refine ⟨by ring, by ring, by linarith, ?_⟩
  simp only [neg_sq, mul_pow, e4, one_mul]

/-- The normal vectors of the facets of a tetrahedron, turned away from it, have the sum zero, and their inner products
with points of the facets sum up to six times the volume. -/
theorem C106_cell {m : Mesh (Fin 3 → ℝ)} (hI : Inv (simplexTopo 3) m) {c : Nat} (hc : c < m.count 3)
    (hne : cornersVolume (m.pointsOf 3 c) ≠ 0) :
    (∀ i, ((m.bndOf 3 c 2).map fun s => outward m s c i).sum = 0)
    ∧ ((m.bndOf 3 c 2).map fun s => ∑ i, outward m s c i * m.at0 ((m.vertsOf 2 s).getD 0 0) i).sum
      = 6 * cornersVolume (m.pointsOf 3 c) := outward_cell hI hc hne

theorem boundary_cells {P : Type} {T : Topo} (hT : LibTopo T) (hn : 1 ≤ T.cellDim) {st : MState P} (h : Reached T st)
    (hman : ∀ s a b c, UsedBy T st.mesh s a → UsedBy T st.mesh s b → UsedBy T st.mesh s c → a = b ∨ a = c ∨ b = c)
    (φ : Nat → Nat → ℝ)
    (hφ : ∀ s c c', UsedBy T st.mesh s c → UsedBy T st.mesh s c' → c ≠ c' → φ s c + φ s c' = 0)
    (cell : Nat → Nat)
    (hcell : ∀ s < st.mesh.count (T.cellDim - 1), (st.isBoundary T (T.cellDim - 1) s).2 = true →
      UsedBy T st.mesh s (cell s)) :
    ∑ s ∈ Finset.range (st.mesh.count (T.cellDim - 1)), (if (st.isBoundary T (T.cellDim - 1) s).2 = true then
        φ s (cell s) else 0)
      = ∑ c ∈ Finset.range (st.mesh.count T.cellDim),
        ((st.mesh.bndOf T.cellDim c (T.cellDim - 1)).map fun s => φ s c).sum := by
  classical
  rw [← boundary_sum hT hn h hman φ hφ]
  refine Finset.sum_congr rfl fun s hs => ?_
  have hs := Finset.mem_range.1 hs
  by_cases hb : (st.isBoundary T (T.cellDim - 1) s).2 = true
  · rw [if_pos hb, if_pos hb]
    have hu := hcell s hs hb
    obtain ⟨c, hc, hone⟩ := (C16_boundary_iff_one_cell_partial hT hn h hs (hman s)).1 hb
    have e : cell s = c := hone _ hu
    rw [Finset.sum_eq_single c]
    · rw [if_pos hc, e]
    · intro x _ hx
      exact if_neg fun hx' => hx (hone x hx')
    · intro hx
      exact (hx (Finset.mem_range.2 (onBoundary_lt (by omega) hc))).elim
  · rw [if_neg hb, if_neg hb]

/-- In a mesh of tetrahedra that are not flat and do not overlap, the normal vectors of the boundary facets, turned away
from their cells, have the sum zero, and their inner products with points of the facets sum up to six times the volume
of the mesh.  `cell s` is a cell the facet `s` belongs to; `is_boundary` selects the facets. -/
theorem C106_mesh {st : MState (Fin 3 → ℝ)} (h : Reached (simplexTopo 3) st)
    (hno : NoOverlap st.mesh) (cell : Nat → Nat)
    (hcell : ∀ s < st.mesh.count 2, (st.isBoundary (simplexTopo 3) 2 s).2 = true →
      UsedBy (simplexTopo 3) st.mesh s (cell s)) :
    (∀ i, ∑ s ∈ Finset.range (st.mesh.count 2), (if (st.isBoundary (simplexTopo 3) 2 s).2 = true then
        outward st.mesh s (cell s) i else 0) = 0)
    ∧ ∑ s ∈ Finset.range (st.mesh.count 2), (if (st.isBoundary (simplexTopo 3) 2 s).2 = true then
        ∑ i, outward st.mesh s (cell s) i * st.mesh.at0 ((st.mesh.vertsOf 2 s).getD 0 0) i else 0)
      = 6 * st.mesh.volumeOf cornersVolume 3 := by
  have hT : LibTopo (simplexTopo 3) := Or.inl ⟨3, rfl⟩
  have hI := (h.inv hT.wf).inv
  have hman : ∀ s a b c, UsedBy (simplexTopo 3) st.mesh s a → UsedBy (simplexTopo 3) st.mesh s b →
      UsedBy (simplexTopo 3) st.mesh s c → a = b ∨ a = c ∨ b = c := fun _ _ _ _ ha hb hc => hno.two hI ha hb hc
  constructor
  · intro i
    have key := boundary_cells hT (by decide) h hman (fun s c => outward st.mesh s c i)
      (fun s c c' h1 h2 h3 => outward_cancel hI hno h1 h2 h3 i) cell hcell
    refine key.trans (Finset.sum_eq_zero fun c hc => ?_)
    have hc := Finset.mem_range.1 hc
    exact (outward_cell hI hc (solid_volume hI hno hc)).1 i
  · have key := boundary_cells hT (by decide) h hman
      (fun s c => ∑ i, outward st.mesh s c i * st.mesh.at0 ((st.mesh.vertsOf 2 s).getD 0 0) i)
      (fun s c c' h1 h2 h3 => by
        rw [← Finset.sum_add_distrib]
        refine Finset.sum_eq_zero fun i _ => ?_
        rw [← add_mul, outward_cancel hI hno h1 h2 h3 i, zero_mul]) cell hcell
    refine key.trans ?_
    have e : ∀ c ∈ Finset.range (st.mesh.count 3), ((st.mesh.bndOf 3 c 2).map fun s =>
        ∑ i, outward st.mesh s c i * st.mesh.at0 ((st.mesh.vertsOf 2 s).getD 0 0) i).sum
        = 6 * cornersVolume (st.mesh.pointsOf 3 c) := fun c hc =>
      (outward_cell hI (Finset.mem_range.1 hc) (solid_volume hI hno (Finset.mem_range.1 hc))).2
    refine (Finset.sum_congr rfl e).trans ?_
    rw [← Finset.mul_sum, Mesh.volumeOf, foldl_add_map, zero_add, sum_range_list]

/-- Two tetrahedra at a triangle; a query in between. -/
noncomputable def wedgeOps : List (QOp (Fin 3 → ℝ)) :=
  [.mesh (.vertex none (toReal (dominoPt 0))), .mesh (.vertex none (toReal (dominoPt 1))),
   .mesh (.vertex none (toReal (dominoPt 2))), .mesh (.vertex none (toReal (dominoPt 3))),
   .mesh (.vertex none (toReal (dominoPt 4))),
   .mesh (.elem 3 [0, 1, 2, 3]), .coboundary 2 3 0, .mesh (.elem 3 [0, 1, 2, 4])]

/-- The state reached. -/
noncomputable def wedge : MState (Fin 3 → ℝ) := (MState.empty.run (simplexTopo 3) wedgeOps).getD MState.empty

theorem wedge_reached : Reached (simplexTopo 3) wedge :=
  ⟨wedgeOps, by simp [wedgeOps, QOp.meshOps, MOp.Distinct], rfl, by unfold UniqueVids; decide +kernel⟩

theorem wedge_at : ∀ v < wedge.mesh.verts.length, wedge.mesh.at0 v = toReal (dominoPt v) := by
  intro v hv
  have : v < 5 := hv
  obtain rfl | rfl | rfl | rfl | rfl : v = 0 ∨ v = 1 ∨ v = 2 ∨ v = 3 ∨ v = 4 := by omega
  all_goals rfl

/-- A case for `C106_mesh`, and with it for `C106_cell` and `C106_outward`: two cells with seven facets, one of them
inside. -/
example : Reached (simplexTopo 3) wedge ∧ NoOverlap wedge.mesh ∧ wedge.mesh.count 3 = 2 ∧ wedge.mesh.count 2 = 7 ∧
    (wedge.isBoundary (simplexTopo 3) 2 0).2 = false ∧
    ∃ cell : Nat → Nat, ∀ s < wedge.mesh.count 2, (wedge.isBoundary (simplexTopo 3) 2 s).2 = true →
      UsedBy (simplexTopo 3) wedge.mesh s (cell s) := by
  have hI := (wedge_reached.inv (simplexTopo_wf 3)).inv
  refine ⟨wedge_reached, noOverlap_of hI wedge_at (by decide +kernel) (by decide +kernel), rfl, rfl, by decide +kernel,
    fun s => if s < 4 then 0 else 1, fun s hs _ => (mem_bndOf_iff (simplexTopo_wf 3) hI (le_refl _)).1 ?_⟩
  have : ∀ s < wedge.mesh.count 2, s ∈ wedge.mesh.bndOf 3 (if s < 4 then 0 else 1) 2 := by decide +kernel
  exact this s hs

/-! ### Triangles in the plane -/

/-- If triangles at an edge are on different sides of it, there are at most two. -/
theorem NoFold.two {m : Mesh (Fin 2 → ℝ)} (hI : Inv (simplexTopo 2) m) (hn : NoFold m) {t a b c : Nat}
    (ha : UsedBy (simplexTopo 2) m t a) (hb : UsedBy (simplexTopo 2) m t b) (hc : UsedBy (simplexTopo 2) m t c) :
    a = b ∨ a = c ∨ b = c := by
  by_contra hne
  push Not at hne
  obtain ⟨h1, h2, h3⟩ := hne
  obtain ⟨_, _, p, hp⟩ := apex_of hI ha
  obtain ⟨_, _, q, hq⟩ := apex_of hI hb
  obtain ⟨_, _, r, hr⟩ := apex_of hI hc
  have k1 := hn.sides t a b _ _ p q ha hb h1 rfl hp hq
  have k2 := hn.sides t a c _ _ p r ha hc h2 rfl hp hr
  have k3 := hn.sides t b c _ _ q r hb hc h3 rfl hq hr
  have no : ∀ x y z : ℝ, x * y < 0 → x * z < 0 → y * z < 0 → False := by
    intro x y z k1 k2 k3
    have k4 := mul_pos_of_neg_of_neg k1 k2
    have k5 := mul_nonneg (mul_self_nonneg x) (neg_nonneg.2 k3.le)
    have k6 : x * y * (x * z) = -(x * x * -(y * z)) := by ring
    linarith
  exact no _ _ _ k1 k2 k3

/-- The same for triangles in the plane: the normal vector of an edge is orthogonal to it, points away from the opposite
vertex, and is as long as the edge. -/
theorem C106_outward_line {m : Mesh (Fin 2 → ℝ)} (hI : Inv (simplexTopo 2) m) {s c a b p : Nat}
    (hu : UsedBy (simplexTopo 2) m s c) (hs : m.vertsOf 1 s = [a, b]) (hc : (m.vertsOf 2 c).Perm [a, b, p])
    (hne : leftOf (m.at0 a) (m.at0 b) (m.at0 p) ≠ 0) :
    ∑ i, outwardLine m s c i * (m.at0 b i - m.at0 a i) = 0
    ∧ ∑ i, outwardLine m s c i * (m.at0 p i - m.at0 a i) < 0
    ∧ ∑ i, outwardLine m s c i ^ 2 = ∑ i, (m.at0 b i - m.at0 a i) ^ 2 := by
  have hs' : m.ends s = (a, b) := by unfold Mesh.ends; rw [hs]; rfl
  obtain ⟨h1, h2, _⟩ := apex_of hI hu
  rw [outwardLine_eq hI h1 h2 hs' hs hc]
  unfold outLine
  have e2 := sg_self hne
  have e3 := abs_pos.2 hne
  rw [← e2] at e3
  have e4 : sg (leftOf (m.at0 a) (m.at0 b) (m.at0 p)) ^ 2 = 1 := by unfold sg; split <;> norm_num
  generalize sg (leftOf (m.at0 a) (m.at0 b) (m.at0 p)) = σ at e3 e4 ⊢
  unfold leftOf at e3
  simp only [Fin.sum_univ_two, Matrix.cons_val_zero, Matrix.cons_val_one]
  refine ⟨by ring, by linarith, ?_⟩
  linear_combination ((m.at0 b 1 - m.at0 a 1) ^ 2 + (m.at0 b 0 - m.at0 a 0) ^ 2) * e4

theorem C106_cell_line {m : Mesh (Fin 2 → ℝ)} (hI : Inv (simplexTopo 2) m) {c : Nat} (hc : c < m.count 2)
    (hne : cornersArea (m.pointsOf 2 c) ≠ 0) :
    (∀ i, ((m.bndOf 2 c 1).map fun s => outwardLine m s c i).sum = 0)
    ∧ ((m.bndOf 2 c 1).map fun s => ∑ i, outwardLine m s c i * m.at0 ((m.vertsOf 1 s).getD 0 0) i).sum
      = 2 * cornersArea (m.pointsOf 2 c) := outwardLine_cell hI hc hne

/-- In a mesh of triangles in the plane that are not flat and do not overlap, the normal vectors of the boundary edges,
turned away from their cells, have the sum zero, and their inner products with points of the edges sum up to twice the
area of the mesh. -/
theorem C106_mesh_line {st : MState (Fin 2 → ℝ)} (h : Reached (simplexTopo 2) st)
    (hno : NoFold st.mesh) (cell : Nat → Nat)
    (hcell : ∀ s < st.mesh.count 1, (st.isBoundary (simplexTopo 2) 1 s).2 = true →
      UsedBy (simplexTopo 2) st.mesh s (cell s)) :
    (∀ i, ∑ s ∈ Finset.range (st.mesh.count 1), (if (st.isBoundary (simplexTopo 2) 1 s).2 = true then
        outwardLine st.mesh s (cell s) i else 0) = 0)
    ∧ ∑ s ∈ Finset.range (st.mesh.count 1), (if (st.isBoundary (simplexTopo 2) 1 s).2 = true then
        ∑ i, outwardLine st.mesh s (cell s) i * st.mesh.at0 ((st.mesh.vertsOf 1 s).getD 0 0) i else 0)
      = 2 * st.mesh.volumeOf cornersArea 2 := by
  have hT : LibTopo (simplexTopo 2) := Or.inl ⟨2, rfl⟩
  have hI := (h.inv hT.wf).inv
  have hman : ∀ s a b c, UsedBy (simplexTopo 2) st.mesh s a → UsedBy (simplexTopo 2) st.mesh s b →
      UsedBy (simplexTopo 2) st.mesh s c → a = b ∨ a = c ∨ b = c := fun _ _ _ _ ha hb hc => hno.two hI ha hb hc
  constructor
  · intro i
    have key := boundary_cells hT (by decide) h hman (fun s c => outwardLine st.mesh s c i)
      (fun s c c' h1 h2 h3 => outwardLine_cancel hI hno h1 h2 h3 i) cell hcell
    refine key.trans (Finset.sum_eq_zero fun c hc => ?_)
    have hc := Finset.mem_range.1 hc
    exact (outwardLine_cell hI hc (solid_area hI hno hc)).1 i
  · have key := boundary_cells hT (by decide) h hman
      (fun s c => ∑ i, outwardLine st.mesh s c i * st.mesh.at0 ((st.mesh.vertsOf 1 s).getD 0 0) i)
      (fun s c c' h1 h2 h3 => by
        rw [← Finset.sum_add_distrib]
        refine Finset.sum_eq_zero fun i _ => ?_
        rw [← add_mul, outwardLine_cancel hI hno h1 h2 h3 i, zero_mul]) cell hcell
    refine key.trans ?_
    have e : ∀ c ∈ Finset.range (st.mesh.count 2), ((st.mesh.bndOf 2 c 1).map fun s =>
        ∑ i, outwardLine st.mesh s c i * st.mesh.at0 ((st.mesh.vertsOf 1 s).getD 0 0) i).sum
        = 2 * cornersArea (st.mesh.pointsOf 2 c) := fun c hc =>
      (outwardLine_cell hI (Finset.mem_range.1 hc) (solid_area hI hno (Finset.mem_range.1 hc))).2
    refine (Finset.sum_congr rfl e).trans ?_
    rw [← Finset.mul_sum, Mesh.volumeOf, foldl_add_map, zero_add, sum_range_list]

theorem kite_fold : NoFold kite.mesh := by
  have hI := (kite_reached.inv (simplexTopo_wf 2)).inv
  obtain ⟨p0, p1, p2, p3⟩ := kite_points
  refine ⟨fun c a b p hc hv => ?_, fun t c c' a b p p' h h' hne he hp hp' => ?_⟩
  · have hc : c < 2 := hc
    obtain rfl | rfl : c = 0 ∨ c = 1 := by omega
    · have : ([0, 1, 2] : List Nat) = [a, b, p] := hv
      cases this
      rw [p0, p1, p2]; unfold leftOf; norm_num
    · have : ([0, 1, 3] : List Nat) = [a, b, p] := hv
      cases this
      rw [p0, p1, p3]; unfold leftOf; norm_num
  · have hc : c < 2 := (apex_of hI h).2.1
    have hc' : c' < 2 := (apex_of hI h').2.1
    have ht : t ∈ kite.mesh.bndOf 2 c 1 := (mem_bndOf_iff (simplexTopo_wf 2) hI (le_refl _)).2 h
    have ht' : t ∈ kite.mesh.bndOf 2 c' 1 := (mem_bndOf_iff (simplexTopo_wf 2) hI (le_refl _)).2 h'
    have h0 : ∀ c < kite.mesh.count 2, ∀ t ∈ kite.mesh.bndOf 2 c 1, ∀ c' < kite.mesh.count 2, t ∈ kite.mesh.bndOf 2 c' 1 →
        c ≠ c' → t = 0 := by
      decide +kernel
    obtain rfl := h0 c hc t ht c' hc' ht' hne
    have he0 : ((0, 1) : Nat × Nat) = (a, b) := he
    cases he0
    have apex : ∀ {x p : Nat}, ([0, 1, x] : List Nat).Perm [0, 1, p] → p = x := by
      intro x p hp
      have := List.perm_singleton.1 ((List.perm_append_left_iff [0, 1]).1 (show ([0, 1] ++ [x]).Perm ([0, 1] ++ [p]) from hp))
      simpa using this.symm
    obtain ⟨rfl, rfl⟩ | ⟨rfl, rfl⟩ : (c = 0 ∧ c' = 1) ∨ (c = 1 ∧ c' = 0) := by omega
    · obtain rfl := apex (show ([0, 1, 2] : List Nat).Perm [0, 1, p] from hp)
      obtain rfl := apex (show ([0, 1, 3] : List Nat).Perm [0, 1, p'] from hp')
      rw [p0, p1, p2, p3]; unfold leftOf; norm_num
    · obtain rfl := apex (show ([0, 1, 3] : List Nat).Perm [0, 1, p] from hp)
      obtain rfl := apex (show ([0, 1, 2] : List Nat).Perm [0, 1, p'] from hp')
      rw [p0, p1, p2, p3]; unfold leftOf; norm_num

/-- A case for `C106_mesh_line`: two triangles with five edges, one of them inside. -/
example : Reached (simplexTopo 2) kite ∧ NoFold kite.mesh ∧ kite.mesh.count 2 = 2 ∧ kite.mesh.count 1 = 5 ∧
    (kite.isBoundary (simplexTopo 2) 1 0).2 = false ∧
    ∃ cell : Nat → Nat, ∀ s < kite.mesh.count 1, (kite.isBoundary (simplexTopo 2) 1 s).2 = true →
      UsedBy (simplexTopo 2) kite.mesh s (cell s) := by
  have hI := (kite_reached.inv (simplexTopo_wf 2)).inv
  refine ⟨kite_reached, kite_fold, rfl, rfl, by decide +kernel,
    fun s => if s < 3 then 0 else 1, fun s hs _ => (mem_bndOf_iff (simplexTopo_wf 2) hI (le_refl _)).1 ?_⟩
  have : ∀ s < kite.mesh.count 1, s ∈ kite.mesh.bndOf 2 (if s < 3 then 0 else 1) 1 := by decide +kernel
  exact this s hs

/-! ### Quadrilaterals in space -/

/-- Four points in a plane. -/
def InPlane (p : Nat → Fin 3 → ℝ) : Prop :=
  ∃ n : Fin 3 → ℝ, (∃ i, n i ≠ 0) ∧ ∀ j < 4, ∑ i, n i * (p j i - p 0 i) = 0

/-- The first three corners of a quadrilateral are not on a line. -/
def Bent (p : Nat → Fin 3 → ℝ) : Prop :=
  p 1 ≠ p 0 ∧ ∀ t : ℝ, ∃ i, p 2 i ≠ p 0 i + t * (p 1 i - p 0 i)

/-- The normal vector of a quadrilateral in a plane is orthogonal to the lines through two corners, and not zero if the
first three corners are not on a line.  For a parallelogram with corners in cyclic order its length is the area. -/
theorem C106_quad_partial (p : Nat → Fin 3 → ℝ) (hp : InPlane p) (hb : Bent p) :
    (∃ i, normalQuad p i ≠ 0)
    ∧ (∀ j < 4, ∀ k < 4, ∑ i, normalQuad p i * (p j i - p k i) = 0)
    ∧ ((∀ i, p 1 i - p 0 i = p 2 i - p 3 i) →
      normalQuad p = crossProd (p 1 - p 0) (p 3 - p 0)) := by
  have hnz : ∃ i, normalQuad p i ≠ 0 := by
    by_contra hcon
    push Not at hcon
    rcases (C58_normal_triangle (p 0) (p 1) (p 2)).2.2.2.1.1 hcon with h | ⟨t, h⟩
    · exact hb.1 h
    · obtain ⟨i, hi⟩ := hb.2 t
      exact hi (h i)
  have h01 := (C58_normal_triangle (p 0) (p 1) (p 2)).1
  have h02 := (C58_normal_triangle (p 0) (p 1) (p 2)).2.1
  have h03 : ∑ i, normalQuad p i * (p 3 i - p 0 i) = 0 := by
    obtain ⟨n, ⟨k, hk⟩, hn⟩ := hp
    have g1 := hn 1 (by omega)
    have g2 := hn 2 (by omega)
    have g3 := hn 3 (by omega)
    unfold normalQuad normalTriangle
    simp only [Fin.sum_univ_three, crossProd_zero, crossProd_one, crossProd_two, Pi.sub_apply] at g1 g2 g3 ⊢
    refine (mul_eq_zero.1 ?_).resolve_left hk
    clear hnz h01 h02 hk hn hb
    generalize p 1 0 - p 0 0 = a0 at *
    generalize p 1 1 - p 0 1 = a1 at *
    generalize p 1 2 - p 0 2 = a2 at *
    generalize p 2 0 - p 0 0 = b0 at *
    generalize p 2 1 - p 0 1 = b1 at *
    generalize p 2 2 - p 0 2 = b2 at *
    generalize p 3 0 - p 0 0 = c0 at *
    generalize p 3 1 - p 0 1 = c1 at *
    generalize p 3 2 - p 0 2 = c2 at *
    induction k using fin3_cases
    · linear_combination (b1 * c2 - b2 * c1) * g1 + (c1 * a2 - c2 * a1) * g2 + (a1 * b2 - a2 * b1) * g3
    · linear_combination (b2 * c0 - b0 * c2) * g1 + (c2 * a0 - c0 * a2) * g2 + (a2 * b0 - a0 * b2) * g3
    · linear_combination (b0 * c1 - b1 * c0) * g1 + (c0 * a1 - c1 * a0) * g2 + (a0 * b1 - a1 * b0) * g3
  have h0 : ∀ j < 4, ∑ i, normalQuad p i * (p j i - p 0 i) = 0 := by
    intro j hj
    interval_cases j
    · simp
    · exact h01
    · exact h02
    · exact h03
  refine ⟨hnz, fun j hj k hk => ?_, fun h => ?_⟩
  · have := congrArg₂ (· - ·) (h0 j hj) (h0 k hk)
    simp only [sub_self, ← Finset.sum_sub_distrib] at this
    rw [← this]
    exact Finset.sum_congr rfl fun i _ => by ring
  · unfold normalQuad normalTriangle
    have h0 := h 0; have h1 := h 1; have h2 := h 2
    funext i
    induction i using fin3_cases <;> simp only [crossProd_zero, crossProd_one, crossProd_two, Pi.sub_apply]
    · linear_combination (p 1 2 - p 0 2) * h1 - (p 1 1 - p 0 1) * h2
    · linear_combination (p 1 0 - p 0 0) * h2 - (p 1 2 - p 0 2) * h0
    · linear_combination (p 1 1 - p 0 1) * h0 - (p 1 0 - p 0 0) * h1

/-- A trapezoid. -/
def trapezoid (k : Nat) : Fin 3 → ℝ :=
  match k with
  | 0 => ![0, 0, 0]
  | 1 => ![3, 0, 0]
  | 2 => ![2, 0, 1]
  | _ => ![1, 0, 1]

/-- A case for `C106_quad_partial`. -/
example : InPlane trapezoid ∧ Bent trapezoid := by
  refine ⟨⟨![0, 1, 0], ⟨1, by simp⟩, fun j hj => ?_⟩, fun h => ?_, fun t => ⟨2, ?_⟩⟩
  · interval_cases j <;> simp [trapezoid, Fin.sum_univ_three]
  · have := congrFun h 0
    simp [trapezoid] at this
  · simp [trapezoid]

/-- A quadrilateral of area one whose second corner is on the line between its neighbours. -/
def straightQuad (k : Nat) : Fin 3 → ℝ :=
  match k with
  | 0 => ![0, 0, 0]
  | 1 => ![1, 0, 0]
  | 2 => ![2, 0, 0]
  | _ => ![0, 1, 0]

/-- A quadrilateral, and the same with the next corner as the first one. -/
def dart (k : Nat) : Fin 3 → ℝ :=
  match k with
  | 0 => ![0, 0, 0]
  | 1 => ![1, 1, 0]
  | 2 => ![2, 0, 0]
  | 3 => ![1, 3, 0]
  | _ => ![0, 0, 0]

/-- The normal vector of a quadrilateral of area one can be zero, and the side to which it points depends on which
corner is the first. -/
theorem C106_violated :
    ((∀ i, normalQuad straightQuad i = 0) ∧ InPlane straightQuad
      ∧ volumeQuad (fun k => ![straightQuad k 0, straightQuad k 1]) = 1)
    ∧ normalQuad dart 2 < 0 ∧ 0 < normalQuad (fun k => dart (k + 1)) 2
    ∧ dart 4 = dart 0 := by
  refine ⟨⟨?_, ?_, ?_⟩, ?_, ?_, rfl⟩
  · intro i
    induction i using fin3_cases <;> simp [normalQuad, normalTriangle, straightQuad]
  · refine ⟨![0, 0, 1], ⟨2, by norm_num [show (![0, 0, 1] : Fin 3 → ℝ) 2 = 1 from rfl]⟩, fun j hj => ?_⟩
    interval_cases j <;> simp [straightQuad, Fin.sum_univ_three]
  · norm_num [volumeQuad, spannedTriangle, signedTriangle, straightQuad]
  · simp [normalQuad, normalTriangle, dart]
  · norm_num [normalQuad, normalTriangle, dart]

end VG
