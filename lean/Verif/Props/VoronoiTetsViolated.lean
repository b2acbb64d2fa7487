import Verif.Props.VoronoiTetsExample

/-!
C72: two ways in which `apply_voronoi` for tetrahedra does not do what is expected of it.
-/

namespace VG

local notation "det" => determinant3 (K := ℝ)

theorem pick2 (x y z : ℝ) : ![x, y, z] 2 = z := rfl

theorem vec3_ext {x y z : ℝ} {p : Fin 3 → ℝ} (h0 : p 0 = x) (h1 : p 1 = y) (h2 : p 2 = z) : p = ![x, y, z] := by
  funext i
  fin_cases i
  · exact h0
  · exact h1
  · exact h2

/-- The real coordinates once more. -/
theorem hutReal_eq : hutReal 0 = ![0, 0, 0] ∧ hutReal 1 = ![10, 0, 0] ∧ hutReal 2 = ![0, 10, 0] ∧ hutReal 3 = ![0, 0, 10] := by
  refine ⟨vec3_ext ?_ ?_ ?_, vec3_ext ?_ ?_ ?_, vec3_ext ?_ ?_ ?_, vec3_ext ?_ ?_ ?_⟩ <;>
    (unfold hutReal hutPt; simp)

/-- A single tetrahedron, the corner of a cube. -/
noncomputable def cubeCornerOps : List (QOp (Fin 3 → ℝ)) :=
  [.mesh (.vertex none (hutReal 0)), .mesh (.vertex none (hutReal 1)), .mesh (.vertex none (hutReal 2)),
   .mesh (.vertex none (hutReal 3)), .mesh (.elem 3 [0, 1, 2, 3])]

/-- The state reached. -/
noncomputable def cubeCorner : MState (Fin 3 → ℝ) := (MState.empty.run (simplexTopo 3) cubeCornerOps).getD MState.empty

theorem cubeCorner_reached : Reached (simplexTopo 3) cubeCorner :=
  ⟨cubeCornerOps, by simp [cubeCornerOps, QOp.meshOps, MOp.Distinct], rfl, by unfold UniqueVids; decide +kernel⟩

theorem cubeCorner_ctr : cubeCorner.mesh.ctr 0 = ![5, 5, 5] := by
  obtain ⟨h0, h1, h2, h3⟩ := hutReal_eq
  have : cubeCorner.mesh.tetCenter 0 = .ok ![5, 5, 5] := by
    show (match circumTetrahedron (hutReal 0) (hutReal 1) (hutReal 2) (hutReal 3) with
      | some o => Except.ok o | none => .error Fail.thrown) = _
    have : circumTetrahedron (hutReal 0) (hutReal 1) (hutReal 2) (hutReal 3) = some ![5, 5, 5] := by
      rw [h0, h1, h2, h3]
      unfold circumTetrahedron
      simp only [innerProd3, crossProd_zero, crossProd_one, crossProd_two, Pi.sub_apply, Matrix.cons_val_zero, Matrix.cons_val_one, pick2]
      rw [if_neg (by norm_num)]
      congr 1
      refine vec3_ext ?_ ?_ ?_ <;>
        simp only [crossProd_zero, crossProd_one, crossProd_two, Pi.sub_apply, Matrix.cons_val_zero, Matrix.cons_val_one, pick2] <;> norm_num
    rw [this]
  unfold Mesh.ctr
  rw [this]

theorem tri_numbers : circumTriangle3 (hutReal 0) (hutReal 1) (hutReal 2) = ![5, 5, 0]
    ∧ circumTriangle3 (hutReal 0) (hutReal 1) (hutReal 3) = ![5, 0, 5]
    ∧ circumTriangle3 (hutReal 0) (hutReal 2) (hutReal 3) = ![0, 5, 5] := by
  obtain ⟨h0, h1, h2, h3⟩ := hutReal_eq
  rw [h0, h1, h2, h3]
  unfold circumTriangle3
  simp only [innerProd3, crossProd_zero, crossProd_one, crossProd_two, Pi.sub_apply, Matrix.cons_val_zero, Matrix.cons_val_one, pick2]
  refine ⟨vec3_ext ?_ ?_ ?_, vec3_ext ?_ ?_ ?_, vec3_ext ?_ ?_ ?_⟩ <;>
    simp only [Matrix.cons_val_zero, Matrix.cons_val_one, pick2] <;> norm_num

/-- The length of a segment along an axis. -/
theorem len10 {x y : Fin 3 → ℝ} (h : sqDist x y = 100) : |signedLine x y| = 10 := by
  unfold signedLine
  rw [abs_of_nonneg (Real.sqrt_nonneg _), show ∑ i, (y i - x i) * (y i - x i) = 10 ^ 2 by
    rw [show ((10 : ℝ) ^ 2) = 100 by norm_num, ← h]
    unfold sqDist
    exact Finset.sum_congr rfl fun i _ => by ring]
  exact Real.sqrt_sq (by norm_num)

/-- The triangles over the four sides of the interface in a cell that has no neighbours. -/
theorem fourTriangles (A B o g z z' : Fin 3 → ℝ) (c : Nat) (ho : sqDist o A = sqDist o B) (hg : sqDist g A = sqDist g B)
    (hz : sqDist z A = sqDist z B) (hz' : sqDist z' A = sqDist z' B)
    (hq : sqDist (fun i => (o i + z i + g i + z' i) / 4) A = sqDist (fun i => (o i + z i + g i + z' i) / 4) B) :
    segArea [((o, z), c), ((g, z), c), ((o, z'), c), ((g, z'), c)] * |signedLine A B|
      = (|det (B - A) (o - fun i => (o i + z i + g i + z' i) / 4) (z - fun i => (o i + z i + g i + z' i) / 4)|
        + |det (B - A) (g - fun i => (o i + z i + g i + z' i) / 4) (z - fun i => (o i + z i + g i + z' i) / 4)|
        + |det (B - A) (o - fun i => (o i + z i + g i + z' i) / 4) (z' - fun i => (o i + z i + g i + z' i) / 4)|
        + |det (B - A) (g - fun i => (o i + z i + g i + z' i) / 4) (z' - fun i => (o i + z i + g i + z' i) / 4)|) / 2 := by
  have hi : innerPoint [((o, z), c), ((g, z), c), ((o, z'), c), ((g, z'), c)] = fun i => (o i + z i + g i + z' i) / 4 := by
    funext i
    simp only [innerPoint, List.map_cons, List.map_nil, List.sum_cons, List.sum_nil, List.length_cons, List.length_nil]
    push_cast
    ring
  unfold segArea
  rw [hi]
  simp only [List.map_cons, List.map_nil, List.sum_cons, List.sum_nil, add_mul]
  rw [plane_area ho hz hq, plane_area hg hz hq, plane_area ho hz' hq, plane_area hg hz' hq]
  ring

theorem cubeCorner_segs :
    cubeCorner.mesh.edgeSegs 0 = [((![5, 5, 5], ![5, 5, 0]), 0), ((circumLine (hutReal 0) (hutReal 1), ![5, 5, 0]), 0),
        ((![5, 5, 5], ![5, 0, 5]), 0), ((circumLine (hutReal 0) (hutReal 1), ![5, 0, 5]), 0)]
    ∧ cubeCorner.mesh.edgeSegs 1 = [((![5, 5, 5], ![5, 5, 0]), 0), ((circumLine (hutReal 0) (hutReal 2), ![5, 5, 0]), 0),
        ((![5, 5, 5], ![0, 5, 5]), 0), ((circumLine (hutReal 0) (hutReal 2), ![0, 5, 5]), 0)]
    ∧ cubeCorner.mesh.edgeSegs 2 = [((![5, 5, 5], ![5, 0, 5]), 0), ((circumLine (hutReal 0) (hutReal 3), ![5, 0, 5]), 0),
        ((![5, 5, 5], ![0, 5, 5]), 0), ((circumLine (hutReal 0) (hutReal 3), ![0, 5, 5]), 0)] := by
  obtain ⟨t0, t1, t2⟩ := tri_numbers
  rw [← cubeCorner_ctr, ← t0, ← t1, ← t2]
  exact ⟨rfl, rfl, rfl⟩

theorem cubeCorner_areas : segArea (cubeCorner.mesh.edgeSegs 0) = 25 ∧ segArea (cubeCorner.mesh.edgeSegs 1) = 25
    ∧ segArea (cubeCorner.mesh.edgeSegs 2) = 25 := by
  obtain ⟨s0, s1, s2⟩ := cubeCorner_segs
  obtain ⟨h0, h1, h2, h3⟩ := hutReal_eq
  rw [s0, s1, s2, h0, h1, h2, h3]
  have fin : ∀ {x l : ℝ}, l = 10 → x * l = 250 → x = 25 := by
    intro x l h1 h2
    rw [h1] at h2
    linarith
  refine ⟨fin (len10 (x := ![0, 0, 0]) (y := ![10, 0, 0]) ?_) ((fourTriangles _ _ _ _ _ _ 0 ?_ ?_ ?_ ?_ ?_).trans ?_),
    fin (len10 (x := ![0, 0, 0]) (y := ![0, 10, 0]) ?_) ((fourTriangles _ _ _ _ _ _ 0 ?_ ?_ ?_ ?_ ?_).trans ?_),
    fin (len10 (x := ![0, 0, 0]) (y := ![0, 0, 10]) ?_) ((fourTriangles _ _ _ _ _ _ 0 ?_ ?_ ?_ ?_ ?_).trans ?_)⟩
  all_goals
    simp only [sqDist, Fin.sum_univ_three, determinant3, Pi.sub_apply, circumLine, Matrix.cons_val_zero, Matrix.cons_val_one, pick2]
    norm_num [abs_of_nonneg, abs_of_nonpos]

theorem cubeCorner_returns (v : VoroSt) : ∃ r, cubeCorner.mesh.voronoiTets v = .ok r := by
  refine (C72_returns cubeCorner_reached v).2.2.2 ⟨?_, ?_, ?_⟩
  · intro e he a b w p hv
    have : e.verts ∈ (cubeCorner.mesh.elems 3).map (·.verts) := List.mem_map_of_mem he
    rw [show (cubeCorner.mesh.elems 3).map (·.verts) = [[0, 1, 2, 3]] from rfl, List.mem_singleton, hv] at this
    simp only [List.cons.injEq, and_true] at this
    obtain ⟨rfl, rfl, rfl, rfl⟩ := this
    obtain ⟨h0, h1, h2, h3⟩ := hutReal_eq
    unfold offPlane determinant3
    rw [show cubeCorner.mesh.at0 0 = ![0, 0, 0] from h0, show cubeCorner.mesh.at0 1 = ![10, 0, 0] from h1,
      show cubeCorner.mesh.at0 2 = ![0, 10, 0] from h2, show cubeCorner.mesh.at0 3 = ![0, 0, 10] from h3, Fin.sum_univ_three]
    simp only [crossProd_zero, crossProd_one, crossProd_two, Pi.sub_apply, Matrix.cons_val_zero, Matrix.cons_val_one, pick2]
    norm_num
  · unfold FacetsUsed
    decide +kernel
  · unfold EdgesUsed
    decide +kernel

/-- The boxes need not have the volume of the mesh: if a circumcenter lies outside, they are too large. -/
theorem C72_violated : ∃ (st : MState (Fin 3 → ℝ)) (r : VoroSt), Reached (simplexTopo 3) st ∧ st.mesh.voronoiTets .fresh = .ok r
    ∧ (st.mesh.elems 3).map (fun e => |signedTetrahedron (cornerAt st.mesh e.verts 0) (cornerAt st.mesh e.verts 1)
        (cornerAt st.mesh e.verts 2) (cornerAt st.mesh e.verts 3)|) = [500 / 3]
    ∧ 250 ≤ ∑ s ∈ Finset.range st.mesh.verts.length, r.total .vbox s := by
  obtain ⟨r, hr⟩ := cubeCorner_returns .fresh
  refine ⟨cubeCorner, r, cubeCorner_reached, hr, ?_, ?_⟩
  · rw [show (cubeCorner.mesh.elems 3).map (fun e => |signedTetrahedron (cornerAt cubeCorner.mesh e.verts 0)
      (cornerAt cubeCorner.mesh e.verts 1) (cornerAt cubeCorner.mesh e.verts 2) (cornerAt cubeCorner.mesh e.verts 3)|)
      = [|signedTetrahedron (hutReal 0) (hutReal 1) (hutReal 2) (hutReal 3)|] from rfl]
    obtain ⟨h0, h1, h2, h3⟩ := hutReal_eq
    rw [h0, h1, h2, h3]
    simp only [signedTetrahedron, innerProd3, crossProd_zero, crossProd_one, crossProd_two, Pi.sub_apply, Matrix.cons_val_zero,
      Matrix.cons_val_one, pick2]
    norm_num
  · obtain ⟨b1, b2⟩ := C72_boxes cubeCorner_reached hr
    rw [show cubeCorner.mesh.verts.length = 4 from rfl]
    simp only [b2, show (cubeCorner.mesh.elems 1).length = 6 from rfl, Finset.sum_range_succ, Finset.sum_range_zero]
    have vs : ∀ e, cubeCorner.mesh.vertsOf 1 e = match e with
        | 0 => [0, 1] | 1 => [0, 2] | 2 => [0, 3] | 3 => [1, 2] | 4 => [1, 3] | 5 => [2, 3] | _ => [] := by
      intro e
      match e with
      | 0 | 1 | 2 | 3 | 4 | 5 => rfl
      | e + 6 => rfl
    have pos : ∀ s a b f, (cubeCorner.mesh.elems 1)[s]? = some f → f.verts = [a, b] → 0 ≤ r.total .ebox s := by
      intro s a b f hs hf
      obtain ⟨h1, h2⟩ := b1 s a b f hs hf
      rw [h2]
      have := Real.sqrt_nonneg (sqDist (cubeCorner.mesh.at0 a) (cubeCorner.mesh.at0 b))
      positivity
    have hI := (cubeCorner_reached.inv (simplexTopo_wf 3)).inv
    have box : ∀ s < 3, r.total .ebox s = 250 / 3 := by
      obtain ⟨_, _, _, hfold⟩ := ok_tets hI hr
      obtain ⟨a0, a1, a2⟩ := cubeCorner_areas
      intro s hs
      have hlt : s < cubeCorner.mesh.count 1 := by
        have : cubeCorner.mesh.count 1 = 6 := rfl
        omega
      obtain ⟨_, t2, _⟩ := tet_state cubeCorner.mesh cubeCorner.mesh.edgeSegs .fresh (cubeCorner.mesh.count 1) s
      rw [hfold, t2, if_pos hlt]
      have len : cubeCorner.mesh.lenOf s = 10 := by
        obtain ⟨h0, h1, h2, h3⟩ := hutReal_eq
        obtain rfl | rfl | rfl : s = 0 ∨ s = 1 ∨ s = 2 := by omega
        · show |signedLine (hutReal 0) (hutReal 1)| = 10
          rw [h0, h1]
          exact len10 (by simp only [sqDist, Fin.sum_univ_three, Matrix.cons_val_zero, Matrix.cons_val_one, pick2]; norm_num)
        · show |signedLine (hutReal 0) (hutReal 2)| = 10
          rw [h0, h2]
          exact len10 (by simp only [sqDist, Fin.sum_univ_three, Matrix.cons_val_zero, Matrix.cons_val_one, pick2]; norm_num)
        · show |signedLine (hutReal 0) (hutReal 3)| = 10
          rw [h0, h3]
          exact len10 (by simp only [sqDist, Fin.sum_univ_three, Matrix.cons_val_zero, Matrix.cons_val_one, pick2]; norm_num)
      rw [len]
      obtain rfl | rfl | rfl : s = 0 ∨ s = 1 ∨ s = 2 := by omega
      · rw [a0]; norm_num
      · rw [a1]; norm_num
      · rw [a2]; norm_num
    have p3 := pos 3 1 2 _ rfl rfl
    have p4 := pos 4 1 3 _ rfl rfl
    have p5 := pos 5 2 3 _ rfl rfl
    simp only [vs, box 0 (by omega), box 1 (by omega), box 2 (by omega)]
    norm_num [VoroSt.fresh]
    linarith

/-- Two tetrahedra with a common facet, each with its circumcenter inside. -/
noncomputable def wingsOps : List (QOp (Fin 3 → ℝ)) :=
  [.mesh (.vertex none ![0, 0, 0]), .mesh (.vertex none ![0, 0, 2]), .mesh (.vertex none ![0, 2, 1]),
   .mesh (.vertex none ![2, 0, 1]), .mesh (.vertex none ![-3, 0, 1]), .mesh (.elem 3 [0, 1, 2, 3]), .mesh (.elem 3 [0, 1, 2, 4])]

/-- The state reached. -/
noncomputable def wings : MState (Fin 3 → ℝ) := (MState.empty.run (simplexTopo 3) wingsOps).getD MState.empty

theorem wings_reached : Reached (simplexTopo 3) wings :=
  ⟨wingsOps, by simp [wingsOps, QOp.meshOps, MOp.Distinct], rfl, by unfold UniqueVids; decide +kernel⟩

theorem wings_at : wings.mesh.at0 0 = ![0, 0, 0] ∧ wings.mesh.at0 1 = ![0, 0, 2] ∧ wings.mesh.at0 2 = ![0, 2, 1]
    ∧ wings.mesh.at0 3 = ![2, 0, 1] ∧ wings.mesh.at0 4 = ![-3, 0, 1] := ⟨rfl, rfl, rfl, rfl, rfl⟩

theorem wings_ctrs : wings.mesh.ctr 0 = ![3 / 4, 3 / 4, 1] ∧ wings.mesh.ctr 1 = ![-4 / 3, 3 / 4, 1] := by
  have key : ∀ p o : Fin 3 → ℝ, ((p = ![2, 0, 1] ∧ o = ![3 / 4, 3 / 4, 1]) ∨ (p = ![-3, 0, 1] ∧ o = ![-4 / 3, 3 / 4, 1])) →
      (match (match circumTetrahedron ![0, 0, 0] ![0, 0, 2] ![0, 2, 1] p with
        | some o => Except.ok o | none => .error Fail.thrown) with
        | .ok o => o | .error _ => 0) = o := by
    intro p o h
    have : circumTetrahedron ![0, 0, 0] ![0, 0, 2] ![0, 2, 1] p = some o := by
      unfold circumTetrahedron
      rcases h with ⟨rfl, rfl⟩ | ⟨rfl, rfl⟩
      all_goals
        simp only [innerProd3, crossProd_zero, crossProd_one, crossProd_two, Pi.sub_apply, Matrix.cons_val_zero, Matrix.cons_val_one, pick2]
        rw [if_neg (by norm_num)]
        congr 1
        refine vec3_ext ?_ ?_ ?_ <;>
          simp only [crossProd_zero, crossProd_one, crossProd_two, Pi.sub_apply, Matrix.cons_val_zero, Matrix.cons_val_one, pick2] <;> norm_num
    rw [this]
  exact ⟨key _ _ (Or.inl ⟨rfl, rfl⟩), key _ _ (Or.inr ⟨rfl, rfl⟩)⟩

theorem wings_tri : circumTriangle3 ![0, 0, 0] ![0, 0, 2] ![2, 0, 1] = (![3 / 4, 0, 1] : Fin 3 → ℝ)
    ∧ circumTriangle3 ![0, 0, 0] ![0, 0, 2] ![-3, 0, 1] = (![-4 / 3, 0, 1] : Fin 3 → ℝ)
    ∧ circumLine ![0, 0, 0] ![0, 0, 2] = (![0, 0, 1] : Fin 3 → ℝ)
    ∧ (fun i => ((![3 / 4, 3 / 4, 1] : Fin 3 → ℝ) i + (![-4 / 3, 3 / 4, 1] : Fin 3 → ℝ) i) / 2) = ![-7 / 24, 3 / 4, 1] := by
  unfold circumTriangle3 circumLine
  simp only [innerProd3, crossProd_zero, crossProd_one, crossProd_two, Pi.sub_apply, Matrix.cons_val_zero, Matrix.cons_val_one, pick2]
  refine ⟨vec3_ext ?_ ?_ ?_, vec3_ext ?_ ?_ ?_, vec3_ext ?_ ?_ ?_, vec3_ext ?_ ?_ ?_⟩ <;>
    simp only [Matrix.cons_val_zero, Matrix.cons_val_one, pick2] <;> norm_num

/-- The segments of the interface of the common edge. -/
noncomputable def wingsSegs : List IfSeg :=
  [((![3 / 4, 3 / 4, 1], ![-7 / 24, 3 / 4, 1]), 0), ((![-7 / 24, 3 / 4, 1], ![-4 / 3, 3 / 4, 1]), 1),
    ((![3 / 4, 3 / 4, 1], ![3 / 4, 0, 1]), 0), ((![0, 0, 1], ![3 / 4, 0, 1]), 0),
    ((![-4 / 3, 3 / 4, 1], ![-4 / 3, 0, 1]), 1), ((![0, 0, 1], ![-4 / 3, 0, 1]), 1)]

theorem wings_segs : wings.mesh.edgeSegs 0 = wingsSegs := by
  obtain ⟨t0, t1, t2, t3⟩ := wings_tri
  obtain ⟨c0, c1⟩ := wings_ctrs
  unfold wingsSegs
  rw [← t3, ← c0, ← c1, ← t0, ← t1, ← t2]
  rfl

theorem wings_inner : innerPoint wingsSegs = ![-35 / 144, 3 / 8, 1] := by
  unfold wingsSegs
  refine vec3_ext ?_ ?_ ?_ <;>
    simp only [innerPoint, List.map_cons, List.map_nil, List.sum_cons, List.sum_nil, List.length_cons, List.length_nil,
      Matrix.cons_val_zero, Matrix.cons_val_one, pick2] <;> norm_num

theorem wings_returns (v : VoroSt) : ∃ r, wings.mesh.voronoiTets v = .ok r := by
  refine (C72_returns wings_reached v).2.2.2 ⟨?_, ?_, ?_⟩
  · intro e he a b w p hv
    have : e.verts ∈ (wings.mesh.elems 3).map (·.verts) := List.mem_map_of_mem he
    rw [show (wings.mesh.elems 3).map (·.verts) = [[0, 1, 2, 3], [0, 1, 2, 4]] from rfl, hv] at this
    simp only [List.mem_cons, List.cons.injEq, and_true, List.not_mem_nil, or_false] at this
    obtain ⟨h0, h1, h2, h3, h4⟩ := wings_at
    unfold offPlane determinant3
    rcases this with ⟨rfl, rfl, rfl, rfl⟩ | ⟨rfl, rfl, rfl, rfl⟩
    · rw [h0, h1, h2, h3, Fin.sum_univ_three]
      simp only [crossProd_zero, crossProd_one, crossProd_two, Pi.sub_apply, Matrix.cons_val_zero, Matrix.cons_val_one, pick2]
      norm_num
    · rw [h0, h1, h2, h4, Fin.sum_univ_three]
      simp only [crossProd_zero, crossProd_one, crossProd_two, Pi.sub_apply, Matrix.cons_val_zero, Matrix.cons_val_one, pick2]
      norm_num
  · unfold FacetsUsed
    decide +kernel
  · unfold EdgesUsed
    decide +kernel

/-- What is recorded for a cell need not be the part of the interface in this cell, even if the interface is right and each cell
contains its circumcenter: of the `25 / 4` (twice the area, times the length of the edge) `9 / 4` are in the first cell and `4` in
the second, but more than `14 / 5` is recorded for the first. -/
theorem C72_violated_cells : ∃ (st : MState (Fin 3 → ℝ)) (r : VoroSt), Reached (simplexTopo 3) st
    ∧ st.mesh.voronoiTets .fresh = .ok r ∧ ∃ s a b f, (st.mesh.elems 1)[s]? = some f ∧ f.verts = [a, b]
    ∧ st.mesh.count 3 = 2 ∧ Piece st.mesh 0 a b (9 / 4) ∧ Piece st.mesh 1 a b 4
    ∧ 2 * (r.total .area s * √(sqDist (st.mesh.at0 a) (st.mesh.at0 b))) = 9 / 4 + 4
    ∧ 14 / 5 < 2 * (recorded (r.parts .area s) 0 * √(sqDist (st.mesh.at0 a) (st.mesh.at0 b))) := by
  obtain ⟨r, hr⟩ := wings_returns .fresh
  have hI := (wings_reached.inv (simplexTopo_wf 3)).inv
  obtain ⟨hx0, hx1, hx2, hx3, hx4⟩ := wings_at
  obtain ⟨_, _, _, hfold⟩ := ok_tets hI hr
  have hl : |signedLine (wings.mesh.at0 0) (wings.mesh.at0 1)| = √(sqDist (wings.mesh.at0 0) (wings.mesh.at0 1)) :=
    lenOf_eq wings.mesh 0
  refine ⟨wings, r, wings_reached, hr, 0, 0, 1, _, rfl, rfl, rfl, ?_, ?_, ?_, ?_⟩
  · refine ⟨2, 3, ![3 / 4, 3 / 4, 1], ![0, 3 / 4, 1], ![3 / 4, 0, 1], List.Perm.refl _, ?_, ?_, ?_, ?_⟩
    · have key : ∀ v ∈ [0, 1, 2, 3], sqDist (![3 / 4, 3 / 4, 1] : Fin 3 → ℝ) (wings.mesh.at0 v) = 17 / 8 := by
        intro v hv
        simp only [List.mem_cons, List.not_mem_nil, or_false] at hv
        rcases hv with rfl | rfl | rfl | rfl <;> simp only [hx0, hx1, hx2, hx3] <;>
          (simp only [sqDist, Fin.sum_univ_three, Matrix.cons_val_zero, Matrix.cons_val_one, pick2]; norm_num)
      intro v hv v' hv'
      rw [key v hv, key v' hv']
    all_goals
      simp only [TriCenterOf, offPlane, determinant3, hx0, hx1, hx2, hx3]
      simp only [Pi.sub_apply, circumLine, sqDist, Fin.sum_univ_three, Matrix.cons_val_zero, Matrix.cons_val_one, pick2]
      norm_num
  · refine ⟨2, 4, ![-4 / 3, 3 / 4, 1], ![0, 3 / 4, 1], ![-4 / 3, 0, 1], List.Perm.refl _, ?_, ?_, ?_, ?_⟩
    · have key : ∀ v ∈ [0, 1, 2, 4], sqDist (![-4 / 3, 3 / 4, 1] : Fin 3 → ℝ) (wings.mesh.at0 v) = 481 / 144 := by
        intro v hv
        simp only [List.mem_cons, List.not_mem_nil, or_false] at hv
        rcases hv with rfl | rfl | rfl | rfl <;> simp only [hx0, hx1, hx2, hx4] <;>
          (simp only [sqDist, Fin.sum_univ_three, Matrix.cons_val_zero, Matrix.cons_val_one, pick2]; norm_num)
      intro v hv v' hv'
      rw [key v hv, key v' hv']
    all_goals
      simp only [TriCenterOf, offPlane, determinant3, hx0, hx1, hx2, hx4]
      simp only [Pi.sub_apply, circumLine, sqDist, Fin.sum_univ_three, Matrix.cons_val_zero, Matrix.cons_val_one, pick2]
      norm_num
  · obtain ⟨t1, _⟩ := tet_state wings.mesh wings.mesh.edgeSegs .fresh (wings.mesh.count 1) 0
    rw [hfold, t1, if_pos (by decide), ← hl, wings_segs, hx0, hx1]
    unfold segArea
    rw [wings_inner]
    unfold wingsSegs
    simp only [List.map_cons, List.map_nil, List.sum_cons, List.sum_nil, add_zero]
    rw [add_mul, add_mul, add_mul, add_mul, add_mul, plane_area, plane_area, plane_area, plane_area, plane_area, plane_area]
    all_goals
      simp only [sqDist, Fin.sum_univ_three, determinant3, Pi.sub_apply, Matrix.cons_val_zero, Matrix.cons_val_one, pick2]
      norm_num [abs_of_nonneg, abs_of_nonpos]
  · obtain ⟨t1, _⟩ := tet_recorded wings.mesh wings.mesh.edgeSegs .fresh (wings.mesh.count 1) 0 0
    rw [hfold, t1, if_pos (by decide), ← hl, show recorded (VoroSt.fresh.parts .area 0) 0 = 0 from rfl, zero_add, wings_segs, hx0, hx1]
    unfold recIn
    rw [wings_inner]
    unfold wingsSegs
    simp only [List.map_cons, List.map_nil, List.sum_cons, List.sum_nil, if_true, if_false, one_ne_zero, add_zero, zero_add]
    rw [add_mul, add_mul, plane_area, plane_area, plane_area]
    all_goals
      simp only [sqDist, Fin.sum_univ_three, determinant3, Pi.sub_apply, Matrix.cons_val_zero, Matrix.cons_val_one, pick2]
      norm_num [abs_of_nonneg, abs_of_nonpos]

end VG
