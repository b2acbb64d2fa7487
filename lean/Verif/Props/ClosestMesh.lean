import Verif.Props.Distance

/-!
C62 and C67 for meshes of triangles, quadrilaterals, tetrahedra and hexahedra: the closest point on the boundary, and the distance
to it, computed with the routines for lines, triangles and quadrilaterals of the library.
-/

namespace VG

/-- An element of a mesh has as many points as vertices. -/
theorem pointsOf_length {P : Type} {T : Topo} {m : Mesh P} (hI : Inv T m) {n s : Nat} (hn : n ≠ 0) (hs : s < m.count n) :
    T.Arity n (m.pointsOf n s).length := by
  rw [show m.count n = (m.elems n).length by unfold Mesh.count; rw [if_neg hn]] at hs
  obtain ⟨e, he⟩ : ∃ e, (m.elems n)[s]? = some e := ⟨_, List.getElem?_eq_getElem hs⟩
  obtain ⟨_, h2, h3⟩ := hI.verts n e (List.mem_of_getElem? he)
  have hl : ∀ l : List Nat, (∀ v ∈ l, v < m.verts.length) → (l.filterMap m.ptOf).length = l.length := by
    intro l
    induction l with
    | nil => intro _; rfl
    | cons v l ih =>
      intro hv
      have : m.ptOf v = some (m.verts[v]'(hv v (by simp))).pt := by
        rw [Mesh.ptOf, List.getElem?_eq_getElem (hv v (by simp))]; rfl
      rw [List.filterMap_cons_some this, List.length_cons, List.length_cons,
        ih (fun w hw => hv w (List.mem_cons_of_mem _ hw))]
  have hv : m.vertsOf n s = e.verts := by
    unfold Mesh.vertsOf
    rw [List.getD_eq_getElem?_getD, List.getElem?_map, he]
    rfl
  rw [Mesh.pointsOf, hv, hl _ h3]
  exact h2

section
variable {K : Type} [Field K] [LinearOrder K] [IsStrictOrderedRing K] {d : Nat}

/-- `closest_points_impl` of a point and a triangle given by the list of its corners. -/
def nearTriangle (p : Fin d → K) : List (Fin d → K) → Option ((Fin d → K) × (Fin d → K))
  | [a, b, c] => closestPointTriangle p a b c
  | _ => none

/-- `closest_points_impl` of a point and a quadrilateral given by the list of its corners. -/
def nearQuad (p : Fin d → K) : List (Fin d → K) → Option ((Fin d → K) × (Fin d → K))
  | [a, b, c, e] => closestPointQuad p a b c e
  | _ => none

/-- No edge on the boundary is a single point. -/
def EdgesLong (T : Topo) (st : MState (Fin d → K)) : Prop :=
  ∀ s < st.mesh.count 1, (st.isBoundary T 1 s).2 = true → ∀ a b, st.mesh.pointsOf 1 s = [a, b] → a ≠ b

/-- No triangle on the boundary has its corners on a line. -/
def TrianglesFat (T : Topo) (st : MState (Fin d → K)) : Prop :=
  ∀ s < st.mesh.count 2, (st.isBoundary T 2 s).2 = true → ∀ a b c, st.mesh.pointsOf 2 s = [a, b, c] →
    NotOnALine a b c

/-- The quadrilaterals on the boundary are plane and convex: their diagonals, from corner 0 to 3 and from 1 to 2 in
the numbering of the library, meet, and neither half is on a line. -/
def QuadsConvex (T : Topo) (st : MState (Fin d → K)) : Prop :=
  ∀ s < st.mesh.count 2, (st.isBoundary T 2 s).2 = true → ∀ a b c e, st.mesh.pointsOf 2 s = [a, b, c, e] →
    NotOnALine a b c ∧ NotOnALine b e c ∧ ∃ m, ConvexComb [a, e] m ∧ ConvexComb [b, c] m

theorem nearLine_facets {T : Topo} (hT : LibTopo T) (h2 : T.cellDim = 2) (hv : T.nv 1 = 2)
    (p : Fin d → K) {st : MState (Fin d → K)} (h : Reached T st) (hl : EdgesLong T st) :
    ∀ s < st.mesh.count (T.cellDim - 1), (st.isBoundary T (T.cellDim - 1) s).2 = true →
      ∃ q, nearLine p (st.mesh.pointsOf (T.cellDim - 1) s) = some (p, q)
        ∧ IsNearest (ConvexComb (st.mesh.pointsOf (T.cellDim - 1) s)) p q := by
  rw [h2]
  intro s hs hb
  have hlen := (pointsOf_length (h.inv hT.wf).inv (by decide) hs).lower (by omega)
  rw [hv] at hlen
  obtain ⟨a, b, hab⟩ := List.length_eq_two.1 hlen
  have hne := hl s hs hb a b hab
  change ∃ q, nearLine p (st.mesh.pointsOf 1 s) = some (p, q) ∧ IsNearest (ConvexComb (st.mesh.pointsOf 1 s)) p q
  rw [hab]
  exact C40_line p a b hne

theorem nearTriangle_facets {T : Topo} (hT : LibTopo T) (h3 : T.cellDim = 3) (hv : T.nv 2 = 3)
    (p : Fin d → K) {st : MState (Fin d → K)} (h : Reached T st) (hl : TrianglesFat T st) :
    ∀ s < st.mesh.count (T.cellDim - 1), (st.isBoundary T (T.cellDim - 1) s).2 = true →
      ∃ q, nearTriangle p (st.mesh.pointsOf (T.cellDim - 1) s) = some (p, q)
        ∧ IsNearest (ConvexComb (st.mesh.pointsOf (T.cellDim - 1) s)) p q := by
  rw [h3]
  intro s hs hb
  have hlen := (pointsOf_length (h.inv hT.wf).inv (by decide) hs).lower (by omega)
  rw [hv] at hlen
  obtain ⟨a, b, c, hab⟩ := List.length_eq_three.1 hlen
  have hne := hl s hs hb a b c hab
  change ∃ q, nearTriangle p (st.mesh.pointsOf 2 s) = some (p, q) ∧ IsNearest (ConvexComb (st.mesh.pointsOf 2 s)) p q
  rw [hab]
  exact C40_triangle p a b c hne

theorem nearQuad_facets {T : Topo} (hT : LibTopo T) (h3 : T.cellDim = 3) (hv : T.nv 2 = 4)
    (p : Fin d → K) {st : MState (Fin d → K)} (h : Reached T st) (hl : QuadsConvex T st) :
    ∀ s < st.mesh.count (T.cellDim - 1), (st.isBoundary T (T.cellDim - 1) s).2 = true →
      ∃ q, nearQuad p (st.mesh.pointsOf (T.cellDim - 1) s) = some (p, q)
        ∧ IsNearest (ConvexComb (st.mesh.pointsOf (T.cellDim - 1) s)) p q := by
  rw [h3]
  intro s hs hb
  have hlen := (pointsOf_length (h.inv hT.wf).inv (by decide) hs).lower (by omega)
  rw [hv] at hlen
  obtain ⟨a, b, c, e, hab⟩ : ∃ a b c e, st.mesh.pointsOf 2 s = [a, b, c, e] := by
    change (st.mesh.pointsOf 2 s).length = 4 at hlen
    match st.mesh.pointsOf 2 s, hlen with
    | [a, b, c, e], _ => exact ⟨a, b, c, e, rfl⟩
  obtain ⟨h1, h2, hm⟩ := hl s hs hb a b c e hab
  change ∃ q, nearQuad p (st.mesh.pointsOf 2 s) = some (p, q) ∧ IsNearest (ConvexComb (st.mesh.pointsOf 2 s)) p q
  rw [hab]
  exact C40_quadrilateral_convex p a b c e h1 h2 hm

/-- C62 for meshes of triangles: the result of `closest_points_on_boundary` is the nearest point of the edges on the
boundary. -/
theorem C62_triangle_mesh (p : Fin d → K) {st : MState (Fin d → K)} (h : Reached (simplexTopo 2) st)
    (hl : EdgesLong (simplexTopo 2) st)
    (hne : ∃ s < st.mesh.count 1, (st.isBoundary (simplexTopo 2) 1 s).2 = true) :
    ∃ q, (st.closestOnBoundary (simplexTopo 2) (nearLine p)).2 = some (p, q)
      ∧ IsNearest (OnSurface (simplexTopo 2) ConvexComb st) p q :=
  C62_closest_on_boundary (Or.inl ⟨2, rfl⟩) ConvexComb (nearLine p) p h
    (nearLine_facets (Or.inl ⟨2, rfl⟩) rfl rfl p h hl) hne

/-- C62 for meshes of quadrilaterals. -/
theorem C62_quadrilateral_mesh (p : Fin d → K) {st : MState (Fin d → K)} (h : Reached (cubeTopo 2) st)
    (hl : EdgesLong (cubeTopo 2) st)
    (hne : ∃ s < st.mesh.count 1, (st.isBoundary (cubeTopo 2) 1 s).2 = true) :
    ∃ q, (st.closestOnBoundary (cubeTopo 2) (nearLine p)).2 = some (p, q)
      ∧ IsNearest (OnSurface (cubeTopo 2) ConvexComb st) p q :=
  C62_closest_on_boundary (Or.inr (Or.inl ⟨2, rfl⟩)) ConvexComb (nearLine p) p h
    (nearLine_facets (Or.inr (Or.inl ⟨2, rfl⟩)) rfl rfl p h hl) hne

/-- C62 for meshes of tetrahedra: the result of `closest_points_on_boundary` is the nearest point of the triangles on the
boundary. -/
theorem C62_tetrahedron_mesh (p : Fin d → K) {st : MState (Fin d → K)} (h : Reached (simplexTopo 3) st)
    (hl : TrianglesFat (simplexTopo 3) st)
    (hne : ∃ s < st.mesh.count 2, (st.isBoundary (simplexTopo 3) 2 s).2 = true) :
    ∃ q, (st.closestOnBoundary (simplexTopo 3) (nearTriangle p)).2 = some (p, q)
      ∧ IsNearest (OnSurface (simplexTopo 3) ConvexComb st) p q :=
  C62_closest_on_boundary (Or.inl ⟨3, rfl⟩) ConvexComb (nearTriangle p) p h
    (nearTriangle_facets (Or.inl ⟨3, rfl⟩) rfl rfl p h hl) hne

/-- C62 for meshes of hexahedra whose faces on the boundary are plane and convex: the result of
`closest_points_on_boundary` is the nearest point of these faces. -/
theorem C62_hexahedron_mesh (p : Fin d → K) {st : MState (Fin d → K)} (h : Reached (cubeTopo 3) st)
    (hl : QuadsConvex (cubeTopo 3) st)
    (hne : ∃ s < st.mesh.count 2, (st.isBoundary (cubeTopo 3) 2 s).2 = true) :
    ∃ q, (st.closestOnBoundary (cubeTopo 3) (nearQuad p)).2 = some (p, q)
      ∧ IsNearest (OnSurface (cubeTopo 3) ConvexComb st) p q :=
  C62_closest_on_boundary (Or.inr (Or.inl ⟨3, rfl⟩)) ConvexComb (nearQuad p) p h
    (nearQuad_facets (Or.inr (Or.inl ⟨3, rfl⟩)) rfl rfl p h hl) hne

end

section
variable {d : Nat}

/-- C67: `boundary_distance` of a point and a mesh of triangles is the distance of the point and the boundary. -/
theorem C67_triangle_mesh (p : Fin d → ℝ) {st : MState (Fin d → ℝ)} (h : Reached (simplexTopo 2) st)
    (hl : EdgesLong (simplexTopo 2) st)
    (hne : ∃ s < st.mesh.count 1, (st.isBoundary (simplexTopo 2) 1 s).2 = true) :
    ∃ r, pairDistance (st.closestOnBoundary (simplexTopo 2) (nearLine p)).2 = some r
      ∧ IsDistance (· = p) (OnSurface (simplexTopo 2) ConvexComb st) r :=
  C67_boundary (Or.inl ⟨2, rfl⟩) ConvexComb (nearLine p) p h
    (nearLine_facets (Or.inl ⟨2, rfl⟩) rfl rfl p h hl) hne

/-- C67: `boundary_distance` of a point and a mesh of tetrahedra is the distance of the point and the boundary. -/
theorem C67_tetrahedron_mesh (p : Fin d → ℝ) {st : MState (Fin d → ℝ)} (h : Reached (simplexTopo 3) st)
    (hl : TrianglesFat (simplexTopo 3) st)
    (hne : ∃ s < st.mesh.count 2, (st.isBoundary (simplexTopo 3) 2 s).2 = true) :
    ∃ r, pairDistance (st.closestOnBoundary (simplexTopo 3) (nearTriangle p)).2 = some r
      ∧ IsDistance (· = p) (OnSurface (simplexTopo 3) ConvexComb st) r :=
  C67_boundary (Or.inl ⟨3, rfl⟩) ConvexComb (nearTriangle p) p h
    (nearTriangle_facets (Or.inl ⟨3, rfl⟩) rfl rfl p h hl) hne

/-- C67: `boundary_distance` of a point and a mesh of quadrilaterals. -/
theorem C67_quadrilateral_mesh (p : Fin d → ℝ) {st : MState (Fin d → ℝ)} (h : Reached (cubeTopo 2) st)
    (hl : EdgesLong (cubeTopo 2) st)
    (hne : ∃ s < st.mesh.count 1, (st.isBoundary (cubeTopo 2) 1 s).2 = true) :
    ∃ r, pairDistance (st.closestOnBoundary (cubeTopo 2) (nearLine p)).2 = some r
      ∧ IsDistance (· = p) (OnSurface (cubeTopo 2) ConvexComb st) r :=
  C67_boundary (Or.inr (Or.inl ⟨2, rfl⟩)) ConvexComb (nearLine p) p h
    (nearLine_facets (Or.inr (Or.inl ⟨2, rfl⟩)) rfl rfl p h hl) hne

/-- C67: `boundary_distance` of a point and a mesh of hexahedra with plane convex faces. -/
theorem C67_hexahedron_mesh (p : Fin d → ℝ) {st : MState (Fin d → ℝ)} (h : Reached (cubeTopo 3) st)
    (hl : QuadsConvex (cubeTopo 3) st)
    (hne : ∃ s < st.mesh.count 2, (st.isBoundary (cubeTopo 3) 2 s).2 = true) :
    ∃ r, pairDistance (st.closestOnBoundary (cubeTopo 3) (nearQuad p)).2 = some r
      ∧ IsDistance (· = p) (OnSurface (cubeTopo 3) ConvexComb st) r :=
  C67_boundary (Or.inr (Or.inl ⟨3, rfl⟩)) ConvexComb (nearQuad p) p h
    (nearQuad_facets (Or.inr (Or.inl ⟨3, rfl⟩)) rfl rfl p h hl) hne

end

/-! ### The hypotheses hold for the square made of two triangles, for a tetrahedron and for a cube -/

theorem squareState_long : EdgesLong (simplexTopo 2) squareState := by
  intro s hs _ a b hab hc
  have : ∀ s < squareState.mesh.count 1, (squareState.mesh.pointsOf 1 s).getD 0 0 ≠ (squareState.mesh.pointsOf 1 s).getD 1 0 := by
    decide +kernel
  refine this s hs ?_
  rw [hab, hc]; rfl

example (p : Fin 2 → Rat) : ∃ q, (squareState.closestOnBoundary (simplexTopo 2) (nearLine p)).2 = some (p, q)
    ∧ IsNearest (OnSurface (simplexTopo 2) ConvexComb squareState) p q :=
  C62_triangle_mesh p squareState_reached squareState_long ⟨0, by decide +kernel⟩

/-- A tetrahedron is created. -/
def tetraOps : List (QOp (Fin 3 → Rat)) :=
  [.mesh (.vertex none ![0, 0, 0]), .mesh (.vertex none ![1, 0, 0]), .mesh (.vertex none ![0, 1, 0]),
   .mesh (.vertex none ![0, 0, 1]), .mesh (.elem 3 [0, 1, 2, 3])]

/-- The state reached. -/
def tetraState : MState (Fin 3 → Rat) := (MState.empty.run (simplexTopo 3) tetraOps).getD MState.empty

theorem tetraState_reached : Reached (simplexTopo 3) tetraState :=
  ⟨tetraOps, by simp [tetraOps, QOp.meshOps, MOp.Distinct], rfl, by unfold UniqueVids; decide +kernel⟩

theorem tetraState_fat : TrianglesFat (simplexTopo 3) tetraState := by
  intro s hs _ a b c h
  have hc : tetraState.mesh.count 2 = 4 := by decide +kernel
  have h0 : tetraState.mesh.pointsOf 2 0 = [![0, 0, 0], ![1, 0, 0], ![0, 1, 0]] := by decide +kernel
  have h1 : tetraState.mesh.pointsOf 2 1 = [![0, 0, 0], ![1, 0, 0], ![0, 0, 1]] := by decide +kernel
  have h2 : tetraState.mesh.pointsOf 2 2 = [![0, 0, 0], ![0, 1, 0], ![0, 0, 1]] := by decide +kernel
  have h3 : tetraState.mesh.pointsOf 2 3 = [![1, 0, 0], ![0, 1, 0], ![0, 0, 1]] := by decide +kernel
  rw [hc] at hs
  intro x y hxy
  obtain rfl | rfl | rfl | rfl : s = 0 ∨ s = 1 ∨ s = 2 ∨ s = 3 := by omega
  · rw [h0] at h
    obtain ⟨rfl, rfl, rfl⟩ : ![0, 0, 0] = a ∧ ![1, 0, 0] = b ∧ ![0, 1, 0] = c := by simpa using h
    have e0 := hxy 0
    have e1 := hxy 1
    simp at e0 e1
    exact ⟨e0, e1⟩
  · rw [h1] at h
    obtain ⟨rfl, rfl, rfl⟩ : ![0, 0, 0] = a ∧ ![1, 0, 0] = b ∧ ![0, 0, 1] = c := by simpa using h
    have e0 := hxy 0
    have e1 := hxy 2
    simp at e0 e1
    exact ⟨e0, e1⟩
  · rw [h2] at h
    obtain ⟨rfl, rfl, rfl⟩ : ![0, 0, 0] = a ∧ ![0, 1, 0] = b ∧ ![0, 0, 1] = c := by simpa using h
    have e0 := hxy 1
    have e1 := hxy 2
    simp at e0 e1
    exact ⟨e0, e1⟩
  · rw [h3] at h
    obtain ⟨rfl, rfl, rfl⟩ : ![1, 0, 0] = a ∧ ![0, 1, 0] = b ∧ ![0, 0, 1] = c := by simpa using h
    have e0 := hxy 1
    have e1 := hxy 2
    simp at e0 e1
    exact ⟨e0, e1⟩

example (p : Fin 3 → Rat) : ∃ q, (tetraState.closestOnBoundary (simplexTopo 3) (nearTriangle p)).2 = some (p, q)
    ∧ IsNearest (OnSurface (simplexTopo 3) ConvexComb tetraState) p q :=
  C62_tetrahedron_mesh p tetraState_reached tetraState_fat ⟨0, by decide +kernel⟩

/-- A cube is created. -/
def cubeOps : List (QOp (Fin 3 → Rat)) :=
  [.mesh (.vertex none ![0, 0, 0]), .mesh (.vertex none ![1, 0, 0]), .mesh (.vertex none ![0, 1, 0]),
   .mesh (.vertex none ![1, 1, 0]), .mesh (.vertex none ![0, 0, 1]), .mesh (.vertex none ![1, 0, 1]),
   .mesh (.vertex none ![0, 1, 1]), .mesh (.vertex none ![1, 1, 1]), .mesh (.elem 3 [0, 1, 2, 3, 4, 5, 6, 7])]

/-- The state reached. -/
def cubeState : MState (Fin 3 → Rat) := (MState.empty.run (cubeTopo 3) cubeOps).getD MState.empty

theorem cubeState_reached : Reached (cubeTopo 3) cubeState :=
  ⟨cubeOps, by simp [cubeOps, QOp.meshOps, MOp.Distinct], rfl, by unfold UniqueVids; decide +kernel⟩

/-- Four corners of a rectangle in the plane of two directions. -/
theorem rectangle_convex (i j : Fin 3) (a b c e : Fin 3 → Rat) (hi : b i - a i ≠ 0) (hj : c j - a j ≠ 0)
    (hbj : b j = a j) (hci : c i = a i) (he : ∀ k, e k = b k + c k - a k) :
    NotOnALine a b c ∧ NotOnALine b e c ∧ ∃ m, ConvexComb [a, e] m ∧ ConvexComb [b, c] m := by
  refine ⟨fun x y h => ?_, fun x y h => ?_, fun k => (b k + c k) / 2, ?_, ?_⟩
  · have h1 := h i
    have h2 := h j
    rw [hci, sub_self, mul_zero, add_zero] at h1
    rw [hbj, sub_self, mul_zero, zero_add] at h2
    exact ⟨(mul_eq_zero.1 h1).resolve_right hi, (mul_eq_zero.1 h2).resolve_right hj⟩
  · have h1 := h i
    have h2 := h j
    rw [he, hci] at h1
    rw [he, hbj] at h2
    have hy : y = 0 := by
      have : y * (b i - a i) = 0 := by linear_combination -h1
      exact (mul_eq_zero.1 this).resolve_right hi
    subst hy
    refine ⟨?_, rfl⟩
    have : x * (c j - a j) = 0 := by linear_combination h2
    exact (mul_eq_zero.1 this).resolve_right hj
  · rw [convexComb2]
    refine ⟨1 / 2, by norm_num, by norm_num, ?_⟩
    funext k
    simp [he]
    ring
  · rw [convexComb2]
    refine ⟨1 / 2, by norm_num, by norm_num, ?_⟩
    funext k
    simp
    ring

theorem cubeState_convex : QuadsConvex (cubeTopo 3) cubeState := by
  intro s hs _ a b c e h
  have key : ∀ s < cubeState.mesh.count 2, ∃ i j : Fin 3,
      let a := (cubeState.mesh.pointsOf 2 s).getD 0 0
      let b := (cubeState.mesh.pointsOf 2 s).getD 1 0
      let c := (cubeState.mesh.pointsOf 2 s).getD 2 0
      let e := (cubeState.mesh.pointsOf 2 s).getD 3 0
      b i - a i ≠ 0 ∧ c j - a j ≠ 0 ∧ b j = a j ∧ c i = a i ∧ ∀ k, e k = b k + c k - a k := by
    decide +kernel
  obtain ⟨i, j, k⟩ := key s hs
  rw [h] at k
  exact rectangle_convex i j a b c e k.1 k.2.1 k.2.2.1 k.2.2.2.1 k.2.2.2.2

example (p : Fin 3 → Rat) : ∃ q, (cubeState.closestOnBoundary (cubeTopo 3) (nearQuad p)).2 = some (p, q)
    ∧ IsNearest (OnSurface (cubeTopo 3) ConvexComb cubeState) p q :=
  C62_hexahedron_mesh p cubeState_reached cubeState_convex ⟨0, by decide +kernel⟩

end VG
