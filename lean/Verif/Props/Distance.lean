import Verif.Model.Distance
import Verif.Props.ClosestPoints
import Verif.Lemmas.Angles

/-!
C67: `distance` and `boundary_distance` give the least Euclidean distance of the points of the two things.
-/

namespace VG

variable {d : Nat}

/-- The Euclidean distance. -/
noncomputable def eucl (x y : Fin d → ℝ) : ℝ := √(∑ i, (x i - y i) ^ 2)

/-- `r` is the least distance of a point of `S` and a point of `T`. -/
def IsDistance (S T : (Fin d → ℝ) → Prop) (r : ℝ) : Prop :=
  (∃ x y, S x ∧ T y ∧ r = eucl x y) ∧ ∀ x y, S x → T y → r ≤ eucl x y

theorem pointDistance_eq (p q : Fin d → ℝ) : pointDistance p q = eucl p q := by
  rw [pointDistance, euclNorm_eq]; rfl

theorem eucl_comm (x y : Fin d → ℝ) : eucl x y = eucl y x := by
  unfold eucl
  congr 1
  exact Finset.sum_congr rfl (fun i _ => by ring)

theorem eucl_le {x y z w : Fin d → ℝ} (h : sqDist x y ≤ sqDist z w) : eucl x y ≤ eucl z w := Real.sqrt_le_sqrt h

/-- A distance is unique. -/
theorem isDistance_unique {S T : (Fin d → ℝ) → Prop} {r s : ℝ} (h1 : IsDistance S T r) (h2 : IsDistance S T s) : r = s := by
  obtain ⟨⟨x, y, hx, hy, e⟩, l⟩ := h1
  obtain ⟨⟨x', y', hx', hy', e'⟩, l'⟩ := h2
  exact _root_.le_antisymm (by rw [e']; exact l _ _ hx' hy') (by rw [e]; exact l' _ _ hx hy)

theorem isDistance_symm {S T : (Fin d → ℝ) → Prop} {r : ℝ} (h : IsDistance S T r) : IsDistance T S r := by
  obtain ⟨⟨x, y, hx, hy, e⟩, l⟩ := h
  exact ⟨⟨y, x, hy, hx, by rw [e, eucl_comm]⟩, fun a b ha hb => by rw [eucl_comm]; exact l b a hb ha⟩

/-- C67: the distance of two points is a metric. -/
theorem C67_points (p q r : Fin d → ℝ) :
    pointDistance p q = eucl p q ∧ 0 ≤ pointDistance p q ∧ (pointDistance p q = 0 ↔ p = q) ∧
    pointDistance q p = pointDistance p q ∧ pointDistance p r ≤ pointDistance p q + pointDistance q r := by
  refine ⟨pointDistance_eq p q, euclNorm_nonneg _, ?_, ?_, ?_⟩
  · constructor
    · intro h
      by_contra hne
      exact (euclNorm_pos (sub_ne_zero.2 hne)).ne' h
    · rintro rfl
      simp [pointDistance_eq, eucl]
  · rw [pointDistance_eq, pointDistance_eq, eucl_comm]
  · have e : p - r = (p - q) + (q - r) := by funext k; simp
    unfold pointDistance
    rw [e]
    have h1 := abs_le.1 (Real.abs_le_sqrt (x := innerProd (p - q) (q - r)) (y := (euclNorm (p - q) * euclNorm (q - r)) ^ 2) (by
      rw [mul_pow, euclNorm_sq, euclNorm_sq]
      have := Finset.sum_mul_sq_le_sq_mul_sq (R := ℝ) Finset.univ (p - q) (q - r)
      simpa [innerProd, pow_two] using this))
    rw [Real.sqrt_sq (mul_nonneg (euclNorm_nonneg _) (euclNorm_nonneg _))] at h1
    refine abs_le_of_sq_le_sq' ?_ (add_nonneg (euclNorm_nonneg _) (euclNorm_nonneg _)) |>.2
    rw [euclNorm_sq, add_sq, euclNorm_sq, euclNorm_sq]
    simp only [innerProd_add_left, innerProd_add_right]
    rw [innerProd_comm (q - r) (p - q)]
    linarith [h1.2]

theorem pairDistance_nearest {S : (Fin d → ℝ) → Prop} {p q : Fin d → ℝ} {o : Option ((Fin d → ℝ) × (Fin d → ℝ))}
    (ho : o = some (p, q)) (h : IsNearest S p q) : ∃ r, pairDistance o = some r ∧ IsDistance (· = p) S r := by
  subst ho
  refine ⟨pointDistance p q, rfl, ⟨p, q, rfl, h.1, pointDistance_eq p q⟩, ?_⟩
  rintro x y rfl hy
  rw [pointDistance_eq]
  exact eucl_le (h.2 y hy)

/-- C67: the distance of a point and a line segment, a triangle, a tetrahedron, a convex quadrilateral and a
parallelepiped. -/
theorem C67_point_element (p a b c e : Fin d → ℝ) :
    (a ≠ b → ∃ r, pairDistance (closestPointLine p a b) = some r ∧ IsDistance (· = p) (ConvexComb [a, b]) r) ∧
    (NotOnALine a b c →
      ∃ r, pairDistance (closestPointTriangle p a b c) = some r ∧ IsDistance (· = p) (ConvexComb [a, b, c]) r) ∧
    (NotInAPlane a b c e →
      ∃ r, pairDistance (closestPointTetrahedron p a b c e) = some r ∧ IsDistance (· = p) (ConvexComb [a, b, c, e]) r) ∧
    (NotOnALine a b c → NotOnALine b e c → (∃ m, ConvexComb [a, e] m ∧ ConvexComb [b, c] m) →
      ∃ r, pairDistance (closestPointQuad p a b c e) = some r ∧ IsDistance (· = p) (ConvexComb [a, b, c, e]) r) ∧
    ((∀ r s t : ℝ, (∀ k, r * a k + s * b k + t * c k = 0) → r = 0 ∧ s = 0 ∧ t = 0) →
      ∃ r, pairDistance (closestPointHex p e (e + a) (e + b) (e + a + b) (e + c) (e + a + c) (e + b + c) (e + a + b + c))
        = some r ∧ IsDistance (· = p) (InBox e a b c) r) := by
  refine ⟨fun h => ?_, fun h => ?_, fun h => ?_, fun h1 h2 h3 => ?_, fun h => ?_⟩
  · obtain ⟨q, h1, h2⟩ := C40_line p a b h
    exact pairDistance_nearest h1 h2
  · obtain ⟨q, h1, h2⟩ := C40_triangle p a b c h
    exact pairDistance_nearest h1 h2
  · obtain ⟨q, h1, h2⟩ := C40_tetrahedron p a b c e h
    exact pairDistance_nearest h1 h2
  · obtain ⟨q, h1, h2⟩ := C40_quadrilateral_convex p a b c e h1 h2 h3
    exact pairDistance_nearest h1 h2
  · obtain ⟨q, h1, h2⟩ := C40_box p e a b c h
    exact pairDistance_nearest h1 h2

/-- C67 for two line segments.  The full statement has no hypothesis on the position of the segments; it is false for
nearly parallel segments which cross (`C67_violated`). -/
theorem C67_lines_partial (v0 v1 w0 w1 : Fin d → ℝ) (hv : v0 ≠ v1) (hw : w0 ≠ w1)
    (h : (∃ r : ℝ, ∀ k, v1 k - v0 k = r * (w1 k - w0 k))
      ∨ 1 / 1000000 * (∑ k, (v1 k - v0 k) ^ 2) * (∑ k, (w1 k - w0 k) ^ 2) ≤ sinSq v0 v1 w0 w1
      ∨ ∀ s t, CommonPerp v0 v1 w0 w1 s t → ¬ (0 ≤ s ∧ s ≤ 1 ∧ 0 ≤ t ∧ t ≤ 1)) :
    ∃ r, pairDistance (closestLineLine v0 v1 w0 w1) = some r ∧ IsDistance (ConvexComb [v0, v1]) (ConvexComb [w0, w1]) r := by
  obtain ⟨pr, h1, h2, h3⟩ := C41_optimal_partial v0 v1 w0 w1 hv hw h
  refine ⟨pointDistance pr.1 pr.2, by rw [h1]; rfl, ?_, fun x y hx hy => ?_⟩
  · rcases h2 with h2 | h2
    · exact ⟨pr.1, pr.2, h2.1, h2.2, pointDistance_eq _ _⟩
    · exact ⟨pr.2, pr.1, h2.2, h2.1, by rw [pointDistance_eq, eucl_comm]⟩
  · rw [pointDistance_eq]
    exact eucl_le (h3 x y hx hy)

/-- C67: `boundary_distance` of a point and a mesh is the distance of the point and the facets on the boundary. -/
theorem C67_boundary {T : Topo} (hT : LibTopo T) (hull : List (Fin d → ℝ) → (Fin d → ℝ) → Prop)
    (near : List (Fin d → ℝ) → Option ((Fin d → ℝ) × (Fin d → ℝ))) (p : Fin d → ℝ) {st : MState (Fin d → ℝ)}
    (h : Reached T st)
    (hnear : ∀ s < st.mesh.count (T.cellDim - 1), (st.isBoundary T (T.cellDim - 1) s).2 = true →
      ∃ q, near (st.mesh.pointsOf (T.cellDim - 1) s) = some (p, q)
        ∧ IsNearest (hull (st.mesh.pointsOf (T.cellDim - 1) s)) p q)
    (hne : ∃ s < st.mesh.count (T.cellDim - 1), (st.isBoundary T (T.cellDim - 1) s).2 = true) :
    ∃ r, pairDistance (st.closestOnBoundary T near).2 = some r ∧ IsDistance (· = p) (OnSurface T hull st) r := by
  obtain ⟨q, h1, h2⟩ := C62_closest_on_boundary hT hull near p h hnear hne
  exact pairDistance_nearest h1 h2

/-- C67 is violated: the segments from (-1,0) to (1,0) and from (-1,-1/2000) to (1,1/2000) have a point in common, but
the distance returned is not zero. -/
theorem C67_violated :
    let v0 : Fin 2 → ℝ := ![-1, 0]
    let v1 : Fin 2 → ℝ := ![1, 0]
    let w0 : Fin 2 → ℝ := ![-1, -1/2000]
    let w1 : Fin 2 → ℝ := ![1, 1/2000]
    IsDistance (ConvexComb [v0, v1]) (ConvexComb [w0, w1]) 0 ∧
    ∃ r, pairDistance (closestLineLine v0 v1 w0 w1) = some r ∧ 1 / 2001 ≤ r := by
  intro v0 v1 w0 w1
  have hv : v0 ≠ v1 := fun h => by have := congrFun h 0; norm_num [v0, v1] at this
  have hw : w0 ≠ w1 := fun h => by have := congrFun h 0; norm_num [w0, w1] at this
  constructor
  · refine ⟨⟨![0, 0], ![0, 0], (convexComb2 _ _ _).2 ⟨1/2, by norm_num, by norm_num, ?_⟩,
      (convexComb2 _ _ _).2 ⟨1/2, by norm_num, by norm_num, ?_⟩, by simp [eucl]⟩, fun x y _ _ => Real.sqrt_nonneg _⟩
    · funext i; fin_cases i <;> norm_num [v0, v1]
    · funext i; fin_cases i <;> norm_num [w0, w1]
  · -- an end of one segment and a point of the other one
    have far : ∀ x y, ((x = w0 ∨ x = w1) ∧ ConvexComb [v0, v1] y) ∨ ((x = v0 ∨ x = v1) ∧ ConvexComb [w0, w1] y) →
        1 / 2001 ≤ pointDistance x y := by
      intro x y h
      rw [pointDistance_eq]
      refine Real.le_sqrt_of_sq_le ?_
      rw [Fin.sum_univ_two]
      rcases h with ⟨h, hy⟩ | ⟨h, hy⟩ <;> obtain ⟨t, t0, t1, rfl⟩ := (convexComb2 _ _ _).1 hy <;> rcases h with rfl | rfl
      · norm_num [v0, v1, w0, w1]
        nlinarith [sq_nonneg t]
      · norm_num [v0, v1, w0, w1]
        nlinarith [sq_nonneg t]
      · norm_num [v0, v1, w0, w1]
        nlinarith [sq_nonneg t]
      · norm_num [v0, v1, w0, w1]
        nlinarith [sq_nonneg (1 - t)]
    obtain ⟨q1, r1, n1⟩ := C40_line w0 v0 v1 hv
    obtain ⟨q2, r2, n2⟩ := C40_line w1 v0 v1 hv
    obtain ⟨q3, r3, n3⟩ := C40_line v0 w0 w1 hw
    obtain ⟨q4, r4, n4⟩ := C40_line v1 w0 w1 hw
    have hbranch : closestLineLine v0 v1 w0 w1 = closestLineEnds v0 v1 w0 w1 := by
      simp only [closestLineLine]
      rw [if_pos]
      simp only [innerProd2, Pi.sub_apply]
      norm_num [v0, v1, w0, w1]
    rw [hbranch]
    simp only [closestLineEnds, r1, r2, r3, r4, Option.bind_some]
    refine ⟨_, rfl, ?_⟩
    have pick : ∀ a b : (Fin 2 → ℝ) × (Fin 2 → ℝ), 1 / 2001 ≤ pointDistance a.1 a.2 → 1 / 2001 ≤ pointDistance b.1 b.2 →
        1 / 2001 ≤ pointDistance (shortest2 a b).1 (shortest2 a b).2 := by
      intro a b ha hb
      rcases (shortest2_spec a b).1 with h | h <;> rw [h] <;> assumption
    unfold shortest4
    exact pick _ _ (pick _ _ (far _ _ (Or.inl ⟨Or.inl rfl, n1.1⟩)) (far _ _ (Or.inl ⟨Or.inr rfl, n2.1⟩)))
      (pick _ _ (far _ _ (Or.inr ⟨Or.inl rfl, n3.1⟩)) (far _ _ (Or.inr ⟨Or.inr rfl, n4.1⟩)))

/-- The hypotheses for a triangle in space: a point at height 2 above its inside. -/
example : ∃ r, pairDistance (closestPointTriangle ![1, 1, 2] ![0, 0, 0] ![4, 0, 0] ![0, 4, 0]) = some r ∧
    IsDistance (· = (![1, 1, 2] : Fin 3 → ℝ)) (ConvexComb [![0, 0, 0], ![4, 0, 0], ![0, 4, 0]]) r :=
  (C67_point_element ![1, 1, 2] ![0, 0, 0] ![4, 0, 0] ![0, 4, 0] 0).2.1 (by
    intro s t h
    have h0 := h 0
    have h1 := h 1
    norm_num at h0 h1
    exact ⟨h0, h1⟩)

end VG
