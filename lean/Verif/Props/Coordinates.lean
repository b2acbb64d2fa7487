import Verif.Model.Coordinates
import Verif.Model.GeometryReal
import Mathlib.Tactic.FinCases

/-!
C53: coordinate systems.
-/

namespace VG

open Real

theorem polar_norm (x y : ℝ) : √(x * x + y * y) = ‖(⟨x, y⟩ : ℂ)‖ := by
  rw [Complex.norm_def, Complex.normSq_mk]

theorem polar_cos (x y : ℝ) : √(x * x + y * y) * cos (atan2 y x) = x := by
  rw [polar_norm, atan2, Complex.norm_mul_cos_arg]

theorem polar_sin (x y : ℝ) : √(x * x + y * y) * sin (atan2 y x) = y := by
  rw [polar_norm, atan2, Complex.norm_mul_sin_arg]

theorem atan2_polar (r φ : ℝ) (hr : 0 < r) (h : -π < φ ∧ φ ≤ π) : atan2 (r * sin φ) (r * cos φ) = φ := by
  have := Complex.arg_mul_cos_add_sin_mul_I hr (Set.mem_Ioc.2 h)
  have e : (⟨r * cos φ, r * sin φ⟩ : ℂ) = r * (Complex.cos φ + Complex.sin φ * Complex.I) := by
    apply Complex.ext <;> simp [Complex.cos_ofReal_re, Complex.sin_ofReal_re]
  rw [atan2, e, this]

theorem sqrt_polar (r φ : ℝ) (hr : 0 ≤ r) : √(r * cos φ * (r * cos φ) + r * sin φ * (r * sin φ)) = r := by
  have : r * cos φ * (r * cos φ) + r * sin φ * (r * sin φ) = r ^ 2 := by
    linear_combination r ^ 2 * (sin_sq_add_cos_sq φ)
  rw [this, sqrt_sq hr]

/-- The elevation angle: the vertical part and the size of the horizontal part. -/
theorem elevation (ρ z : ℝ) (hρ : 0 ≤ ρ) :
    √(ρ * ρ + z * z) * cos (if |√(ρ * ρ + z * z)| > 0 then arccos (z / √(ρ * ρ + z * z)) else 0) = z
    ∧ √(ρ * ρ + z * z) * sin (if |√(ρ * ρ + z * z)| > 0 then arccos (z / √(ρ * ρ + z * z)) else 0) = ρ := by
  have hnn : 0 ≤ ρ * ρ + z * z := by nlinarith [mul_self_nonneg ρ, mul_self_nonneg z]
  have hsq := mul_self_sqrt hnn
  set r := √(ρ * ρ + z * z)
  have hr : 0 ≤ r := sqrt_nonneg _
  rcases eq_or_lt_of_le hr with h0 | hpos
  · rw [← h0] at hsq ⊢
    have hz : z = 0 := by nlinarith [mul_self_nonneg ρ, mul_self_nonneg z]
    have hr : ρ = 0 := by nlinarith [mul_self_nonneg ρ, mul_self_nonneg z]
    simp [hz, hr]
  · rw [if_pos (by rwa [gt_iff_lt, abs_of_pos hpos])]
    have hle : |z / r| ≤ 1 := by
      rw [abs_div, abs_of_pos hpos, div_le_one hpos]
      exact abs_le_of_sq_le_sq (by nlinarith [mul_self_nonneg ρ]) hr
    obtain ⟨h1, h2⟩ := abs_le.1 hle
    refine ⟨by rw [cos_arccos h1 h2, mul_div_cancel₀ _ hpos.ne'], ?_⟩
    rw [sin_arccos]
    have e : 1 - (z / r) ^ 2 = (ρ / r) ^ 2 := by
      field_simp
      nlinarith
    rw [e, sqrt_sq (div_nonneg hρ hr), mul_div_cancel₀ _ hpos.ne']

/-! ### There and back -/

/-- Cartesian to polar coordinates and back, all points including the origin. -/
theorem C53_polar (p : Fin 2 → ℝ) : polarToCartesian (cartesianToPolar p) = p := by
  funext k
  fin_cases k
  · exact polar_cos _ _
  · exact polar_sin _ _

/-- Cartesian to cylindrical coordinates and back, all points including the axis. -/
theorem C53_cylindrical (p : Fin 3 → ℝ) : cylindricalToCartesian (cartesianToCylindrical p) = p := by
  funext k
  fin_cases k
  · exact polar_cos _ _
  · exact polar_sin _ _
  · rfl

/-- Cartesian to spherical coordinates and back, all points including the axis and the origin. -/
theorem C53_spherical (p : Fin 3 → ℝ) : sphericalToCartesian (cartesianToSpherical p) = p := by
  have hρ := mul_self_sqrt (show 0 ≤ p 0 * p 0 + p 1 * p 1 by nlinarith [mul_self_nonneg (p 0), mul_self_nonneg (p 1)])
  obtain ⟨h1, h2⟩ := elevation (√(p 0 * p 0 + p 1 * p 1)) (p 2) (sqrt_nonneg _)
  rw [hρ] at h1 h2
  funext k
  fin_cases k
  · change √(p 0 * p 0 + p 1 * p 1 + p 2 * p 2) * sin (if |√(p 0 * p 0 + p 1 * p 1 + p 2 * p 2)| > 0 then
      arccos (p 2 / √(p 0 * p 0 + p 1 * p 1 + p 2 * p 2)) else 0) * cos (atan2 (p 1) (p 0)) = p 0
    rw [h2, polar_cos]
  · change √(p 0 * p 0 + p 1 * p 1 + p 2 * p 2) * sin (if |√(p 0 * p 0 + p 1 * p 1 + p 2 * p 2)| > 0 then
      arccos (p 2 / √(p 0 * p 0 + p 1 * p 1 + p 2 * p 2)) else 0) * sin (atan2 (p 1) (p 0)) = p 1
    rw [h2, polar_sin]
  · exact h1

/-- The usual ranges of polar coordinates: a positive radius and an angle in `(-π, π]`, or the origin with angle 0. -/
def PolarRange (r φ : ℝ) : Prop := (0 < r ∧ -π < φ ∧ φ ≤ π) ∨ (r = 0 ∧ φ = 0)

/-- The usual ranges of spherical coordinates: a positive radius, an elevation angle in `[0, π]`, and an angle in
`(-π, π]`, which is 0 on the axis; or all zero. -/
def SphericalRange (r θ φ : ℝ) : Prop :=
  (0 < r ∧ 0 < θ ∧ θ < π ∧ -π < φ ∧ φ ≤ π) ∨ (0 < r ∧ (θ = 0 ∨ θ = π) ∧ φ = 0) ∨ (r = 0 ∧ θ = 0 ∧ φ = 0)

theorem atan2_zero : atan2 0 0 = 0 := Complex.arg_zero

/-- The conversion from Cartesian coordinates gives coordinates in the usual ranges. -/
theorem C53_polar_range (p : Fin 2 → ℝ) : PolarRange (cartesianToPolar p 0) (cartesianToPolar p 1) := by
  rcases eq_or_lt_of_le (sqrt_nonneg (p 0 * p 0 + p 1 * p 1)) with h | h
  · right
    have h0 := polar_cos (p 0) (p 1); have h1 := polar_sin (p 0) (p 1)
    rw [← h, zero_mul] at h0 h1
    refine ⟨h.symm, ?_⟩
    change atan2 (p 1) (p 0) = 0
    rw [← h0, ← h1, atan2_zero]
  · exact Or.inl ⟨h, Complex.neg_pi_lt_arg _, Complex.arg_le_pi _⟩

/-- Polar coordinates in the usual ranges are recovered from the Cartesian ones. -/
theorem C53_polar_back (q : Fin 2 → ℝ) (h : PolarRange (q 0) (q 1)) : cartesianToPolar (polarToCartesian q) = q := by
  rcases h with ⟨h0, h1⟩ | ⟨h0, h1⟩
  · funext k
    fin_cases k
    · exact sqrt_polar _ _ h0.le
    · exact atan2_polar _ _ h0 h1
  · funext k
    fin_cases k
    · change √(q 0 * cos (q 1) * (q 0 * cos (q 1)) + q 0 * sin (q 1) * (q 0 * sin (q 1))) = q 0
      simp [h0]
    · change atan2 (q 0 * sin (q 1)) (q 0 * cos (q 1)) = q 1
      rw [h0, zero_mul, zero_mul, atan2_zero, h1]

/-- The same for cylindrical coordinates. -/
theorem C53_cylindrical_back (q : Fin 3 → ℝ) (h : PolarRange (q 0) (q 1)) :
    cartesianToCylindrical (cylindricalToCartesian q) = q := by
  have := C53_polar_back ![q 0, q 1] h
  funext k
  fin_cases k
  · exact congrFun this 0
  · exact congrFun this 1
  · rfl

/-- The same for spherical coordinates. -/
theorem C53_spherical_back (q : Fin 3 → ℝ) (h : SphericalRange (q 0) (q 1) (q 2)) :
    cartesianToSpherical (sphericalToCartesian q) = q := by
  have hr0 : 0 ≤ q 0 := by rcases h with h | h | h <;> linarith [h.1]
  have hr : √(sphericalToCartesian q 0 * sphericalToCartesian q 0 + sphericalToCartesian q 1 * sphericalToCartesian q 1
      + sphericalToCartesian q 2 * sphericalToCartesian q 2) = q 0 := by
    have : sphericalToCartesian q 0 * sphericalToCartesian q 0 + sphericalToCartesian q 1 * sphericalToCartesian q 1
        + sphericalToCartesian q 2 * sphericalToCartesian q 2 = (q 0) ^ 2 := by
      change q 0 * sin (q 1) * cos (q 2) * (q 0 * sin (q 1) * cos (q 2))
        + q 0 * sin (q 1) * sin (q 2) * (q 0 * sin (q 1) * sin (q 2)) + q 0 * cos (q 1) * (q 0 * cos (q 1)) = _
      linear_combination (q 0) ^ 2 * (sin (q 1)) ^ 2 * (sin_sq_add_cos_sq (q 2)) + (q 0) ^ 2 * (sin_sq_add_cos_sq (q 1))
    rw [this, sqrt_sq hr0]
  have hθ : 0 < q 0 → 0 ≤ q 1 → q 1 ≤ π → arccos (sphericalToCartesian q 2 / q 0) = q 1 := by
    intro h1 h2 h3
    change arccos (q 0 * cos (q 1) / q 0) = q 1
    rw [mul_div_cancel_left₀ _ h1.ne', arccos_cos h2 h3]
  funext k
  unfold cartesianToSpherical
  rw [hr]
  fin_cases k
  · rfl
  · change (if |q 0| > 0 then arccos (sphericalToCartesian q 2 / q 0) else 0) = q 1
    rcases h with h | h | h
    · rw [if_pos (abs_pos.2 h.1.ne'), hθ h.1 h.2.1.le h.2.2.1.le]
    · rw [if_pos (abs_pos.2 h.1.ne')]
      rcases h.2.1 with h' | h'
      · exact hθ h.1 h'.ge (by rw [h']; exact pi_pos.le)
      · exact hθ h.1 (by rw [h']; exact pi_pos.le) h'.le
    · rw [h.1, abs_zero, if_neg (lt_irrefl 0), h.2.1]
  · change atan2 (q 0 * sin (q 1) * sin (q 2)) (q 0 * sin (q 1) * cos (q 2)) = q 2
    rcases h with h | h | h
    · exact atan2_polar _ _ (mul_pos h.1 (sin_pos_of_pos_of_lt_pi h.2.1 h.2.2.1)) ⟨h.2.2.2.1, h.2.2.2.2⟩
    · have : sin (q 1) = 0 := by rcases h.2.1 with h' | h' <;> rw [h'] <;> simp
      rw [this, mul_zero, zero_mul, zero_mul, atan2_zero, h.2.2]
    · rw [h.1, zero_mul, zero_mul, zero_mul, atan2_zero, h.2.2]

/-! ### Arithmetic -/

/-- Coordinate systems whose arithmetic is that of the vectors they stand for. -/
structure VectorLike {d : Nat} (C : CoordSystem d) (pos : (Fin d → ℝ) → Fin d → ℝ) : Prop where
  add : ∀ p q, pos (C.add p q) = pos p + pos q
  sub : ∀ p q, pos (C.sub p q) = pos p - pos q
  neg : ∀ p, pos (C.neg p) = -pos p
  mul : ∀ p f, pos (C.mul p f) = f • pos p
  div : ∀ p f, pos (C.div p f) = f⁻¹ • pos p

theorem vectorLike_of {d : Nat} (C : CoordSystem d) (hz : C.toCart 0 = 0) (hr : ∀ p, C.toCart (C.fromCart p) = p)
    (hs : ∀ p f, C.toCart (C.stretch p f) = f • C.toCart p) : VectorLike C C.toCart where
  add p q := hr _
  sub p q := hr _
  neg p := by rw [CoordSystem.neg, CoordSystem.sub, hr, hz, zero_sub]
  mul p f := hs p f
  div p f := by rw [CoordSystem.div, hs, show (1.0 : ℝ) / f = f⁻¹ by norm_num]

/-- The position of a point with the polar coordinates `r`, `φ`. -/
noncomputable def polarPos (q : Fin 2 → ℝ) : Fin 2 → ℝ := q 0 • ![cos (q 1), sin (q 1)]

/-- The position of a point with the cylindrical coordinates `ρ`, `φ`, `z`. -/
noncomputable def cylindricalPos (q : Fin 3 → ℝ) : Fin 3 → ℝ := q 0 • ![cos (q 1), sin (q 1), 0] + q 2 • ![0, 0, 1]

/-- The position of a point with the spherical coordinates `r`, `θ`, `φ`. -/
noncomputable def sphericalPos (q : Fin 3 → ℝ) : Fin 3 → ℝ :=
  q 0 • (sin (q 1) • ![cos (q 2), sin (q 2), 0] + cos (q 1) • ![0, 0, 1])

theorem polarPos_eq : polarPos = polarToCartesian := by
  funext q k; fin_cases k <;> simp [polarPos, polarToCartesian]

theorem cylindricalPos_eq : cylindricalPos = cylindricalToCartesian := by
  funext q k; fin_cases k <;> simp [cylindricalPos, cylindricalToCartesian]

theorem sphericalPos_eq : sphericalPos = sphericalToCartesian := by
  funext q k; fin_cases k <;> simp [sphericalPos, sphericalToCartesian, mul_assoc]

/-- Sums, differences, negatives and multiples of points in polar coordinates are those of the vectors; factors may be
negative. -/
theorem C53_polar_arithmetic : VectorLike polarCs polarPos := by
  rw [polarPos_eq]
  refine vectorLike_of polarCs ?_ C53_polar ?_
  · funext k; fin_cases k <;> simp [polarCs, polarToCartesian]
  · intro p f
    funext k; fin_cases k <;> simp [polarCs, polarToCartesian] <;> ring

/-- The same for cylindrical coordinates. -/
theorem C53_cylindrical_arithmetic : VectorLike cylindricalCs cylindricalPos := by
  rw [cylindricalPos_eq]
  refine vectorLike_of cylindricalCs ?_ C53_cylindrical ?_
  · funext k; fin_cases k <;> simp [cylindricalCs, cylindricalToCartesian]
  · intro p f; exact C53_cylindrical _

/-- The same for spherical coordinates. -/
theorem C53_spherical_arithmetic : VectorLike sphericalCs sphericalPos := by
  rw [sphericalPos_eq]
  refine vectorLike_of sphericalCs ?_ C53_spherical ?_
  · funext k; fin_cases k <;> simp [sphericalCs, sphericalToCartesian]
  · intro p f
    funext k; fin_cases k <;> simp [sphericalCs, sphericalToCartesian] <;> ring

/-! ### Between cylindrical and spherical coordinates -/

/-- The conversion from spherical to cylindrical coordinates keeps the position of all points. -/
theorem C53_spherical_to_cylindrical (q : Fin 3 → ℝ) : cylindricalPos (sphericalToCylindrical q) = sphericalPos q := by
  funext k; fin_cases k <;> simp [cylindricalPos, sphericalToCylindrical, sphericalPos] <;> ring

/-- The conversion from cylindrical to spherical coordinates keeps the position of points with `0 ≤ ρ`.  The full
statement is for all points. -/
theorem C53_cylindrical_to_spherical_partial (q : Fin 3 → ℝ) (h : 0 ≤ q 0) :
    sphericalPos (cylindricalToSpherical q) = cylindricalPos q := by
  obtain ⟨h1, h2⟩ := elevation (q 0) (q 2) h
  rw [sphericalPos_eq, cylindricalPos_eq]
  funext k
  fin_cases k
  · change √(q 0 * q 0 + q 2 * q 2) * sin (if |√(q 0 * q 0 + q 2 * q 2)| > 0 then
      arccos (q 2 / √(q 0 * q 0 + q 2 * q 2)) else 0) * cos (q 1) = q 0 * cos (q 1)
    rw [h2]
  · change √(q 0 * q 0 + q 2 * q 2) * sin (if |√(q 0 * q 0 + q 2 * q 2)| > 0 then
      arccos (q 2 / √(q 0 * q 0 + q 2 * q 2)) else 0) * sin (q 1) = q 0 * sin (q 1)
    rw [h2]
  · exact h1

/-- Points with a negative `ρ` are mirrored by the conversion to spherical coordinates.  Such points are obtained by
multiplying a point in spherical coordinates by a negative number and converting it to cylindrical coordinates: from
(1,0,0) the product with -1 is at (-1,0,0), also after the conversion to cylindrical coordinates, but at (1,0,0) after
the conversion back to spherical coordinates. -/
theorem C53_violated :
    let p : Fin 3 → ℝ := ![1, π / 2, 0]
    let q := sphericalToCylindrical (sphericalCs.mul p (-1))
    sphericalPos p = ![1, 0, 0] ∧ cylindricalPos q = ![-1, 0, 0]
    ∧ sphericalPos (cylindricalToSpherical q) = ![1, 0, 0] := by
  have hq : sphericalToCylindrical (sphericalCs.mul ![1, π / 2, 0] (-1)) = ![-1, 0, 0] := by
    funext k; fin_cases k <;> simp [sphericalToCylindrical, CoordSystem.mul, sphericalCs]
  refine ⟨?_, ?_, ?_⟩
  · funext k; fin_cases k <;> simp [sphericalPos]
  · rw [hq]; funext k; fin_cases k <;> simp [cylindricalPos]
  · rw [hq]
    funext k
    fin_cases k <;> simp [sphericalPos, cylindricalToSpherical]

/-- The norm of a point in polar coordinates (computed after the conversion, algorithm/norm.hpp:91-98) is the size of
its radius. -/
theorem C53_polar_norm (q : Fin 2 → ℝ) : euclNorm (polarToCartesian q) = |q 0| := by
  have e : sumSquares (polarToCartesian q) = q 0 ^ 2 := by
    simp only [sumSquares, List.finRange, List.ofFn_succ, List.ofFn_zero, List.foldl_cons, List.foldl_nil]
    change 0 + q 0 * cos (q 1) * (q 0 * cos (q 1)) + q 0 * sin (q 1) * (q 0 * sin (q 1)) = _
    linear_combination q 0 ^ 2 * (sin_sq_add_cos_sq (q 1))
  rw [euclNorm, e, sqrt_sq_eq_abs]

example : PolarRange (cartesianToPolar ![-1, 0] 0) (cartesianToPolar ![-1, 0] 1) ∧ cartesianToPolar ![-1, 0] 1 = π := by
  refine ⟨C53_polar_range _, ?_⟩
  change Complex.arg ⟨-1, 0⟩ = π
  rw [show (⟨-1, 0⟩ : ℂ) = -1 by apply Complex.ext <;> simp]
  exact Complex.arg_neg_one

example : SphericalRange 2 (π / 2) (-π / 2) := by
  left
  refine ⟨by norm_num, by linarith [pi_pos], by linarith [pi_pos], by linarith [pi_pos], by linarith [pi_pos]⟩

end VG
