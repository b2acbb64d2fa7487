import Verif.Lemmas.Geometry
import Verif.Model.Angles
import Mathlib.Tactic.Linarith
import Mathlib.Tactic.LinearCombination
import Mathlib.Tactic.Positivity

namespace VG

variable {d : Nat}

theorem euclNorm_sq (a : Fin d → ℝ) : euclNorm a ^ 2 = innerProd a a := by
  rw [euclNorm, sumSquares_eq, Real.sq_sqrt (innerProd_self_nonneg a)]

theorem euclNorm_nonneg (a : Fin d → ℝ) : 0 ≤ euclNorm a := Real.sqrt_nonneg _

theorem euclNorm_pos {a : Fin d → ℝ} (h : a ≠ 0) : 0 < euclNorm a := by
  refine lt_of_le_of_ne (euclNorm_nonneg a) (fun h0 => h ?_)
  have := euclNorm_sq a
  rw [← h0] at this
  exact (innerProd_self_eq_zero a).1 (by rw [← this]; ring)

theorem euclNorm_eq (a : Fin d → ℝ) : euclNorm a = √(∑ i, a i ^ 2) := by
  rw [euclNorm, sumSquares_eq]
  congr 1
  exact Finset.sum_congr rfl (fun i _ => by ring)

/-- The positive root of an equation between squares. -/
theorem eq_of_sq {x y : ℝ} (hx : 0 ≤ x) (hy : 0 ≤ y) (h : x ^ 2 = y ^ 2) : x = y := by
  have h1 := abs_eq_abs.2 (sq_eq_sq_iff_eq_or_eq_neg.1 h)
  rwa [abs_of_nonneg hx, abs_of_nonneg hy] at h1

/-- The excess of the angles of a spherical triangle, in terms of the scalar products. -/
theorem girard_core {A B C p q r D na nb nc α β γ φ Z : ℝ} (hA : 0 < A) (hB : 0 < B) (hC : 0 < C) (hD : 0 < D)
    (hD2 : D ^ 2 = A ^ 2 * B ^ 2 * C ^ 2 + 2 * p * q * r - A ^ 2 * p ^ 2 - B ^ 2 * q ^ 2 - C ^ 2 * r ^ 2)
    (ha : 0 < na) (hb : 0 < nb) (hc : 0 < nc)
    (ha2 : na ^ 2 = B ^ 2 * C ^ 2 - p ^ 2) (hb2 : nb ^ 2 = A ^ 2 * C ^ 2 - q ^ 2) (hc2 : nc ^ 2 = A ^ 2 * B ^ 2 - r ^ 2)
    (hα : 0 ≤ α ∧ α ≤ Real.pi) (hβ : 0 ≤ β ∧ β ≤ Real.pi) (hγ : 0 ≤ γ ∧ γ ≤ Real.pi)
    (cα : nb * nc * Real.cos α = A ^ 2 * p - r * q) (cβ : na * nc * Real.cos β = B ^ 2 * q - r * p)
    (cγ : na * nb * Real.cos γ = C ^ 2 * r - p * q) (hφ : 0 < φ ∧ φ < Real.pi) (hZ : 0 < Z)
    (cφ : Z * Real.cos φ = A * B * C + r * C + q * B + p * A) (sφ : Z * Real.sin φ = D) :
    2 * φ = α + β + γ - Real.pi := by
  have sα : nb * nc * Real.sin α = A * D := by
    refine eq_of_sq (mul_nonneg (by positivity) (Real.sin_nonneg_of_mem_Icc hα)) (by positivity) ?_
    have h1 := Real.sin_sq_add_cos_sq α
    linear_combination (nb * nc) ^ 2 * h1 - (nb * nc * Real.cos α + (A ^ 2 * p - r * q)) * cα + nc ^ 2 * hb2
      + (A ^ 2 * C ^ 2 - q ^ 2) * hc2 - A ^ 2 * hD2
  have sβ : na * nc * Real.sin β = B * D := by
    refine eq_of_sq (mul_nonneg (by positivity) (Real.sin_nonneg_of_mem_Icc hβ)) (by positivity) ?_
    have h1 := Real.sin_sq_add_cos_sq β
    linear_combination (na * nc) ^ 2 * h1 - (na * nc * Real.cos β + (B ^ 2 * q - r * p)) * cβ + nc ^ 2 * ha2
      + (B ^ 2 * C ^ 2 - p ^ 2) * hc2 - B ^ 2 * hD2
  have sγ : na * nb * Real.sin γ = C * D := by
    refine eq_of_sq (mul_nonneg (by positivity) (Real.sin_nonneg_of_mem_Icc hγ)) (by positivity) ?_
    have h1 := Real.sin_sq_add_cos_sq γ
    linear_combination (na * nb) ^ 2 * h1 - (na * nb * Real.cos γ + (C ^ 2 * r - p * q)) * cγ + nb ^ 2 * ha2
      + (B ^ 2 * C ^ 2 - p ^ 2) * hb2 - C ^ 2 * hD2
  have pα : 0 < Real.sin α := pos_of_mul_pos_right (by rw [sα]; positivity) (by positivity)
  have pβ : 0 < Real.sin β := pos_of_mul_pos_right (by rw [sβ]; positivity) (by positivity)
  have pγ : 0 < Real.sin γ := pos_of_mul_pos_right (by rw [sγ]; positivity) (by positivity)
  have lt : ∀ x : ℝ, x ≤ Real.pi → 0 < Real.sin x → x < Real.pi := by
    intro x hx hs
    refine lt_of_le_of_ne hx (fun h => ?_)
    rw [h, Real.sin_pi] at hs
    exact absurd hs (_root_.lt_irrefl _)
  have lα := lt α hα.2 pα
  have lβ := lt β hβ.2 pβ
  have lγ := lt γ hγ.2 pγ
  -- the scalar products are less than the products of the lengths
  have hab : 0 < A * B - r := by
    have h1 : (A * B - r) * (A * B + r) = nc ^ 2 := by rw [hc2]; ring
    have h2 : 0 < nc ^ 2 := by positivity
    rw [← h1] at h2
    have h3 : 0 < A * B := by positivity
    rcases pos_and_pos_or_neg_and_neg_of_mul_pos h2 with h | h
    · exact h.1
    · linarith
  have hbc : 0 < B * C - p := by
    have h1 : (B * C - p) * (B * C + p) = na ^ 2 := by rw [ha2]; ring
    have h2 : 0 < na ^ 2 := by positivity
    rw [← h1] at h2
    have h3 : 0 < B * C := by positivity
    rcases pos_and_pos_or_neg_and_neg_of_mul_pos h2 with h | h
    · exact h.1
    · linarith
  have hca : 0 < A * C - q := by
    have h1 : (A * C - q) * (A * C + q) = nb ^ 2 := by rw [hb2]; ring
    have h2 : 0 < nb ^ 2 := by positivity
    rw [← h1] at h2
    have h3 : 0 < A * C := by positivity
    rcases pos_and_pos_or_neg_and_neg_of_mul_pos h2 with h | h
    · exact h.1
    · linarith
  -- the sum of the angles exceeds a half turn
  have hS : Real.pi < α + β + γ := by
    by_contra hle
    have hle' : γ ≤ Real.pi - (α + β) := by linarith [not_lt.1 hle]
    have h1 : Real.cos (Real.pi - (α + β)) ≤ Real.cos γ :=
      Real.cos_le_cos_of_nonneg_of_le_pi hγ.1 (by linarith [hα.1, hβ.1]) hle'
    rw [Real.cos_pi_sub, Real.cos_add] at h1
    have h2 : na * nb * nc ^ 2 * (Real.cos γ + Real.cos α * Real.cos β - Real.sin α * Real.sin β) = - (D ^ 2 * (A * B - r)) := by
      linear_combination nc ^ 2 * cγ + (na * nc * Real.cos β) * cα + (A ^ 2 * p - r * q) * cβ
        - (na * nc * Real.sin β) * sα - A * D * sβ + (C ^ 2 * r - p * q) * hc2 - r * hD2
    have h3 : 0 ≤ na * nb * nc ^ 2 * (Real.cos γ + Real.cos α * Real.cos β - Real.sin α * Real.sin β) :=
      mul_nonneg (by positivity) (by linarith)
    have h4 : 0 < D ^ 2 * (A * B - r) := by positivity
    linarith
  -- sine and cosine of the sum
  have hK : 0 < (A * B - r) * (B * C - p) * (A * C - q) := by positivity
  have hcos : 2 * (na * nb * nc) ^ 2 * Real.cos (α + β + γ) =
      -((A * B - r) * (B * C - p) * (A * C - q) * Z ^ 2 * Real.cos (2 * φ)) := by
    have e1 : (na * nb * nc) ^ 2 * Real.cos (α + β + γ) =
        (nb * nc * Real.cos α) * (na * nc * Real.cos β) * (na * nb * Real.cos γ)
        - (nb * nc * Real.sin α) * (na * nc * Real.sin β) * (na * nb * Real.cos γ)
        - (nb * nc * Real.sin α) * (na * nc * Real.cos β) * (na * nb * Real.sin γ)
        - (nb * nc * Real.cos α) * (na * nc * Real.sin β) * (na * nb * Real.sin γ) := by
      rw [Real.cos_add, Real.cos_add, Real.sin_add]; ring
    have e2 : Z ^ 2 * Real.cos (2 * φ) = (Z * Real.cos φ) ^ 2 - (Z * Real.sin φ) ^ 2 := by
      rw [Real.cos_two_mul, mul_pow, mul_pow, Real.sin_sq]; ring
    have e3 : (A * B - r) * (B * C - p) * (A * C - q) * Z ^ 2 * Real.cos (2 * φ) =
        (A * B - r) * (B * C - p) * (A * C - q) * (Z ^ 2 * Real.cos (2 * φ)) := by ring
    rw [e3, mul_assoc, e1, e2, cα, cβ, cγ, sα, sβ, sγ, cφ, sφ]
    linear_combination (-2 * ((A ^ 2 * p - r * q) * B * C + (B ^ 2 * q - r * p) * A * C + (C ^ 2 * r - p * q) * A * B)
      - (A * B - r) * (B * C - p) * (A * C - q)) * hD2
  have hsin : 2 * (na * nb * nc) ^ 2 * Real.sin (α + β + γ) =
      -((A * B - r) * (B * C - p) * (A * C - q) * Z ^ 2 * Real.sin (2 * φ)) := by
    have e1 : (na * nb * nc) ^ 2 * Real.sin (α + β + γ) =
        (nb * nc * Real.sin α) * (na * nc * Real.cos β) * (na * nb * Real.cos γ)
        + (nb * nc * Real.cos α) * (na * nc * Real.sin β) * (na * nb * Real.cos γ)
        + (nb * nc * Real.cos α) * (na * nc * Real.cos β) * (na * nb * Real.sin γ)
        - (nb * nc * Real.sin α) * (na * nc * Real.sin β) * (na * nb * Real.sin γ) := by
      rw [Real.sin_add, Real.sin_add, Real.cos_add]; ring
    have e2 : Z ^ 2 * Real.sin (2 * φ) = 2 * (Z * Real.sin φ) * (Z * Real.cos φ) := by
      rw [Real.sin_two_mul]; ring
    have e3 : (A * B - r) * (B * C - p) * (A * C - q) * Z ^ 2 * Real.sin (2 * φ) =
        (A * B - r) * (B * C - p) * (A * C - q) * (Z ^ 2 * Real.sin (2 * φ)) := by ring
    rw [e3, mul_assoc, e1, e2, cα, cβ, cγ, sα, sβ, sγ, cφ, sφ]
    linear_combination (-2 * A * B * C * D) * hD2
  have hM : 0 < 2 * (na * nb * nc) ^ 2 := by positivity
  have hK' : 0 < (A * B - r) * (B * C - p) * (A * C - q) * Z ^ 2 := by positivity
  generalize 2 * (na * nb * nc) ^ 2 = M at hcos hsin hM
  generalize (A * B - r) * (B * C - p) * (A * C - q) * Z ^ 2 = K at hcos hsin hK'
  have hMK : M = K := by
    refine eq_of_sq hM.le hK'.le ?_
    have h1 := Real.sin_sq_add_cos_sq (α + β + γ)
    have h2 := Real.sin_sq_add_cos_sq (2 * φ)
    linear_combination -M ^ 2 * h1 + K ^ 2 * h2 + (M * Real.cos (α + β + γ) - K * Real.cos (2 * φ)) * hcos
      + (M * Real.sin (α + β + γ) - K * Real.sin (2 * φ)) * hsin
  rw [hMK] at hcos hsin
  have h3 : Real.cos (α + β + γ) = -Real.cos (2 * φ) :=
    mul_left_cancel₀ hK'.ne' (by rw [hcos]; ring)
  have h4 : Real.sin (α + β + γ) = -Real.sin (2 * φ) :=
    mul_left_cancel₀ hK'.ne' (by rw [hsin]; ring)
  have h5 : Real.cos (α + β + γ - (2 * φ + Real.pi)) = 1 := by
    rw [Real.cos_sub, Real.cos_add_pi, Real.sin_add_pi, h3, h4]
    have := Real.sin_sq_add_cos_sq (2 * φ)
    linear_combination this
  have h6 := (Real.cos_eq_one_iff_of_lt_of_lt (by linarith [hφ.2]) (by linarith [hφ.1])).1 h5
  linarith

end VG
