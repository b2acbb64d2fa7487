import Verif.Lemmas.Angles
import Mathlib.LinearAlgebra.Matrix.Determinant.Basic
import Mathlib.Tactic.FieldSimp
import Mathlib.Tactic.NormNum

/-!
C65: angles between vectors and between half-planes.  C66: solid angles.

Specification: `IsAngle θ v w` (the cosine law), `IsDihedral θ e b c` (angle between the parts of `b` and `c`
perpendicular to the edge `e`); the solid angle of a trihedral cone is the excess of its three dihedral angles over a
half turn (Girard).  `Surround a b c`: three directions in a plane with no half of the plane containing them all.
-/

namespace VG

variable {d : Nat}

/-- `θ` is the angle between the vectors. -/
def IsAngle (θ : ℝ) (v w : Fin d → ℝ) : Prop :=
  0 ≤ θ ∧ θ ≤ Real.pi ∧ ∑ i, v i * w i = √(∑ i, v i ^ 2) * √(∑ i, w i ^ 2) * Real.cos θ

/-- `θ` is the angle between the half-planes bounded by the line along `e` which contain `b` and `c`: the angle between
the parts of `b` and `c` perpendicular to `e`. -/
def IsDihedral (θ : ℝ) (e b c : Fin d → ℝ) : Prop :=
  ∃ s t : ℝ, (∑ i, e i * (b i - s * e i)) = 0 ∧ (∑ i, e i * (c i - t * e i)) = 0 ∧
    IsAngle θ (fun i => b i - s * e i) (fun i => c i - t * e i)

theorem isAngle_iff {θ : ℝ} {v w : Fin d → ℝ} :
    IsAngle θ v w ↔ 0 ≤ θ ∧ θ ≤ Real.pi ∧ innerProd v w = euclNorm v * euclNorm w * Real.cos θ := by
  unfold IsAngle
  rw [euclNorm_eq, euclNorm_eq]; rfl

/-- Two vectors other than zero have just one angle. -/
theorem isAngle_unique {θ η : ℝ} {v w : Fin d → ℝ} (hv : v ≠ 0) (hw : w ≠ 0) (h1 : IsAngle θ v w) (h2 : IsAngle η v w) :
    θ = η := by
  rw [isAngle_iff] at h1 h2
  refine Real.injOn_cos ⟨h1.1, h1.2.1⟩ ⟨h2.1, h2.2.1⟩ ?_
  exact mul_left_cancel₀ (mul_ne_zero (euclNorm_pos hv).ne' (euclNorm_pos hw).ne') (h1.2.2.symm.trans h2.2.2)

theorem innerProd_abs_le (v w : Fin d → ℝ) : |innerProd v w| ≤ euclNorm v * euclNorm w := by
  refine abs_le_of_sq_le_sq ?_ (mul_nonneg (euclNorm_nonneg v) (euclNorm_nonneg w))
  rw [mul_pow, euclNorm_sq, euclNorm_sq]
  have := Finset.sum_mul_sq_le_sq_mul_sq (R := ℝ) Finset.univ v w
  simpa [innerProd, pow_two] using this

/-- C65: `angle(v0, v1)` is the angle between the vectors, if none of them is zero. -/
theorem C65_angle {v w : Fin d → ℝ} (hv : v ≠ 0) (hw : w ≠ 0) : ∃ θ, vecAngle v w = some θ ∧ IsAngle θ v w := by
  have hp : 0 < euclNorm v * euclNorm w := mul_pos (euclNorm_pos hv) (euclNorm_pos hw)
  have h := abs_le.1 (innerProd_abs_le v w)
  refine ⟨Real.arccos (innerProd v w / (euclNorm v * euclNorm w)), ?_, ?_⟩
  · unfold vecAngle
    dsimp only
    rw [if_neg (not_lt.2 h.2), if_neg (not_lt.2 h.1), if_neg hp.ne']
  · rw [isAngle_iff]
    refine ⟨Real.arccos_nonneg _, Real.arccos_le_pi _, ?_⟩
    rw [Real.cos_arccos, mul_div_cancel₀ _ hp.ne']
    · rw [le_div_iff₀ hp]; linarith [h.1]
    · rw [div_le_iff₀ hp]; linarith [h.2]

/-- C65: for a zero vector the result is the quotient of zero by zero. -/
theorem C65_zero_vector (v : Fin d → ℝ) : vecAngle 0 v = none ∧ vecAngle v 0 = none := by
  have h0 : euclNorm (0 : Fin d → ℝ) = 0 := by simp [euclNorm_eq]
  unfold vecAngle
  simp [h0, innerProd]

/-- C65: `angle(p0, p1, origin)` is the angle at the point `origin` of the triangle; it does not depend on the order of
the other two points. -/
theorem C65_angle_at {p q o : Fin d → ℝ} (hp : p ≠ o) (hq : q ≠ o) :
    ∃ θ, angleAt p q o = some θ ∧ angleAt q p o = some θ ∧ IsAngle θ (fun i => p i - o i) (fun i => q i - o i) := by
  obtain ⟨θ, h1, h2⟩ := C65_angle (sub_ne_zero.2 hp) (sub_ne_zero.2 hq)
  obtain ⟨η, h3, h4⟩ := C65_angle (sub_ne_zero.2 hq) (sub_ne_zero.2 hp)
  refine ⟨θ, h1, ?_, h2⟩
  have : θ = η := isAngle_unique (sub_ne_zero.2 hp) (sub_ne_zero.2 hq) h2 (by
    rw [isAngle_iff] at h4 ⊢
    rw [innerProd_comm, mul_comm (euclNorm _)]; exact h4)
  rw [this]; exact h3

/-! ### Half-planes -/

/-- What a dihedral angle says about the scalar products. -/
theorem IsDihedral.eq {θ : ℝ} {e b c : Fin d → ℝ} (h : IsDihedral θ e b c) :
    0 ≤ θ ∧ θ ≤ Real.pi ∧ ∃ x y : ℝ, 0 ≤ x ∧ 0 ≤ y ∧
      x ^ 2 = innerProd e e * innerProd b b - innerProd e b ^ 2 ∧
      y ^ 2 = innerProd e e * innerProd c c - innerProd e c ^ 2 ∧
      x * y * Real.cos θ = innerProd e e * innerProd b c - innerProd e b * innerProd e c := by
  obtain ⟨s, t, hs, ht, ha⟩ := h
  rw [isAngle_iff] at ha
  have hb : (fun i => b i - s * e i) = b - s • e := by funext i; simp
  have hc : (fun i => c i - t * e i) = c - t • e := by funext i; simp
  rw [hb, hc] at ha
  have hs' : innerProd e b = s * innerProd e e := by
    have : innerProd e (b - s • e) = 0 := by rw [← hs, ← hb]; rfl
    rw [innerProd_sub_right, innerProd_smul_right] at this
    linarith
  have ht' : innerProd e c = t * innerProd e e := by
    have : innerProd e (c - t • e) = 0 := by rw [← ht, ← hc]; rfl
    rw [innerProd_sub_right, innerProd_smul_right] at this
    linarith
  refine ⟨ha.1, ha.2.1, euclNorm e * euclNorm (b - s • e), euclNorm e * euclNorm (c - t • e),
    mul_nonneg (euclNorm_nonneg _) (euclNorm_nonneg _), mul_nonneg (euclNorm_nonneg _) (euclNorm_nonneg _), ?_, ?_, ?_⟩
  · rw [mul_pow, euclNorm_sq, euclNorm_sq]
    simp only [innerProd_sub_left, innerProd_sub_right, innerProd_smul_left, innerProd_smul_right]
    rw [innerProd_comm b e, hs']; ring
  · rw [mul_pow, euclNorm_sq, euclNorm_sq]
    simp only [innerProd_sub_left, innerProd_sub_right, innerProd_smul_left, innerProd_smul_right]
    rw [innerProd_comm c e, ht']; ring
  · have h2 := ha.2.2
    have h3 := euclNorm_sq e
    simp only [innerProd_sub_left, innerProd_sub_right, innerProd_smul_left, innerProd_smul_right] at h2
    rw [innerProd_comm b e, hs', ht'] at h2
    rw [hs', ht', ← h3]
    rw [← h3] at h2
    linear_combination -euclNorm e ^ 2 * h2

theorem cross_inner (e b c : Fin 3 → ℝ) :
    innerProd (crossProd e b) (crossProd e c) = innerProd e e * innerProd b c - innerProd e b * innerProd e c := by
  simp only [innerProd3, crossProd_zero, crossProd_one, crossProd_two]; ring

/-- C65: for two planes with a common line through `p0` and `p1`, `dihedral_angle(p0, p1, p2, p0, p1, q2)` is the angle
between the half-planes with `p2` and `q2`. -/
theorem C65_dihedral {p0 p1 p2 q2 : Fin 3 → ℝ} (h2 : crossProd (p1 - p0) (p2 - p0) ≠ 0)
    (h3 : crossProd (p1 - p0) (q2 - p0) ≠ 0) :
    ∃ θ, dihedralAngle p0 p1 p2 p0 p1 q2 = some θ ∧ IsDihedral θ (p1 - p0) (p2 - p0) (q2 - p0) := by
  obtain ⟨θ, h4, h5⟩ := C65_angle h2 h3
  refine ⟨θ, h4, ?_⟩
  generalize p1 - p0 = e at *
  generalize p2 - p0 = b at *
  generalize q2 - p0 = c at *
  have he : e ≠ 0 := by
    rintro rfl
    apply h2
    funext i
    fin_cases i <;> simp
  have hee : innerProd e e ≠ 0 := fun h => he ((innerProd_self_eq_zero e).1 h)
  have hpos := euclNorm_pos he
  refine ⟨innerProd e b / innerProd e e, innerProd e c / innerProd e e, ?_, ?_, ?_⟩
  · have : innerProd e (b - (innerProd e b / innerProd e e) • e) = 0 := by
      rw [innerProd_sub_right, innerProd_smul_right, div_mul_cancel₀ _ hee, sub_self]
    rw [← this]; rfl
  · have : innerProd e (c - (innerProd e c / innerProd e e) • e) = 0 := by
      rw [innerProd_sub_right, innerProd_smul_right, div_mul_cancel₀ _ hee, sub_self]
    rw [← this]; rfl
  · rw [isAngle_iff] at h5 ⊢
    refine ⟨h5.1, h5.2.1, ?_⟩
    have hb : (fun i => b i - innerProd e b / innerProd e e * e i) = b - (innerProd e b / innerProd e e) • e := by
      funext i; simp
    have hc : (fun i => c i - innerProd e c / innerProd e e * e i) = c - (innerProd e c / innerProd e e) • e := by
      funext i; simp
    rw [hb, hc]
    have key : ∀ x : Fin 3 → ℝ, euclNorm (crossProd e x) = euclNorm e * euclNorm (x - (innerProd e x / innerProd e e) • e) := by
      intro x
      refine eq_of_sq (euclNorm_nonneg _) (mul_nonneg (euclNorm_nonneg _) (euclNorm_nonneg _)) ?_
      rw [mul_pow, euclNorm_sq, euclNorm_sq, euclNorm_sq, cross_inner]
      simp only [innerProd_sub_left, innerProd_sub_right, innerProd_smul_left, innerProd_smul_right]
      rw [innerProd_comm x e]
      field_simp
      ring
    have h6 := h5.2.2
    rw [key, key, cross_inner] at h6
    refine mul_left_cancel₀ hee ?_
    have h7 := euclNorm_sq e
    have h8 : innerProd e e * innerProd (b - (innerProd e b / innerProd e e) • e) (c - (innerProd e c / innerProd e e) • e) =
        innerProd e e * innerProd b c - innerProd e b * innerProd e c := by
      simp only [innerProd_sub_left, innerProd_sub_right, innerProd_smul_left, innerProd_smul_right]
      rw [innerProd_comm b e]
      field_simp
      ring
    rw [h8, h6]
    linear_combination (euclNorm (b - (innerProd e b / innerProd e e) • e) *
      euclNorm (c - (innerProd e c / innerProd e e) • e) * Real.cos θ) * h7

/-- C65: exchanging two points of one plane gives the supplementary angle, so the order of the points matters. -/
theorem C65_dihedral_reversed {p0 p1 p2 q0 q1 q2 : Fin 3 → ℝ} (hp : crossProd (p1 - p0) (p2 - p0) ≠ 0)
    (hq : crossProd (q1 - q0) (q2 - q0) ≠ 0) :
    ∃ θ, dihedralAngle p0 p1 p2 q0 q1 q2 = some θ ∧ dihedralAngle p0 p2 p1 q0 q1 q2 = some (Real.pi - θ) := by
  obtain ⟨θ, h1, h2⟩ := C65_angle hp hq
  have hn : crossProd (p2 - p0) (p1 - p0) = -crossProd (p1 - p0) (p2 - p0) := by
    funext i
    fin_cases i <;> simp <;> ring
  obtain ⟨η, h3, h4⟩ := C65_angle (v := crossProd (p2 - p0) (p1 - p0)) (by rw [hn]; exact neg_ne_zero.2 hp) hq
  refine ⟨θ, h1, h3.trans ?_⟩
  rw [isAngle_iff] at h2
  congr 1
  refine isAngle_unique (by rw [hn]; exact neg_ne_zero.2 hp) hq h4 ?_
  rw [isAngle_iff, hn, innerProd_neg_left, h2.2.2, Real.cos_pi_sub]
  have : euclNorm (-crossProd (p1 - p0) (p2 - p0)) = euclNorm (crossProd (p1 - p0) (p2 - p0)) := by
    rw [euclNorm_eq, euclNorm_eq]; simp
  rw [this]
  exact ⟨by linarith [h2.2.1], by linarith [h2.1], by ring⟩

/-- A right angle, in the plane and between the coordinate planes. -/
example : (∃ θ, vecAngle ![(2 : ℝ), 0] ![0, 3] = some θ ∧ IsAngle θ ![(2 : ℝ), 0] ![0, 3]) ∧
    IsAngle (Real.pi / 2) ![(2 : ℝ), 0] ![0, 3] ∧
    IsDihedral (Real.pi / 2) ![(1 : ℝ), 0, 0] ![5, 1, 0] ![7, 0, 2] := by
  refine ⟨C65_angle (fun h => ?_) (fun h => ?_), ⟨by positivity, by linarith [Real.pi_pos], ?_⟩, 5, 7, ?_, ?_, ?_⟩
  · have := congrFun h 0; norm_num at this
  · have := congrFun h 1; norm_num at this
  · simp [Fin.sum_univ_two]
  · simp [Fin.sum_univ_three]
  · simp [Fin.sum_univ_three]
  · refine ⟨by positivity, by linarith [Real.pi_pos], ?_⟩
    simp [Fin.sum_univ_three]

/-! ### Solid angles -/

/-- C66: the solid angle of three directions in general position is the sum of the three angles between the faces of
the cone, minus a half turn. -/
theorem C66_solid_angle {a b c : Fin 3 → ℝ} (hdet : Matrix.det (Matrix.of fun i j : Fin 3 => (![a, b, c] j) i) ≠ 0)
    {α β γ : ℝ} (hα : IsDihedral α a b c) (hβ : IsDihedral β b a c) (hγ : IsDihedral γ c a b) :
    solidAngle a b c = α + β + γ - Real.pi := by
  have hdet' : a 0 * b 1 * c 2 + b 0 * c 1 * a 2 + c 0 * a 1 * b 2 - a 2 * b 1 * c 0 - b 2 * c 1 * a 0 - c 2 * a 1 * b 0 ≠ 0 := by
    intro h
    apply hdet
    rw [← h]
    simp [Matrix.det_fin_three]; ring
  have ha : a ≠ 0 := by rintro rfl; simp at hdet'
  have hb : b ≠ 0 := by rintro rfl; simp at hdet'
  have hc : c ≠ 0 := by rintro rfl; simp at hdet'
  obtain ⟨a1, a2, xα, yα, x1, y1, x2, y2, cα⟩ := hα.eq
  obtain ⟨b1, b2, xβ, yβ, x3, y3, x4, y4, cβ⟩ := hβ.eq
  obtain ⟨c1, c2, xγ, yγ, x5, y5, x6, y6, cγ⟩ := hγ.eq
  have hgram : (a 0 * b 1 * c 2 + b 0 * c 1 * a 2 + c 0 * a 1 * b 2 - a 2 * b 1 * c 0 - b 2 * c 1 * a 0 - c 2 * a 1 * b 0) ^ 2
      = euclNorm a ^ 2 * euclNorm b ^ 2 * euclNorm c ^ 2 + 2 * innerProd b c * innerProd a c * innerProd a b
        - euclNorm a ^ 2 * innerProd b c ^ 2 - euclNorm b ^ 2 * innerProd a c ^ 2 - euclNorm c ^ 2 * innerProd a b ^ 2 := by
    rw [euclNorm_sq, euclNorm_sq, euclNorm_sq]
    simp only [innerProd3]; ring
  have hba : innerProd b a = innerProd a b := innerProd_comm _ _
  have hca : innerProd c a = innerProd a c := innerProd_comm _ _
  have hcb : innerProd c b = innerProd b c := innerProd_comm _ _
  rw [hba] at x4 cβ
  rw [hca] at x6 cγ
  rw [hcb] at y6 cγ
  rw [← euclNorm_sq, ← euclNorm_sq] at x2 x4 x6 y2 y4 y6
  rw [← euclNorm_sq] at cα cβ cγ
  have e1 : xβ = xα := eq_of_sq x3 x1 (by rw [x4, x2]; ring)
  have e2 : xγ = yα := eq_of_sq x5 y1 (by rw [x6, y2]; ring)
  have e3 : yγ = yβ := eq_of_sq y5 y3 (by rw [y6, y4]; ring)
  rw [e1] at cβ
  rw [e2, e3] at cγ
  unfold solidAngle
  dsimp only
  generalize a 0 * b 1 * c 2 + b 0 * c 1 * a 2 + c 0 * a 1 * b 2 - a 2 * b 1 * c 0 - b 2 * c 1 * a 0 - c 2 * a 1 * b 0 = D at hdet' hgram ⊢
  have hD2 : 0 < D ^ 2 := by positivity
  have pA := euclNorm_pos ha
  have pB := euclNorm_pos hb
  have pC := euclNorm_pos hc
  generalize euclNorm a = A at *
  generalize euclNorm b = B at *
  generalize euclNorm c = C at *
  generalize innerProd b c = p at *
  generalize innerProd a c = q at *
  generalize innerProd a b = r at *
  have hprod1 : A ^ 2 * D ^ 2 = xα ^ 2 * yα ^ 2 - (A ^ 2 * p - r * q) ^ 2 := by
    rw [x2, y2, hgram]; ring
  have hprod2 : B ^ 2 * D ^ 2 = xα ^ 2 * yβ ^ 2 - (B ^ 2 * q - r * p) ^ 2 := by
    rw [x2, y4, hgram]; ring
  have hA2 : 0 < A ^ 2 * D ^ 2 := by positivity
  have hB2 : 0 < B ^ 2 * D ^ 2 := by positivity
  have px : 0 < xα := by
    refine lt_of_le_of_ne x1 (fun h => ?_)
    rw [hprod1, ← h] at hA2
    linarith [sq_nonneg (A ^ 2 * p - r * q)]
  have py : 0 < yα := by
    refine lt_of_le_of_ne y1 (fun h => ?_)
    rw [hprod1, ← h] at hA2
    linarith [sq_nonneg (A ^ 2 * p - r * q)]
  have pz : 0 < yβ := by
    refine lt_of_le_of_ne y3 (fun h => ?_)
    rw [hprod2, ← h] at hB2
    linarith [sq_nonneg (B ^ 2 * q - r * p)]
  rw [abs_mul, abs_of_nonneg (by norm_num : (0 : ℝ) ≤ 2)]
  have hz : (⟨A * B * C + r * C + q * B + p * A, D⟩ : ℂ) ≠ 0 := by
    intro h
    exact hdet' (congrArg Complex.im h)
  have hZ : 0 < ‖(⟨A * B * C + r * C + q * B + p * A, D⟩ : ℂ)‖ := norm_pos_iff.2 hz
  have hcos := Complex.cos_arg hz
  have hsin := Complex.sin_arg (⟨A * B * C + r * C + q * B + p * A, D⟩ : ℂ)
  have hle := Complex.abs_arg_le_pi (⟨A * B * C + r * C + q * B + p * A, D⟩ : ℂ)
  unfold atan2
  generalize hφ : Complex.arg (⟨A * B * C + r * C + q * B + p * A, D⟩ : ℂ) = φ at *
  generalize ‖(⟨A * B * C + r * C + q * B + p * A, D⟩ : ℂ)‖ = Z at *
  have hsa : Real.sin |φ| = |Real.sin φ| := (Real.abs_sin_eq_sin_abs_of_abs_le_pi hle).symm
  have hs0 : 0 < Real.sin |φ| := by
    rw [hsa, hsin]
    exact abs_pos.2 (div_ne_zero hdet' hZ.ne')
  have hφ0 : 0 < |φ| := by
    refine lt_of_le_of_ne (abs_nonneg _) (fun h => ?_)
    rw [← h, Real.sin_zero] at hs0
    exact absurd hs0 (_root_.lt_irrefl _)
  have hφ1 : |φ| < Real.pi := by
    refine lt_of_le_of_ne hle (fun h => ?_)
    rw [h, Real.sin_pi] at hs0
    exact absurd hs0 (_root_.lt_irrefl _)
  refine girard_core (na := yβ) (nb := yα) (nc := xα) pA pB pC (abs_pos.2 hdet') (by rw [sq_abs]; exact hgram) pz py px
    y4 y2 x2 ⟨a1, a2⟩ ⟨b1, b2⟩ ⟨c1, c2⟩ ?_ ?_ ?_ ⟨hφ0, hφ1⟩ hZ ?_ ?_
  · linear_combination cα
  · linear_combination cβ
  · linear_combination cγ
  · rw [Real.cos_abs, hcos, mul_div_cancel₀ _ hZ.ne']
  · rw [hsa, hsin, abs_div, abs_of_pos hZ, mul_div_cancel₀ _ hZ.ne']

/-- C66: the solid angle does not depend on the order of the directions nor on the lengths of the vectors, and lies
between zero and a half of the full sphere. -/
theorem C66_invariant (a b c : Fin 3 → ℝ) {s : ℝ} (hs : 0 < s) :
    solidAngle b a c = solidAngle a b c ∧ solidAngle a c b = solidAngle a b c ∧
    solidAngle (fun i => s * a i) b c = solidAngle a b c ∧
    0 ≤ solidAngle a b c ∧ solidAngle a b c ≤ 2 * Real.pi := by
  have hneg : ∀ x y : ℝ, |2 * atan2 (-y) x| = |2 * atan2 y x| := by
    intro x y
    unfold atan2
    have h1 : (⟨x, -y⟩ : ℂ) = (starRingEnd ℂ) ⟨x, y⟩ := by
      apply Complex.ext <;> simp
    rw [h1, Complex.arg_conj]
    split
    · rename_i h; rw [h]
    · rw [mul_neg, abs_neg]
  refine ⟨?_, ?_, ?_, abs_nonneg _, ?_⟩
  · unfold solidAngle
    dsimp only
    rw [← hneg]
    congr 3
    · ring
    · rw [innerProd_comm b a]; ring
  · unfold solidAngle
    dsimp only
    rw [← hneg]
    congr 3
    · ring
    · rw [innerProd_comm c b]; ring
  · have h1 : (fun i => s * a i) = s • a := rfl
    have h2 : euclNorm (s • a) = s * euclNorm a := by
      refine eq_of_sq (euclNorm_nonneg _) (mul_nonneg hs.le (euclNorm_nonneg _)) ?_
      rw [mul_pow, euclNorm_sq, euclNorm_sq, innerProd_smul_left, innerProd_smul_right]; ring
    unfold solidAngle
    dsimp only
    rw [h1, h2, innerProd_smul_left, innerProd_smul_left]
    congr 2
    unfold atan2
    refine (congrArg Complex.arg ?_).trans (Complex.arg_real_mul _ hs)
    apply Complex.ext
    · simp; ring
    · simp; ring
  · unfold solidAngle
    dsimp only
    rw [abs_mul, abs_of_nonneg (by norm_num : (0 : ℝ) ≤ 2)]
    exact mul_le_mul_of_nonneg_left (Complex.abs_arg_le_pi _) (by norm_num)

/-- C66: the solid angle at a point `o` is that of the differences. -/
theorem C66_solid_angle_at {p q r o : Fin 3 → ℝ}
    (hdet : Matrix.det (Matrix.of fun i j : Fin 3 => (![p - o, q - o, r - o] j) i) ≠ 0) {α β γ : ℝ}
    (hα : dihedralAngle o p q o p r = some α) (hβ : dihedralAngle o q p o q r = some β)
    (hγ : dihedralAngle o r p o r q = some γ) : solidAngleAt p q r o = α + β + γ - Real.pi := by
  have hx : ∀ x y z : Fin 3 → ℝ, Matrix.det (Matrix.of fun i j : Fin 3 => (![x, y, z] j) i) ≠ 0 →
      crossProd x y ≠ 0 ∧ crossProd x z ≠ 0 ∧ crossProd y x ≠ 0 ∧ crossProd y z ≠ 0 ∧ crossProd z x ≠ 0 ∧ crossProd z y ≠ 0 := by
    intro x y z h
    simp only [Matrix.det_fin_three, Matrix.of_apply, Matrix.cons_val_zero, Matrix.cons_val_one, Matrix.cons_val_two,
      Matrix.head_cons, Matrix.tail_cons] at h
    refine ⟨?_, ?_, ?_, ?_, ?_, ?_⟩ <;> intro h0 <;> apply h <;>
      have h1 := congrFun h0 0 <;> have h2 := congrFun h0 1 <;> have h3 := congrFun h0 2 <;>
      simp only [crossProd_zero, crossProd_one, crossProd_two, Pi.zero_apply] at h1 h2 h3
    · linear_combination (z 0 * h1 + z 1 * h2 + z 2 * h3)
    · linear_combination -(y 0 * h1 + y 1 * h2 + y 2 * h3)
    · linear_combination -(z 0 * h1 + z 1 * h2 + z 2 * h3)
    · linear_combination (x 0 * h1 + x 1 * h2 + x 2 * h3)
    · linear_combination (y 0 * h1 + y 1 * h2 + y 2 * h3)
    · linear_combination -(x 0 * h1 + x 1 * h2 + x 2 * h3)
  obtain ⟨h1, h2, h3, h4, h5, h6⟩ := hx _ _ _ hdet
  refine C66_solid_angle hdet ?_ ?_ ?_
  · obtain ⟨θ, e, i⟩ := C65_dihedral (p0 := o) h1 h2
    rw [hα] at e; cases e; exact i
  · obtain ⟨θ, e, i⟩ := C65_dihedral (p0 := o) h3 h4
    rw [hβ] at e; cases e; exact i
  · obtain ⟨θ, e, i⟩ := C65_dihedral (p0 := o) h5 h6
    rw [hγ] at e; cases e; exact i

/-- The octant: the hypotheses hold and the solid angle is an eighth of the full sphere. -/
example : solidAngle ![1, 0, 0] ![0, 1, 0] ![0, 0, 1] = 4 * Real.pi / 8 := by
  have hp := Real.pi_pos
  have h := C66_solid_angle (a := ![1, 0, 0]) (b := ![0, 1, 0]) (c := ![0, 0, 1]) (α := Real.pi / 2) (β := Real.pi / 2)
    (γ := Real.pi / 2) (by simp [Matrix.det_fin_three])
    ⟨0, 0, by simp [Fin.sum_univ_three], by simp [Fin.sum_univ_three], by positivity, by linarith, by simp [Fin.sum_univ_three]⟩
    ⟨0, 0, by simp [Fin.sum_univ_three], by simp [Fin.sum_univ_three], by positivity, by linarith, by simp [Fin.sum_univ_three]⟩
    ⟨0, 0, by simp [Fin.sum_univ_three], by simp [Fin.sum_univ_three], by positivity, by linarith, by simp [Fin.sum_univ_three]⟩
  rw [h]; ring

/-! ### Directions in a plane -/

/-- The directions are in a plane and go around the point: no half of the plane contains them all. -/
def Surround (a b c : Fin 3 → ℝ) : Prop :=
  crossProd a b ≠ 0 ∧ ∃ s t u : ℝ, 0 < s ∧ 0 < t ∧ 0 < u ∧ ∀ i, s * a i + t * b i + u * c i = 0

theorem solidAngle_flat {a b c : Fin 3 → ℝ} {x : ℝ}
    (hdet : Matrix.det (Matrix.of fun i j : Fin 3 => (![a, b, c] j) i) = 0)
    (hx : euclNorm a * euclNorm b * euclNorm c + innerProd a b * euclNorm c + innerProd a c * euclNorm b + innerProd b c * euclNorm a = x) :
    solidAngle a b c = if x < 0 then 2 * Real.pi else 0 := by
  have hdet' : a 0 * b 1 * c 2 + b 0 * c 1 * a 2 + c 0 * a 1 * b 2 - a 2 * b 1 * c 0 - b 2 * c 1 * a 0 - c 2 * a 1 * b 0 = 0 := by
    rw [← hdet]
    simp [Matrix.det_fin_three]; ring
  unfold solidAngle
  dsimp only
  rw [hdet', hx]
  unfold atan2
  have : (⟨x, 0⟩ : ℂ) = (x : ℂ) := rfl
  rw [this]
  split
  · rename_i h
    rw [Complex.arg_ofReal_of_neg h, abs_of_nonneg (by linarith [Real.pi_pos])]
  · rename_i h
    rw [Complex.arg_ofReal_of_nonneg (not_lt.1 h)]; simp

theorem flat_parallel {a b : Fin 3 → ℝ} (c : Fin 3 → ℝ) (h : crossProd a b = 0) :
    0 ≤ euclNorm a * euclNorm b * euclNorm c + innerProd a b * euclNorm c + innerProd a c * euclNorm b + innerProd b c * euclNorm a := by
  by_cases ha : a = 0
  · subst ha
    have h0 : euclNorm (0 : Fin 3 → ℝ) = 0 := by simp [euclNorm_eq]
    simp [h0, innerProd]
  have hA := euclNorm_pos ha
  have hAA := euclNorm_sq a
  obtain ⟨k, rfl⟩ : ∃ k : ℝ, b = k • a := by
    refine ⟨innerProd a b / innerProd a a, ?_⟩
    have hne : innerProd a a ≠ 0 := fun h => ha ((innerProd_self_eq_zero a).1 h)
    have h1 := congrFun h 0
    have h2 := congrFun h 1
    have h3 := congrFun h 2
    simp only [crossProd_zero, crossProd_one, crossProd_two, Pi.zero_apply] at h1 h2 h3
    funext i
    rw [Pi.smul_apply, smul_eq_mul]
    field_simp
    simp only [innerProd3]
    fin_cases i
    · simp only [Fin.zero_eta]; linear_combination a 2 * h2 - a 1 * h3
    · simp only [Fin.mk_one]; linear_combination a 0 * h3 - a 2 * h1
    · simp only [Fin.reduceFinMk]; linear_combination a 1 * h1 - a 0 * h2
  have h2 : euclNorm (k • a) = |k| * euclNorm a := by
    refine eq_of_sq (euclNorm_nonneg _) (mul_nonneg (abs_nonneg _) hA.le) ?_
    rw [mul_pow, euclNorm_sq, euclNorm_sq, innerProd_smul_left, innerProd_smul_right, sq_abs]; ring
  rw [h2, innerProd_smul_right, innerProd_smul_left, ← hAA]
  have h3 := (abs_le.1 (innerProd_abs_le a c)).1
  have h4 : 0 ≤ |k| + k := by linarith [neg_abs_le k]
  have : 0 ≤ euclNorm a * ((|k| + k) * (euclNorm a * euclNorm c + innerProd a c)) :=
    mul_nonneg hA.le (mul_nonneg h4 (by linarith))
  linarith [this]

/-- C66: for three directions in a plane the solid angle is zero, or a half of the full sphere if the directions go around. -/
theorem C66_flat {a b c : Fin 3 → ℝ} (hdet : Matrix.det (Matrix.of fun i j : Fin 3 => (![a, b, c] j) i) = 0) :
    (Surround a b c → solidAngle a b c = 2 * Real.pi) ∧ (¬Surround a b c → solidAngle a b c = 0) := by
  by_cases hn : crossProd a b = 0
  · refine ⟨fun h => absurd hn h.1, fun _ => ?_⟩
    rw [solidAngle_flat hdet rfl, if_neg (not_lt.2 (flat_parallel c hn))]
  have hdet' : a 0 * b 1 * c 2 + b 0 * c 1 * a 2 + c 0 * a 1 * b 2 - a 2 * b 1 * c 0 - b 2 * c 1 * a 0 - c 2 * a 1 * b 0 = 0 := by
    rw [← hdet]
    simp [Matrix.det_fin_three]; ring
  have hN : 0 < innerProd (crossProd a b) (crossProd a b) := by
    rw [← euclNorm_sq]; exact pow_pos (euclNorm_pos hn) 2
  have hNe := hN.ne'
  have hG : innerProd (crossProd a b) (crossProd a b) = euclNorm a ^ 2 * euclNorm b ^ 2 - innerProd a b ^ 2 := by
    rw [euclNorm_sq, euclNorm_sq, cross_inner]; ring
  obtain ⟨x, y, hc⟩ : ∃ x y : ℝ, c = x • a + y • b := by
    refine ⟨innerProd (crossProd c b) (crossProd a b) / innerProd (crossProd a b) (crossProd a b),
      innerProd (crossProd a c) (crossProd a b) / innerProd (crossProd a b) (crossProd a b), ?_⟩
    funext i
    simp only [Pi.add_apply, Pi.smul_apply, smul_eq_mul]
    field_simp
    simp only [innerProd3, crossProd_zero, crossProd_one, crossProd_two]
    fin_cases i
    · simp only [Fin.zero_eta]; linear_combination (a 1 * b 2 - a 2 * b 1) * hdet'
    · simp only [Fin.mk_one]; linear_combination (a 2 * b 0 - a 0 * b 2) * hdet'
    · simp only [Fin.reduceFinMk]; linear_combination (a 0 * b 1 - a 1 * b 0) * hdet'
  have hA := euclNorm_nonneg a
  have hB := euclNorm_nonneg b
  have hC := euclNorm_nonneg c
  have hAA := euclNorm_sq a
  have hBB := euclNorm_sq b
  have hCC : euclNorm c ^ 2 = x ^ 2 * euclNorm a ^ 2 + 2 * x * y * innerProd a b + y ^ 2 * euclNorm b ^ 2 := by
    rw [euclNorm_sq, euclNorm_sq, euclNorm_sq, hc]; simp only [innerProd3, Pi.add_apply, Pi.smul_apply, smul_eq_mul]; ring
  have hac : innerProd a c = x * euclNorm a ^ 2 + y * innerProd a b := by
    rw [euclNorm_sq, hc]; simp only [innerProd3, Pi.add_apply, Pi.smul_apply, smul_eq_mul]; ring
  have hbc : innerProd b c = x * innerProd a b + y * euclNorm b ^ 2 := by
    rw [euclNorm_sq, hc]; simp only [innerProd3, Pi.add_apply, Pi.smul_apply, smul_eq_mul]; ring
  have hlt : |innerProd a b| < euclNorm a * euclNorm b := by
    refine abs_lt_of_sq_lt_sq ?_ (mul_nonneg hA hB)
    rw [mul_pow]; linarith
  obtain ⟨l1, l2⟩ := abs_lt.1 hlt
  have hdiv : euclNorm a * euclNorm b * euclNorm c + innerProd a b * euclNorm c + innerProd a c * euclNorm b + innerProd b c * euclNorm a
      = (euclNorm a * euclNorm b + innerProd a b) * (euclNorm c + x * euclNorm a + y * euclNorm b) := by
    rw [hac, hbc]; ring
  have hiff : Surround a b c ↔ x < 0 ∧ y < 0 := by
    constructor
    · rintro ⟨_, s, t, u, hs, ht, hu, h⟩
      have key : ∀ p q : ℝ, (∀ i, p * a i + q * b i = 0) → p = 0 ∧ q = 0 := by
        intro p q hpq
        constructor
        · by_contra hp
          apply hn
          have h0 := hpq 0; have h1 := hpq 1; have h2 := hpq 2
          funext i
          refine mul_left_cancel₀ hp ?_
          fin_cases i
          · simp only [Fin.zero_eta, crossProd_zero, Pi.zero_apply]; linear_combination b 2 * h1 - b 1 * h2
          · simp only [Fin.mk_one, crossProd_one, Pi.zero_apply]; linear_combination b 0 * h2 - b 2 * h0
          · simp only [Fin.reduceFinMk, crossProd_two, Pi.zero_apply]; linear_combination b 1 * h0 - b 0 * h1
        · by_contra hp
          apply hn
          have h0 := hpq 0; have h1 := hpq 1; have h2 := hpq 2
          funext i
          refine mul_left_cancel₀ hp ?_
          fin_cases i
          · simp only [Fin.zero_eta, crossProd_zero, Pi.zero_apply]; linear_combination a 1 * h2 - a 2 * h1
          · simp only [Fin.mk_one, crossProd_one, Pi.zero_apply]; linear_combination a 2 * h0 - a 0 * h2
          · simp only [Fin.reduceFinMk, crossProd_two, Pi.zero_apply]; linear_combination a 0 * h1 - a 1 * h0
      obtain ⟨e1, e2⟩ := key (s + u * x) (t + u * y) (fun i => by
        have := h i
        rw [hc] at this
        simp only [Pi.add_apply, Pi.smul_apply, smul_eq_mul] at this
        linear_combination this)
      constructor
      · by_contra hx
        have := mul_nonneg hu.le (not_lt.1 hx); linarith
      · by_contra hy
        have := mul_nonneg hu.le (not_lt.1 hy); linarith
    · rintro ⟨hx, hy⟩
      refine ⟨hn, -x, -y, 1, by linarith, by linarith, one_pos, fun i => ?_⟩
      rw [hc]
      simp only [Pi.add_apply, Pi.smul_apply, smul_eq_mul]; ring
  rw [hiff, solidAngle_flat hdet hdiv]
  have hpos : 0 < euclNorm a * euclNorm b + innerProd a b := by linarith
  constructor
  · rintro ⟨hx, hy⟩
    rw [if_pos]
    refine mul_neg_of_pos_of_neg hpos ?_
    have : euclNorm c < -(x * euclNorm a + y * euclNorm b) := by
      have h1 : 0 ≤ -(x * euclNorm a + y * euclNorm b) := by nlinarith
      refine lt_of_pow_lt_pow_left₀ 2 h1 ?_
      rw [hCC]
      have : x * y * innerProd a b < x * y * (euclNorm a * euclNorm b) := mul_lt_mul_of_pos_left l2 (mul_pos_of_neg_of_neg hx hy)
      have e : (-(x * euclNorm a + y * euclNorm b)) ^ 2 = x ^ 2 * euclNorm a ^ 2 + 2 * (x * y * (euclNorm a * euclNorm b)) + y ^ 2 * euclNorm b ^ 2 := by ring
      rw [e]; linarith
    linarith
  · intro hxy
    rw [if_neg]
    refine not_lt.2 (mul_nonneg hpos.le ?_)
    by_cases h0 : 0 ≤ x * euclNorm a + y * euclNorm b
    · linarith
    · have hneg : x * y ≤ 0 := by
        by_contra hp
        have hp := not_le.1 hp
        rcases lt_or_ge x 0 with hx | hx
        · exact hxy ⟨hx, by by_contra hy; nlinarith [not_lt.1 hy]⟩
        · have hy : 0 ≤ y := by by_contra hy; nlinarith [not_le.1 hy]
          exact h0 (add_nonneg (mul_nonneg hx hA) (mul_nonneg hy hB))
      have : -(x * euclNorm a + y * euclNorm b) ≤ euclNorm c := by
        refine le_of_sq_le_sq ?_ hC
        rw [hCC]
        have : x * y * (euclNorm a * euclNorm b) ≤ x * y * innerProd a b := mul_le_mul_of_nonpos_left l2.le hneg
        have e : (-(x * euclNorm a + y * euclNorm b)) ^ 2 = x ^ 2 * euclNorm a ^ 2 + 2 * (x * y * (euclNorm a * euclNorm b)) + y ^ 2 * euclNorm b ^ 2 := by ring
        rw [e]; linarith
      linarith

/-- Three directions of the plane with angles of a third of a turn, roughly, and three on one side. -/
example : solidAngle ![1, 0, 0] ![-1, 1, 0] ![-1, -1, 0] = 2 * Real.pi ∧ solidAngle ![1, 0, 0] ![1, 1, 0] ![-1, 1, 0] = 0 := by
  constructor
  · refine (C66_flat (by simp [Matrix.det_fin_three])).1 ⟨fun h => ?_, 2, 1, 1, by norm_num, by norm_num, by norm_num, fun i => ?_⟩
    · have := congrFun h 2
      simp at this
    · fin_cases i <;> norm_num
  · refine (C66_flat (by simp [Matrix.det_fin_three])).2 ?_
    rintro ⟨_, s, t, u, hs, ht, hu, h⟩
    have := h 1
    simp at this
    linarith

end VG
