import Verif.Model.Voronoi
import Mathlib.Tactic.LinearCombination
import Mathlib.Tactic.FieldSimp
import Mathlib.Tactic.Linarith
import Mathlib.Tactic.Positivity
import Mathlib.Tactic.FinCases
import Mathlib.Tactic.Set
import Mathlib.Tactic.ByContra
import Mathlib.Data.Fin.VecNotation

/-!
Geometry of one triangle in the plane for `apply_voronoi`.
-/

namespace VG

theorem co2_0 (p : Fin 2 → ℝ) : co p 0 = p 0 := by simp [co]
theorem co2_1 (p : Fin 2 → ℝ) : co p 1 = p 1 := by simp [co]

/-- Twice the signed area. -/
def tw (A B C : Fin 2 → ℝ) : ℝ := (B 0 - A 0) * (C 1 - A 1) - (B 1 - A 1) * (C 0 - A 0)

/-- Inner product of the two edges leaving `A`. -/
def dp (A B C : Fin 2 → ℝ) : ℝ := (B 0 - A 0) * (C 0 - A 0) + (B 1 - A 1) * (C 1 - A 1)

theorem signedTriangle_tw (A B C : Fin 2 → ℝ) : signedTriangle A B C = tw A B C / 2 := by
  unfold signedTriangle tw; ring

theorem dp_swap (A B C : Fin 2 → ℝ) : dp A B C = dp A C B := by unfold dp; ring
theorem tw_swap (A B C : Fin 2 → ℝ) : tw A B C = -tw A C B := by unfold tw; ring
theorem tw_rot (A B C : Fin 2 → ℝ) : tw A B C = tw B C A := by unfold tw; ring

/-- Squared lengths from the inner products. -/
theorem sq_len (A B C : Fin 2 → ℝ) : (B 0 - A 0) ^ 2 + (B 1 - A 1) ^ 2 = dp A B C + dp B A C := by
  unfold dp; ring

theorem tw_sq (A B C : Fin 2 → ℝ) :
    tw A B C ^ 2 = dp A B C * dp B A C + dp B A C * dp C A B + dp C A B * dp A B C := by
  unfold dp tw; ring

theorem fin2_ext {p q : Fin 2 → ℝ} (h0 : p 0 = q 0) (h1 : p 1 = q 1) : p = q := by
  funext i; fin_cases i
  · exact h0
  · exact h1

theorem circ_perm1 (A B C : Fin 2 → ℝ) : circumTriangle2 A B C = circumTriangle2 B C A := by
  unfold circumTriangle2
  refine fin2_ext ?_ ?_ <;> (simp; congr 1 <;> ring)

theorem circ_swap (A B C : Fin 2 → ℝ) : circumTriangle2 A B C = circumTriangle2 A C B := by
  unfold circumTriangle2
  refine fin2_ext ?_ ?_
  · simp only [Matrix.cons_val_zero]
    rw [← neg_div_neg_eq]; congr 1 <;> ring
  · simp only [Matrix.cons_val_one, Matrix.cons_val_zero]
    rw [← neg_div_neg_eq]; congr 1 <;> ring

/-- The circumcenter in terms of the middle of an edge. -/
theorem circ_mid (A B C : Fin 2 → ℝ) (h : tw A B C ≠ 0) :
    circumTriangle2 A B C 0 = (A 0 + B 0) / 2 - dp C A B / (2 * tw A B C) * (B 1 - A 1)
    ∧ circumTriangle2 A B C 1 = (A 1 + B 1) / 2 + dp C A B / (2 * tw A B C) * (B 0 - A 0) := by
  have hD : 2 * (A 0 * (B 1 - C 1) + B 0 * (C 1 - A 1) + C 0 * (A 1 - B 1)) = 2 * tw A B C := by unfold tw; ring
  have h2 : (2 * tw A B C) ≠ 0 := by simpa using h
  have e : ∀ x y : ℝ, x / (2 * tw A B C) * y * (2 * tw A B C) = x * y := by intro x y; field_simp
  unfold circumTriangle2
  simp only [Matrix.cons_val_one, Matrix.cons_val_zero]
  rw [hD]
  constructor
  · rw [div_eq_iff h2, sub_mul, e]
    unfold tw dp; ring
  · rw [div_eq_iff h2, add_mul ((A 1 + B 1) / 2), e]
    unfold tw dp; ring

/-- The circumcenter in barycentric coordinates. -/
theorem circ_bary (A B C : Fin 2 → ℝ) (h : tw A B C ≠ 0) (i : Fin 2) :
    circumTriangle2 A B C i * (2 * tw A B C ^ 2)
      = (dp B A C + dp C A B) * dp A B C * A i + (dp A B C + dp C A B) * dp B A C * B i
        + (dp A B C + dp B A C) * dp C A B * C i := by
  obtain ⟨h0, h1⟩ := circ_mid A B C h
  have e : ∀ x y z : ℝ, z ≠ 0 → x / (2 * z) * y * (2 * z ^ 2) = x * y * z := by
    intro x y z hz; field_simp
  fin_cases i
  · show circumTriangle2 A B C 0 * _ = _ * A 0 + _ * B 0 + _ * C 0
    rw [h0, sub_mul, e _ _ _ h]
    unfold tw dp; ring
  · show circumTriangle2 A B C 1 * _ = _ * A 1 + _ * B 1 + _ * C 1
    rw [h1, add_mul, e _ _ _ h]
    unfold tw dp; ring

theorem localCoords2 (p a b c : Fin 2 → ℝ) (h : tw a b c ≠ 0) :
    localCoords p a b c = some (tw a p c / tw a b c, tw a b p / tw a b c) := by
  unfold localCoords
  simp only [co2_0, co2_1, Pi.sub_apply]
  rw [if_neg (by unfold tw at h; exact h)]
  unfold tw
  congr 3; ring

/-- The local coordinates of the circumcenter. -/
theorem circ_local (A B C : Fin 2 → ℝ) (h : tw A B C ≠ 0) :
    tw A (circumTriangle2 A B C) C / tw A B C = (dp A B C + dp C A B) * dp B A C / (2 * tw A B C ^ 2)
    ∧ tw A B (circumTriangle2 A B C) / tw A B C = (dp A B C + dp B A C) * dp C A B / (2 * tw A B C ^ 2) := by
  obtain ⟨h0, h1⟩ := circ_mid A B C h
  have h2 := circ_bary A B C h 0
  have h3 := circ_bary A B C h 1
  have hs := tw_sq A B C
  constructor
  · rw [div_eq_div_iff h (by positivity)]
    have : tw A (circumTriangle2 A B C) C * (2 * tw A B C ^ 2)
        = (circumTriangle2 A B C 0 * (2 * tw A B C ^ 2) - A 0 * (2 * tw A B C ^ 2)) * (C 1 - A 1)
          - (circumTriangle2 A B C 1 * (2 * tw A B C ^ 2) - A 1 * (2 * tw A B C ^ 2)) * (C 0 - A 0) := by
      unfold tw; ring
    rw [this, h2, h3, hs]
    unfold tw dp; ring
  · rw [div_eq_div_iff h (by positivity)]
    have : tw A B (circumTriangle2 A B C) * (2 * tw A B C ^ 2)
        = (B 0 - A 0) * (circumTriangle2 A B C 1 * (2 * tw A B C ^ 2) - A 1 * (2 * tw A B C ^ 2))
          - (B 1 - A 1) * (circumTriangle2 A B C 0 * (2 * tw A B C ^ 2) - A 0 * (2 * tw A B C ^ 2)) := by
      unfold tw; ring
    rw [this, h2, h3, hs]
    unfold tw dp; ring

/-! ### Parts next to an edge -/

theorem circumLine_swap (A B : Fin 2 → ℝ) : circumLine A B = circumLine B A := by
  funext i; unfold circumLine; rw [add_comm]

theorem circumLine_i (A B : Fin 2 → ℝ) (i : Fin 2) : circumLine A B i = (A i + B i) / 2 := by
  unfold circumLine; ring

/-- Length of an edge. -/
noncomputable def len (A B : Fin 2 → ℝ) : ℝ := √((B 0 - A 0) ^ 2 + (B 1 - A 1) ^ 2)

theorem len_swap (A B : Fin 2 → ℝ) : len A B = len B A := by unfold len; congr 1; ring

theorem len_sq (A B C : Fin 2 → ℝ) : len A B ^ 2 = dp A B C + dp B A C := by
  rw [len, Real.sq_sqrt (by positivity), sq_len A B C]

theorem signedLine2 (p q : Fin 2 → ℝ) : |signedLine p q| = len p q := by
  unfold signedLine len
  rw [abs_of_nonneg (Real.sqrt_nonneg _), Fin.sum_univ_two]
  congr 1; ring

/-- A triangle with the circumcenter, the middle of an edge and one of its ends. -/
theorem span_mid (A B C : Fin 2 → ℝ) (h : tw A B C ≠ 0) :
    spannedTriangle (circumTriangle2 A B C) (circumLine A B) A = len A B ^ 2 * |dp C A B| / (8 * |tw A B C|)
    ∧ spannedTriangle (circumTriangle2 A B C) (circumLine A B) B = len A B ^ 2 * |dp C A B| / (8 * |tw A B C|) := by
  obtain ⟨h0, h1⟩ := circ_mid A B C h
  have key : len A B ^ 2 * |dp C A B| / (8 * |tw A B C|) = |len A B ^ 2 * (dp C A B / (2 * tw A B C)) / 4| := by
    rw [abs_div, abs_mul, abs_div, abs_mul, abs_of_nonneg (sq_nonneg (len A B))]
    rw [abs_of_pos (show (0 : ℝ) < 2 by norm_num), abs_of_pos (show (0 : ℝ) < 4 by norm_num)]
    have := abs_pos.2 h
    field_simp
    ring
  have hl : len A B ^ 2 = (B 0 - A 0) ^ 2 + (B 1 - A 1) ^ 2 := by rw [len, Real.sq_sqrt (by positivity)]
  rw [key, hl]
  unfold spannedTriangle
  rw [signedTriangle_tw, signedTriangle_tw]
  generalize dp C A B / (2 * tw A B C) = k at *
  constructor
  · rw [← abs_neg]
    congr 1
    unfold tw
    rw [h0, h1, circumLine_i, circumLine_i]
    ring
  · congr 1
    unfold tw
    rw [h0, h1, circumLine_i, circumLine_i]
    ring

/-- The distance of the circumcenter from the middle of an edge. -/
theorem len_mid (A B C : Fin 2 → ℝ) (h : tw A B C ≠ 0) :
    len (circumTriangle2 A B C) (circumLine A B) = len A B * |dp C A B| / (2 * |tw A B C|) := by
  obtain ⟨h0, h1⟩ := circ_mid A B C h
  have key : len A B * |dp C A B| / (2 * |tw A B C|) = |dp C A B / (2 * tw A B C)| * len A B := by
    rw [abs_div, abs_mul, abs_of_pos (show (0 : ℝ) < 2 by norm_num)]
    ring
  rw [key, ← Real.sqrt_sq_eq_abs, len, len, ← Real.sqrt_mul (sq_nonneg _)]
  congr 1
  rw [h0, h1, circumLine_i, circumLine_i]
  ring

/-- `line_intersection` finds the common point. -/
theorem lineIntersection_eq (a b c e z : Fin 2 → ℝ) (k : ℝ)
    (hz : ∀ i, z i = a i + k * (b i - a i)) (hc : tw c e z = 0)
    (hd : (a 0 - b 0) * (c 1 - e 1) - (a 1 - b 1) * (c 0 - e 0) ≠ 0) : lineIntersection a b c e = z := by
  have hk : k * ((a 0 - b 0) * (c 1 - e 1) - (a 1 - b 1) * (c 0 - e 0))
      = (a 0 - c 0) * (c 1 - e 1) - (a 1 - c 1) * (c 0 - e 0) := by
    unfold tw at hc
    rw [hz 0, hz 1] at hc
    linear_combination -hc
  unfold lineIntersection
  simp only [co2_0, co2_1]
  refine fin2_ext ?_ ?_
  · simp only [Fin.isValue, Fin.val_zero, if_pos]
    rw [div_eq_iff hd, hz 0]
    linear_combination (a 0 - b 0) * hk
  · simp only [Fin.isValue, Fin.val_one, if_neg (show ¬ (1 : Nat) = 0 by omega), if_pos]
    rw [div_eq_iff hd, hz 1]
    linear_combination (a 1 - b 1) * hk

theorem lineIntersection_swap (a b c e : Fin 2 → ℝ) : lineIntersection a b c e = lineIntersection a b e c := by
  unfold lineIntersection
  simp only [co2_0, co2_1]
  funext i
  split
  · rw [← neg_div_neg_eq]; congr 1 <;> ring
  · split
    · rw [← neg_div_neg_eq]; congr 1 <;> ring
    · rfl

/-- The triangle is obtuse at `A`; `E` is where the perpendicular bisector of `AB` meets the line `BC`, `X` where the
line from `A` to the circumcenter meets it. -/
structure Cut (A B C E X : Fin 2 → ℝ) : Prop where
  midO : ∃ k, 0 ≤ k ∧ k ≤ 1 ∧ ∀ i, E i = circumLine A B i + k * (circumTriangle2 A B C i - circumLine A B i)
  apexO : ∃ u, 0 ≤ u ∧ u ≤ 1 ∧ ∀ i, X i = A i + u * (circumTriangle2 A B C i - A i)
  onBC : ∃ s t, 0 ≤ s ∧ s ≤ t ∧ t ≤ 1 ∧ (∀ i, E i = B i + s * (C i - B i)) ∧ (∀ i, X i = B i + t * (C i - B i))
    ∧ t * ((dp A B C + dp B A C) * dp C A B + (dp A B C + dp C A B) * dp B A C) = (dp A B C + dp B A C) * dp C A B

/-- Signs of the inner products in a triangle with an obtuse angle at `A`. -/
theorem obtuse_signs (A B C : Fin 2 → ℝ) (h : tw A B C ≠ 0) (hp : dp A B C < 0) :
    0 < dp A B C + dp B A C ∧ 0 < dp A B C + dp C A B ∧ 0 < dp B A C ∧ 0 < dp C A B := by
  have h1 : 0 < dp A B C + dp B A C := by
    rw [← sq_len]
    by_contra hn
    have h0 : B 0 - A 0 = 0 := by nlinarith [sq_nonneg (B 0 - A 0), sq_nonneg (B 1 - A 1)]
    have h1 : B 1 - A 1 = 0 := by nlinarith [sq_nonneg (B 0 - A 0), sq_nonneg (B 1 - A 1)]
    apply h; unfold tw; rw [h0, h1]; ring
  have h2 : 0 < dp A B C + dp C A B := by
    rw [dp_swap A B C, dp_swap C A B, show dp C B A = dp C A B from dp_swap C B A, ← sq_len A C B]
    by_contra hn
    have h0 : C 0 - A 0 = 0 := by nlinarith [sq_nonneg (C 0 - A 0), sq_nonneg (C 1 - A 1)]
    have h1 : C 1 - A 1 = 0 := by nlinarith [sq_nonneg (C 0 - A 0), sq_nonneg (C 1 - A 1)]
    apply h; unfold tw; rw [h0, h1]; ring
  exact ⟨h1, h2, by linarith, by linarith⟩

theorem cut_spec (A B C : Fin 2 → ℝ) (h : tw A B C ≠ 0) (hp : dp A B C < 0) :
    Cut A B C (lineIntersection (circumLine A B) (circumTriangle2 A B C) B C)
      (lineIntersection A (circumTriangle2 A B C) B C) := by
  obtain ⟨h1, h2, hq, hr⟩ := obtuse_signs A B C h hp
  have hs := tw_sq A B C
  have hb0 := circ_bary A B C h 0
  have hb1 := circ_bary A B C h 1
  have hW : 0 < tw A B C ^ 2 := by positivity
  set O := circumTriangle2 A B C with hO
  set p := dp A B C with hpd
  set q := dp B A C with hqd
  set r := dp C A B with hrd
  set W := tw A B C ^ 2 with hWd
  have hN : 0 < (p + r) * q + (p + q) * r := add_pos (mul_pos h2 hq) (mul_pos h1 hr)
  have hpq : p * (q + r) < 0 := mul_neg_of_neg_of_pos hp (by linarith)
  have hb : ∀ i, O i = ((q + r) * p * A i + (p + r) * q * B i + (p + q) * r * C i) / (2 * W) := by
    intro i
    rw [eq_div_iff (by positivity)]
    fin_cases i
    · exact hb0
    · exact hb1
  have hE : ∀ i, B i + (p + q) / (2 * q) * (C i - B i)
      = circumLine A B i + W / (q * r) * (O i - circumLine A B i) := by
    intro i
    rw [hb i, circumLine_i]
    field_simp
    rw [hs]
    ring
  have hX : ∀ i, B i + (p + q) * r / ((p + r) * q + (p + q) * r) * (C i - B i)
      = A i + 2 * W / ((p + r) * q + (p + q) * r) * (O i - A i) := by
    intro i
    rw [hb i]
    field_simp
    rw [hs]
    ring
  have hon : ∀ s : ℝ, tw B C (fun i => B i + s * (C i - B i)) = 0 := by intro s; unfold tw; ring
  have e1 : lineIntersection (circumLine A B) O B C = fun i => B i + (p + q) / (2 * q) * (C i - B i) := by
    refine lineIntersection_eq _ _ _ _ _ (W / (q * r)) hE (hon _) ?_
    obtain ⟨g0, g1⟩ := circ_mid A B C h
    rw [← hO] at g0 g1
    have : (circumLine A B 0 - O 0) * (B 1 - C 1) - (circumLine A B 1 - O 1) * (B 0 - C 0) = r / (2 * tw A B C) * q := by
      rw [g0, g1, circumLine_i, circumLine_i, hqd, hrd]
      generalize dp C A B / (2 * tw A B C) = k
      unfold dp; ring
    rw [this]
    exact mul_ne_zero (div_ne_zero hr.ne' (by simpa using h)) hq.ne'
  have e2 : lineIntersection A O B C = fun i => B i + (p + q) * r / ((p + r) * q + (p + q) * r) * (C i - B i) := by
    refine lineIntersection_eq _ _ _ _ _ (2 * W / ((p + r) * q + (p + q) * r)) hX (hon _) ?_
    have : (A 0 - O 0) * (B 1 - C 1) - (A 1 - O 1) * (B 0 - C 0)
        = ((p + r) * q + (p + q) * r) * tw A B C / (2 * W) := by
      rw [hb 0, hb 1]
      field_simp
      rw [hs]
      unfold tw
      ring
    rw [this]
    exact div_ne_zero (mul_ne_zero hN.ne' h) (by positivity)
  rw [e1, e2]
  refine ⟨⟨W / (q * r), by positivity, ?_, hE⟩, ⟨2 * W / ((p + r) * q + (p + q) * r), by positivity, ?_, hX⟩,
    (p + q) / (2 * q), (p + q) * r / ((p + r) * q + (p + q) * r), by positivity, ?_, ?_, fun _ => rfl, fun _ => rfl, ?_⟩
  · rw [div_le_one (mul_pos hq hr), hs]; nlinarith
  · rw [div_le_one hN, hs]; nlinarith
  · rw [div_le_div_iff₀ (by linarith) hN]
    nlinarith [mul_pos h1 (neg_pos.2 hpq)]
  · rw [div_le_one hN]; nlinarith [mul_pos h2 hq]
  · rw [add_comm ((p + q) * r), div_mul_cancel₀ _ hN.ne']

theorem spanned_tw (A B C : Fin 2 → ℝ) : spannedTriangle A B C = |tw A B C| / 2 := by
  rw [spannedTriangle, signedTriangle_tw, abs_div, abs_of_pos (show (0 : ℝ) < 2 by norm_num)]

/-- A point on a side splits the length of the side. -/
theorem len_split {M O E : Fin 2 → ℝ} {k : ℝ} (h0 : 0 ≤ k) (h1 : k ≤ 1) (h : ∀ i, E i = M i + k * (O i - M i)) :
    len E M + len E O = len O M := by
  have e1 : len E M = k * len O M := by
    rw [len, len, show (M 0 - E 0) ^ 2 + (M 1 - E 1) ^ 2 = k ^ 2 * ((M 0 - O 0) ^ 2 + (M 1 - O 1) ^ 2) by
      rw [h 0, h 1]; ring, Real.sqrt_mul (sq_nonneg _), Real.sqrt_sq h0]
  have e2 : len E O = (1 - k) * len O M := by
    rw [len, len, show (O 0 - E 0) ^ 2 + (O 1 - E 1) ^ 2 = (1 - k) ^ 2 * ((M 0 - O 0) ^ 2 + (M 1 - O 1) ^ 2) by
      rw [h 0, h 1]; ring, Real.sqrt_mul (sq_nonneg _), Real.sqrt_sq (by linarith)]
  rw [e1, e2]; ring

/-- A point on a side splits the area. -/
theorem span_split {M O E : Fin 2 → ℝ} {k : ℝ} (h0 : 0 ≤ k) (h1 : k ≤ 1) (h : ∀ i, E i = M i + k * (O i - M i))
    (Z : Fin 2 → ℝ) : spannedTriangle E M Z + spannedTriangle O E Z = spannedTriangle O M Z := by
  rw [spanned_tw, spanned_tw, spanned_tw]
  have e1 : tw E M Z = k * tw O M Z := by unfold tw; rw [h 0, h 1]; ring
  have e2 : tw O E Z = (1 - k) * tw O M Z := by unfold tw; rw [h 0, h 1]; ring
  rw [e1, e2, abs_mul, abs_mul, abs_of_nonneg h0, abs_of_nonneg (show 0 ≤ 1 - k by linarith)]
  ring

theorem spanned_swap (A B C : Fin 2 → ℝ) : spannedTriangle A B C = spannedTriangle A C B := by
  rw [spanned_tw, spanned_tw, tw_swap, abs_neg]

theorem spanned_rot (A B C : Fin 2 → ℝ) : spannedTriangle A B C = spannedTriangle B C A := by
  rw [spanned_tw, spanned_tw, tw_rot]

section
variable {A B C E X : Fin 2 → ℝ}

/-- The part next to the end `B` of the crossed edge. -/
theorem Cut.end_sum (h : Cut A B C E X) :
    spannedTriangle E (circumLine A B) B + spannedTriangle (circumTriangle2 A B C) E B
      = spannedTriangle (circumTriangle2 A B C) (circumLine A B) B := by
  obtain ⟨k, h0, h1, hk⟩ := h.midO
  exact span_split h0 h1 hk B

/-- The part next to the obtuse corner `A`. -/
theorem Cut.apex_sum (h : Cut A B C E X) :
    spannedTriangle E (circumLine A B) A + (spannedTriangle X E A + spannedTriangle (circumTriangle2 A B C) E X)
      = spannedTriangle (circumTriangle2 A B C) (circumLine A B) A := by
  obtain ⟨k, h0, h1, hk⟩ := h.midO
  obtain ⟨u, g0, g1, hu⟩ := h.apexO
  rw [← span_split h0 h1 hk A]
  have := span_split g0 g1 hu E
  rw [spanned_swap X E A, spanned_swap (circumTriangle2 A B C) E X, this,
    spanned_swap (circumTriangle2 A B C) A E]

/-- The interface. -/
theorem Cut.len_sum (h : Cut A B C E X) :
    len E (circumLine A B) + len E (circumTriangle2 A B C) = len (circumTriangle2 A B C) (circumLine A B) := by
  obtain ⟨k, h0, h1, hk⟩ := h.midO
  exact len_split h0 h1 hk

/-- The parts inside the triangle itself. -/
theorem Cut.inner_sum (h : Cut A B C E X) :
    ∃ t, 0 ≤ t ∧ t ≤ 1
      ∧ t * ((dp A B C + dp B A C) * dp C A B + (dp A B C + dp C A B) * dp B A C) = (dp A B C + dp B A C) * dp C A B
      ∧ spannedTriangle E (circumLine A B) A + spannedTriangle E (circumLine A B) B + spannedTriangle X E A
        = t * (|tw A B C| / 2) := by
  obtain ⟨s, t, h0, h1, h2, hE, hX, ht⟩ := h.onBC
  refine ⟨t, h0.trans h1, h2, ht, ?_⟩
  rw [spanned_tw, spanned_tw, spanned_tw]
  have e1 : tw E (circumLine A B) A = -(s / 2 * tw A B C) := by
    unfold tw; rw [hE 0, hE 1, circumLine_i, circumLine_i]; ring
  have e2 : tw E (circumLine A B) B = s / 2 * tw A B C := by
    unfold tw; rw [hE 0, hE 1, circumLine_i, circumLine_i]; ring
  have e3 : tw X E A = -((t - s) * tw A B C) := by
    unfold tw; rw [hE 0, hE 1, hX 0, hX 1]; ring
  rw [e1, e2, e3, abs_neg, abs_neg, abs_mul, abs_mul, abs_of_nonneg (show 0 ≤ s / 2 by linarith),
    abs_of_nonneg (show 0 ≤ t - s by linarith)]
  ring

end

end VG
