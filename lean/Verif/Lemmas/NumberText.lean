import Verif.Model.NumberText
import Mathlib.Tactic.Linarith
import Mathlib.Tactic.FieldSimp
import Mathlib.Tactic.Ring
import Mathlib.Tactic.NormNum
import Mathlib.Tactic.Positivity
import Mathlib.Tactic.GCongr
import Mathlib.Tactic.ByContra

/-! Rounding to a number of digits. -/

namespace VG

theorem nearestInt_err (q : ℚ) : |(nearestInt q : ℚ) - q| ≤ 1 / 2 := by
  have h1 := Int.floor_le q
  have h2 := Int.lt_floor_add_one q
  unfold nearestInt
  split_ifs with h3 h4 h5 <;> rw [abs_le] <;> push_cast <;> constructor <;> linarith

theorem nearestInt_eq {q : ℚ} {n : ℤ} (h : |(n : ℚ) - q| < 1 / 2) : nearestInt q = n := by
  have h1 := nearestInt_err q
  rw [abs_lt] at h
  rw [abs_le] at h1
  have h2 : ((nearestInt q : ℤ) : ℚ) < (n + 1 : ℤ) := by push_cast; linarith [h1.2, h.1]
  have h3 : ((n - 1 : ℤ) : ℚ) < (nearestInt q : ℤ) := by push_cast; linarith [h1.1, h.2]
  have h4 := Int.cast_lt.1 h2
  have h5 := Int.cast_lt.1 h3
  omega

theorem lastPlace_pos {b : Nat} (hb : 1 < b) (p : Nat) (x : ℚ) : 0 < lastPlace b p x := by
  have : (0 : ℚ) < b := by exact_mod_cast (by omega : 0 < b)
  exact zpow_pos this _

theorem roundTo_zero (b p : Nat) : roundTo b p 0 = 0 := by
  unfold roundTo
  rw [zero_div, show nearestInt 0 = 0 from by decide +kernel]
  simp

/-- The last place in relation to the number. -/
theorem lastPlace_le {b : Nat} (hb : 1 < b) (p : Nat) {x : ℚ} (hx : x ≠ 0) :
    lastPlace b p x ≤ |x| * (b : ℚ) ^ (1 - p : ℤ) := by
  have hb0 : (b : ℚ) ≠ 0 := by exact_mod_cast (by omega : b ≠ 0)
  have hb1 : (0 : ℚ) < b := by exact_mod_cast (by omega : 0 < b)
  have h1 := Int.zpow_log_le_self hb (abs_pos.2 hx)
  unfold lastPlace
  rw [add_sub_assoc, zpow_add₀ hb0]
  exact mul_le_mul_of_nonneg_right h1 (zpow_pos hb1 _).le

theorem lt_lastPlace {b : Nat} (hb : 1 < b) (p : Nat) (x : ℚ) : |x| < (b : ℚ) ^ p * lastPlace b p x := by
  have hb0 : (b : ℚ) ≠ 0 := by exact_mod_cast (by omega : b ≠ 0)
  have h1 := Int.lt_zpow_succ_log_self hb |x|
  refine h1.trans_eq ?_
  unfold lastPlace
  rw [← zpow_natCast, ← zpow_add₀ hb0]
  congr 1
  ring

theorem roundTo_err_place {b : Nat} (hb : 1 < b) (p : Nat) (x : ℚ) :
    |roundTo b p x - x| ≤ lastPlace b p x / 2 := by
  have h1 := lastPlace_pos hb p x
  have h2 := nearestInt_err (x / lastPlace b p x)
  have e : roundTo b p x - x = (nearestInt (x / lastPlace b p x) - x / lastPlace b p x) * lastPlace b p x := by
    unfold roundTo
    rw [sub_mul, div_mul_cancel₀ _ h1.ne']
  rw [e, abs_mul, abs_of_pos h1]
  have := mul_le_mul_of_nonneg_right h2 h1.le
  linarith

/-- The relative error of rounding. -/
theorem roundTo_err {b : Nat} (hb : 1 < b) (p : Nat) (x : ℚ) :
    |roundTo b p x - x| ≤ |x| * ((b : ℚ) ^ (1 - p : ℤ) / 2) := by
  by_cases hx : x = 0
  · subst hx
    rw [roundTo_zero]
    simp
  · have h1 := roundTo_err_place hb p x
    have h2 := lastPlace_le hb p hx
    have e : |x| * ((b : ℚ) ^ (1 - p : ℤ) / 2) = |x| * (b : ℚ) ^ (1 - p : ℤ) / 2 := by ring
    rw [e]
    linarith

theorem written_err (x : ℚ) : |written x - x| ≤ |x| * (5 / 10 ^ 15) := by
  have h := roundTo_err (b := 10) (by norm_num) 15 x
  have e : ((10 : ℕ) : ℚ) ^ (1 - (15 : ℕ) : ℤ) / 2 = 5 / 10 ^ 15 := by norm_num
  rw [e] at h
  exact h

theorem asDouble_err (x : ℚ) : |asDouble x - x| ≤ |x| * (1 / 2 ^ 53) := by
  have h := roundTo_err (b := 2) (by norm_num) 53 x
  have e : ((2 : ℕ) : ℚ) ^ (1 - (53 : ℕ) : ℤ) / 2 = 1 / 2 ^ 53 := by norm_num
  rw [e] at h
  exact h

theorem saved_err (x : ℚ) : |saved x - x| ≤ |x| * (6 / 10 ^ 15) := by
  have h1 := written_err x
  have h2 := asDouble_err (written x)
  have h3 : |saved x - x| ≤ |saved x - written x| + |written x - x| := abs_sub_le _ _ _
  have h4 : |written x| ≤ |written x - x| + |x| := by
    have := abs_add_le (written x - x) x
    rwa [sub_add_cancel] at this
  have h5 : |saved x - written x| ≤ |written x| * (1 / 2 ^ 53) := h2
  have h6 := abs_nonneg x
  norm_num at h1 h5 ⊢
  linarith

theorem saved_zero : saved 0 = 0 := by
  unfold saved written asDouble
  rw [roundTo_zero, roundTo_zero]

/-- Numbers that are not too close remain different. -/
theorem saved_ne {x y : ℚ} (h : (|x| + |y|) * (6 / 10 ^ 15) < |x - y|) : saved x ≠ saved y := by
  intro he
  have h1 := saved_err x
  have h2 := saved_err y
  have h3 : |x - y| ≤ |x - saved x| + |saved x - y| := abs_sub_le _ _ _
  rw [abs_sub_comm x (saved x), he] at h3
  rw [he] at h1
  linarith

/-- `d` has at most `p` digits in the number system with base `b`. -/
def Digits (b p : Nat) (d : ℚ) : Prop := ∃ m k : ℤ, |m| < (b : ℤ) ^ p ∧ d = m * (b : ℚ) ^ k

theorem roundTo_digits {b : Nat} (hb : 1 < b) {p : Nat} (hp : 0 < p) (x : ℚ) : Digits b p (roundTo b p x) := by
  have hb0 : (b : ℚ) ≠ 0 := by exact_mod_cast (by omega : b ≠ 0)
  have h1 := lastPlace_pos hb p x
  have h2 := nearestInt_err (x / lastPlace b p x)
  have h3 := lt_lastPlace hb p x
  have h4 : |x / lastPlace b p x| < (b : ℚ) ^ p := by
    rw [abs_div, abs_of_pos h1, div_lt_iff₀ h1]
    exact h3
  have h5 : |(nearestInt (x / lastPlace b p x) : ℚ)| ≤
      |(nearestInt (x / lastPlace b p x) : ℚ) - x / lastPlace b p x| + |x / lastPlace b p x| := by
    have := abs_add_le ((nearestInt (x / lastPlace b p x) : ℚ) - x / lastPlace b p x) (x / lastPlace b p x)
    rwa [sub_add_cancel] at this
  have h6 : |(nearestInt (x / lastPlace b p x) : ℚ)| < (((b : ℤ) ^ p + 1 : ℤ) : ℚ) := by push_cast; linarith
  rw [← Int.cast_abs] at h6
  have h7 := Int.cast_lt.1 h6
  have e : roundTo b p x = nearestInt (x / lastPlace b p x) * (b : ℚ) ^ (Int.log b |x| + 1 - p) := rfl
  generalize nearestInt (x / lastPlace b p x) = n at *
  rcases lt_or_eq_of_le (Int.le_of_lt_add_one h7) with h | h
  · exact ⟨n, _, h, e⟩
  · obtain ⟨r, hr⟩ : (b : ℤ) ∣ n := by
      rw [← dvd_abs, h]
      exact dvd_pow_self _ (by omega)
    refine ⟨r, Int.log b |x| + 1 - p + 1, ?_, ?_⟩
    · have hb' : (0 : ℤ) < b := by exact_mod_cast (by omega : 0 < b)
      have hb2 : (1 : ℤ) < b := by exact_mod_cast hb
      rw [hr, abs_mul, abs_of_pos hb'] at h
      have hn : 0 < (b : ℤ) ^ p := pow_pos hb' _
      have hr0 : 0 < |r| := by
        by_contra hc
        have : |r| = 0 := le_antisymm (not_lt.1 hc) (abs_nonneg r)
        rw [this, mul_zero] at h
        omega
      nlinarith
    · rw [e, zpow_add_one₀ hb0, hr]
      push_cast
      ring

theorem written_decimal (x : ℚ) : Digits 10 15 (written x) := roundTo_digits (by norm_num) (by norm_num) x

theorem nearestInt_closest (q : ℚ) (n : ℤ) : |(nearestInt q : ℚ) - q| ≤ |(n : ℚ) - q| := by
  by_cases h : |(n : ℚ) - q| < 1 / 2
  · rw [nearestInt_eq h]
  · exact (nearestInt_err q).trans (not_lt.1 h)

/-- No number with `p` digits is closer. -/
theorem roundTo_closest {b : Nat} (hb : 1 < b) {p : Nat} (hp : 0 < p) (x : ℚ) {z : ℚ} (hz : Digits b p z) :
    |roundTo b p x - x| ≤ |z - x| := by
  have hb0 : (b : ℚ) ≠ 0 := by exact_mod_cast (by omega : b ≠ 0)
  have hbp : (0 : ℚ) < b := by exact_mod_cast (by omega : 0 < b)
  have hb1 : (1 : ℚ) ≤ b := by exact_mod_cast hb.le
  by_cases hx : x = 0
  · rw [hx, roundTo_zero]
    simp
  have h1 := lastPlace_pos hb p x
  -- multiples of the last place
  have key : ∀ n : ℤ, |roundTo b p x - x| ≤ |n * lastPlace b p x - x| := by
    intro n
    have e : ∀ k : ℤ, |k * lastPlace b p x - x| = |(k : ℚ) - x / lastPlace b p x| * lastPlace b p x := by
      intro k
      rw [← abs_of_pos h1, ← abs_mul, abs_of_pos h1, sub_mul, div_mul_cancel₀ _ h1.ne']
    unfold roundTo
    rw [e, e]
    exact mul_le_mul_of_nonneg_right (nearestInt_closest _ _) h1.le
  obtain ⟨m, k, hm, rfl⟩ := hz
  have hlp : lastPlace b p x = (b : ℚ) ^ (Int.log b |x| + 1 - p) := rfl
  by_cases hk : Int.log b |x| + 1 - p ≤ k
  · obtain ⟨j, hj⟩ : ∃ j : ℕ, k = Int.log b |x| + 1 - p + j := ⟨(k - (Int.log b |x| + 1 - p)).toNat, by omega⟩
    have := key (m * (b : ℤ) ^ j)
    have e : ((m * (b : ℤ) ^ j : ℤ) : ℚ) * lastPlace b p x = m * (b : ℚ) ^ k := by
      rw [hlp, hj, zpow_add₀ hb0, zpow_natCast]
      push_cast
      ring
    rwa [e] at this
  · -- then the number is smaller than the power below `x`
    have h2 := Int.zpow_log_le_self hb (abs_pos.2 hx)
    have h3 : |(m : ℚ)| ≤ (b : ℚ) ^ p := by
      rw [← Int.cast_abs]
      exact_mod_cast hm.le
    have hkp : (0 : ℚ) < (b : ℚ) ^ k := zpow_pos hbp _
    have h4 : |(m : ℚ) * (b : ℚ) ^ k| ≤ (b : ℚ) ^ Int.log b |x| := by
      rw [abs_mul, abs_of_pos hkp]
      refine (mul_le_mul_of_nonneg_right h3 hkp.le).trans ?_
      rw [← zpow_natCast, ← zpow_add₀ hb0]
      exact zpow_le_zpow_right₀ hb1 (by omega)
    have h5 : (b : ℚ) ^ Int.log b |x| = (((b : ℤ) ^ (p - 1) : ℤ) : ℚ) * lastPlace b p x := by
      rw [hlp]
      push_cast
      rw [← zpow_natCast, ← zpow_add₀ hb0]
      congr 1
      omega
    have h6 : |x| - |(m : ℚ) * (b : ℚ) ^ k| ≤ |(m : ℚ) * (b : ℚ) ^ k - x| := by
      have := abs_sub_abs_le_abs_sub x ((m : ℚ) * (b : ℚ) ^ k)
      rwa [abs_sub_comm x] at this
    rcases abs_cases x with ⟨h7, h8⟩ | ⟨h7, h8⟩
    · have := key ((b : ℤ) ^ (p - 1))
      rw [← h5, abs_sub_comm (_ ^ _) x, abs_of_nonneg (a := x - _) (by linarith)] at this
      linarith
    · have := key (-(b : ℤ) ^ (p - 1))
      rw [Int.cast_neg, neg_mul, ← h5, abs_of_nonneg (a := -_ - x) (by linarith)] at this
      linarith

/-- A decimal number with at most 15 digits is recognised from its `double`. -/
theorem written_near {d x : ℚ} (hd : Digits 10 15 d) (herr : |x - d| ≤ |d| * (1 / 2 ^ 53)) : written x = d := by
  obtain ⟨m, k, hm, hdm⟩ := hd
  push_cast at hm hdm
  by_cases h0 : d = 0
  · rw [h0] at herr ⊢
    have : x = 0 := by simpa using herr
    rw [this]
    exact roundTo_zero _ _
  have hk : (0 : ℚ) < (10 : ℚ) ^ k := zpow_pos (by norm_num) _
  have hd0 := abs_pos.2 h0
  have hxd : |d| ≤ |x - d| + |x| := by
    have := abs_add_le (d - x) x
    rwa [sub_add_cancel, abs_sub_comm] at this
  have hxd' : |x| ≤ |x - d| + |d| := by
    have := abs_add_le (x - d) d
    rwa [sub_add_cancel] at this
  have hx0 : 0 < |x| := by norm_num at herr; linarith
  set e := Int.log 10 |x| with he
  have hlo : (10 : ℚ) ^ e ≤ |x| := by
    have := Int.zpow_log_le_self (b := 10) (by norm_num) hx0
    exact_mod_cast this
  have hhi : |x| < (10 : ℚ) ^ (e + 1) := by
    have := Int.lt_zpow_succ_log_self (b := 10) (by norm_num) |x|
    exact_mod_cast this
  have hm' : |(m : ℚ)| ≤ 10 ^ 15 - 1 := by
    rw [← Int.cast_abs]
    have : |m| ≤ 10 ^ 15 - 1 := by omega
    exact_mod_cast this
  have hdabs : |d| = |(m : ℚ)| * (10 : ℚ) ^ k := by rw [hdm, abs_mul, abs_of_pos hk]
  have hE : (10 : ℚ) ^ (e + 1) = (10 : ℚ) ^ (e - 14) * 10 ^ 15 := by
    rw [← zpow_natCast (10 : ℚ) 15, ← zpow_add₀ (by norm_num)]
    congr 1
    push_cast
    ring
  -- the number is a multiple of the last place
  have hek : e - 14 ≤ k := by
    by_contra hc
    have h1 : (10 : ℚ) ^ (k + 15) ≤ (10 : ℚ) ^ e := zpow_le_zpow_right₀ (by norm_num) (by omega)
    have h2 : (10 : ℚ) ^ (k + 15) = (10 : ℚ) ^ k * 10 ^ 15 := by
      rw [zpow_add₀ (by norm_num)]
      rfl
    have h3 : |d| ≤ (10 ^ 15 - 1) * (10 : ℚ) ^ k := by
      rw [hdabs]
      exact mul_le_mul_of_nonneg_right hm' hk.le
    norm_num at herr h2 h3
    linarith
  obtain ⟨j, hj⟩ : ∃ j : ℕ, k = e - 14 + j := ⟨(k - (e - 14)).toNat, by omega⟩
  have hu : (0 : ℚ) < (10 : ℚ) ^ (e - 14) := zpow_pos (by norm_num) _
  have hlp : lastPlace 10 15 x = (10 : ℚ) ^ (e - 14) := by
    unfold lastPlace
    rw [← he]
    push_cast
    congr 1
    ring
  have hdu : d = ((m * 10 ^ j : ℤ) : ℚ) * (10 : ℚ) ^ (e - 14) := by
    rw [hdm, hj, zpow_add₀ (by norm_num), zpow_natCast]
    push_cast
    ring
  have hnear : nearestInt (x / (10 : ℚ) ^ (e - 14)) = m * 10 ^ j := by
    refine nearestInt_eq ?_
    have e1 : ((m * 10 ^ j : ℤ) : ℚ) - x / (10 : ℚ) ^ (e - 14) = (d - x) / (10 : ℚ) ^ (e - 14) := by
      rw [sub_div]
      congr 1
      rw [hdu, mul_div_cancel_right₀ _ hu.ne']
    rw [e1, abs_div, abs_of_pos hu, div_lt_iff₀ hu, abs_sub_comm]
    rw [hE] at hhi
    norm_num at herr hhi ⊢
    linarith
  unfold written roundTo
  rw [hlp, hnear, ← hdu]

theorem written_asDouble {d : ℚ} (hd : Digits 10 15 d) : written (asDouble d) = d := written_near hd (asDouble_err d)

theorem saved_asDouble {d : ℚ} (hd : Digits 10 15 d) : saved (asDouble d) = asDouble d := by
  unfold saved
  rw [written_asDouble hd]

end VG
