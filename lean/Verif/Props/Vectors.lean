import Verif.Lemmas.Geometry
import Verif.Model.GeometryReal
import Mathlib.LinearAlgebra.Matrix.Determinant.Basic
import Mathlib.Algebra.Order.BigOperators.Ring.Finset
import Mathlib.Tactic.NormNum
import Mathlib.Tactic.Linarith
import Mathlib.Tactic.FinCases

/-!
C58: laws of the vector operations.  C54: `point_less` orders points.  C57: tolerant comparison of numbers.
-/

namespace VG

section Field
variable {K : Type} [Field K]

/-- The three versions of `determinant` are the determinants of the matrices with the given columns. -/
theorem C58_determinant (a1 : Fin 1 → K) (a2 b2 : Fin 2 → K) (a b c : Fin 3 → K) :
    determinant1 a1 = Matrix.det (Matrix.of fun i j : Fin 1 => (![a1] j) i)
    ∧ determinant2 a2 b2 = Matrix.det (Matrix.of fun i j : Fin 2 => (![a2, b2] j) i)
    ∧ determinant3 a b c = Matrix.det (Matrix.of fun i j : Fin 3 => (![a, b, c] j) i) := by
  refine ⟨?_, ?_, ?_⟩
  · simp [determinant1]
  · simp [determinant2, Matrix.det_fin_two]; ring
  · simp [determinant3, Matrix.det_fin_three]; ring

/-- The cross product is orthogonal to both arguments, alternating and linear in each of them, its square is given
by Lagrange's identity, and its inner product with a third vector is the determinant. -/
theorem C58_cross (a b c : Fin 3 → K) (r s : K) :
    (∑ i, a i * crossProd a b i) = 0 ∧ (∑ i, b i * crossProd a b i) = 0
    ∧ (∀ i, crossProd a a i = 0) ∧ (∀ i, crossProd b a i = -crossProd a b i)
    ∧ (∀ i, crossProd (fun j => r * a j + s * b j) c i = r * crossProd a c i + s * crossProd b c i)
    ∧ (∑ i, crossProd a b i ^ 2) = (∑ i, a i ^ 2) * (∑ i, b i ^ 2) - (∑ i, a i * b i) ^ 2
    ∧ innerProd a (crossProd b c) = Matrix.det (Matrix.of fun i j : Fin 3 => (![a, b, c] j) i) := by
  refine ⟨?_, ?_, ?_, ?_, ?_, ?_, ?_⟩
  · simp only [Fin.sum_univ_three, crossProd_zero, crossProd_one, crossProd_two]; ring
  · simp only [Fin.sum_univ_three, crossProd_zero, crossProd_one, crossProd_two]; ring
  · intro i; fin_cases i <;> simp <;> ring
  · intro i; fin_cases i <;> simp <;> ring
  · intro i; fin_cases i <;> simp <;> ring
  · simp only [Fin.sum_univ_three, crossProd_zero, crossProd_one, crossProd_two]; ring
  · simp [innerProd3, Matrix.det_fin_three]; ring

/-- The inner product is symmetric and linear in each argument. -/
theorem C58_inner {d : Nat} (a b c : Fin d → K) (r s : K) :
    innerProd a b = innerProd b a
    ∧ innerProd (fun i => r * a i + s * b i) c = r * innerProd a c + s * innerProd b c := by
  refine ⟨innerProd_comm a b, ?_⟩
  have : (fun i => r * a i + s * b i) = r • a + s • b := by funext i; simp
  rw [this, innerProd_add_left, innerProd_smul_left, innerProd_smul_left]

end Field

section Ordered
variable {K : Type} [Field K] [LinearOrder K] [IsStrictOrderedRing K] {d : Nat}

/-- The inner product is positive definite and satisfies the inequality of Cauchy and Schwarz. -/
theorem C58_inner_definite (a b : Fin d → K) :
    0 ≤ innerProd a a ∧ (innerProd a a = 0 ↔ ∀ i, a i = 0)
    ∧ innerProd a b ^ 2 ≤ innerProd a a * innerProd b b := by
  refine ⟨innerProd_self_nonneg a, ?_, ?_⟩
  · rw [innerProd_self_eq_zero]; exact ⟨fun h i => by rw [h]; rfl, fun h => funext h⟩
  · have := Finset.sum_mul_sq_le_sq_mul_sq (R := K) Finset.univ a b
    simpa [innerProd, pow_two] using this

/-- The normal vector of a line is orthogonal to it, as long as it, and to its left. -/
theorem C58_normal_line (p0 p1 : Fin 2 → K) (h : p0 ≠ p1) :
    (∑ i, normalLine p0 p1 i * (p1 i - p0 i)) = 0
    ∧ (∑ i, normalLine p0 p1 i ^ 2) = ∑ i, (p1 i - p0 i) ^ 2
    ∧ 0 < Matrix.det (Matrix.of fun i j : Fin 2 => (![p1 - p0, normalLine p0 p1] j) i) := by
  refine ⟨?_, ?_, ?_⟩
  · simp [normalLine, Fin.sum_univ_two]; ring
  · simp [normalLine, Fin.sum_univ_two]; ring
  · have := innerProd_self_pos (p1 - p0) (sub_ne_zero.2 h.symm)
    rw [innerProd2] at this
    simp only [Pi.sub_apply] at this
    simp only [normalLine, Matrix.det_fin_two, Matrix.of_apply, Matrix.cons_val_zero, Matrix.cons_val_one,
      Pi.sub_apply]
    linarith

/-- The normal vector of a triangle is orthogonal to its edges and not zero unless the corners are on one line;
with the edges it forms a right-handed system. -/
theorem C58_normal_triangle (p0 p1 p2 : Fin 3 → K) :
    (∑ i, normalTriangle p0 p1 p2 i * (p1 i - p0 i)) = 0
    ∧ (∑ i, normalTriangle p0 p1 p2 i * (p2 i - p0 i)) = 0
    ∧ (∑ i, normalTriangle p0 p1 p2 i * (p2 i - p1 i)) = 0
    ∧ ((∀ i, normalTriangle p0 p1 p2 i = 0) ↔
        p1 = p0 ∨ ∃ t : K, ∀ i, p2 i = p0 i + t * (p1 i - p0 i))
    ∧ Matrix.det (Matrix.of fun i j : Fin 3 => (![p1 - p0, p2 - p0, normalTriangle p0 p1 p2] j) i)
        = ∑ i, normalTriangle p0 p1 p2 i ^ 2 := by
  refine ⟨?_, ?_, ?_, ?_, ?_⟩
  · simp [normalTriangle, Fin.sum_univ_three]; ring
  · simp [normalTriangle, Fin.sum_univ_three]; ring
  · simp [normalTriangle, Fin.sum_univ_three]; ring
  · constructor
    · intro h
      by_cases e : p1 = p0
      · exact Or.inl e
      · right
        have hp := innerProd_self_pos (p1 - p0) (sub_ne_zero.2 e)
        refine ⟨innerProd (p2 - p0) (p1 - p0) / innerProd (p1 - p0) (p1 - p0), fun i => ?_⟩
        have h0 := h 0; have h1 := h 1; have h2 := h 2
        simp only [normalTriangle, crossProd_zero, crossProd_one, crossProd_two, Pi.sub_apply] at h0 h1 h2
        rw [div_mul_eq_mul_div, ← sub_eq_iff_eq_add', eq_div_iff hp.ne']
        simp only [innerProd3, Pi.sub_apply]
        fin_cases i <;> simp only [Fin.isValue, Fin.mk_zero, Fin.mk_one, Fin.reduceFinMk]
        · linear_combination (-(p1 1 - p0 1)) * h2 + (p1 2 - p0 2) * h1
        · linear_combination (p1 0 - p0 0) * h2 - (p1 2 - p0 2) * h0
        · linear_combination (p1 1 - p0 1) * h0 - (p1 0 - p0 0) * h1
    · rintro (e | ⟨t, ht⟩) i
      · subst e; fin_cases i <;> simp [normalTriangle]
      · fin_cases i <;> simp [normalTriangle, ht] <;> ring
  · simp [normalTriangle, Matrix.det_fin_three, Fin.sum_univ_three]; ring

/-- The sum norm and the maximum norm: positive unless zero, homogeneous, subadditive. -/
theorem C58_norm1 (a b : Fin d → K) (r : K) :
    0 ≤ norm1 a ∧ (norm1 a = 0 ↔ ∀ i, a i = 0)
    ∧ norm1 (fun i => r * a i) = |r| * norm1 a ∧ norm1 (fun i => a i + b i) ≤ norm1 a + norm1 b := by
  simp only [norm1_eq]
  refine ⟨Finset.sum_nonneg fun i _ => abs_nonneg _, ?_, ?_, ?_⟩
  · rw [Finset.sum_eq_zero_iff_of_nonneg (fun i _ => abs_nonneg _)]; simp
  · simp only [abs_mul, Finset.mul_sum]
  · rw [← Finset.sum_add_distrib]
    exact Finset.sum_le_sum fun i _ => abs_add_le _ _

theorem maxLoop_spec {K : Type} [LinearOrder K] {α : Type} (f : α → K) (l : List α) (r : K) :
    r ≤ l.foldl (fun r i => if f i > r then f i else r) r
    ∧ (∀ i ∈ l, f i ≤ l.foldl (fun r i => if f i > r then f i else r) r)
    ∧ (l.foldl (fun r i => if f i > r then f i else r) r = r
        ∨ ∃ i ∈ l, l.foldl (fun r i => if f i > r then f i else r) r = f i) := by
  induction l generalizing r with
  | nil => simp
  | cons a l ih =>
    simp only [List.foldl_cons]
    obtain ⟨h1, h2, h3⟩ := ih (if f a > r then f a else r)
    split at h1
    · rename_i hgt
      simp only [hgt, if_true] at h2 h3 ⊢
      refine ⟨hgt.le.trans h1, ?_, ?_⟩
      · intro i hi
        rcases List.mem_cons.1 hi with rfl | hi
        · exact h1
        · exact h2 i hi
      · rcases h3 with h3 | ⟨i, hi, h3⟩
        · exact Or.inr ⟨a, List.mem_cons_self, h3⟩
        · exact Or.inr ⟨i, List.mem_cons_of_mem _ hi, h3⟩
    · rename_i hgt
      simp only [hgt, if_false] at h2 h3 ⊢
      refine ⟨h1, ?_, ?_⟩
      · intro i hi
        rcases List.mem_cons.1 hi with rfl | hi
        · exact (not_lt.1 hgt).trans h1
        · exact h2 i hi
      · rcases h3 with h3 | ⟨i, hi, h3⟩
        · exact Or.inl h3
        · exact Or.inr ⟨i, List.mem_cons_of_mem _ hi, h3⟩

/-- `norm_inf` is the largest absolute value of a coordinate, and a norm. -/
theorem C58_normInf (a b : Fin d → K) (r : K) :
    (∀ i, |a i| ≤ normInf a) ∧ (0 < d → ∃ i, normInf a = |a i|) ∧ 0 ≤ normInf a
    ∧ (normInf a = 0 ↔ ∀ i, a i = 0)
    ∧ normInf (fun i => r * a i) = |r| * normInf a ∧ normInf (fun i => a i + b i) ≤ normInf a + normInf b := by
  have spec : ∀ a : Fin d → K, (∀ i, |a i| ≤ normInf a) ∧ (0 < d → ∃ i, normInf a = |a i|) ∧ 0 ≤ normInf a := by
    intro a
    obtain ⟨h1, h2, h3⟩ := maxLoop_spec (fun i => |a i|) (List.finRange d) 0
    refine ⟨fun i => h2 i (List.mem_finRange i), fun hd => ?_, h1⟩
    rcases h3 with h3 | ⟨i, -, h3⟩
    · refine ⟨⟨0, hd⟩, le_antisymm ?_ (h2 _ (List.mem_finRange _))⟩
      exact (show normInf a = 0 from h3).le.trans (abs_nonneg _)
    · exact ⟨i, h3⟩
  obtain ⟨ha1, ha2, ha3⟩ := spec a
  obtain ⟨hb1, hb2, hb3⟩ := spec b
  have low : ∀ (c : Fin d → K) (x : K), 0 ≤ x → (∀ i, |c i| ≤ x) → normInf c ≤ x := by
    intro c x hx h
    rcases Nat.eq_zero_or_pos d with rfl | hd
    · have : normInf c = 0 := by simp [normInf]
      rw [this]; exact hx
    · obtain ⟨i, hi⟩ := (spec c).2.1 hd
      rw [hi]; exact h i
  refine ⟨ha1, ha2, ha3, ?_, ?_, ?_⟩
  · constructor
    · intro h i
      exact abs_eq_zero.1 (le_antisymm (h ▸ ha1 i) (abs_nonneg _))
    · intro h
      exact le_antisymm (low a 0 (_root_.le_refl 0) (fun i => by rw [h i]; simp)) ha3
  · apply le_antisymm
    · refine low _ _ (mul_nonneg (abs_nonneg _) ha3) fun i => ?_
      rw [abs_mul]; exact mul_le_mul_of_nonneg_left (ha1 i) (abs_nonneg _)
    · rcases Nat.eq_zero_or_pos d with rfl | hd
      · simp [normInf]
      · obtain ⟨i, hi⟩ := ha2 hd
        rw [hi, ← abs_mul]
        exact (spec fun i => r * a i).1 i
  · refine low _ _ (add_nonneg ha3 hb3) fun i => ?_
    exact (abs_add_le _ _).trans (add_le_add (ha1 i) (hb1 i))

end Ordered

/-- `norm_2` is the square root of the sum of the squares, a norm, and lies between the other two. -/
theorem C58_norm2 {d : Nat} (a b : Fin d → ℝ) (r : ℝ) :
    0 ≤ euclNorm a ∧ euclNorm a ^ 2 = ∑ i, a i ^ 2 ∧ (euclNorm a = 0 ↔ ∀ i, a i = 0)
    ∧ euclNorm (fun i => r * a i) = |r| * euclNorm a ∧ euclNorm (fun i => a i + b i) ≤ euclNorm a + euclNorm b
    ∧ normInf a ≤ euclNorm a ∧ euclNorm a ≤ norm1 a := by
  have hsq : ∀ a : Fin d → ℝ, euclNorm a ^ 2 = innerProd a a := by
    intro a; rw [euclNorm, sumSquares_eq, Real.sq_sqrt (innerProd_self_nonneg a)]
  have h0 : ∀ a : Fin d → ℝ, 0 ≤ euclNorm a := fun a => Real.sqrt_nonneg _
  have le_of_sq : ∀ x y : ℝ, 0 ≤ y → x ^ 2 ≤ y ^ 2 → x ≤ y := fun x y hy h => by
    by_contra hc; push Not at hc; nlinarith
  refine ⟨h0 a, ?_, ?_, ?_, ?_, ?_, ?_⟩
  · rw [hsq]; simp [innerProd, pow_two]
  · constructor
    · intro h
      have : innerProd a a = 0 := by rw [← hsq, h]; ring
      have := (innerProd_self_eq_zero a).1 this
      intro i; rw [this]; rfl
    · intro h
      have : a = 0 := funext h
      rw [euclNorm, sumSquares_eq, this, innerProd_zero_left, Real.sqrt_zero]
  · have e : (fun i => r * a i) = r • a := by funext i; simp
    rw [euclNorm, sumSquares_eq, e, innerProd_smul_left, innerProd_smul_right, ← mul_assoc,
      Real.sqrt_mul (mul_self_nonneg r), Real.sqrt_mul_self_eq_abs, euclNorm, sumSquares_eq]
  · apply le_of_sq _ _ (add_nonneg (h0 a) (h0 b))
    have e : (fun i => a i + b i) = a + b := rfl
    have cs : innerProd a b ≤ euclNorm a * euclNorm b := by
      apply le_of_sq _ _ (mul_nonneg (h0 a) (h0 b))
      rw [mul_pow, hsq, hsq]
      exact (C58_inner_definite a b).2.2
    rw [hsq, e, innerProd_add_left, innerProd_add_right, innerProd_add_right, innerProd_comm b a]
    have := hsq a; have := hsq b
    nlinarith
  · obtain ⟨_, h2, h3, _⟩ := C58_normInf a a 1
    rcases Nat.eq_zero_or_pos d with rfl | hd
    · simpa [normInf] using h0 a
    · obtain ⟨i, hi⟩ := h2 hd
      apply le_of_sq _ _ (h0 a)
      rw [hi, hsq, sq_abs, innerProd, pow_two]
      exact Finset.single_le_sum (f := fun i => a i * a i) (fun i _ => mul_self_nonneg (a i)) (Finset.mem_univ i)
  · apply le_of_sq _ _ (C58_norm1 a a 1).1
    rw [hsq, norm1_eq, innerProd, pow_two, Finset.sum_mul_sum]
    refine Finset.sum_le_sum fun i _ => ?_
    have := Finset.single_le_sum (f := fun j => |a i| * |a j|) (fun j _ => mul_nonneg (abs_nonneg _) (abs_nonneg _))
      (Finset.mem_univ i)
    rw [← abs_mul_abs_self (a i)]
    exact this

/-- Instances: a triangle with a normal vector, a line with its normal vector, vectors with all three norms. -/
example : normalTriangle (![0, 0, 0] : Fin 3 → Rat) ![2, 0, 0] ![0, 3, 0] = ![0, 0, 6] := by decide +kernel
example : normalLine (![1, 1] : Fin 2 → Rat) ![4, 3] = ![-2, 3] := by decide +kernel
example : norm1 (![3, -4, 0] : Fin 3 → Rat) = 7 ∧ normInf (![3, -4, 0] : Fin 3 → Rat) = 4
    ∧ sumSquares (![3, -4, 0] : Fin 3 → Rat) = 25 := by decide +kernel

/-! ### C54 -/

section Order
variable {K : Type} [LinearOrder K]

/-- What `point_less` means: at the first coordinate in which the points differ, the first point is smaller. -/
def FirstSmaller (d : Nat) (p q : Nat → K) : Prop := ∃ i, i < d ∧ p i < q i ∧ ∀ j, j < i → p j = q j

theorem pointLessFrom_spec (p q : Nat → K) (n i : Nat) :
    pointLessFrom p q i n = true ↔ ∃ k, i ≤ k ∧ k < i + n ∧ p k < q k ∧ ∀ j, i ≤ j → j < k → p j = q j := by
  induction n generalizing i with
  | zero =>
    simp only [pointLessFrom, Nat.add_zero, Bool.false_eq_true, false_iff]
    rintro ⟨k, h1, h2, _⟩; omega
  | succ n ih =>
    rw [pointLessFrom]
    split
    · rename_i h
      exact ⟨fun _ => ⟨i, Nat.le_refl i, by omega, h, fun j h1 h2 => by omega⟩, fun _ => rfl⟩
    · rename_i h
      split
      · rename_i h'
        simp only [Bool.false_eq_true, false_iff]
        rintro ⟨k, h1, h2, h3, h4⟩
        rcases Nat.eq_or_lt_of_le h1 with rfl | hlt
        · exact h h3
        · exact absurd (h4 i (Nat.le_refl i) hlt) (ne_of_gt h')
      · rename_i h'
        have e : p i = q i := le_antisymm (not_lt.1 h') (not_lt.1 h)
        rw [ih]
        constructor
        · rintro ⟨k, h1, h2, h3, h4⟩
          refine ⟨k, by omega, by omega, h3, fun j hj1 hj2 => ?_⟩
          rcases Nat.eq_or_lt_of_le hj1 with rfl | hlt
          · exact e
          · exact h4 j hlt hj2
        · rintro ⟨k, h1, h2, h3, h4⟩
          have hk : i ≠ k := by rintro rfl; exact h h3
          exact ⟨k, by omega, by omega, h3, fun j hj1 hj2 => h4 j (by omega) hj2⟩

theorem C54_meaning (d : Nat) (p q : Nat → K) : pointLess d p q = true ↔ FirstSmaller d p q := by
  rw [pointLess, pointLessFrom_spec]
  constructor
  · rintro ⟨k, _, h2, h3, h4⟩; exact ⟨k, by omega, h3, fun j hj => h4 j (Nat.zero_le j) hj⟩
  · rintro ⟨k, h2, h3, h4⟩; exact ⟨k, Nat.zero_le k, by omega, h3, fun j _ hj => h4 j hj⟩

/-- `point_less` is a strict order of the points of one dimension in which only equal points are not comparable. -/
theorem C54_strict_total (d : Nat) (p q r : Nat → K) :
    pointLess d p p = false
    ∧ (pointLess d p q = true → pointLess d q r = true → pointLess d p r = true)
    ∧ (pointLess d p q = true → pointLess d q p = false)
    ∧ ((pointLess d p q = false ∧ pointLess d q p = false) ↔ ∀ i, i < d → p i = q i) := by
  have irr : ∀ p : Nat → K, pointLess d p p = false := by
    intro p
    rw [Bool.eq_false_iff]
    intro h
    obtain ⟨i, _, h, _⟩ := (C54_meaning d p p).1 h
    exact lt_irrefl _ h
  have trans : ∀ p q r : Nat → K, pointLess d p q = true → pointLess d q r = true → pointLess d p r = true := by
    intro p q r h1 h2
    obtain ⟨i, hi, hl, he⟩ := (C54_meaning d p q).1 h1
    obtain ⟨j, hj, kl, ke⟩ := (C54_meaning d q r).1 h2
    rw [C54_meaning]
    rcases Nat.lt_trichotomy i j with h | h | h
    · exact ⟨i, hi, (ke i h) ▸ hl, fun k hk => (he k hk).trans (ke k (by omega))⟩
    · subst h; exact ⟨i, hi, hl.trans kl, fun k hk => (he k hk).trans (ke k hk)⟩
    · exact ⟨j, hj, (he j h) ▸ kl, fun k hk => (he k (by omega)).trans (ke k hk)⟩
  refine ⟨irr p, trans p q r, ?_, ?_⟩
  · intro h
    rw [Bool.eq_false_iff]
    intro h'
    have := trans p q p h h'
    rw [irr p] at this
    exact Bool.noConfusion this
  · constructor
    · rintro ⟨h1, h2⟩
      by_contra hc
      push Not at hc
      have : ∃ i, i < d ∧ p i ≠ q i := hc
      classical
      let i := Nat.find this
      obtain ⟨hi, hne⟩ := Nat.find_spec this
      have heq : ∀ j, j < i → p j = q j := fun j hj => by
        have h' := Nat.find_min this hj
        by_contra hh
        exact h' ⟨by omega, hh⟩
      rcases lt_or_gt_of_ne hne with h | h
      · have : pointLess d p q = true := (C54_meaning d p q).2 ⟨i, hi, h, heq⟩
        rw [h1] at this; exact Bool.noConfusion this
      · have : pointLess d q p = true := (C54_meaning d q p).2 ⟨i, hi, h, fun j hj => (heq j hj).symm⟩
        rw [h2] at this; exact Bool.noConfusion this
    · intro h
      constructor <;> rw [Bool.eq_false_iff] <;> intro h'
      · obtain ⟨i, hi, hl, _⟩ := (C54_meaning d p q).1 h'
        rw [h i hi] at hl; exact lt_irrefl _ hl
      · obtain ⟨i, hi, hl, _⟩ := (C54_meaning d q p).1 h'
        rw [h i hi] at hl; exact lt_irrefl _ hl

example : pointLess 3 (fun i => [1, 2, 5].getD i (0 : Rat)) (fun i => [1, 3, 0].getD i 0) = true := by decide +kernel

end Order

/-! ### C57 -/

section Tolerant
variable {K : Type} [Field K] [LinearOrder K] [IsStrictOrderedRing K]

/-- `is_equal` is not symmetric: with tolerance 1/10 the numbers 100 and 90.5 are equal, 90.5 and 100 are not; and
it is not reflexive: with tolerance zero no number equals itself. -/
theorem C57_violated :
    (numIsEqual (1 / 10 : Rat) 100 (181 / 2) = true ∧ numIsEqual (1 / 10 : Rat) (181 / 2) 100 = false)
    ∧ ∀ a : Rat, numIsEqual 0 a a = false := by
  refine ⟨by decide +kernel, fun a => ?_⟩
  simp [numIsEqual]

/-- With a tolerance that is not zero each number equals itself. -/
theorem C57_reflexive_partial (eps a : K) (h : eps ≠ 0) : numIsEqual eps a a = true := by
  simp only [numIsEqual, sub_self, abs_zero, decide_eq_true_eq]
  exact lt_max_of_lt_right (abs_pos.2 h)

/-- The answer is the same in both orders for numbers not greater than one, where the tolerance is absolute;
and in general if it holds for the smaller number first. -/
theorem C57_symmetric_partial (eps a b : K) (he : 0 ≤ eps) :
    ((a ≤ 1 ∧ b ≤ 1) → numIsEqual eps a b = numIsEqual eps b a)
    ∧ (a ≤ b → numIsEqual eps a b = true → numIsEqual eps b a = true) := by
  have habs : |eps| = eps := abs_of_nonneg he
  constructor
  · rintro ⟨ha, hb⟩
    have h1 : max (eps * a) |eps| = eps := by rw [habs]; exact max_eq_right (mul_le_of_le_one_right he ha)
    have h2 : max (eps * b) |eps| = eps := by rw [habs]; exact max_eq_right (mul_le_of_le_one_right he hb)
    simp only [numIsEqual, h1, h2, abs_sub_comm a b]
  · intro hab h
    simp only [numIsEqual, decide_eq_true_eq] at h ⊢
    rw [abs_sub_comm] at h
    refine lt_of_lt_of_le h (max_le_max (mul_le_mul_of_nonneg_left hab he) (_root_.le_refl _))

example : numIsEqual (1 / 10 : Rat) (1 / 2) (11 / 20) = true := by decide +kernel

end Tolerant

end VG
