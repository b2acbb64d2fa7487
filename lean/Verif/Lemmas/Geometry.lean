import Verif.Model.Geometry
import Mathlib.Tactic.Ring
import Mathlib.Tactic.LinearCombination
import Mathlib.Tactic.Positivity
import Mathlib.Algebra.Order.BigOperators.Group.Finset
import Mathlib.Algebra.BigOperators.Ring.Finset

/-! Rules for the inner product and the folds of the norms. -/

namespace VG

section Field
variable {K : Type} [Field K] {d : Nat}

theorem innerProd_comm (a b : Fin d → K) : innerProd a b = innerProd b a :=
  Finset.sum_congr rfl fun i _ => mul_comm (a i) (b i)

theorem innerProd_add_left (a b c : Fin d → K) : innerProd (a + b) c = innerProd a c + innerProd b c := by
  simp only [innerProd, Pi.add_apply, add_mul, Finset.sum_add_distrib]

theorem innerProd_add_right (a b c : Fin d → K) : innerProd a (b + c) = innerProd a b + innerProd a c := by
  simp only [innerProd, Pi.add_apply, mul_add, Finset.sum_add_distrib]

theorem innerProd_sub_left (a b c : Fin d → K) : innerProd (a - b) c = innerProd a c - innerProd b c := by
  simp only [innerProd, Pi.sub_apply, sub_mul, Finset.sum_sub_distrib]

theorem innerProd_sub_right (a b c : Fin d → K) : innerProd a (b - c) = innerProd a b - innerProd a c := by
  simp only [innerProd, Pi.sub_apply, mul_sub, Finset.sum_sub_distrib]

theorem innerProd_smul_left (r : K) (a b : Fin d → K) : innerProd (r • a) b = r * innerProd a b := by
  simp only [innerProd, Pi.smul_apply, smul_eq_mul, Finset.mul_sum, mul_assoc]

theorem innerProd_smul_right (r : K) (a b : Fin d → K) : innerProd a (r • b) = r * innerProd a b := by
  rw [innerProd_comm, innerProd_smul_left, innerProd_comm]

theorem innerProd_zero_left (b : Fin d → K) : innerProd 0 b = 0 := by simp [innerProd]

theorem innerProd_zero_right (b : Fin d → K) : innerProd b 0 = 0 := by simp [innerProd]

theorem innerProd_neg_left (a b : Fin d → K) : innerProd (-a) b = -innerProd a b := by
  simp [innerProd]

theorem innerProd_neg_right (a b : Fin d → K) : innerProd a (-b) = -innerProd a b := by
  simp [innerProd]

theorem innerProd2 (a b : Fin 2 → K) : innerProd a b = a 0 * b 0 + a 1 * b 1 := by
  simp [innerProd, Fin.sum_univ_two]

theorem innerProd3 (a b : Fin 3 → K) : innerProd a b = a 0 * b 0 + a 1 * b 1 + a 2 * b 2 := by
  simp [innerProd, Fin.sum_univ_three]

@[simp] theorem crossProd_zero (a b : Fin 3 → K) : crossProd a b 0 = a 1 * b 2 - a 2 * b 1 := rfl
@[simp] theorem crossProd_one (a b : Fin 3 → K) : crossProd a b 1 = a 2 * b 0 - a 0 * b 2 := rfl
@[simp] theorem crossProd_two (a b : Fin 3 → K) : crossProd a b 2 = a 0 * b 1 - a 1 * b 0 := rfl

theorem foldl_add_sum {α : Type} (f : α → K) (l : List α) (r : K) :
    l.foldl (fun r i => r + f i) r = r + (l.map f).sum := by
  induction l generalizing r with
  | nil => simp
  | cons a l ih => simp only [List.foldl_cons, List.map_cons, List.sum_cons, ih]; ring

theorem finRange_sum (f : Fin d → K) : ((List.finRange d).map f).sum = ∑ i, f i := by
  rw [← List.sum_ofFn, List.ofFn_eq_map]

theorem sumSquares_eq (p : Fin d → K) : sumSquares p = innerProd p p := by
  rw [sumSquares, foldl_add_sum, finRange_sum, zero_add, innerProd]

end Field

section Ordered
variable {K : Type} [Field K] [LinearOrder K] {d : Nat}

theorem norm1_eq (p : Fin d → K) : norm1 p = ∑ i, |p i| := by
  rw [norm1, foldl_add_sum, finRange_sum, zero_add]

variable [IsStrictOrderedRing K]

theorem innerProd_self_nonneg (a : Fin d → K) : 0 ≤ innerProd a a :=
  Finset.sum_nonneg fun i _ => mul_self_nonneg (a i)

theorem innerProd_self_eq_zero (a : Fin d → K) : innerProd a a = 0 ↔ a = 0 := by
  constructor
  · intro h
    have := (Finset.sum_eq_zero_iff_of_nonneg (fun i _ => mul_self_nonneg (a i))).1 h
    funext i
    exact mul_self_eq_zero.1 (this i (Finset.mem_univ i))
  · rintro rfl; exact innerProd_zero_left 0

theorem innerProd_self_pos (a : Fin d → K) (h : a ≠ 0) : 0 < innerProd a a :=
  lt_of_le_of_ne (innerProd_self_nonneg a) fun e => h ((innerProd_self_eq_zero a).1 e.symm)

end Ordered

end VG
