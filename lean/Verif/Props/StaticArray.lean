import Verif.Model.StaticArray
import Mathlib.Order.Defs.LinearOrder
import Mathlib.Order.Basic
import Mathlib.Data.Fin.VecNotation

/-!
C107: arrays of fixed length, in particular points, are compared by their entries from the first on, their iterators
visit every entry once, and the iterators are numbered consecutively.
-/

namespace VG
open StaticArray

variable {α : Type} {n : Nat}

/-! ### Specification -/

/-- `x` comes before `y`: at the first entry where the two differ `x` has the smaller one. -/
def StaticArray.Before [LT α] (x y : Fin n → α) : Prop := ∃ i, (∀ j < i, x j = y j) ∧ x i < y i

/-- The number of steps from one position to another, negative if one has to go back. -/
def StaticArray.steps (p q : Nat) : Int := (q : Int) - (p : Int)

/-! ### Comparison -/

theorem StaticArray.equalFrom_iff [DecidableEq α] (x y : Fin n → α) (p : Nat) :
    equalFrom x y p = true ↔ ∀ i : Fin n, p ≤ i.val → x i = y i := by
  induction hk : n - p generalizing p with
  | zero =>
    rw [equalFrom, dif_neg (by omega)]
    simp only [true_iff]
    intro i hi
    omega
  | succ k ih =>
    have hp : p < n := by omega
    rw [equalFrom, dif_pos hp]
    split
    · rename_i he
      rw [ih (p + 1) (by omega)]
      constructor
      · intro h i hi
        rcases Nat.eq_or_lt_of_le hi with h1 | h1
        · obtain rfl : i = ⟨p, hp⟩ := Fin.ext h1.symm
          exact he
        · exact h i h1
      · exact fun h i hi => h i (by omega)
    · rename_i he
      simp only [Bool.false_eq_true, false_iff]
      exact fun h => he (h ⟨p, hp⟩ le_rfl)

theorem StaticArray.lessFrom_iff [LinearOrder α] (x y : Fin n → α) (p : Nat) :
    lessFrom x y p = true ↔ ∃ i : Fin n, p ≤ i.val ∧ (∀ j : Fin n, p ≤ j.val → j < i → x j = y j) ∧ x i < y i := by
  induction hk : n - p generalizing p with
  | zero =>
    rw [lessFrom, dif_neg (by omega)]
    simp only [Bool.false_eq_true, false_iff]
    rintro ⟨i, hi, _⟩
    omega
  | succ k ih =>
    have hp : p < n := by omega
    rw [lessFrom, dif_pos hp]
    split
    · rename_i h
      simp only [true_iff]
      exact ⟨⟨p, hp⟩, le_rfl, fun j h1 h2 => absurd (Fin.lt_def.1 h2) (by simp; omega), h⟩
    · rename_i h1
      split
      · rename_i h2
        simp only [Bool.false_eq_true, false_iff]
        rintro ⟨i, hi, he, hl⟩
        rcases Nat.eq_or_lt_of_le hi with h3 | h3
        · obtain rfl : i = ⟨p, hp⟩ := Fin.ext h3.symm
          exact h1 hl
        · have := he ⟨p, hp⟩ le_rfl (Fin.lt_def.2 h3)
          rw [this] at h2
          exact lt_irrefl _ h2
      · rename_i h2
        have he0 : x ⟨p, hp⟩ = y ⟨p, hp⟩ := le_antisymm (not_lt.1 h2) (not_lt.1 h1)
        rw [ih (p + 1) (by omega)]
        constructor
        · rintro ⟨i, hi, he, hl⟩
          refine ⟨i, by omega, fun j hj hji => ?_, hl⟩
          rcases Nat.eq_or_lt_of_le hj with h3 | h3
          · obtain rfl : j = ⟨p, hp⟩ := Fin.ext h3.symm
            exact he0
          · exact he j h3 hji
        · rintro ⟨i, hi, he, hl⟩
          rcases Nat.eq_or_lt_of_le hi with h3 | h3
          · obtain rfl : i = ⟨p, hp⟩ := Fin.ext h3.symm
            exact absurd hl h1
          · exact ⟨i, h3, fun j hj hji => he j (by omega) hji, hl⟩

/-- `==` holds exactly for arrays with the same entries, `!=` for all others. -/
theorem C107_equal [DecidableEq α] (x y : Fin n → α) :
    (equal x y = true ↔ x = y) ∧ (unequal x y = true ↔ x ≠ y) := by
  have h : equal x y = true ↔ x = y := by
    rw [equal, equalFrom_iff]
    exact ⟨fun h => funext fun i => h i (Nat.zero_le _), fun h i _ => congrFun h i⟩
  refine ⟨h, ?_⟩
  rw [unequal, Bool.not_eq_true', ← Bool.not_eq_true, h]

/-- `<` and `>` compare the first entries which differ. -/
theorem C107_less [LinearOrder α] (x y : Fin n → α) :
    (less x y = true ↔ Before x y) ∧ (greater x y = true ↔ Before y x) := by
  have h : ∀ x y : Fin n → α, less x y = true ↔ Before x y := by
    intro x y
    rw [less, lessFrom_iff]
    constructor
    · rintro ⟨i, _, h1, h2⟩
      exact ⟨i, fun j hj => h1 j (Nat.zero_le _) hj, h2⟩
    · rintro ⟨i, h1, h2⟩
      exact ⟨i, Nat.zero_le _, fun j _ hj => h1 j hj, h2⟩
  exact ⟨h x y, h y x⟩

theorem StaticArray.Before.asymm [LinearOrder α] {x y : Fin n → α} (h : Before x y) : ¬ Before y x := by
  obtain ⟨i, h1, h2⟩ := h
  rintro ⟨j, h3, h4⟩
  rcases lt_trichotomy i j with h | rfl | h
  · rw [h3 i h] at h2; exact lt_irrefl _ h2
  · exact lt_asymm h2 h4
  · rw [h1 j h] at h4; exact lt_irrefl _ h4

theorem StaticArray.Before.ne [LinearOrder α] {x y : Fin n → α} (h : Before x y) : x ≠ y := by
  rintro rfl
  exact h.asymm h

theorem StaticArray.before_total [LinearOrder α] (x y : Fin n → α) (h : x ≠ y) : Before x y ∨ Before y x := by
  by_cases hx : less x y = true
  · exact Or.inl ((C107_less x y).1.1 hx)
  by_cases hy : less y x = true
  · exact Or.inr ((C107_less y x).1.1 hy)
  exfalso
  refine h (funext fun i => ?_)
  have key : ∀ k (i : Fin n), i.val < k → x i = y i := by
    intro k
    induction k with
    | zero => intro i hi; omega
    | succ k ih =>
      intro i hi
      rcases lt_trichotomy (x i) (y i) with h1 | h1 | h1
      · exact absurd ((C107_less x y).1.2 ⟨i, fun j hj => ih j (by have := Fin.lt_def.1 hj; omega), h1⟩) hx
      · exact h1
      · exact absurd ((C107_less y x).1.2 ⟨i, fun j hj => (ih j (by have := Fin.lt_def.1 hj; omega)).symm, h1⟩) hy
  exact key n i i.2

/-- The six comparisons are those of a total order: exactly one of `x < y`, `x == y`, `x > y` holds, `<` is transitive,
`<=` is "less or equal" and `>=` is "greater or equal". -/
theorem C107_order [LinearOrder α] (x y z : Fin n → α) :
    ((less x y = true ∧ equal x y = false ∧ greater x y = false)
        ∨ (less x y = false ∧ equal x y = true ∧ greater x y = false)
        ∨ (less x y = false ∧ equal x y = false ∧ greater x y = true))
      ∧ (less x y = true → less y z = true → less x z = true)
      ∧ (lessEq x y = true ↔ less x y = true ∨ equal x y = true)
      ∧ (greaterEq x y = true ↔ greater x y = true ∨ equal x y = true) := by
  have e1 := (C107_less x y).1
  have e2 := (C107_less y x).1
  have e3 := (C107_equal x y).1
  have tri : (less x y = true ∧ equal x y = false ∧ less y x = false)
        ∨ (less x y = false ∧ equal x y = true ∧ less y x = false)
        ∨ (less x y = false ∧ equal x y = false ∧ less y x = true) := by
    by_cases h : x = y
    · subst h
      refine Or.inr (Or.inl ⟨?_, e3.2 rfl, ?_⟩) <;>
        exact Bool.eq_false_iff.2 fun h => (e1.1 h).ne rfl
    · have h0 : equal x y = false := Bool.eq_false_iff.2 fun hc => h (e3.1 hc)
      rcases before_total x y h with h1 | h1
      · exact Or.inl ⟨e1.2 h1, h0, Bool.eq_false_iff.2 fun hc => h1.asymm (e2.1 hc)⟩
      · exact Or.inr (Or.inr ⟨Bool.eq_false_iff.2 fun hc => h1.asymm (e1.1 hc), h0, e2.2 h1⟩)
  refine ⟨tri, ?_, ?_, ?_⟩
  · rw [e1, (C107_less y z).1, (C107_less x z).1]
    rintro ⟨i, h1, h2⟩ ⟨j, h3, h4⟩
    rcases lt_trichotomy i j with h | rfl | h
    · exact ⟨i, fun k hk => (h1 k hk).trans (h3 k (hk.trans h)), by rw [← h3 i h]; exact h2⟩
    · exact ⟨i, fun k hk => (h1 k hk).trans (h3 k hk), h2.trans h4⟩
    · exact ⟨j, fun k hk => (h1 k (hk.trans h)).trans (h3 k hk), by rw [h1 j h]; exact h4⟩
  · unfold lessEq
    rcases tri with ⟨a, b, c⟩ | ⟨a, b, c⟩ | ⟨a, b, c⟩ <;> simp [a, b, c]
  · unfold greaterEq greater
    rcases tri with ⟨a, b, c⟩ | ⟨a, b, c⟩ | ⟨a, b, c⟩ <;> simp [a, b, c]

/-! ### Iterators -/

theorem StaticArray.move_one {p : Nat} (h : p < n) : move n p 1 = some (p + 1) := by
  unfold move
  rw [if_pos (by omega)]
  congr 1

theorem StaticArray.walk_eq (x : Fin n → α) (fuel p : Nat) (hp : p ≤ n) (hf : n - p < fuel) :
    walk x fuel p = some ((List.ofFn x).drop p) := by
  induction fuel generalizing p with
  | zero => omega
  | succ f ih =>
    rw [walk]
    split
    · rename_i h
      rw [List.drop_eq_nil_of_le (by simp; omega)]
    · rename_i h
      have hlt : p < n := by omega
      simp only [deref, dif_pos hlt, move_one hlt, Option.bind_eq_bind, Option.bind_some]
      rw [ih (p + 1) (by omega) (by omega), List.drop_eq_getElem_cons (i := p) (by simpa using hlt)]
      simp

theorem StaticArray.walkBack_eq (x : Fin n → α) (fuel p : Nat) (hp : p ≤ n) (hf : p < fuel) :
    walkBack x fuel p = some ((List.ofFn x).take p).reverse := by
  induction fuel generalizing p with
  | zero => omega
  | succ f ih =>
    rw [walkBack]
    split
    · rename_i h
      simp [h]
    · rename_i h
      obtain ⟨q, rfl⟩ : ∃ q, p = q + 1 := ⟨p - 1, by omega⟩
      have hm : moveBack n (q + 1) 1 = some q := by
        unfold moveBack
        rw [if_pos (by omega)]
        congr 1
        omega
      have hq : q < n := by omega
      simp only [hm, deref, dif_pos hq, Option.bind_eq_bind, Option.bind_some]
      rw [ih q (by omega) (by omega), List.take_succ_eq_append_getElem (by simpa using hq)]
      simp

/-- The loop from `begin()` to `end()` never leaves the array, ends, and visits every entry once, in order; the loop
from `rbegin()` to `rend()` visits them in the opposite order. -/
theorem C107_traverse (x : Fin n → α) :
    entries x = some (List.ofFn x) ∧ entriesBack x = some (List.ofFn x).reverse := by
  refine ⟨by rw [entries, walk_eq x _ _ (Nat.zero_le _) (by omega), List.drop_zero], ?_⟩
  rw [entriesBack, walkBack_eq x _ _ le_rfl (by omega), List.take_of_length_le (by simp)]

/-- Moving by `diff`: exactly the position `diff` steps away, if there is one in the array or behind its last entry;
`it - diff` goes back; the postfix operators return the iterator from before. -/
theorem C107_move {p : Nat} (diff : Int) (q : Nat) :
    (move n p diff = some q ↔ q ≤ n ∧ steps p q = diff)
      ∧ (moveBack n p diff = some q ↔ q ≤ n ∧ steps q p = diff)
      ∧ (∀ r, postIncrement n p = some (r, q) ↔ r = p ∧ q ≤ n ∧ steps p q = 1)
      ∧ (∀ r, postDecrement n p = some (r, q) ↔ r = p ∧ q ≤ n ∧ steps q p = 1) := by
  have h1 : ∀ diff : Int, move n p diff = some q ↔ q ≤ n ∧ steps p q = diff := by
    intro diff
    unfold move steps
    split
    · rw [Option.some_inj]; omega
    · simp only [reduceCtorEq, false_iff]; omega
  have h2 : ∀ diff : Int, moveBack n p diff = some q ↔ q ≤ n ∧ steps q p = diff := by
    intro diff
    unfold moveBack steps
    split
    · rw [Option.some_inj]; omega
    · simp only [reduceCtorEq, false_iff]; omega
  refine ⟨h1 diff, h2 diff, fun r => ?_, fun r => ?_⟩
  · rw [postIncrement, Option.map_eq_some_iff, ← h1 1]
    constructor
    · rintro ⟨a, ha, he⟩
      obtain ⟨rfl, rfl⟩ := Prod.mk.inj he
      exact ⟨rfl, ha⟩
    · rintro ⟨rfl, h⟩
      exact ⟨q, h, rfl⟩
  · rw [postDecrement, Option.map_eq_some_iff, ← h2 1]
    constructor
    · rintro ⟨a, ha, he⟩
      obtain ⟨rfl, rfl⟩ := Prod.mk.inj he
      exact ⟨rfl, ha⟩
    · rintro ⟨rfl, h⟩
      exact ⟨q, h, rfl⟩

theorem StaticArray.difference_toInt {p q : Nat} (hp : p < 2 ^ 63) (hq : q < 2 ^ 63) :
    toLong (difference p q) = steps q p := by
  unfold toLong difference steps
  rw [BitVec.toInt_ofInt]
  exact Int.bmod_eq_of_le (by omega) (by omega)

/-- `it + (it2 - it)` is `it2`, for all iterators of an array: the wrong sign of the difference of two iterators
disappears in the conversion to `long`. -/
theorem C107_round_trip {p q : Nat} (hn : n < 2 ^ 63) (hp : p ≤ n) (hq : q ≤ n) :
    move n p (toLong (difference q p)) = some q := by
  rw [(C107_move _ q).1]
  exact ⟨hq, (difference_toInt (by omega) (by omega)).symm⟩

/-- The property: the difference of two iterators of one array is the number of steps from the second to the first,
negative if one has to go back. -/
def StaticArray.SignedDifference (n : Nat) : Prop :=
  ∀ p q : Nat, p ≤ n → q ≤ n → ((difference q p).toNat : Int) = steps p q

/-- This holds if the second iterator does not come after the first, in particular for `end() - begin()`. -/
theorem C107_difference_partial {p q : Nat} (hn : n < 2 ^ 63) (hpq : p ≤ q) (hq : q ≤ n) :
    ((difference q p).toNat : Int) = steps p q := by
  unfold difference steps
  rw [BitVec.toNat_ofInt]
  rw [Int.toNat_of_nonneg (Int.emod_nonneg _ (by decide))]
  exact Int.emod_eq_of_lt (by omega) (by omega)

/-- In the other direction the result is never the number of steps: `begin() - end()` is a large positive number. -/
theorem C107_violated (hn : 0 < n) :
    ¬ SignedDifference n ∧ ∀ p q : Nat, q < p → 0 ≤ ((difference q p).toNat : Int) ∧ steps p q < 0 := by
  have h : ∀ p q : Nat, q < p → 0 ≤ ((difference q p).toNat : Int) ∧ steps p q < 0 := by
    intro p q hpq
    unfold steps
    omega
  refine ⟨fun hs => ?_, h⟩
  have h1 := hs n 0 le_rfl (Nat.zero_le _)
  have h2 := h n 0 hn
  omega

/-! ### Access, assignment and exchange -/

/-- `operator[]`, `at`, `front` and `back`: the entries, and no access outside of the array. -/
theorem C107_get (x : Fin n → α) :
    (∀ i a, StaticArray.get x i = some a ↔ ∃ h : i < n, x ⟨i, h⟩ = a)
      ∧ (∀ h : 0 < n, front x = some (x ⟨0, h⟩) ∧ back x = some (x ⟨n - 1, by omega⟩)) := by
  refine ⟨fun i a => ?_, fun h => ⟨?_, ?_⟩⟩
  · unfold StaticArray.get
    split
    · rename_i h
      rw [Option.some_inj]
      exact ⟨fun e => ⟨h, e⟩, fun ⟨_, e⟩ => e⟩
    · rename_i h
      simp [h]
  · unfold front StaticArray.get
    rw [dif_pos h]
  · unfold back StaticArray.get
    rw [dif_pos (by omega)]

theorem StaticArray.put_apply (x : Fin n → α) (i : Nat) (a : α) (j : Fin n) : put x i a j = if j.val = i then a else x j := rfl

theorem StaticArray.swapFrom_eq (x y : Fin n → α) (i : Nat) :
    swapFrom x y i = (fun j => if i ≤ j.val then y j else x j, fun j => if i ≤ j.val then x j else y j) := by
  induction hk : n - i generalizing i x y with
  | zero =>
    rw [swapFrom, dif_neg (by omega)]
    refine Prod.ext (funext fun j => ?_) (funext fun j => ?_) <;> simp [show ¬ i ≤ j.val by omega]
  | succ k ih =>
    have hi : i < n := by omega
    rw [swapFrom, dif_pos hi, ih _ _ _ (by omega)]
    refine Prod.ext (funext fun j => ?_) (funext fun j => ?_) <;>
      (simp only [put_apply]
       by_cases h1 : j.val = i
       · obtain rfl : j = ⟨i, hi⟩ := Fin.ext h1
         simp
       · by_cases h2 : i ≤ j.val
         · rw [if_pos (by omega), if_neg h1, if_pos h2]
         · rw [if_neg (by omega), if_neg h1, if_neg h2])

/-- `swap` exchanges the two arrays. -/
theorem C107_swap (x y : Fin n → α) : swap x y = (y, x) := by
  rw [swap, swapFrom_eq]
  rfl

theorem StaticArray.fillN_eq (x : Fin n → α) (a : α) (k i : Nat) (h : i + k ≤ n) :
    fillN x i a k = some fun j => if i ≤ j.val ∧ j.val < i + k then a else x j := by
  induction k generalizing x i with
  | zero =>
    rw [fillN]
    congr 1
    funext j
    rw [if_neg (by omega)]
  | succ k ih =>
    rw [fillN, if_pos (by omega), ih _ _ (by omega)]
    congr 1
    funext j
    rw [put_apply]
    by_cases h1 : j.val = i
    · rw [if_neg (by omega), if_pos h1, if_pos (by omega)]
    · rw [if_neg h1]
      by_cases h2 : i ≤ j.val ∧ j.val < i + (k + 1)
      · rw [if_pos (by omega), if_pos h2]
      · rw [if_neg (by omega), if_neg h2]

theorem StaticArray.copyFrom_eq {β : Type} (f : β → α) (x : Fin n → α) (rhs : Fin n → β) (i : Nat) :
    copyFrom f x rhs i = fun j => if i ≤ j.val then f (rhs j) else x j := by
  induction hk : n - i generalizing i x with
  | zero =>
    rw [copyFrom, dif_neg (by omega)]
    funext j
    rw [if_neg (by omega)]
  | succ k ih =>
    have hi : i < n := by omega
    rw [copyFrom, dif_pos hi, ih _ _ (by omega)]
    funext j
    rw [put_apply]
    by_cases h1 : j.val = i
    · obtain rfl : j = ⟨i, hi⟩ := Fin.ext h1
      simp
    · by_cases h2 : i ≤ j.val
      · rw [if_pos (by omega), if_pos h2]
      · rw [if_neg (by omega), if_neg h1, if_neg h2]

/-- `fill` and `assign` set every entry and write nowhere else; the assignment from an array with entries of another
type converts every entry; a new array has the default value everywhere. -/
theorem C107_assign {β : Type} (f : β → α) (x : Fin n → α) (rhs : Fin n → β) (a : α) :
    (∃ y, fill x a = some y ∧ ∀ i, y i = a) ∧ (∀ i, assignFrom f x rhs i = f (rhs i)) ∧ ∀ i, init n a i = a := by
  refine ⟨⟨_, fillN_eq x a n 0 (by omega), fun i => if_pos ⟨Nat.zero_le _, by omega⟩⟩, fun i => ?_, fun _ => rfl⟩
  rw [assignFrom, copyFrom_eq]
  rfl

/-! ### Examples -/

example : less (![0, 5, 1] : Fin 3 → Rat) ![0, 5, 2] = true ∧ greaterEq (![1, 0, 0] : Fin 3 → Rat) ![0, 9, 9] = true
    ∧ Before (![0, 5, 1] : Fin 3 → Rat) ![0, 5, 2] := by
  refine ⟨by decide +kernel, by decide +kernel, 2, ?_, by decide +kernel⟩
  decide +kernel

example : difference 0 3 = 0xfffffffffffffffd#64 ∧ (difference 3 0).toNat = 3
    ∧ move 3 3 (toLong (difference 0 3)) = some 0 := by decide

example : entries (![4, 5, 6] : Fin 3 → Nat) = some [4, 5, 6] ∧ entriesBack (![4, 5, 6] : Fin 3 → Nat) = some [6, 5, 4]
    ∧ move 3 2 2 = none ∧ StaticArray.get (![4, 5, 6] : Fin 3 → Nat) 3 = none := by decide

end VG
