import Verif.Model.ElementKey
import Mathlib.Data.List.Sort
import Mathlib.Tactic.Linarith

/-!
C03 element keys identify elements exactly up to the order of their vertices, and the
comparison is a strict total order.
-/

namespace VG

theorem elementKey_perm (ids : List Int) : (elementKey ids).Perm ids :=
  List.perm_insertionSort _ _

theorem elementKey_pairwise (ids : List Int) : (elementKey ids).Pairwise (· ≤ ·) :=
  List.pairwise_insertionSort (· ≤ ·) ids

/-- C03a: two vertex lists get the same key iff one is a reordering of the other. -/
theorem C03_key_eq_iff_perm (xs ys : List Int) :
    elementKey xs = elementKey ys ↔ xs.Perm ys := by
  constructor
  · intro h
    exact ((elementKey_perm xs).symm.trans (h ▸ List.Perm.refl _)).trans (elementKey_perm ys)
  · intro h
    exact (((elementKey_perm xs).trans h).trans (elementKey_perm ys).symm).eq_of_pairwise
      (fun a b _ _ h1 h2 => le_antisymm h1 h2) (elementKey_pairwise xs) (elementKey_pairwise ys)

private theorem loop_irrefl (k : List Int) : keyLoopLt k k = false := by
  induction k with
  | nil => rfl
  | cons a k ih => simp [keyLoopLt, ih]

private theorem loop_trans : ∀ a b c : List Int, keyLoopLt a b = true → keyLoopLt b c = true →
    keyLoopLt a c = true
  | [], _, _, h, _ => by simp [keyLoopLt] at h
  | _ :: _, [], _, h, _ => by simp [keyLoopLt] at h
  | _ :: _, _ :: _, [], _, h => by simp [keyLoopLt] at h
  | x :: a, y :: b, z :: c, h1, h2 => by
    simp only [keyLoopLt] at *
    split_ifs at * with g1 g2 g3 g4 g5 g6 <;> try first | rfl | omega | contradiction
    exact loop_trans a b c h1 h2

private theorem loop_total : ∀ a b : List Int, a.length = b.length → a ≠ b →
    keyLoopLt a b = true ∨ keyLoopLt b a = true
  | [], [], _, h => (h rfl).elim
  | [], _ :: _, h, _ => by simp at h
  | _ :: _, [], h, _ => by simp at h
  | x :: a, y :: b, hl, hne => by
    simp only [keyLoopLt]
    by_cases hxy : x = y
    · subst hxy
      have : a ≠ b := fun h => hne (by rw [h])
      simpa using loop_total a b (by simpa using hl) this
    · rcases Int.lt_or_gt_of_ne hxy with h | h
      · left; rw [if_neg (by omega), if_pos h]
      · right; rw [if_neg (by omega), if_pos h]

/-- C03b: no key is less than itself. -/
theorem C03_keyLt_irrefl (k : List Int) : keyLt k k = false := by
  simp [keyLt, loop_irrefl]

/-- C03c: the comparison is transitive. -/
theorem C03_keyLt_trans (a b c : List Int) (h1 : keyLt a b = true) (h2 : keyLt b c = true) :
    keyLt a c = true := by
  unfold keyLt at *
  by_cases hab : a.length = b.length <;> by_cases hbc : b.length = c.length
  · simp [hab, hbc] at *
    exact loop_trans a b c h1 h2
  · simp [hab, hbc] at *; assumption
  · have hac : a.length ≠ c.length := by omega
    simp [hbc, hac] at *; omega
  · simp only [ne_eq, hab, not_false_eq_true, hbc, if_true, decide_eq_true_eq] at h1 h2
    have hac : a.length ≠ c.length := by omega
    simp [hac]; omega

/-- C03d: two different keys are comparable. -/
theorem C03_keyLt_total (a b : List Int) (h : a ≠ b) : keyLt a b = true ∨ keyLt b a = true := by
  unfold keyLt
  by_cases hab : a.length = b.length
  · simpa [hab] using loop_total a b hab h
  · have hba : ¬ b.length = a.length := fun h => hab h.symm
    simp only [ne_eq, hab, not_false_eq_true, if_true, hba, decide_eq_true_eq]
    omega

/-- C03: what `std::map` relies on.  Two elements are considered the same key (neither is less
than the other) iff they have the same vertex ids up to order. -/
theorem C03_map_equivalence_iff_same_vertices (xs ys : List Int) :
    (keyLt (elementKey xs) (elementKey ys) = false ∧ keyLt (elementKey ys) (elementKey xs) = false)
      ↔ xs.Perm ys := by
  rw [← C03_key_eq_iff_perm]
  constructor
  · rintro ⟨h1, h2⟩
    by_contra hne
    rcases C03_keyLt_total _ _ hne with h | h
    · rw [h1] at h; cases h
    · rw [h2] at h; cases h
  · intro h
    rw [h]
    exact ⟨C03_keyLt_irrefl _, C03_keyLt_irrefl _⟩

/-- The other constructor does not sort: keys built from an id vector (as the VTK reader does)
distinguish the same cell listed with another vertex order. -/
theorem C03_vector_key_depends_on_order :
    ∃ xs ys : List Int, xs.Perm ys ∧ keyLt (elementKeyOfVector xs) (elementKeyOfVector ys) = true :=
  ⟨[0, 1], [1, 0], by decide, by decide⟩

example : elementKey [5, 2, 9] = [2, 5, 9] := by decide
example : elementKey [5, 2, 9] = elementKey [9, 5, 2] := by decide
example : keyLt (elementKey [5, 2]) (elementKey [2, 6]) = true := by decide

end VG
