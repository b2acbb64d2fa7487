import Verif.Model.Typelist
import Mathlib.Data.List.Basic
import Mathlib.Data.List.Count
import Mathlib.Data.List.Nodup
import Mathlib.Data.List.Perm.Basic
import Mathlib.Data.List.Induction

/-!
C94: the metafunctions on typelists are the list operations their names say.
C95: typemaps behave as maps, and the query of configurations follows the path of tags.

The specifications use lists of the standard library, positions (`l = a ++ x :: b` with `a.length = i`), membership and
counts only.
-/

namespace VG

variable {α β : Type} [DecidableEq α]

/-! ### Typelists -/

omit [DecidableEq α] in
/-- C94: `size` is the number of types. -/
theorem C94_size (l : List α) : tlSize l = l.length := by
  induction l with
  | nil => rfl
  | cons h t ih => rw [tlSize, ih, List.length_cons]; omega

omit [DecidableEq α] in
/-- C94: `at` is the type at the index, and `out_of_range` for all other indices. -/
theorem C94_at (l : List α) (i : Int) (x : α) :
    tlAt l i = some x ↔ ∃ a b, l = a ++ x :: b ∧ (a.length : Int) = i := by
  induction l generalizing i with
  | nil => simp [tlAt]
  | cons h t ih =>
    rw [tlAt]
    split
    · rename_i hi
      subst hi
      constructor
      · intro e
        simp only [Option.some.injEq] at e
        exact ⟨[], t, by rw [e]; rfl, rfl⟩
      · rintro ⟨a, b, e, ha⟩
        have : a = [] := List.length_eq_zero_iff.1 (by omega)
        subst this
        simp only [List.nil_append, List.cons.injEq] at e
        rw [e.1]
    · rename_i hi
      rw [ih]
      constructor
      · rintro ⟨a, b, e, ha⟩
        exact ⟨h :: a, b, by rw [e]; rfl, by rw [List.length_cons]; omega⟩
      · rintro ⟨a, b, e, ha⟩
        cases a with
        | nil => exact absurd ha.symm (by simpa using hi)
        | cons a0 a =>
          simp only [List.cons_append, List.cons.injEq] at e
          exact ⟨a, b, e.2, by rw [List.length_cons] at ha; omega⟩

/-- C94: `index_of` is the index of the first occurrence, and -1 for types which do not occur. -/
theorem C94_index_of (l : List α) (x : α) (i : Int) :
    tlIndexOf l x = i ↔ (∃ a b, l = a ++ x :: b ∧ x ∉ a ∧ (a.length : Int) = i) ∨ (x ∉ l ∧ i = -1) := by
  have key : ∀ l : List α, (∃ a b, l = a ++ x :: b ∧ x ∉ a ∧ (a.length : Int) = tlIndexOf l x) ∨
      (x ∉ l ∧ tlIndexOf l x = -1) := by
    intro l
    induction l with
    | nil => exact Or.inr ⟨by simp, rfl⟩
    | cons h t ih =>
      rw [tlIndexOf]
      split
      · rename_i hx
        exact Or.inl ⟨[], t, by rw [hx]; rfl, by simp, rfl⟩
      · rename_i hx
        rcases ih with ⟨a, b, e, ha, hi⟩ | ⟨h1, h2⟩
        · refine Or.inl ⟨h :: a, b, by rw [e]; rfl, by simp [Ne.symm hx, ha], ?_⟩
          rw [if_neg (by omega), List.length_cons]
          omega
        · exact Or.inr ⟨by simp [Ne.symm hx, h1], by rw [if_pos h2]⟩
  constructor
  · intro e
    subst e
    exact key l
  · rintro (⟨a, b, e, ha, hi⟩ | ⟨h1, h2⟩)
    · rcases key l with ⟨a', b', e', ha', hi'⟩ | ⟨h1, _⟩
      · rw [← hi', ← hi]
        rw [e] at e'
        have h1 : (a ++ x :: b).idxOf x = a.length := by
          rw [List.idxOf_append_of_notMem ha]; simp
        have h2 : (a' ++ x :: b').idxOf x = a'.length := by
          rw [List.idxOf_append_of_notMem ha']; simp
        rw [← h1, ← h2, e']
      · exact absurd (by rw [e]; simp) h1
    · rcases key l with ⟨a', b', e', _⟩ | ⟨_, h3⟩
      · exact absurd (by rw [e']; simp) h1
      · rw [h3, h2]

omit [DecidableEq α] in
/-- C94: `push_back` adds the type at the end. -/
theorem C94_push_back (l : List α) (x : α) : tlPushBack l x = l ++ [x] := by
  induction l with
  | nil => rfl
  | cons h t ih => rw [tlPushBack, ih]; rfl

omit [DecidableEq α] in
/-- C94: `push_back_list` concatenates. -/
theorem C94_push_back_list (l m : List α) : tlPushBackList l m = l ++ m := by
  induction m generalizing l with
  | nil => cases l <;> simp [tlPushBackList]
  | cons x m ih =>
    cases l with
    | nil => simp [tlPushBackList]
    | cons h t => rw [tlPushBackList, ih, C94_push_back]; simp

omit [DecidableEq α] in
/-- C94: `erase_at` removes the type at the index and no other. -/
theorem C94_erase_at (a b : List α) (x : α) : tlEraseAt (a ++ x :: b) a.length = a ++ b := by
  induction a with
  | nil => simp [tlEraseAt]
  | cons h t ih =>
    rw [List.cons_append, tlEraseAt, if_neg (by rw [List.length_cons]; omega), List.length_cons]
    rw [show ((t.length + 1 : Nat) : Int) - 1 = t.length by omega, ih]
    rfl

omit [DecidableEq α] in
/-- C94: `erase_at` with an index outside of the list changes nothing. -/
theorem C94_erase_at_outside (l : List α) (i : Int) (h : i < 0 ∨ (l.length : Int) ≤ i) : tlEraseAt l i = l := by
  induction l generalizing i with
  | nil => rfl
  | cons x t ih =>
    rw [List.length_cons] at h
    rw [tlEraseAt, if_neg (by omega), ih _ (by omega)]

/-- C94: `erase` removes the first occurrence of the type and no other. -/
theorem C94_erase (a b : List α) (x : α) (h : x ∉ a) : tlErase (a ++ x :: b) x = a ++ b := by
  induction a with
  | nil => simp [tlErase]
  | cons y t ih =>
    have h' := List.mem_cons.not.1 h
    rw [List.cons_append, tlErase, if_neg (fun e => h' (Or.inl e.symm)), ih (fun e => h' (Or.inr e))]
    rfl

/-- C94: `erase` of a type which does not occur changes nothing. -/
theorem C94_erase_absent (l : List α) (x : α) (h : x ∉ l) : tlErase l x = l := by
  induction l with
  | nil => rfl
  | cons y t ih =>
    have h' := List.mem_cons.not.1 h
    rw [tlErase, if_neg (fun e => h' (Or.inl e.symm)), ih (fun e => h' (Or.inr e))]

/-- C94: `erase_all` removes all occurrences of the type, and keeps the other types in their order. -/
theorem C94_erase_all (l : List α) (x : α) : tlEraseAll l x = l.filter (fun y => y ≠ x) := by
  induction l with
  | nil => rfl
  | cons y t ih =>
    rw [tlEraseAll, ih]
    by_cases h : y = x <;> simp [h]

omit [DecidableEq α] in
/-- C94: `reverse` reverses (in particular no `out_of_range` is in the result). -/
theorem C94_reverse (l : List α) : tlReverse l = l.reverse.map some := by
  unfold tlReverse
  induction l using List.reverseRecOn with
  | nil => rfl
  | append_singleton l x ih =>
    have hs : tlSize (l ++ [x]) - 1 = l.length := by
      rw [C94_size, List.length_append, List.length_singleton]; omega
    have ha : tlAt (l ++ [x]) (tlSize (l ++ [x]) - 1) = some x := by
      rw [hs]
      exact (C94_at _ _ _).2 ⟨l, [], rfl, rfl⟩
    have he : tlEraseAt (l ++ [x]) (tlSize (l ++ [x]) - 1) = l := by
      rw [hs, C94_erase_at, List.append_nil]
    have step : ∀ (n : Nat) (m : List α), m ≠ [] →
        tlReverseN (n + 1) m = tlAt m (tlSize m - 1) :: tlReverseN n (tlEraseAt m (tlSize m - 1)) := by
      intro n m hm
      cases m with
      | nil => exact absurd rfl hm
      | cons y t => rfl
    rw [List.length_append, List.length_singleton, step _ _ (by simp), ha, he, ih]
    simp

theorem tlErase_eq (l : List α) (x : α) : tlErase l x = l.erase x := by
  by_cases h : x ∈ l
  · obtain ⟨a, b, e, ha⟩ := List.eq_append_cons_of_mem h
    rw [e, C94_erase a b x ha, List.erase_append_right _ ha, List.erase_cons_head]
  · rw [C94_erase_absent l x h, List.erase_of_not_mem h]

theorem idxOf_erase_lt {l : List α} {h x y : α} (hx : x ≠ h) (hy : y ≠ h) :
    (l.erase h).idxOf x < (l.erase h).idxOf y ↔ l.idxOf x < l.idxOf y := by
  induction l with
  | nil => simp
  | cons z t ih =>
    by_cases hz : z = h
    · subst hz
      rw [List.erase_cons_head, List.idxOf_cons_ne _ (Ne.symm hx), List.idxOf_cons_ne _ (Ne.symm hy)]
      omega
    · rw [List.erase_cons_tail (by simpa using hz)]
      by_cases zx : z = x
      · subst zx
        by_cases zy : z = y
        · subst zy; simp
        · rw [List.idxOf_cons_self, List.idxOf_cons_self, List.idxOf_cons_ne _ zy, List.idxOf_cons_ne _ zy]
          omega
      · by_cases zy : z = y
        · subst zy; simp
        · rw [List.idxOf_cons_ne _ zx, List.idxOf_cons_ne _ zy, List.idxOf_cons_ne _ zx, List.idxOf_cons_ne _ zy]
          omega

/-- C94: `no_duplicates` has the same types, each once, in the order of their first occurrences. -/
theorem C94_no_duplicates (l : List α) :
    (tlNoDuplicates l).Nodup ∧ (∀ x, x ∈ tlNoDuplicates l ↔ x ∈ l) ∧
      ∀ x ∈ l, ∀ y ∈ l, ((tlNoDuplicates l).idxOf x < (tlNoDuplicates l).idxOf y ↔ l.idxOf x < l.idxOf y) := by
  induction l with
  | nil => exact ⟨List.nodup_nil, fun _ => Iff.rfl, fun x hx => absurd hx (by simp)⟩
  | cons h t ih =>
    obtain ⟨h1, h2, h3⟩ := ih
    rw [tlNoDuplicates, tlErase_eq]
    have hm : ∀ x, x ∈ (tlNoDuplicates t).erase h ↔ x ≠ h ∧ x ∈ t := by
      intro x
      rw [h1.mem_erase_iff, h2]
    refine ⟨List.nodup_cons.2 ⟨fun e => ((hm h).1 e).1 rfl, h1.erase h⟩, fun x => ?_, fun x hx y hy => ?_⟩
    · rw [List.mem_cons, List.mem_cons, hm]
      by_cases e : x = h <;> simp [e]
    · by_cases hxh : h = x
      · subst hxh
        by_cases hyh : h = y
        · subst hyh; simp
        · simp only [List.idxOf_cons_self, List.idxOf_cons_ne _ hyh]
          omega
      · by_cases hyh : h = y
        · subst hyh; simp
        · simp only [List.idxOf_cons_ne _ hxh, List.idxOf_cons_ne _ hyh]
          have hx' : x ∈ t := (List.mem_cons.1 hx).resolve_left (Ne.symm hxh)
          have hy' : y ∈ t := (List.mem_cons.1 hy).resolve_left (Ne.symm hyh)
          have := h3 x hx' y hy'
          have := idxOf_erase_lt (l := tlNoDuplicates t) (Ne.symm hxh) (Ne.symm hyh)
          omega

omit [DecidableEq α] in
/-- C94: `replace_at` replaces the type at the index and no other. -/
theorem C94_replace_at (a b : List α) (x y : α) : tlReplaceAt (a ++ x :: b) a.length y = a ++ y :: b := by
  induction a with
  | nil => simp [tlReplaceAt]
  | cons h t ih =>
    rw [List.cons_append, tlReplaceAt, if_neg (by omega), if_neg (by rw [List.length_cons]; omega), List.length_cons,
      show ((t.length + 1 : Nat) : Int) - 1 = t.length by omega, ih]
    rfl

omit [DecidableEq α] in
/-- C94: `replace_at` with an index outside of the list changes nothing, except for -1. -/
theorem C94_replace_at_outside_partial (l : List α) (i : Int) (y : α) (h : i < -1 ∨ (l.length : Int) ≤ i) :
    tlReplaceAt l i y = l := by
  induction l generalizing i with
  | nil => rfl
  | cons x t ih =>
    rw [List.length_cons] at h
    rw [tlReplaceAt, if_neg (by omega), if_neg (by omega), ih _ (by omega)]

/-- C94, violated: with the index -1, the result of `index_of` for types which do not occur, `replace_at` loses the whole
list, although `erase_at` with this index and `replace` of such a type change nothing. -/
theorem C94_violated_replace_at :
    ∃ (l : List Nat) (x y : Nat), tlIndexOf l x = -1 ∧ tlEraseAt l (-1) = l ∧ tlReplace l x y = l ∧
      l ≠ [] ∧ tlReplaceAt l (tlIndexOf l x) y = [] :=
  ⟨[1, 2], 3, 4, by decide, by decide, by decide, by decide, by decide⟩

/-- C94: `replace` replaces the first occurrence and no other. -/
theorem C94_replace (a b : List α) (x y : α) (h : x ∉ a) : tlReplace (a ++ x :: b) x y = a ++ y :: b := by
  induction a with
  | nil => simp [tlReplace]
  | cons z t ih =>
    have h' := List.mem_cons.not.1 h
    rw [List.cons_append, tlReplace, if_neg (fun e => h' (Or.inl e.symm)), ih (fun e => h' (Or.inr e))]
    rfl

/-- C94: `replace` of a type which does not occur changes nothing. -/
theorem C94_replace_absent (l : List α) (x y : α) (h : x ∉ l) : tlReplace l x y = l := by
  induction l with
  | nil => rfl
  | cons z t ih =>
    have h' := List.mem_cons.not.1 h
    rw [tlReplace, if_neg (fun e => h' (Or.inl e.symm)), ih (fun e => h' (Or.inr e))]

/-- C94: `replace_all` replaces all occurrences and no other types. -/
theorem C94_replace_all (l : List α) (x y : α) : tlReplaceAll l x y = l.map (fun z => if z = x then y else z) := by
  induction l with
  | nil => rfl
  | cons z t ih =>
    rw [tlReplaceAll, ih]
    by_cases h : z = x <;> simp [h]

/-- C94: `intersection` keeps of the first list, in its order, the types which are in both, as often as they are in
both. -/
theorem C94_intersection (l m : List α) :
    (tlIntersection l m).Sublist l ∧ ∀ x, (tlIntersection l m).count x = min (l.count x) (m.count x) := by
  induction l generalizing m with
  | nil => exact ⟨by simp [tlIntersection], fun x => by simp [tlIntersection]⟩
  | cons h t ih =>
    cases m with
    | nil => exact ⟨by simp [tlIntersection], fun x => by simp [tlIntersection]⟩
    | cons x0 m =>
      generalize hm : x0 :: m = mm
      have hun : tlIntersection (h :: t) mm =
          if 0 ≤ tlIndexOf mm h then h :: tlIntersection t (tlEraseAt mm (tlIndexOf mm h)) else tlIntersection t mm := by
        subst hm; rw [tlIntersection]
      rw [hun]
      rcases (C94_index_of mm h _).1 rfl with ⟨a, b, e, ha, hi⟩ | ⟨hn, hi⟩
      · rw [if_pos (by omega), ← hi]
        have he : tlEraseAt mm (a.length : Int) = a ++ b := by rw [e, C94_erase_at]
        rw [he]
        refine ⟨(ih _).1.cons_cons h, fun x => ?_⟩
        rw [List.count_cons, (ih _).2, List.count_cons, e, List.count_append, List.count_append, List.count_cons]
        split <;> omega
      · rw [if_neg (by omega)]
        refine ⟨(ih _).1.cons h, fun x => ?_⟩
        rw [(ih _).2, List.count_cons]
        by_cases hx : h = x
        · subst hx
          rw [List.count_eq_zero_of_not_mem hn]
          omega
        · simp [hx]

example : tlReverse [1, 2, 3] = [some 3, some 2, some 1] ∧ tlNoDuplicates [1, 2, 1, 3, 2] = [1, 2, 3] ∧
    tlIntersection [1, 2, 1, 3] [3, 1, 4] = [1, 3] ∧ tlIndexOf [5, 7, 7] 7 = 1 ∧ tlErase [5, 7, 7] 7 = [5, 7] := by
  decide

end VG
