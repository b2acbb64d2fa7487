import Verif.Props.Typelist
import Mathlib.Data.List.Nodup

/-!
C95: typemaps behave as maps (of distinct keys), and the query of configurations follows the path of tags.

The specification: the entry of a key is the pair with this key in the list; keys are distinct.
-/

namespace VG

variable {α β : Type} [DecidableEq α]

/-- A map: no two entries have the same key. -/
def KeysDistinct (m : List (α × β)) : Prop := (m.map (·.1)).Nodup

/-! ### Auxiliary lemmas -/

theorem tmFind_none {m : List (α × β)} {k : α} : tmFind m k = none ↔ k ∉ m.map (·.1) := by
  induction m with
  | nil => simp [tmFind]
  | cons p t ih =>
    rw [tmFind]
    by_cases h : p.1 = k
    · simp [h]
    · rw [if_neg h, ih]
      simp [Ne.symm h]

theorem tmFind_some {m : List (α × β)} {k : α} {p : α × β} :
    tmFind m k = some p → p ∈ m ∧ p.1 = k := by
  induction m with
  | nil => simp [tmFind]
  | cons q t ih =>
    rw [tmFind]
    by_cases h : q.1 = k
    · rw [if_pos h]
      intro e
      cases e
      exact ⟨by simp, h⟩
    · rw [if_neg h]
      intro e
      exact ⟨List.mem_cons_of_mem _ (ih e).1, (ih e).2⟩

omit [DecidableEq α] in
theorem entry_unique {m : List (α × β)} (hm : KeysDistinct m) {p q : α × β} (hp : p ∈ m) (hq : q ∈ m)
    (h : p.1 = q.1) : p = q :=
  List.inj_on_of_nodup_map hm hp hq h

/-- The three outcomes of the search: position of the key, or -1. -/
theorem tmIndexOf_cases (m : List (α × β)) (k : α) :
    (∃ a q b, m = a ++ q :: b ∧ q.1 = k ∧ k ∉ a.map (·.1) ∧ tmIndexOf m k = a.length) ∨
      (k ∉ m.map (·.1) ∧ tmIndexOf m k = -1) := by
  induction m with
  | nil => exact Or.inr ⟨by simp, rfl⟩
  | cons p t ih =>
    rw [tmIndexOf]
    by_cases h : p.1 = k
    · rw [if_pos h]
      exact Or.inl ⟨[], p, t, rfl, h, by simp, rfl⟩
    · rw [if_neg h]
      rcases ih with ⟨a, q, b, e, hq, ha, hi⟩ | ⟨h1, h2⟩
      · refine Or.inl ⟨p :: a, q, b, by rw [e]; rfl, hq, ?_, ?_⟩
        · simpa [Ne.symm h] using ha
        · rw [hi, if_neg (by omega), List.length_cons]
          omega
      · exact Or.inr ⟨by simpa [Ne.symm h] using h1, by rw [if_pos h2]⟩

omit [DecidableEq α] in
theorem tmPushBack_eq (m : List (α × β)) (p : α × β) : tmPushBack m p = m ++ [p] := by
  induction m with
  | nil => rfl
  | cons h t ih => rw [tmPushBack, ih]; rfl

omit [DecidableEq α] in
theorem tmReplaceAt_eq (a b : List (α × β)) (q p : α × β) : tmReplaceAt (a ++ q :: b) a.length p = a ++ p :: b := by
  induction a with
  | nil => simp [tmReplaceAt]
  | cons h t ih =>
    rw [List.cons_append, tmReplaceAt, if_neg (by omega), if_neg (by rw [List.length_cons]; omega), List.length_cons,
      show ((t.length + 1 : Nat) : Int) - 1 = t.length by omega, ih]
    rfl

omit [DecidableEq α] in
theorem tmEraseAt_eq (a b : List (α × β)) (q : α × β) : tmEraseAt (a ++ q :: b) a.length = a ++ b := by
  induction a with
  | nil => simp [tmEraseAt]
  | cons h t ih =>
    rw [List.cons_append, tmEraseAt, if_neg (by rw [List.length_cons]; omega), List.length_cons,
      show ((t.length + 1 : Nat) : Int) - 1 = t.length by omega, ih]
    rfl

omit [DecidableEq α] in
theorem mem_replaced {a b : List (α × β)} {q p : α × β} (hm : KeysDistinct (a ++ q :: b)) (hq : q.1 = p.1) (e : α × β) :
    e ∈ a ++ p :: b ↔ e = p ∨ (e ∈ a ++ q :: b ∧ e.1 ≠ p.1) := by
  have hd : q.1 ∉ a.map (·.1) ∧ q.1 ∉ b.map (·.1) := by
    unfold KeysDistinct at hm
    rw [List.map_append, List.map_cons, List.nodup_middle, List.nodup_cons, List.mem_append] at hm
    exact ⟨fun h => hm.1 (Or.inl h), fun h => hm.1 (Or.inr h)⟩
  simp only [List.mem_append, List.mem_cons]
  constructor
  · rintro (h | h | h)
    · exact Or.inr ⟨Or.inl h, fun e' => hd.1 (by rw [hq, ← e']; exact List.mem_map_of_mem h)⟩
    · exact Or.inl h
    · exact Or.inr ⟨Or.inr (Or.inr h), fun e' => hd.2 (by rw [hq, ← e']; exact List.mem_map_of_mem h)⟩
  · rintro (h | ⟨h | h | h, h'⟩)
    · exact Or.inr (Or.inl h)
    · exact Or.inl h
    · exact absurd (by rw [h, hq]) h'
    · exact Or.inr (Or.inr h)

/-! ### Theorems -/

/-- C95: `lookup` of a key is the value of its entry, and `not_found` iff there is none. -/
theorem C95_lookup (m : List (α × β)) (hm : KeysDistinct m) (k : α) :
    (∀ v, tmLookup m k = some v ↔ (k, v) ∈ m) ∧ (tmLookup m k = none ↔ k ∉ m.map (·.1)) := by
  refine ⟨fun v => ?_, by rw [tmLookup, Option.map_eq_none_iff, tmFind_none]⟩
  unfold tmLookup
  cases hf : tmFind m k with
  | none =>
    have := tmFind_none.1 hf
    simp only [Option.map_none, reduceCtorEq, false_iff]
    exact fun h => this (List.mem_map_of_mem (f := (·.1)) h)
  | some p =>
    obtain ⟨h1, h2⟩ := tmFind_some hf
    simp only [Option.map_some, Option.some.injEq]
    constructor
    · intro e
      rw [← h2, ← e]
      exact h1
    · intro h
      rw [entry_unique hm h1 h h2]

/-- C95: `insert` compiles iff the key is not present, and appends the entry; the keys stay distinct. -/
theorem C95_insert (m : List (α × β)) (hm : KeysDistinct m) (p : α × β) :
    (p.1 ∉ m.map (·.1) → tmInsert m p = some (m ++ [p]) ∧ KeysDistinct (m ++ [p])) ∧
      (p.1 ∈ m.map (·.1) → tmInsert m p = none) := by
  have hun : tmInsert m p = if p.1 ∉ m.map (·.1) then some (m ++ [p]) else none := by
    cases m with
    | nil => simp [tmInsert]
    | cons h t => simp only [tmInsert, tmFind_none, tmPushBack_eq]
  rw [hun]
  refine ⟨fun h => ⟨if_pos h, ?_⟩, fun h => if_neg (fun h' => h' h)⟩
  unfold KeysDistinct at *
  rw [List.map_append, List.nodup_append]
  refine ⟨hm, by simp, fun a ha b hb => ?_⟩
  simp only [List.map_cons, List.map_nil, List.mem_singleton] at hb
  intro e
  exact h (by rw [← hb, ← e]; exact ha)

/-- C95: `modify` compiles iff the key is present; it keeps the keys in their order and changes the value of this key
only. -/
theorem C95_modify (m : List (α × β)) (hm : KeysDistinct m) (p : α × β) :
    (p.1 ∈ m.map (·.1) → ∃ m', tmModify m p = some m' ∧ m'.map (·.1) = m.map (·.1) ∧
        ∀ e, e ∈ m' ↔ e = p ∨ (e ∈ m ∧ e.1 ≠ p.1)) ∧
      (p.1 ∉ m.map (·.1) → tmModify m p = none) := by
  have hun : tmModify m p = if tmIndexOf m p.1 ≠ -1 then some (tmReplaceAt m (tmIndexOf m p.1) p) else none := by
    cases m with
    | nil => simp [tmModify, tmIndexOf]
    | cons h t => rfl
  rw [hun]
  rcases tmIndexOf_cases m p.1 with ⟨a, q, b, e, hq, ha, hi⟩ | ⟨h1, h2⟩
  · constructor
    · intro _
      rw [if_pos (by omega), hi]
      subst e
      rw [tmReplaceAt_eq]
      exact ⟨_, rfl, by simp [hq], fun e => mem_replaced hm hq e⟩
    · intro h
      exact absurd (by rw [e]; simp [hq]) h
  · exact ⟨fun h => absurd h h1, fun _ => by rw [h2]; rfl⟩

/-- C95: `insert_or_modify` sets the value of the key and no other; the keys stay distinct and in their order, a new key
comes last. -/
theorem C95_insert_or_modify (m : List (α × β)) (hm : KeysDistinct m) (p : α × β) :
    (∀ e, e ∈ tmInsertOrModify m p ↔ e = p ∨ (e ∈ m ∧ e.1 ≠ p.1)) ∧ KeysDistinct (tmInsertOrModify m p) ∧
      (tmInsertOrModify m p).map (·.1) = if p.1 ∈ m.map (·.1) then m.map (·.1) else m.map (·.1) ++ [p.1] := by
  have hun : tmInsertOrModify m p =
      if tmIndexOf m p.1 = -1 then m ++ [p] else tmReplaceAt m (tmIndexOf m p.1) p := by
    cases m with
    | nil => simp [tmInsertOrModify, tmIndexOf]
    | cons h t => simp only [tmInsertOrModify, tmPushBack_eq]
  rw [hun]
  rcases tmIndexOf_cases m p.1 with ⟨a, q, b, e, hq, ha, hi⟩ | ⟨h1, h2⟩
  · rw [if_neg (by omega), hi]
    subst e
    rw [tmReplaceAt_eq, if_pos (by simp [hq])]
    have hk : (a ++ p :: b).map (·.1) = (a ++ q :: b).map (·.1) := by simp [hq]
    exact ⟨fun e => mem_replaced hm hq e, by unfold KeysDistinct; rw [hk]; exact hm, hk⟩
  · rw [if_pos h2, if_neg h1]
    refine ⟨fun e => ?_, ((C95_insert m hm p).1 h1).2, by simp⟩
    rw [List.mem_append, List.mem_singleton]
    constructor
    · rintro (h | h)
      · exact Or.inr ⟨h, fun e' => h1 (by rw [← e']; exact List.mem_map_of_mem h)⟩
      · exact Or.inl h
    · rintro (h | h)
      · exact Or.inr h
      · exact Or.inl h.1

/-- C95: `erase` of a key compiles iff the key is present or the map is empty; it removes the entry of the key and keeps
the others in their order. -/
theorem C95_erase (m : List (α × β)) (hm : KeysDistinct m) (k : α) :
    (k ∈ m.map (·.1) ∨ m = [] → tmErase m k = some (m.filter (fun e => e.1 ≠ k))) ∧
      (k ∉ m.map (·.1) → m ≠ [] → tmErase m k = none) := by
  cases m with
  | nil => exact ⟨fun _ => rfl, fun _ h => absurd rfl h⟩
  | cons p0 t =>
    generalize hmm : p0 :: t = m at *
    have hun : tmErase m k = if tmIndexOf m k ≠ -1 then some (tmEraseAt m (tmIndexOf m k)) else none := by
      subst hmm; rfl
    rw [hun]
    rcases tmIndexOf_cases m k with ⟨a, q, b, e, hq, ha, hi⟩ | ⟨h1, h2⟩
    · constructor
      · intro _
        rw [if_pos (by omega), hi]
        clear hmm hun hi
        subst e
        rw [tmEraseAt_eq]
        have hd : q.1 ∉ b.map (·.1) := by
          unfold KeysDistinct at hm
          rw [List.map_append, List.map_cons, List.nodup_middle, List.nodup_cons, List.mem_append] at hm
          exact fun h => hm.1 (Or.inr h)
        have fa : a.filter (fun e => e.1 ≠ k) = a :=
          List.filter_eq_self.2 fun e he => by
            simp only [decide_eq_true_eq]
            exact fun e' => ha (by rw [← e']; exact List.mem_map_of_mem he)
        have fb : b.filter (fun e => e.1 ≠ k) = b :=
          List.filter_eq_self.2 fun e he => by
            simp only [decide_eq_true_eq]
            exact fun e' => hd (by rw [hq, ← e']; exact List.mem_map_of_mem he)
        rw [List.filter_append, List.filter_cons_of_neg (by simp [hq]), fa, fb]
      · intro h
        exact absurd (by rw [e]; simp [hq]) h
    · refine ⟨fun h => ?_, fun _ _ => by rw [h2]; rfl⟩
      rcases h with h | h
      · exact absurd h h1
      · rw [← hmm] at h
        exact absurd h (by simp)

/-- What a merge gives for a key in both maps: nothing compiles, the first, or the second entry. -/
def MergedEntry (mode : MergeMode) (m l : List (α × β)) (e : α × β) : Prop :=
  match mode with
  | .error | .ignore => e ∈ m ∨ (e ∈ l ∧ e.1 ∉ m.map (·.1))
  | .overwrite => e ∈ l ∨ (e ∈ m ∧ e.1 ∉ l.map (·.1))

theorem tmMerge_nil (mode : MergeMode) (m : List (α × β)) : tmMerge mode m [] = some m := by
  cases m <;> rw [tmMerge]

theorem tmMerge_cons (mode : MergeMode) {m : List (α × β)} (hm : m ≠ []) (p : α × β) (l : List (α × β)) :
    tmMerge mode m (p :: l) = match mergeHelper mode p (tmFind m p.1) with
      | none => none
      | some q => tmMerge mode (tmInsertOrModify m q) l := by
  cases m with
  | nil => exact absurd rfl hm
  | cons h t => rw [tmMerge]; rfl

theorem insertOrModify_self {m : List (α × β)} (hm : KeysDistinct m) {q : α × β} (hq : q ∈ m) (e : α × β) :
    e ∈ tmInsertOrModify m q ↔ e ∈ m := by
  rw [(C95_insert_or_modify m hm q).1]
  constructor
  · rintro (h | h)
    · rw [h]; exact hq
    · exact h.1
  · intro h
    by_cases hk : e.1 = q.1
    · exact Or.inl (entry_unique hm h hq hk)
    · exact Or.inr ⟨h, hk⟩

/-- C95: `merge` compiles iff the maps have no key in common, `merge_ignore` and `merge_overwrite` always; the result has
the entries of both maps, where for common keys `merge_ignore` takes the value of the first map and `merge_overwrite`
that of the second; its keys are distinct. -/
theorem C95_merge (mode : MergeMode) (m l : List (α × β)) (hm : KeysDistinct m) (hl : KeysDistinct l) :
    ((mode = .error → ∀ k ∈ m.map (·.1), k ∉ l.map (·.1)) → ∃ r, tmMerge mode m l = some r ∧ KeysDistinct r ∧
        ∀ e, e ∈ r ↔ MergedEntry mode m l e) ∧
      ((∃ k ∈ m.map (·.1), k ∈ l.map (·.1)) → mode = .error → tmMerge mode m l = none) := by
  induction l generalizing m with
  | nil =>
    refine ⟨fun _ => ⟨m, tmMerge_nil mode m, hm, fun e => ?_⟩, fun ⟨k, _, h⟩ => absurd h (by simp)⟩
    cases mode <;> simp [MergedEntry]
  | cons p l ih =>
    have hl' : p.1 ∉ l.map (·.1) ∧ KeysDistinct l := List.nodup_cons.1 hl
    by_cases hne : m = []
    · subst hne
      refine ⟨fun _ => ⟨p :: l, by rw [tmMerge], hl, fun e => ?_⟩, fun ⟨k, h, _⟩ => absurd h (by simp)⟩
      cases mode <;> simp [MergedEntry]
    rw [tmMerge_cons mode hne]
    cases hf : tmFind m p.1 with
    | none =>
      have hp := tmFind_none.1 hf
      have hh : mergeHelper mode p none = some p := by cases mode <;> rfl
      rw [hh]
      obtain ⟨i1, i2, i3⟩ := C95_insert_or_modify m hm p
      rw [if_neg hp] at i3
      have ih' := ih (tmInsertOrModify m p) i2 hl'.2
      constructor
      · intro hc
        obtain ⟨r, r1, r2, r3⟩ := ih'.1 (fun e k hk hkl => by
          rw [i3, List.mem_append, List.mem_singleton] at hk
          rcases hk with hk | hk
          · exact hc e k hk (List.mem_cons_of_mem _ hkl)
          · exact hl'.1 (by rw [← hk]; exact hkl))
        refine ⟨r, r1, r2, fun e => ?_⟩
        rw [r3]
        have hpe : ∀ e, e ∈ m → e.1 ≠ p.1 := fun e he h => hp (by rw [← h]; exact List.mem_map_of_mem he)
        have hpl : ∀ e, e ∈ l → e.1 ≠ p.1 := fun e he h => hl'.1 (by rw [← h]; exact List.mem_map_of_mem he)
        have h1 := hpe e
        have h2 := hpl e
        cases mode
        case overwrite =>
          simp only [MergedEntry, i1, List.mem_cons, List.map_cons]
          constructor
          · rintro (h | ⟨h | h, h'⟩)
            · exact Or.inl (Or.inr h)
            · exact Or.inl (Or.inl h)
            · exact Or.inr ⟨h.1, fun e' => e'.elim h.2 h'⟩
          · rintro ((h | h) | ⟨h, h'⟩)
            · exact Or.inr ⟨Or.inl h, by rw [h]; exact hl'.1⟩
            · exact Or.inl h
            · exact Or.inr ⟨Or.inr ⟨h, fun e' => h' (Or.inl e')⟩, fun e' => h' (Or.inr e')⟩
        all_goals
          simp only [MergedEntry, i1, i3, List.mem_append, List.mem_cons, List.not_mem_nil, or_false]
          constructor
          · rintro ((h | h) | ⟨h, h'⟩)
            · exact Or.inr ⟨Or.inl h, by rw [h]; exact hp⟩
            · exact Or.inl h.1
            · exact Or.inr ⟨Or.inr h, fun e' => h' (Or.inl e')⟩
          · rintro (h | ⟨h | h, h'⟩)
            · exact Or.inl (Or.inr ⟨h, h1 h⟩)
            · exact Or.inl (Or.inl h)
            · exact Or.inr ⟨h, fun e' => e'.elim h' (h2 h)⟩
      · rintro ⟨k, h1, h2⟩ hmode
        refine ih'.2 ⟨k, ?_, ?_⟩ hmode
        · rw [i3]; exact List.mem_append_left _ h1
        · rw [List.map_cons, List.mem_cons] at h2
          exact h2.resolve_left (fun e => hp (by rw [← e]; exact h1))
    | some q =>
      obtain ⟨hq, hqk⟩ := tmFind_some hf
      have hpm : p.1 ∈ m.map (·.1) := by rw [← hqk]; exact List.mem_map_of_mem hq
      have hpl : ∀ e, e ∈ l → e.1 ≠ p.1 := fun e he h => hl'.1 (by rw [← h]; exact List.mem_map_of_mem he)
      cases mode with
      | error =>
        exact ⟨fun hc => absurd (by simp) (hc rfl p.1 hpm), fun _ _ => rfl⟩
      | ignore =>
        refine ⟨fun _ => ?_, fun _ h => absurd h (by simp)⟩
        obtain ⟨i1, i2, i3⟩ := C95_insert_or_modify m hm q
        rw [if_pos (List.mem_map_of_mem hq)] at i3
        obtain ⟨r, r1, r2, r3⟩ := (ih (tmInsertOrModify m q) i2 hl'.2).1 (fun h => absurd h (by simp))
        refine ⟨r, r1, r2, fun e => ?_⟩
        rw [r3]
        simp only [MergedEntry, insertOrModify_self hm hq, i3, List.mem_cons]
        constructor
        · rintro (h | h)
          · exact Or.inl h
          · exact Or.inr ⟨Or.inr h.1, h.2⟩
        · rintro (h | ⟨h | h, h'⟩)
          · exact Or.inl h
          · exact absurd (by rw [h]; exact hpm) h'
          · exact Or.inr ⟨h, h'⟩
      | overwrite =>
        refine ⟨fun _ => ?_, fun _ h => absurd h (by simp)⟩
        obtain ⟨i1, i2, i3⟩ := C95_insert_or_modify m hm p
        rw [if_pos hpm] at i3
        obtain ⟨r, r1, r2, r3⟩ := (ih (tmInsertOrModify m p) i2 hl'.2).1 (fun h => absurd h (by simp))
        refine ⟨r, r1, r2, fun e => ?_⟩
        rw [r3]
        simp only [MergedEntry, i1, List.mem_cons, List.map_cons]
        constructor
        · rintro (h | ⟨h | h, h'⟩)
          · exact Or.inl (Or.inr h)
          · exact Or.inl (Or.inl h)
          · exact Or.inr ⟨h.1, fun e' => e'.elim h.2 h'⟩
        · rintro ((h | h) | ⟨h, h'⟩)
          · exact Or.inr ⟨Or.inl h, by rw [h]; exact hl'.1⟩
          · exact Or.inl h
          · exact Or.inr ⟨Or.inr ⟨h, fun e' => h' (Or.inl e')⟩, fun e' => h' (Or.inr e')⟩

/-- C95: `consistency` compiles iff the keys are distinct, and leaves the map as it is. -/
theorem C95_consistency (m : List (α × β)) :
    (KeysDistinct m → tmConsistency m = some m) ∧ (¬KeysDistinct m → tmConsistency m = none) := by
  unfold KeysDistinct
  induction m with
  | nil => exact ⟨fun _ => rfl, fun h => absurd List.nodup_nil h⟩
  | cons p t ih =>
    rw [tmConsistency]
    simp only [tmFind_none, List.map_cons, List.nodup_cons]
    constructor
    · rintro ⟨h1, h2⟩
      rw [if_pos h1, ih.1 h2]
      rfl
    · intro h
      by_cases h1 : p.1 ∉ t.map (·.1)
      · rw [if_pos h1, ih.2 (fun h2 => h ⟨h1, h2⟩)]
        rfl
      · rw [if_neg h1]

omit [DecidableEq α] in
/-- C95: `key_typelist` is the list of the keys. -/
theorem C95_keys (m : List (α × β)) : tmKeys m = m.map (·.1) := by
  induction m with
  | nil => rfl
  | cons p t ih => rw [tmKeys, ih]; rfl

omit [DecidableEq α] in
/-- C95, partial: `value_typelist` is the list of the values for maps with at most one entry. -/
theorem C95_values_partial (m : List (α × α)) (h : m.length ≤ 1) : tmValues m = m.map (·.2) := by
  match m, h with
  | [], _ => rfl
  | [p], _ => rfl

/-- C95, violated: `value_typelist` of two entries is the value of the first and the key of the second. -/
theorem C95_violated_values : tmValues [(1, 10), (2, 20)] = [10, 2] ∧ [(1, 10), (2, 20)].map (·.2) = [10, 20] := by
  decide

/-! ### Configurations -/

/-- The value at a path of tags in a configuration. -/
inductive ValueAt : Cfg α → List α → Cfg α → Prop
  | last {m : List (α × Cfg α)} {x v} (h : (x, v) ∈ m) : ValueAt (.map m) [x] v
  | next {m : List (α × Cfg α)} {x c y tags v} (h : (x, c) ∈ m) (hc : ValueAt c (y :: tags) v) :
    ValueAt (.map m) (x :: y :: tags) v

/-- A configuration in which all maps have distinct keys. -/
inductive ConfigOk : Cfg α → Prop
  | type (t : α) : ConfigOk (.type t)
  | map {m : List (α × Cfg α)} (h : KeysDistinct m) (hc : ∀ e ∈ m, ConfigOk e.2) : ConfigOk (.map m)

/-- On the path of tags there is a value which cannot be searched, before the last tag. -/
inductive Blocked : Cfg α → List α → Prop
  | type (t : α) (tags) : Blocked (.type t) tags
  | empty (tags) : Blocked (.map []) tags
  | next {m : List (α × Cfg α)} {x c y tags} (h : (x, c) ∈ m) (hc : Blocked c (y :: tags)) :
    Blocked (.map m) (x :: y :: tags)

/-- C95: `query` is the value at the path of tags; if there is none, it is the default, unless the path leads through a
type which is no map (compile error). -/
theorem C95_query (dflt : Cfg α) (tags : List α) (ht : tags ≠ []) (c : Cfg α) (hc : ConfigOk c) :
    (∀ v, ValueAt c tags v → cfgQuery dflt c tags = some v) ∧ (Blocked c tags → cfgQuery dflt c tags = none) ∧
      ((∀ v, ¬ValueAt c tags v) → ¬Blocked c tags → cfgQuery dflt c tags = some dflt) := by
  induction tags generalizing c with
  | nil => exact absurd rfl ht
  | cons x tags ih =>
    cases hc with
    | type t =>
      refine ⟨fun v h => (by cases h), fun _ => by rw [cfgQuery], fun _ h => absurd (.type t _) h⟩
    | @map m hd hc =>
      cases m with
      | nil =>
        refine ⟨fun v h => ?_, fun _ => by rw [cfgQuery], fun _ h => absurd (.empty _) h⟩
        cases h with
        | last h => exact absurd h (by simp)
        | next h _ => exact absurd h (by simp)
      | cons p m =>
        cases tags with
        | nil =>
          rw [cfgQuery]
          refine ⟨fun v h => ?_, fun h => (by cases h), fun h _ => ?_⟩
          · cases h with
            | last h => rw [((C95_lookup _ hd x).1 v).2 h]; rfl
          · have : tmLookup (p :: m) x = none := by
              cases hl : tmLookup (p :: m) x with
              | none => rfl
              | some v => exact absurd (.last (((C95_lookup _ hd x).1 v).1 hl)) (h v)
            rw [this]
            rfl
        | cons y tags =>
          rw [cfgQuery]
          cases hl : tmLookup (p :: m) x with
          | none =>
            have hn := (C95_lookup _ hd x).2.1 hl
            refine ⟨fun v h => ?_, fun h => ?_, fun _ _ => rfl⟩
            · cases h with
              | next h _ => exact absurd (List.mem_map_of_mem (f := (·.1)) h) hn
            · cases h with
              | next h _ => exact absurd (List.mem_map_of_mem (f := (·.1)) h) hn
          | some c =>
            have hm := ((C95_lookup _ hd x).1 c).1 hl
            obtain ⟨i1, i2, i3⟩ := ih (by simp) c (hc _ hm)
            have same : ∀ c', (x, c') ∈ p :: m → c' = c := fun c' h' => by
              have := entry_unique hd h' hm rfl
              exact (Prod.mk.injEq .. ▸ this).2
            refine ⟨fun v h => ?_, fun h => ?_, fun h1 h2 => ?_⟩
            · cases h with
              | next h h' => exact i1 v (same _ h ▸ h')
            · cases h with
              | next h h' => exact i2 (same _ h ▸ h')
            · exact i3 (fun v h => h1 v (.next hm h)) (fun h => h2 (.next hm h))

/-! ### Examples -/

example : KeysDistinct [(1, 10), (2, 20)] ∧ KeysDistinct [(2, 21), (3, 30)] ∧
    tmMerge .error [(1, 10), (2, 20)] [(2, 21), (3, 30)] = none ∧
    tmInsert [(1, 10), (2, 20)] (3, 30) = some [(1, 10), (2, 20), (3, 30)] ∧
    tmModify [(1, 10), (2, 20)] (1, 11) = some [(1, 11), (2, 20)] ∧
    tmErase [(1, 10), (2, 20)] 1 = some [(2, 20)] ∧ tmErase [(1, 10)] 2 = none := by
  refine ⟨by unfold KeysDistinct; decide, by unfold KeysDistinct; decide, ?_, by decide, by decide, by decide, by decide⟩
  simp [tmMerge, tmFind, mergeHelper]

example : tmMerge .ignore [(1, 10), (2, 20)] [(2, 21), (3, 30)] = some [(1, 10), (2, 20), (3, 30)] ∧
    tmMerge .overwrite [(1, 10), (2, 20)] [(2, 21), (3, 30)] = some [(1, 10), (2, 21), (3, 30)] := by
  constructor <;>
    simp [tmMerge, tmFind, mergeHelper, tmInsertOrModify, tmIndexOf, tmReplaceAt, tmPushBack]

/-- A configuration with two levels. -/
def cfgExample : Cfg Nat := .map [(1, .map [(5, .type 50), (6, .type 60)]), (2, .type 20)]

example : ConfigOk cfgExample ∧ ValueAt cfgExample [1, 6] (.type 60) ∧ Blocked cfgExample [2, 6] ∧
    (∀ v, ¬ValueAt cfgExample [3, 6] v) ∧ ¬Blocked cfgExample [3, 6] := by
  unfold cfgExample
  refine ⟨.map (by unfold KeysDistinct; decide) ?_, .next (c := .map [(5, .type 50), (6, .type 60)]) (by simp)
    (.last (by simp)), .next (c := .type 20) (by simp) (.type _ _), ?_, ?_⟩
  · intro e he
    simp only [List.mem_cons, List.not_mem_nil, or_false] at he
    rcases he with rfl | rfl
    · refine .map (by unfold KeysDistinct; decide) ?_
      intro e he
      simp only [List.mem_cons, List.not_mem_nil, or_false] at he
      rcases he with rfl | rfl <;> exact .type _
    · exact .type _
  · intro v h
    cases h with
    | next h _ => simp at h
  · intro h
    cases h with
    | next h _ => simp at h

end VG
