import Verif.Lemmas.NumberText
import Verif.Lemmas.VtkTextRead

/-! Reading the text of a number. -/

namespace VG

theorem nearestInt_nonneg {q : ℚ} (h : 0 ≤ q) : 0 ≤ nearestInt q := by
  have := Int.floor_nonneg.2 h
  unfold nearestInt
  split_ifs <;> omega

theorem nearestInt_nonpos {q : ℚ} (h : q < 0) : nearestInt q ≤ 0 := by
  have h1 : ⌊q⌋ < 0 := Int.floor_lt.2 (by simpa using h)
  unfold nearestInt
  split_ifs <;> omega

theorem stripZeros_spec (ds : List Char) : ∃ k, ds = stripZeros ds ++ List.replicate k '0' := by
  refine ⟨(ds.reverse.takeWhile (· == '0')).length, ?_⟩
  have h1 : ds.reverse.takeWhile (· == '0') = List.replicate (ds.reverse.takeWhile (· == '0')).length '0' :=
    List.eq_replicate_iff.2 ⟨rfl, fun c hc => by simpa using List.mem_takeWhile_imp hc⟩
  have h2 := List.takeWhile_append_dropWhile (p := (· == '0')) (l := ds.reverse)
  have h3 := congrArg List.reverse h2
  rw [List.reverse_reverse, List.reverse_append] at h3
  unfold stripZeros
  conv_lhs => rw [← h3]
  congr 1
  rw [h1]
  simp

theorem digit_value (s : List Char) (k : Nat) :
    Nat.ofDigitChars 10 (s ++ List.replicate k '0') 0 = Nat.ofDigitChars 10 s 0 * 10 ^ k := by
  rw [Nat.ofDigitChars_append, Nat.ofDigitChars_replicate_zero, mul_comm]

theorem value_digit (s : List Char) (k : Nat) :
    Nat.ofDigitChars 10 (List.replicate k '0' ++ s) 0 = Nat.ofDigitChars 10 s 0 := by
  rw [Nat.ofDigitChars_append, Nat.ofDigitChars_replicate_zero, mul_zero]

variable {a b : List Char}

theorem takeWhile_digits (ha : ∀ c ∈ a, c.isDigit = true) {r : List Char} (hr : ∀ c ∈ r.head?, c.isDigit = false) :
    (a ++ r).takeWhile Char.isDigit = a ∧ (a ++ r).dropWhile Char.isDigit = r := by
  have h1 : r.takeWhile Char.isDigit = [] ∧ r.dropWhile Char.isDigit = r := by
    cases r with
    | nil => exact ⟨rfl, rfl⟩
    | cons c r =>
      have h : c.isDigit = false := hr c rfl
      exact ⟨List.takeWhile_cons_of_neg (by simp [h]), List.dropWhile_cons_of_neg (by simp [h])⟩
  rw [List.takeWhile_append_of_pos ha, List.dropWhile_append_of_pos ha, h1.1, h1.2, List.append_nil]
  exact ⟨rfl, rfl⟩

/-- The parts of a text. -/
theorem readUnsigned_parts (ha : ∀ c ∈ a, c.isDigit = true) (ha' : a ≠ []) (hb : ∀ c ∈ b, c.isDigit = true)
    {r : List Char} (hr : ∀ c ∈ r.head?, c.isDigit = false ∧ c ≠ '.') :
    readUnsigned (a ++ (afterPoint b ++ r)) = readExponent a b r := by
  have h1 : ∀ c ∈ (afterPoint b ++ r).head?, c.isDigit = false := by
    intro c hc
    unfold afterPoint at hc
    split_ifs at hc with h
    · exact (hr c hc).1
    · simp at hc
      subst hc
      rfl
  obtain ⟨h2, h3⟩ := takeWhile_digits ha h1
  unfold readUnsigned
  simp only
  rw [h2, h3]
  have h4 : (if (afterPoint b ++ r).head? = some '.' then (afterPoint b ++ r).tail.takeWhile Char.isDigit else []) = b ∧
      (if (afterPoint b ++ r).head? = some '.' then (afterPoint b ++ r).tail.dropWhile Char.isDigit
        else afterPoint b ++ r) = r := by
    unfold afterPoint
    by_cases h : b = []
    · rw [if_pos h]
      have : ¬ ([] ++ r).head? = some '.' := fun hc => (hr '.' hc).2 rfl
      rw [if_neg this, if_neg this, h]
      exact ⟨rfl, rfl⟩
    · rw [if_neg h, List.cons_append, List.head?_cons, if_pos rfl, if_pos rfl, List.tail_cons]
      exact takeWhile_digits hb fun c hc => (hr c hc).1
  rw [h4.1, h4.2, if_neg (by simp [ha'])]

theorem readUnsigned_fixed (ha : ∀ c ∈ a, c.isDigit = true) (ha' : a ≠ []) (hb : ∀ c ∈ b, c.isDigit = true) :
    readUnsigned (a ++ afterPoint b) = some (decimalValue a b 0) := by
  have := readUnsigned_parts ha ha' hb (r := []) (by simp)
  rwa [List.append_nil] at this

theorem exponent_digits (e : ℤ) : ∃ s, exponentText e = 'e' :: (if e < 0 then '-' else '+') :: s ∧ s ≠ [] ∧
    (∀ c ∈ s, c.isDigit = true) ∧ Nat.ofDigitChars 10 s 0 = e.natAbs := by
  unfold exponentText
  have hv : Nat.ofDigitChars 10 (natText e.natAbs) 0 = e.natAbs := Nat.ofDigitChars_ten_toDigits
  split_ifs with h1 h2 h2
  all_goals first
    | exact ⟨_, rfl, natText_ne _, fun c hc => natText_digit hc, hv⟩
    | refine ⟨_, rfl, by simp, fun c hc => ?_, ?_⟩
      · rcases List.mem_cons.1 hc with rfl | hc
        · rfl
        · exact natText_digit hc
      · have := value_digit (natText e.natAbs) 1
        rw [hv] at this
        exact this

theorem readUnsigned_exponent (ha : ∀ c ∈ a, c.isDigit = true) (ha' : a ≠ []) (hb : ∀ c ∈ b, c.isDigit = true) (e : ℤ) :
    readUnsigned (a ++ (afterPoint b ++ exponentText e)) = some (decimalValue a b e) := by
  obtain ⟨s, h1, h2, h3, h4⟩ := exponent_digits e
  have hn : s ≠ [] ∧ isNumber s = true := ⟨h2, List.all_eq_true.2 h3⟩
  rw [h1, readUnsigned_parts ha ha' hb (by
    intro c hc
    simp at hc
    subst hc
    exact ⟨rfl, by decide⟩)]
  by_cases he : e < 0
  · rw [if_pos he]
    rw [readExponent, if_pos hn, h4]
    congr 2
    omega
  · rw [if_neg he, readExponent]
    rw [if_pos hn, h4]
    congr 2
    omega

/-- The digits of the text of a number without sign. -/
theorem unsigned_text {m : Nat} (hm : m ≠ 0) (p : Nat) (e : ℤ) (s : List Char) (hs : s = stripZeros (natText m)) :
    readUnsigned (if e < -4 ∨ p ≤ e then s.take 1 ++ (afterPoint (s.drop 1) ++ exponentText e)
      else if e < 0 then '0' :: afterPoint (List.replicate (-e - 1).toNat '0' ++ s)
      else (s ++ List.replicate (e + 1 - s.length).toNat '0').take (e + 1).toNat ++ afterPoint (s.drop (e + 1).toNat)) =
      some (m * (10 : ℚ) ^ (e + 1 - (natText m).length)) := by
  obtain ⟨k, hk⟩ := stripZeros_spec (natText m)
  rw [← hs] at hk
  have hv : m = Nat.ofDigitChars 10 s 0 * 10 ^ k := by
    rw [← digit_value, ← hk]
    exact Nat.ofDigitChars_ten_toDigits.symm
  have hl : (natText m).length = s.length + k := by
    conv_lhs => rw [hk]
    simp
  have hdig : ∀ c ∈ s, c.isDigit = true := fun c hc => natText_digit (n := m) (by rw [hk]; exact List.mem_append_left _ hc)
  have hne : s ≠ [] := by
    rintro rfl
    apply hm
    rw [hv, Nat.ofDigitChars_nil, zero_mul]
  have hlen : 0 < s.length := List.length_pos_iff.2 hne
  -- the value to be read
  have hval : ∀ E : ℤ, E = e + 1 - s.length →
      (Nat.ofDigitChars 10 s 0 : ℚ) * (10 : ℚ) ^ E = m * (10 : ℚ) ^ (e + 1 - (natText m).length) := by
    rintro E rfl
    rw [hl, hv]
    push_cast
    rw [mul_assoc, ← zpow_natCast (10 : ℚ) k, ← zpow_add₀ (by norm_num)]
    congr 2
    ring
  have hz : ∀ n, ∀ c ∈ List.replicate n '0', c.isDigit = true := fun n c hc => by
    rw [(List.mem_replicate.1 hc).2]
    rfl
  split_ifs with h1 h2
  · rw [readUnsigned_exponent (fun c hc => hdig c (List.mem_of_mem_take hc)) (by simp [hne])
      (fun c hc => hdig c (List.mem_of_mem_drop hc))]
    unfold decimalValue
    rw [List.take_append_drop, List.length_drop, hval]
    omega
  · rw [show ∀ l : List Char, '0' :: l = ['0'] ++ l from fun _ => rfl,
      readUnsigned_fixed (by simp) (by simp) (fun c hc => (List.mem_append.1 hc).elim (hz _ c) (hdig c))]
    unfold decimalValue
    have e1 : ['0'] ++ (List.replicate (-e - 1).toNat '0' ++ s) = List.replicate ((-e - 1).toNat + 1) '0' ++ s := by
      rw [List.replicate_succ]
      rfl
    rw [e1, value_digit, List.length_append, List.length_replicate, hval]
    push_cast
    omega
  · have he : ((e + 1).toNat : ℤ) = e + 1 := Int.toNat_of_nonneg (by omega)
    have hpos : 0 < (e + 1).toNat := by omega
    rw [readUnsigned_fixed (fun c hc => (List.mem_append.1 (List.mem_of_mem_take hc)).elim (hdig c) (hz _ c))
      (by simp [hne]; omega) (fun c hc => hdig c (List.mem_of_mem_drop hc))]
    unfold decimalValue
    by_cases hc : s.length ≤ (e + 1).toNat
    · rw [List.take_of_length_le (by simp; omega), List.drop_of_length_le hc, List.append_nil, digit_value]
      push_cast
      rw [mul_assoc, ← zpow_natCast (10 : ℚ), ← zpow_add₀ (by norm_num), hval]
      simp
      omega
    · have h0 : (e + 1 - s.length).toNat = 0 := by omega
      rw [h0, List.replicate_zero, List.append_nil, List.take_append_drop, List.length_drop, hval]
      omega

/-- The characters of numbers. -/
def NumberChar (c : Char) : Prop := c.isDigit = true ∨ c = '-' ∨ c = '+' ∨ c = '.' ∨ c = 'e'

theorem NumberChar.ok {c : Char} (h : NumberChar c) : isBlank c = false ∧ c ≠ '<' := by
  rcases h with h | rfl | rfl | rfl | rfl
  · refine ⟨isBlank_of_isDigit h, ?_⟩
    rintro rfl
    exact absurd h (by decide)
  all_goals exact ⟨by decide, by decide⟩

theorem stripZeros_mem {ds : List Char} {c : Char} (h : c ∈ stripZeros ds) : c ∈ ds := by
  obtain ⟨k, hk⟩ := stripZeros_spec ds
  rw [hk]
  exact List.mem_append_left _ h

theorem afterPoint_chars (hb : ∀ c ∈ b, c.isDigit = true) : ∀ c ∈ afterPoint b, NumberChar c := by
  intro c hc
  unfold afterPoint at hc
  split_ifs at hc
  · exact absurd hc (by simp)
  · rcases List.mem_cons.1 hc with rfl | hc
    · exact Or.inr (Or.inr (Or.inr (Or.inl rfl)))
    · exact Or.inl (hb c hc)

theorem exponent_chars (e : ℤ) : ∀ c ∈ exponentText e, NumberChar c := by
  obtain ⟨s, h1, -, h3, -⟩ := exponent_digits e
  rw [h1]
  intro c hc
  rcases List.mem_cons.1 hc with rfl | hc
  · exact Or.inr (Or.inr (Or.inr (Or.inr rfl)))
  · rcases List.mem_cons.1 hc with rfl | hc
    · split_ifs
      · exact Or.inr (Or.inl rfl)
      · exact Or.inr (Or.inr (Or.inl rfl))
    · exact Or.inl (h3 c hc)

theorem decimalText_chars (p : Nat) (x : ℚ) : ∀ c ∈ decimalText p x, NumberChar c := by
  have hs : ∀ m, ∀ c ∈ stripZeros (natText m), c.isDigit = true := fun m c hc => natText_digit (stripZeros_mem hc)
  have hz : ∀ n, ∀ c ∈ List.replicate n '0', c.isDigit = true := fun n c hc => by
    rw [(List.mem_replicate.1 hc).2]
    rfl
  unfold decimalText
  simp only
  intro c hc
  rcases List.mem_append.1 hc with hc | hc
  · split_ifs at hc
    · rw [List.mem_singleton.1 hc]
      exact Or.inr (Or.inl rfl)
    · exact absurd hc (by simp)
  · split_ifs at hc
    · rw [List.mem_singleton.1 hc]
      exact Or.inl rfl
    · rcases List.mem_append.1 hc with hc | hc
      · exact Or.inl (hs _ c (List.mem_of_mem_take hc))
      · rcases List.mem_append.1 hc with hc | hc
        · exact afterPoint_chars (fun c hc => hs _ c (List.mem_of_mem_drop hc)) c hc
        · exact exponent_chars _ c hc
    · rcases List.mem_cons.1 hc with rfl | hc
      · exact Or.inl rfl
      · exact afterPoint_chars (fun c hc => (List.mem_append.1 hc).elim (hz _ c) (hs _ c)) c hc
    · rcases List.mem_append.1 hc with hc | hc
      · exact Or.inl ((List.mem_append.1 (List.mem_of_mem_take hc)).elim (hs _ c) (hz _ c))
      · exact afterPoint_chars (fun c hc => hs _ c (List.mem_of_mem_drop hc)) c hc

theorem readUnsigned_minus (t : List Char) : readUnsigned ('-' :: t) = none := rfl

/-- The number which is read from the text of `x`. -/
theorem readNumber_text (p : Nat) (x : ℚ) : readNumber (decimalText p x) = some (asDouble (roundTo 10 p x)) := by
  have hlp := lastPlace_pos (b := 10) (by norm_num) p x
  set n := nearestInt (x / lastPlace 10 p x) with hn
  -- the text without the sign
  have key : ∀ t, t = (if n.natAbs = 0 then ['0']
      else if Int.log 10 |x| + 1 - p + (natText n.natAbs).length - 1 < -4 ∨
          (p : ℤ) ≤ Int.log 10 |x| + 1 - p + (natText n.natAbs).length - 1 then
        (stripZeros (natText n.natAbs)).take 1 ++ (afterPoint ((stripZeros (natText n.natAbs)).drop 1) ++
          exponentText (Int.log 10 |x| + 1 - p + (natText n.natAbs).length - 1))
      else if Int.log 10 |x| + 1 - p + (natText n.natAbs).length - 1 < 0 then
        '0' :: afterPoint (List.replicate (-(Int.log 10 |x| + 1 - p + (natText n.natAbs).length - 1) - 1).toNat '0' ++
          stripZeros (natText n.natAbs))
      else (stripZeros (natText n.natAbs) ++ List.replicate ((Int.log 10 |x| + 1 - p + (natText n.natAbs).length - 1) + 1 -
          (stripZeros (natText n.natAbs)).length).toNat '0').take
            ((Int.log 10 |x| + 1 - p + (natText n.natAbs).length - 1) + 1).toNat ++
          afterPoint ((stripZeros (natText n.natAbs)).drop
            ((Int.log 10 |x| + 1 - p + (natText n.natAbs).length - 1) + 1).toNat)) →
      readUnsigned t = some (n.natAbs * lastPlace 10 p x) := by
    rintro t rfl
    by_cases h0 : n.natAbs = 0
    · rw [if_pos h0, h0]
      have := readUnsigned_fixed (a := ['0']) (b := []) (by simp) (by simp) (by simp)
      rw [show afterPoint [] = [] from rfl, List.append_nil] at this
      rw [this]
      simp [decimalValue]
      decide
    · rw [if_neg h0, unsigned_text h0 p _ _ rfl]
      congr 2
      unfold lastPlace
      push_cast
      congr 1
      ring
  unfold decimalText
  simp only
  rw [← hn]
  by_cases hx : x < 0
  · have h1 : n ≤ 0 := nearestInt_nonpos (div_neg_of_neg_of_pos hx hlp)
    have h2 : (n : ℚ) = -(n.natAbs : ℚ) := by
      have : n = -(n.natAbs : ℤ) := by omega
      exact_mod_cast congrArg (Int.cast : ℤ → ℚ) this
    rw [if_pos hx, List.singleton_append, readNumber, key _ rfl, Option.map_some]
    congr 2
    unfold roundTo
    rw [← hn, h2]
    ring
  · have h1 : 0 ≤ n := nearestInt_nonneg (div_nonneg (not_lt.1 hx) hlp.le)
    have h2 : (n : ℚ) = (n.natAbs : ℚ) := by
      have h : (n.natAbs : ℤ) = n := by omega
      rw [← Int.cast_natCast, h]
    rw [if_neg hx, List.nil_append]
    generalize ht : (ite (n.natAbs = 0) _ _ : List Char) = t
    have h3 := key t ht.symm
    unfold readNumber
    split
    · rw [readUnsigned_minus] at h3
      exact absurd h3 (by simp)
    · rw [h3, Option.map_some]
      congr 2
      unfold roundTo
      rw [← hn, h2]

theorem decimalText_ne (p : Nat) (x : ℚ) : decimalText p x ≠ [] := by
  intro h
  have := readNumber_text p x
  rw [h] at this
  exact absurd this (by simp [readNumber, readUnsigned])

/-- The numbers of the files. -/
theorem prints_double : Prints coordText readNumber saved :=
  ⟨fun x => ⟨decimalText_ne 15 x, fun c hc => (decimalText_chars 15 x c hc).ok⟩, fun x => readNumber_text 15 x⟩

end VG
