import Verif.Model.ClosestPoints
import Verif.Props.Circumcenter
import Verif.Props.Inclusion
import Mathlib.Tactic.ByContra
import Mathlib.Tactic.Set

/-! Lemmas for the closest points: projections, the way out of a simplex, the shortest of some pairs. -/

namespace VG

variable {K : Type} [Field K] [LinearOrder K] [IsStrictOrderedRing K] {d : Nat}

omit [LinearOrder K] [IsStrictOrderedRing K] in
theorem sqDist_eq (p q : Fin d → K) : sqDist p q = innerProd (p - q) (p - q) := by
  simp only [sqDist, innerProd, Pi.sub_apply, pow_two]

omit [LinearOrder K] [IsStrictOrderedRing K] in
theorem pairDist_eq (p q : Fin d → K) : pairDist (p, q) = sqDist p q := by
  rw [pairDist, sumSquares_eq, sqDist_eq]

omit [LinearOrder K] [IsStrictOrderedRing K] in
theorem sqDist_comm (p q : Fin d → K) : sqDist p q = sqDist q p := by
  simp only [sqDist]; exact Finset.sum_congr rfl fun i _ => by ring

theorem sqDist_nonneg (p q : Fin d → K) : 0 ≤ sqDist p q := by rw [sqDist_eq]; exact innerProd_self_nonneg _

omit [LinearOrder K] [IsStrictOrderedRing K] in
/-- Pythagoras. -/
theorem sqDist_pyth (p q x : Fin d → K) (h : innerProd (p - q) (q - x) = 0) :
    sqDist p x = sqDist p q + sqDist q x := by
  have e : p - x = (p - q) + (q - x) := by funext k; simp
  rw [sqDist_eq, sqDist_eq, sqDist_eq, e]
  simp only [innerProd_add_left, innerProd_add_right, innerProd_comm (q - x) (p - q), h]
  ring

/-- A point on the way from `x` to `q` is not farther from `q` than `x`. -/
theorem sqDist_toward (q x : Fin d → K) (τ : K) (h0 : 0 ≤ τ) (h1 : τ ≤ 1) :
    sqDist q (x + τ • (q - x)) ≤ sqDist q x := by
  have e : q - (x + τ • (q - x)) = (1 - τ) • (q - x) := by funext k; simp; ring
  rw [sqDist_eq, sqDist_eq, e, innerProd_smul_left, innerProd_smul_right]
  have := innerProd_self_nonneg (q - x)
  have h2 : (1 - τ) * (1 - τ) ≤ 1 := by nlinarith
  calc (1 - τ) * ((1 - τ) * innerProd (q - x) (q - x)) = (1 - τ) * (1 - τ) * innerProd (q - x) (q - x) := by ring
    _ ≤ 1 * innerProd (q - x) (q - x) := mul_le_mul_of_nonneg_right h2 this
    _ = _ := one_mul _

/-- The way from nonnegative coordinates `x` to coordinates `q` of which one is negative meets a place where all
coordinates are nonnegative and one is zero. -/
theorem exit_point {n : Nat} (x q : Fin n → K) (hx : ∀ i, 0 ≤ x i) (hq : ∃ i, q i < 0) :
    ∃ τ : K, 0 ≤ τ ∧ τ ≤ 1 ∧ (∀ i, 0 ≤ x i + τ * (q i - x i)) ∧ ∃ i, q i < 0 ∧ x i + τ * (q i - x i) = 0 := by
  obtain ⟨i0, hi0⟩ := hq
  obtain ⟨i, hi, hmin⟩ := Finset.exists_min_image (Finset.univ.filter fun i => q i < 0)
    (fun i => x i / (x i - q i)) ⟨i0, by simp [hi0]⟩
  have hi : q i < 0 := by simpa using hi
  have hpos : 0 < x i - q i := by have := hx i; linarith
  refine ⟨x i / (x i - q i), div_nonneg (hx i) hpos.le, (div_le_one hpos).2 (by linarith), ?_, i, hi, ?_⟩
  · intro j
    by_cases hj : q j < 0
    · have hpj : 0 < x j - q j := by have := hx j; linarith
      have := hmin j (by simp [hj])
      rw [le_div_iff₀ hpj] at this
      linarith
    · have h1 : x i / (x i - q i) ≤ 1 := (div_le_one hpos).2 (by linarith)
      have h0 : 0 ≤ x i / (x i - q i) := div_nonneg (hx i) hpos.le
      have := hx j
      nlinarith
  · have := div_mul_cancel₀ (x i) hpos.ne'
    linear_combination (-1 : K) * this

omit [IsStrictOrderedRing K] in
theorem convexComb2 (a b p : Fin d → K) :
    ConvexComb [a, b] p ↔ ∃ t : K, 0 ≤ t ∧ 0 ≤ 1 - t ∧ p = a + t • (b - a) := by
  simp only [ConvexComb, List.length_cons, List.length_nil, Nat.reduceAdd, Finset.sum_range_succ,
    Finset.sum_range_zero, zero_add]
  constructor
  · rintro ⟨w, hw, h1, hp⟩
    refine ⟨w 1, hw 1 (by omega), ?_, ?_⟩
    · have := hw 0 (by omega)
      have e : 1 - w 1 = w 0 := by rw [← h1]; ring
      rw [e]; exact this
    · funext k
      have := hp k
      simp only [List.getD_cons_zero, List.getD_cons_succ] at this
      simp only [Pi.add_apply, Pi.smul_apply, Pi.sub_apply, smul_eq_mul]
      rw [this]
      linear_combination (a k) * h1
  · rintro ⟨t, ht, hst, rfl⟩
    refine ⟨fun i => if i = 0 then 1 - t else t, ?_, ?_, ?_⟩
    · intro i hi
      have : i = 0 ∨ i = 1 := by omega
      rcases this with rfl | rfl <;> simp [ht, hst]
    · simp
    · intro k; simp; ring

/-- `q` is a point of `S` and no point of `S` is closer to `p`. -/
def IsNearest (S : (Fin d → K) → Prop) (p q : Fin d → K) : Prop :=
  S q ∧ ∀ x, S x → sqDist p q ≤ sqDist p x

theorem IsNearest.shift {S : (Fin d → K) → Prop} {p p' q : Fin d → K} (h : IsNearest S p' q)
    (hp : ∀ x, S x → innerProd (p - p') (p' - x) = 0) : IsNearest S p q := by
  refine ⟨h.1, fun x hx => ?_⟩
  rw [sqDist_pyth p p' q (hp q h.1), sqDist_pyth p p' x (hp x hx)]
  have := h.2 x hx
  linarith

omit [IsStrictOrderedRing K] in
/-- The shortest of two pairs is one of them and not longer than any. -/
theorem shortest2_spec (p q : (Fin d → K) × (Fin d → K)) :
    (shortest2 p q = p ∨ shortest2 p q = q) ∧ pairDist (shortest2 p q) ≤ pairDist p
      ∧ pairDist (shortest2 p q) ≤ pairDist q := by
  unfold shortest2
  split
  · exact ⟨Or.inl rfl, le_rfl, by assumption⟩
  · exact ⟨Or.inr rfl, (not_le.1 (by assumption)).le, le_rfl⟩

omit [IsStrictOrderedRing K] in
theorem shortest3_spec (p q r : (Fin d → K) × (Fin d → K)) :
    (shortest3 p q r = p ∨ shortest3 p q r = q ∨ shortest3 p q r = r) ∧ pairDist (shortest3 p q r) ≤ pairDist p
      ∧ pairDist (shortest3 p q r) ≤ pairDist q ∧ pairDist (shortest3 p q r) ≤ pairDist r := by
  unfold shortest3
  split
  · rename_i h; exact ⟨Or.inl rfl, le_rfl, h.1, h.2⟩
  · rename_i h1
    split
    · rename_i h; exact ⟨Or.inr (Or.inl rfl), h.1, le_rfl, h.2⟩
    · rename_i h2
      refine ⟨Or.inr (Or.inr rfl), ?_, ?_, le_rfl⟩
      · by_contra hc
        rcases le_total (pairDist p) (pairDist q) with h | h
        · exact h1 ⟨h, (not_le.1 hc).le⟩
        · exact h2 ⟨h, h.trans (not_le.1 hc).le⟩
      · by_contra hc
        rcases le_total (pairDist p) (pairDist q) with h | h
        · exact h1 ⟨h, h.trans (not_le.1 hc).le⟩
        · exact h2 ⟨h, (not_le.1 hc).le⟩

omit [IsStrictOrderedRing K] in
theorem shortest4_spec (p q r s : (Fin d → K) × (Fin d → K)) :
    (shortest4 p q r s = p ∨ shortest4 p q r s = q ∨ shortest4 p q r s = r ∨ shortest4 p q r s = s)
      ∧ pairDist (shortest4 p q r s) ≤ pairDist p ∧ pairDist (shortest4 p q r s) ≤ pairDist q
      ∧ pairDist (shortest4 p q r s) ≤ pairDist r ∧ pairDist (shortest4 p q r s) ≤ pairDist s := by
  unfold shortest4
  obtain ⟨h1, h2, h3⟩ := shortest2_spec p q
  obtain ⟨g1, g2, g3⟩ := shortest2_spec r s
  obtain ⟨f1, f2, f3⟩ := shortest2_spec (shortest2 p q) (shortest2 r s)
  refine ⟨?_, f2.trans h2, f2.trans h3, f3.trans g2, f3.trans g3⟩
  rcases f1 with f1 | f1 <;> rw [f1]
  · rcases h1 with h | h <;> rw [h] <;> simp
  · rcases g1 with h | h <;> rw [h] <;> simp

omit [IsStrictOrderedRing K] in
theorem shortest6_spec (p q r s t u : (Fin d → K) × (Fin d → K)) :
    (shortest6 p q r s t u ∈ [p, q, r, s, t, u])
      ∧ ∀ x ∈ [p, q, r, s, t, u], pairDist (shortest6 p q r s t u) ≤ pairDist x := by
  unfold shortest6
  obtain ⟨h1, h2, h3, h4⟩ := shortest3_spec p q r
  obtain ⟨g1, g2, g3, g4⟩ := shortest3_spec s t u
  obtain ⟨f1, f2, f3⟩ := shortest2_spec (shortest3 p q r) (shortest3 s t u)
  constructor
  · rcases f1 with f1 | f1 <;> rw [f1]
    · rcases h1 with h | h | h <;> rw [h] <;> simp
    · rcases g1 with h | h | h <;> rw [h] <;> simp
  · intro x hx
    simp only [List.mem_cons, List.not_mem_nil, or_false] at hx
    rcases hx with rfl | rfl | rfl | rfl | rfl | rfl
    · exact f2.trans h2
    · exact f2.trans h3
    · exact f2.trans h4
    · exact f3.trans g2
    · exact f3.trans g3
    · exact f3.trans g4

/-- The nearest point of a line segment: the foot of the perpendicular, clamped. -/
theorem clamp_near (t r : K) (h0 : 0 ≤ r) (h1 : 0 ≤ 1 - r) :
    (max 0 (min 1 t) - t) * (max 0 (min 1 t) - t) ≤ (r - t) * (r - t) := by
  rcases le_total t 0 with h | h
  · rw [min_eq_right (by linarith), max_eq_left h]; nlinarith
  · rcases le_total t 1 with h' | h'
    · rw [min_eq_right h', max_eq_right h]; nlinarith [mul_self_nonneg (r - t)]
    · rw [min_eq_left h', max_eq_right (by linarith)]; nlinarith

theorem closestPointLine_spec (p a b : Fin d → K) (hab : a ≠ b) :
    ∃ q, closestPointLine p a b = some (p, q) ∧ IsNearest (ConvexComb [a, b]) p q := by
  have hpos : 0 < innerProd (b - a) (b - a) := innerProd_self_pos _ (sub_ne_zero.2 (Ne.symm hab))
  unfold closestPointLine
  rw [if_neg hpos.ne']
  have hle : (0 : K) ≤ max 0 (min 1 (innerProd (p - a) (b - a) / innerProd (b - a) (b - a)))
      ∧ max 0 (min 1 (innerProd (p - a) (b - a) / innerProd (b - a) (b - a))) ≤ 1 :=
    ⟨le_max_left _ _, max_le zero_le_one (min_le_left _ _)⟩
  refine ⟨_, rfl, (convexComb2 _ _ _).2 ⟨_, hle.1, by linarith [hle.2], rfl⟩, ?_⟩
  intro x hx
  obtain ⟨r, h0, h1, rfl⟩ := (convexComb2 _ _ _).1 hx
  have ht := div_mul_cancel₀ (innerProd (p - a) (b - a)) hpos.ne'
  have key := clamp_near (innerProd (p - a) (b - a) / innerProd (b - a) (b - a)) r h0 h1
  generalize innerProd (p - a) (b - a) / innerProd (b - a) (b - a) = t at ht key
  have foot : ∀ c : K, sqDist p (a + c • (b - a))
      = sqDist p (a + t • (b - a)) + (c - t) * (c - t) * innerProd (b - a) (b - a) := by
    intro c
    rw [sqDist_pyth p (a + t • (b - a)) (a + c • (b - a))]
    · congr 1
      have e : a + t • (b - a) - (a + c • (b - a)) = (t - c) • (b - a) := by funext k; simp; ring
      rw [sqDist_eq, e, innerProd_smul_left, innerProd_smul_right]; ring
    · have e : a + t • (b - a) - (a + c • (b - a)) = (t - c) • (b - a) := by funext k; simp; ring
      have e2 : p - (a + t • (b - a)) = (p - a) - t • (b - a) := by funext k; simp; ring
      rw [e, e2, innerProd_smul_right, innerProd_sub_left, innerProd_smul_left, ← ht]; ring
  change sqDist p (a + (max 0 (min 1 t)) • (b - a)) ≤ _
  rw [foot (max 0 (min 1 t)), foot r]
  have := mul_le_mul_of_nonneg_right key hpos.le
  linarith

/-- The two edges of a triangle at a corner and the third one are no points. -/
theorem NotOnALine.ne {a b c : Fin d → K} (h : NotOnALine a b c) : a ≠ b ∧ a ≠ c ∧ b ≠ c := by
  refine ⟨?_, ?_, ?_⟩
  · rintro rfl; exact one_ne_zero (h 1 0 (fun k => by ring)).1
  · rintro rfl; exact one_ne_zero (h 0 1 (fun k => by ring)).2
  · rintro rfl; exact one_ne_zero (h 1 (-1) (fun k => by ring)).1

theorem NotOnALine.gram {a b c : Fin d → K} (h : NotOnALine a b c) :
    0 < innerProd (b - a) (b - a) * innerProd (c - a) (c - a) - innerProd (b - a) (c - a) * innerProd (b - a) (c - a) :=
  gram_pos (b - a) (c - a) (fun r q h' => h r q (fun k => by simpa using h' k))

/-- If the coordinates `s`, `t` of the foot are not those of a point of the triangle, then the points of the triangle
are not closer to the foot than points of the edges. -/
theorem triangle_exit (a b c x : Fin d → K) (s t : K) (hout : s < 0 ∨ t < 0 ∨ 1 - s - t < 0)
    (hx : ConvexComb [a, b, c] x) :
    ∃ y, (ConvexComb [a, b] y ∨ ConvexComb [a, c] y ∨ ConvexComb [b, c] y)
      ∧ sqDist (a + s • (b - a) + t • (c - a)) y ≤ sqDist (a + s • (b - a) + t • (c - a)) x := by
  obtain ⟨x1, x2, h1, h2, h3, rfl⟩ := (convexComb3 _ _ _ _).1 hx
  obtain ⟨τ, h0, hle, hnn, i, _, hz⟩ := exit_point (n := 3) ![1 - x1 - x2, x1, x2] ![1 - s - t, s, t]
    (fun i => by fin_cases i; exacts [h3, h1, h2])
    (by rcases hout with h | h | h
        · exact ⟨1, by simpa using h⟩
        · exact ⟨2, by simpa using h⟩
        · exact ⟨0, by simpa using h⟩)
  refine ⟨_, ?_, sqDist_toward _ _ τ h0 hle⟩
  have n0 := hnn 0; have n1 := hnn 1; have n2 := hnn 2
  simp only [Matrix.cons_val_zero, Matrix.cons_val_one, Matrix.cons_val] at n0 n1 n2
  fin_cases i <;> simp only [Fin.zero_eta, Fin.mk_one, Fin.reduceFinMk, Matrix.cons_val_zero, Matrix.cons_val_one,
    Matrix.cons_val] at hz
  · right; right
    refine (convexComb2 _ _ _).2 ⟨x2 + τ * (t - x2), n2, by linarith, ?_⟩
    funext k
    simp only [Pi.add_apply, Pi.smul_apply, Pi.sub_apply, smul_eq_mul]
    linear_combination (a k - b k) * hz
  · right; left
    refine (convexComb2 _ _ _).2 ⟨x2 + τ * (t - x2), n2, by linarith, ?_⟩
    funext k
    simp only [Pi.add_apply, Pi.smul_apply, Pi.sub_apply, smul_eq_mul]
    linear_combination (b k - a k) * hz
  · left
    refine (convexComb2 _ _ _).2 ⟨x1 + τ * (s - x1), n1, by linarith, ?_⟩
    funext k
    simp only [Pi.add_apply, Pi.smul_apply, Pi.sub_apply, smul_eq_mul]
    linear_combination (c k - a k) * hz

omit [IsStrictOrderedRing K] in
/-- The edges belong to the triangle. -/
theorem edge_triangle (a b c y : Fin d → K)
    (h : ConvexComb [a, b] y ∨ ConvexComb [a, c] y ∨ ConvexComb [b, c] y) : ConvexComb [a, b, c] y := by
  rw [convexComb3]
  rcases h with h | h | h <;> obtain ⟨r, h0, h1, rfl⟩ := (convexComb2 _ _ _).1 h
  · exact ⟨r, 0, h0, le_rfl, by simpa using h1, by funext k; simp⟩
  · exact ⟨0, r, le_rfl, h0, by simpa using h1, by funext k; simp⟩
  · refine ⟨1 - r, r, h1, h0, by simp, ?_⟩
    funext k; simp; ring

theorem closestPointTriangle_spec (p a b c : Fin d → K) (hn : NotOnALine a b c) :
    ∃ q, closestPointTriangle p a b c = some (p, q) ∧ IsNearest (ConvexComb [a, b, c]) p q := by
  have hg := hn.gram
  obtain ⟨hab, hac, hbc⟩ := hn.ne
  simp only [closestPointTriangle]
  rw [if_neg hg.ne']
  set A := innerProd (b - a) (b - a) with hA
  set B := innerProd (b - a) (c - a) with hB
  set C := innerProd (c - a) (c - a) with hC
  set X := innerProd (p - a) (b - a) with hX
  set Y := innerProd (p - a) (c - a) with hY
  have hs := div_mul_cancel₀ (C * X - B * Y) hg.ne'
  have ht := div_mul_cancel₀ (-B * X + A * Y) hg.ne'
  generalize (C * X - B * Y) / (A * C - B * B) = s at hs
  generalize (-B * X + A * Y) / (A * C - B * B) = t at ht
  have e1 : s * A + t * B = X := mul_right_cancel₀ hg.ne' (by linear_combination A * hs + B * ht)
  have e2 : s * B + t * C = Y := mul_right_cancel₀ hg.ne' (by linear_combination B * hs + C * ht)
  have orth : ∀ s' t' : K, innerProd (p - (a + s • (b - a) + t • (c - a)))
      (a + s • (b - a) + t • (c - a) - (a + s' • (b - a) + t' • (c - a))) = 0 := by
    intro s' t'
    have f1 : p - (a + s • (b - a) + t • (c - a)) = (p - a) - s • (b - a) - t • (c - a) := by funext k; simp; ring
    have f2 : a + s • (b - a) + t • (c - a) - (a + s' • (b - a) + t' • (c - a))
        = (s - s') • (b - a) + (t - t') • (c - a) := by funext k; simp; ring
    rw [f1, f2]
    simp only [innerProd_add_right, innerProd_smul_right, innerProd_sub_left, innerProd_smul_left,
      innerProd_comm (c - a) (b - a), ← hA, ← hB, ← hC, ← hX, ← hY]
    linear_combination (-(s - s')) * e1 - (t - t') * e2
  have shift : ∀ {q}, IsNearest (ConvexComb [a, b, c]) (a + s • (b - a) + t • (c - a)) q →
      IsNearest (ConvexComb [a, b, c]) p q := fun hq => hq.shift fun x hx => by
    obtain ⟨s', t', _, _, _, rfl⟩ := (convexComb3 _ _ _ _).1 hx
    exact orth s' t'
  by_cases hout : (s < 0 ∨ s > 1) ∨ (t < 0 ∨ t > 1) ∨ s + t > 1
  · rw [if_pos hout]
    have hout' : s < 0 ∨ t < 0 ∨ 1 - s - t < 0 := by
      by_contra hc
      simp only [not_or, not_lt] at hc
      obtain ⟨h1, h2, h3⟩ := hc
      rcases hout with (h | h) | (h | h) | h <;> linarith
    set p' := a + s • (b - a) + t • (c - a) with hp'
    obtain ⟨q1, r1, n1⟩ := closestPointLine_spec p' a b hab
    obtain ⟨q2, r2, n2⟩ := closestPointLine_spec p' a c hac
    obtain ⟨q3, r3, n3⟩ := closestPointLine_spec p' b c hbc
    simp only [r1, r2, r3, Option.bind_some]
    obtain ⟨hc, h1, h2, h3⟩ := shortest3_spec (p, q1) (p, q2) (p, q3)
    have m1 := edge_triangle a b c q1 (Or.inl n1.1)
    have m2 := edge_triangle a b c q2 (Or.inr (Or.inl n2.1))
    have m3 := edge_triangle a b c q3 (Or.inr (Or.inr n3.1))
    have hq : ∃ q, shortest3 (p, q1) (p, q2) (p, q3) = (p, q) ∧ ConvexComb [a, b, c] q := by
      rcases hc with h | h | h
      · exact ⟨q1, h, m1⟩
      · exact ⟨q2, h, m2⟩
      · exact ⟨q3, h, m3⟩
    obtain ⟨q, hq, hmem⟩ := hq
    rw [hq] at h1 h2 h3 ⊢
    simp only [pairDist_eq] at h1 h2 h3
    refine ⟨q, rfl, hmem, fun x hx => ?_⟩
    have py : ∀ x, ConvexComb [a, b, c] x → sqDist p x = sqDist p p' + sqDist p' x := by
      intro x hx
      obtain ⟨s', t', _, _, _, rfl⟩ := (convexComb3 _ _ _ _).1 hx
      exact sqDist_pyth _ _ _ (orth s' t')
    obtain ⟨y, hy, hle⟩ := triangle_exit a b c x s t hout' hx
    have hle2 : sqDist p' q ≤ sqDist p' y := by
      have pq := py q hmem
      rcases hy with hy | hy | hy
      · have := n1.2 y hy; have := py q1 m1; linarith
      · have := n2.2 y hy; have := py q2 m2; linarith
      · have := n3.2 y hy; have := py q3 m3; linarith
    rw [py q hmem, py x hx]
    linarith
  · rw [if_neg hout]
    simp only [not_or, not_lt] at hout
    obtain ⟨⟨h1, h2⟩, ⟨h3, h4⟩, h5⟩ := hout
    refine ⟨_, rfl, shift ⟨(convexComb3 _ _ _ _).2 ⟨s, t, h1, h3, by linarith, rfl⟩, fun x _ => ?_⟩⟩
    have : sqDist (a + s • (b - a) + t • (c - a)) (a + s • (b - a) + t • (c - a)) = 0 := by simp [sqDist]
    rw [this]; exact sqDist_nonneg _ _

/-- The determinant of the inner products of three vectors. -/
def gram3 (x y z : Fin d → K) : K :=
  innerProd x x * innerProd y y * innerProd z z + innerProd y x * innerProd z y * innerProd z x
    + innerProd z x * innerProd y x * innerProd z y - innerProd z x * innerProd y y * innerProd z x
    - innerProd z y * innerProd z y * innerProd x x - innerProd z z * innerProd y x * innerProd y x

/-- The determinant of the inner products of independent vectors is not zero. -/
theorem gram3_ne_zero (x y z : Fin d → K)
    (h : ∀ r s t : K, (∀ k, r * x k + s * y k + t * z k = 0) → r = 0 ∧ s = 0 ∧ t = 0) : gram3 x y z ≠ 0 := by
  intro h0
  have hg := gram_pos y z (fun s t h' => (h 0 s t (fun k => by have := h' k; linear_combination this)).2)
  -- the combination with the cofactors of the first row is orthogonal to all three vectors
  let r := innerProd y y * innerProd z z - innerProd z y * innerProd z y
  let s := innerProd z y * innerProd z x - innerProd y x * innerProd z z
  let t := innerProd y x * innerProd z y - innerProd y y * innerProd z x
  have hw : innerProd (r • x + s • y + t • z) (r • x + s • y + t • z) = r * gram3 x y z := by
    simp only [innerProd_add_left, innerProd_add_right, innerProd_smul_left, innerProd_smul_right,
      innerProd_comm x y, innerProd_comm x z, innerProd_comm y z, gram3, r, s, t]
    ring
  rw [h0, mul_zero] at hw
  have hz := (innerProd_self_eq_zero _).1 hw
  have := (h r s t (fun k => by have := congrFun hz k; simpa using this)).1
  rw [innerProd_comm y z] at hg
  exact hg.ne' this

theorem NotInAPlane.faces {a b c e : Fin d → K} (h : NotInAPlane a b c e) :
    NotOnALine a b c ∧ NotOnALine a b e ∧ NotOnALine a c e ∧ NotOnALine b c e := by
  refine ⟨fun s t h' => ?_, fun s t h' => ?_, fun s t h' => ?_, fun s t h' => ?_⟩
  · have := h s t 0 (fun k => by have := h' k; linear_combination this); exact ⟨this.1, this.2.1⟩
  · have := h s 0 t (fun k => by have := h' k; linear_combination this); exact ⟨this.1, this.2.2⟩
  · have := h 0 s t (fun k => by have := h' k; linear_combination this); exact this.2
  · have := h (-s - t) s t (fun k => by have := h' k; linear_combination this); exact this.2

/-- As `triangle_exit`, for a tetrahedron. -/
theorem tetrahedron_exit (a b c e x : Fin d → K) (r s t : K) (hout : r < 0 ∨ s < 0 ∨ t < 0 ∨ 1 - r - s - t < 0)
    (hx : ConvexComb [a, b, c, e] x) :
    ∃ y, (ConvexComb [a, b, c] y ∨ ConvexComb [a, b, e] y ∨ ConvexComb [a, c, e] y ∨ ConvexComb [b, c, e] y)
      ∧ sqDist (a + r • (b - a) + s • (c - a) + t • (e - a)) y
        ≤ sqDist (a + r • (b - a) + s • (c - a) + t • (e - a)) x := by
  obtain ⟨x1, x2, x3, h1, h2, h3, h4, rfl⟩ := (convexComb4 _ _ _ _ _).1 hx
  obtain ⟨τ, h0, hle, hnn, i, _, hz⟩ := exit_point (n := 4) ![1 - x1 - x2 - x3, x1, x2, x3] ![1 - r - s - t, r, s, t]
    (fun i => by fin_cases i; exacts [h4, h1, h2, h3])
    (by rcases hout with h | h | h | h
        · exact ⟨1, h⟩
        · exact ⟨2, h⟩
        · exact ⟨3, h⟩
        · exact ⟨0, h⟩)
  refine ⟨_, ?_, sqDist_toward _ _ τ h0 hle⟩
  have n0 := hnn 0; have n1 := hnn 1; have n2 := hnn 2; have n3 := hnn 3
  simp only [Matrix.cons_val_zero, Matrix.cons_val_one, Matrix.cons_val] at n0 n1 n2 n3
  fin_cases i <;> simp only [Fin.zero_eta, Fin.mk_one, Fin.reduceFinMk, Matrix.cons_val_zero, Matrix.cons_val_one,
    Matrix.cons_val] at hz
  · right; right; right
    refine (convexComb3 _ _ _ _).2 ⟨x2 + τ * (s - x2), x3 + τ * (t - x3), n2, n3, by linarith, ?_⟩
    funext k
    simp only [Pi.add_apply, Pi.smul_apply, Pi.sub_apply, smul_eq_mul]
    linear_combination (a k - b k) * hz
  · right; right; left
    refine (convexComb3 _ _ _ _).2 ⟨x2 + τ * (s - x2), x3 + τ * (t - x3), n2, n3, by linarith, ?_⟩
    funext k
    simp only [Pi.add_apply, Pi.smul_apply, Pi.sub_apply, smul_eq_mul]
    linear_combination (b k - a k) * hz
  · right; left
    refine (convexComb3 _ _ _ _).2 ⟨x1 + τ * (r - x1), x3 + τ * (t - x3), n1, n3, by linarith, ?_⟩
    funext k
    simp only [Pi.add_apply, Pi.smul_apply, Pi.sub_apply, smul_eq_mul]
    linear_combination (c k - a k) * hz
  · left
    refine (convexComb3 _ _ _ _).2 ⟨x1 + τ * (r - x1), x2 + τ * (s - x2), n1, n2, by linarith, ?_⟩
    funext k
    simp only [Pi.add_apply, Pi.smul_apply, Pi.sub_apply, smul_eq_mul]
    linear_combination (e k - a k) * hz

omit [IsStrictOrderedRing K] in
/-- The faces belong to the tetrahedron. -/
theorem face_tetrahedron (a b c e y : Fin d → K)
    (h : ConvexComb [a, b, c] y ∨ ConvexComb [a, b, e] y ∨ ConvexComb [a, c, e] y ∨ ConvexComb [b, c, e] y) :
    ConvexComb [a, b, c, e] y := by
  rw [convexComb4]
  rcases h with h | h | h | h <;> obtain ⟨s, t, h0, h1, h2, rfl⟩ := (convexComb3 _ _ _ _).1 h
  · exact ⟨s, t, 0, h0, h1, le_rfl, by simpa using h2, by funext k; simp⟩
  · exact ⟨s, 0, t, h0, le_rfl, h1, by simpa using h2, by funext k; simp⟩
  · exact ⟨0, s, t, le_rfl, h0, h1, by simpa using h2, by funext k; simp⟩
  · refine ⟨1 - s - t, s, t, h2, h0, h1, by ring_nf; exact le_rfl, ?_⟩
    funext k; simp; ring

theorem closestPointTetrahedron_spec (p a b c e : Fin d → K) (hn : NotInAPlane a b c e) :
    ∃ q, closestPointTetrahedron p a b c e = some (p, q) ∧ IsNearest (ConvexComb [a, b, c, e]) p q := by
  have hg : gram3 (b - a) (c - a) (e - a) ≠ 0 := gram3_ne_zero _ _ _ (fun r s t h => hn r s t (fun k => by simpa using h k))
  obtain ⟨f1, f2, f3, f4⟩ := hn.faces
  simp only [closestPointTetrahedron]
  unfold gram3 at hg
  rw [if_neg hg]
  set A := innerProd (b - a) (b - a) with hA
  set B := innerProd (c - a) (b - a) with hB
  set C := innerProd (e - a) (b - a) with hC
  set D := innerProd (c - a) (c - a) with hD
  set E := innerProd (e - a) (c - a) with hE
  set F := innerProd (e - a) (e - a) with hF
  set X := innerProd (p - a) (b - a) with hX
  set Y := innerProd (p - a) (c - a) with hY
  set Z := innerProd (p - a) (e - a) with hZ
  have hr := div_mul_cancel₀ (X * D * F + B * E * Z + C * Y * E - Z * D * C - E * E * X - F * Y * B) hg
  have hs := div_mul_cancel₀ (A * Y * F + X * E * C + C * B * Z - C * Y * C - Z * E * A - F * B * X) hg
  have ht := div_mul_cancel₀ (A * D * Z + B * Y * C + X * B * E - C * D * X - E * Y * A - Z * B * B) hg
  generalize (X * D * F + B * E * Z + C * Y * E - Z * D * C - E * E * X - F * Y * B)
    / (A * D * F + B * E * C + C * B * E - C * D * C - E * E * A - F * B * B) = r at hr
  generalize (A * Y * F + X * E * C + C * B * Z - C * Y * C - Z * E * A - F * B * X)
    / (A * D * F + B * E * C + C * B * E - C * D * C - E * E * A - F * B * B) = s at hs
  generalize (A * D * Z + B * Y * C + X * B * E - C * D * X - E * Y * A - Z * B * B)
    / (A * D * F + B * E * C + C * B * E - C * D * C - E * E * A - F * B * B) = t at ht
  have e1 : r * A + s * B + t * C = X := mul_right_cancel₀ hg (by linear_combination A * hr + B * hs + C * ht)
  have e2 : r * B + s * D + t * E = Y := mul_right_cancel₀ hg (by linear_combination B * hr + D * hs + E * ht)
  have e3 : r * C + s * E + t * F = Z := mul_right_cancel₀ hg (by linear_combination C * hr + E * hs + F * ht)
  have orth : ∀ r' s' t' : K, innerProd (p - (a + r • (b - a) + s • (c - a) + t • (e - a)))
      (a + r • (b - a) + s • (c - a) + t • (e - a) - (a + r' • (b - a) + s' • (c - a) + t' • (e - a))) = 0 := by
    intro r' s' t'
    have g1 : p - (a + r • (b - a) + s • (c - a) + t • (e - a))
        = (p - a) - r • (b - a) - s • (c - a) - t • (e - a) := by funext k; simp; ring
    have g2 : a + r • (b - a) + s • (c - a) + t • (e - a) - (a + r' • (b - a) + s' • (c - a) + t' • (e - a))
        = (r - r') • (b - a) + (s - s') • (c - a) + (t - t') • (e - a) := by funext k; simp; ring
    rw [g1, g2]
    simp only [innerProd_add_right, innerProd_smul_right, innerProd_sub_left, innerProd_smul_left,
      innerProd_comm (b - a) (c - a), innerProd_comm (b - a) (e - a), innerProd_comm (c - a) (e - a),
      ← hA, ← hB, ← hC, ← hD, ← hE, ← hF, ← hX, ← hY, ← hZ]
    linear_combination (-(r - r')) * e1 - (s - s') * e2 - (t - t') * e3
  have py : ∀ x, ConvexComb [a, b, c, e] x → sqDist p x
      = sqDist p (a + r • (b - a) + s • (c - a) + t • (e - a))
        + sqDist (a + r • (b - a) + s • (c - a) + t • (e - a)) x := by
    intro x hx
    obtain ⟨r', s', t', _, _, _, _, rfl⟩ := (convexComb4 _ _ _ _ _).1 hx
    exact sqDist_pyth _ _ _ (orth r' s' t')
  by_cases hout : (r < 0 ∨ r > 1) ∨ (s < 0 ∨ s > 1) ∨ (t < 0 ∨ t > 1) ∨ r + s + t > 1
  · rw [if_pos hout]
    have hout' : r < 0 ∨ s < 0 ∨ t < 0 ∨ 1 - r - s - t < 0 := by
      by_contra hc
      simp only [not_or, not_lt] at hc
      obtain ⟨h1, h2, h3, h4⟩ := hc
      rcases hout with (h | h) | (h | h) | (h | h) | h <;> linarith
    set p' := a + r • (b - a) + s • (c - a) + t • (e - a) with hp'
    obtain ⟨q1, r1, n1⟩ := closestPointTriangle_spec p' a b c f1
    obtain ⟨q2, r2, n2⟩ := closestPointTriangle_spec p' a b e f2
    obtain ⟨q3, r3, n3⟩ := closestPointTriangle_spec p' a c e f3
    obtain ⟨q4, r4, n4⟩ := closestPointTriangle_spec p' b c e f4
    simp only [r1, r2, r3, r4, Option.bind_some]
    obtain ⟨hc, h1, h2, h3, h4⟩ := shortest4_spec (p, q1) (p, q2) (p, q3) (p, q4)
    have m1 := face_tetrahedron a b c e q1 (Or.inl n1.1)
    have m2 := face_tetrahedron a b c e q2 (Or.inr (Or.inl n2.1))
    have m3 := face_tetrahedron a b c e q3 (Or.inr (Or.inr (Or.inl n3.1)))
    have m4 := face_tetrahedron a b c e q4 (Or.inr (Or.inr (Or.inr n4.1)))
    have hq : ∃ q, shortest4 (p, q1) (p, q2) (p, q3) (p, q4) = (p, q) ∧ ConvexComb [a, b, c, e] q := by
      rcases hc with h | h | h | h
      · exact ⟨q1, h, m1⟩
      · exact ⟨q2, h, m2⟩
      · exact ⟨q3, h, m3⟩
      · exact ⟨q4, h, m4⟩
    obtain ⟨q, hq, hmem⟩ := hq
    rw [hq] at h1 h2 h3 h4 ⊢
    simp only [pairDist_eq] at h1 h2 h3 h4
    refine ⟨q, rfl, hmem, fun x hx => ?_⟩
    obtain ⟨y, hy, hle⟩ := tetrahedron_exit a b c e x r s t hout' hx
    have hle2 : sqDist p' q ≤ sqDist p' y := by
      have pq := py q hmem
      rcases hy with hy | hy | hy | hy
      · have := n1.2 y hy; have := py q1 m1; linarith
      · have := n2.2 y hy; have := py q2 m2; linarith
      · have := n3.2 y hy; have := py q3 m3; linarith
      · have := n4.2 y hy; have := py q4 m4; linarith
    rw [py q hmem, py x hx]
    linarith
  · rw [if_neg hout]
    simp only [not_or, not_lt] at hout
    obtain ⟨⟨h1, h2⟩, ⟨h3, h4⟩, ⟨h5, h6⟩, h7⟩ := hout
    have hm : ConvexComb [a, b, c, e] (a + r • (b - a) + s • (c - a) + t • (e - a)) :=
      (convexComb4 _ _ _ _ _).2 ⟨r, s, t, h1, h3, h5, by linarith, rfl⟩
    refine ⟨_, rfl, hm, fun x hx => ?_⟩
    rw [py x hx]
    have := sqDist_nonneg (a + r • (b - a) + s • (c - a) + t • (e - a)) x
    linarith

end VG
