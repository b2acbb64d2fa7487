import Verif.Props.Inclusion

/-!
C43: the circumcenter has equal distance from all corners and lies in the affine hull.
-/

namespace VG

section Field
variable {K : Type} [Field K] {d : Nat}

/-- The square of the Euclidean distance. -/
def sqDist (p q : Fin d → K) : K := ∑ i, (p i - q i) ^ 2

theorem C43_line [CharZero K] (A B : Fin d → K) :
    sqDist (circumLine A B) A = sqDist (circumLine A B) B
    ∧ ∃ t : K, ∀ i, circumLine A B i = A i + t * (B i - A i) := by
  have h2 : (2 : K) ≠ 0 := by norm_num
  constructor
  · refine Finset.sum_congr rfl fun i _ => ?_
    simp only [circumLine]; field_simp; ring
  · refine ⟨1 / 2, fun i => ?_⟩
    simp only [circumLine]; field_simp; ring

/-- A common statement for both conditions on a triangle in the plane: twice the signed area. -/
def twiceArea (A B C : Fin 2 → K) : K := (B 0 - A 0) * (C 1 - A 1) - (C 0 - A 0) * (B 1 - A 1)

theorem C43_triangle2 [CharZero K] (A B C : Fin 2 → K) (h : twiceArea A B C ≠ 0) :
    sqDist (circumTriangle2 A B C) A = sqDist (circumTriangle2 A B C) B
    ∧ sqDist (circumTriangle2 A B C) A = sqDist (circumTriangle2 A B C) C := by
  have e : 2 * (A 0 * (B 1 - C 1) + B 0 * (C 1 - A 1) + C 0 * (A 1 - B 1)) = 2 * twiceArea A B C := by
    rw [twiceArea]; ring
  have hD : 2 * twiceArea A B C ≠ 0 := mul_ne_zero (by norm_num) h
  simp only [sqDist, Fin.sum_univ_two, circumTriangle2, Matrix.cons_val_zero, Matrix.cons_val_one, e]
  have hx := div_mul_cancel₀ ((A 1 * A 1 + A 0 * A 0) * (B 1 - C 1) + (B 1 * B 1 + B 0 * B 0) * (C 1 - A 1)
      + (C 1 * C 1 + C 0 * C 0) * (A 1 - B 1)) hD
  have hy := div_mul_cancel₀ ((A 1 * A 1 + A 0 * A 0) * (C 0 - B 0) + (B 1 * B 1 + B 0 * B 0) * (A 0 - C 0)
      + (C 1 * C 1 + C 0 * C 0) * (B 0 - A 0)) hD
  generalize ((A 1 * A 1 + A 0 * A 0) * (B 1 - C 1) + (B 1 * B 1 + B 0 * B 0) * (C 1 - A 1)
      + (C 1 * C 1 + C 0 * C 0) * (A 1 - B 1)) / (2 * twiceArea A B C) = x at hx
  generalize ((A 1 * A 1 + A 0 * A 0) * (C 0 - B 0) + (B 1 * B 1 + B 0 * B 0) * (A 0 - C 0)
      + (C 1 * C 1 + C 0 * C 0) * (B 0 - A 0)) / (2 * twiceArea A B C) = y at hy
  simp only [twiceArea] at h hx hy
  constructor
  · apply mul_left_cancel₀ h
    linear_combination (B 0 - A 0) * hx + (B 1 - A 1) * hy
  · apply mul_left_cancel₀ h
    linear_combination (C 0 - A 0) * hx + (C 1 - A 1) * hy

example : twiceArea (![0, 0] : Fin 2 → Rat) ![4, 0] ![1, 3] ≠ 0
    ∧ circumTriangle2 (![0, 0] : Fin 2 → Rat) ![4, 0] ![1, 3] = ![2, 1] := by decide +kernel

end Field

section Ordered
variable {K : Type} [Field K] [LinearOrder K] [IsStrictOrderedRing K]

theorem C43_triangle3 (A B C : Fin 3 → K) (hn : NotOnALine A B C) :
    sqDist (circumTriangle3 A B C) A = sqDist (circumTriangle3 A B C) B
    ∧ sqDist (circumTriangle3 A B C) A = sqDist (circumTriangle3 A B C) C
    ∧ ∃ s t : K, ∀ i, circumTriangle3 A B C i = A i + s * (B i - A i) + t * (C i - A i) := by
  have hg := gram_pos (B - A) (C - A) (fun r q h => hn r q (fun k => by simpa using h k))
  have lag : innerProd (crossProd (A - B) (B - C)) (crossProd (A - B) (B - C))
      = innerProd (B - A) (B - A) * innerProd (C - A) (C - A) - innerProd (B - A) (C - A) * innerProd (B - A) (C - A) := by
    simp only [innerProd3, crossProd_zero, crossProd_one, crossProd_two, Pi.sub_apply]; ring
  have hD : 2 * innerProd (crossProd (A - B) (B - C)) (crossProd (A - B) (B - C)) ≠ 0 := by
    rw [lag]; exact mul_ne_zero two_ne_zero hg.ne'
  -- express everything by u = B - A, v = C - A
  have eBC : B - C = (B - A) - (C - A) := by funext i; simp
  have eAB : A - B = -(B - A) := by funext i; simp
  have eAC : A - C = -(C - A) := by funext i; simp
  have eCB : C - B = (C - A) - (B - A) := by funext i; simp
  have ha := div_mul_cancel₀ (innerProd (B - C) (B - C) * innerProd (A - B) (A - C)) hD
  have hb := div_mul_cancel₀ (innerProd (A - C) (A - C) * innerProd (B - A) (B - C)) hD
  have hc := div_mul_cancel₀ (innerProd (A - B) (A - B) * innerProd (C - A) (C - B)) hD
  have unf : circumTriangle3 A B C = fun i =>
      A i * (innerProd (B - C) (B - C) * innerProd (A - B) (A - C)
          / (2 * innerProd (crossProd (A - B) (B - C)) (crossProd (A - B) (B - C))))
      + B i * (innerProd (A - C) (A - C) * innerProd (B - A) (B - C)
          / (2 * innerProd (crossProd (A - B) (B - C)) (crossProd (A - B) (B - C))))
      + C i * (innerProd (A - B) (A - B) * innerProd (C - A) (C - B)
          / (2 * innerProd (crossProd (A - B) (B - C)) (crossProd (A - B) (B - C)))) := rfl
  rw [unf]
  generalize innerProd (B - C) (B - C) * innerProd (A - B) (A - C)
      / (2 * innerProd (crossProd (A - B) (B - C)) (crossProd (A - B) (B - C))) = al at ha
  generalize innerProd (A - C) (A - C) * innerProd (B - A) (B - C)
      / (2 * innerProd (crossProd (A - B) (B - C)) (crossProd (A - B) (B - C))) = be at hb
  generalize innerProd (A - B) (A - B) * innerProd (C - A) (C - B)
      / (2 * innerProd (crossProd (A - B) (B - C)) (crossProd (A - B) (B - C))) = ga at hc
  rw [lag] at ha hb hc hD
  rw [eBC, eAB, eAC] at ha
  rw [eBC, eAC] at hb
  rw [eCB, eAB] at hc
  simp only [innerProd_sub_left, innerProd_sub_right, innerProd_neg_left, innerProd_neg_right] at ha hb hc hD hg
  have sym := innerProd_comm (d := 3) (K := K)
  -- the weights add up to one
  have hsum : al + be + ga = 1 := by
    apply mul_right_cancel₀ hD
    rw [add_mul, add_mul, ha, hb, hc, one_mul, sym C B, sym C A, sym B A]
    ring
  have hw : al = 1 - be - ga := by rw [← hsum]; ring
  have hform : (fun i => A i * al + B i * be + C i * ga) = A + be • (B - A) + ga • (C - A) := by
    funext i; simp only [Pi.add_apply, Pi.smul_apply, Pi.sub_apply, smul_eq_mul, hw]; ring
  have hsq : ∀ p q : Fin 3 → K, sqDist p q = innerProd (p - q) (p - q) := by
    intro p q; simp only [sqDist, innerProd, Pi.sub_apply, pow_two]
  have huv : ∀ x y : K, innerProd (x • (B - A) + y • (C - A)) (x • (B - A) + y • (C - A))
      = x ^ 2 * innerProd (B - A) (B - A) + 2 * x * y * innerProd (B - A) (C - A) + y ^ 2 * innerProd (C - A) (C - A) := by
    intro x y
    simp only [innerProd_add_left, innerProd_add_right, innerProd_smul_left, innerProd_smul_right,
      sym (C - A) (B - A)]
    ring
  have e1 : A + be • (B - A) + ga • (C - A) - A = be • (B - A) + ga • (C - A) := by funext i; simp; ring
  have e2 : A + be • (B - A) + ga • (C - A) - B = (be - 1) • (B - A) + ga • (C - A) := by funext i; simp; ring
  have e3 : A + be • (B - A) + ga • (C - A) - C = be • (B - A) + (ga - 1) • (C - A) := by funext i; simp; ring
  rw [hform]
  refine ⟨?_, ?_, be, ga, fun i => by simp⟩
  · rw [hsq, hsq, e1, e2, huv, huv]
    simp only [innerProd_sub_left, innerProd_sub_right]
    rw [sym C B, sym C A, sym B A] at *
    apply mul_right_cancel₀ hD
    linear_combination (2 * (innerProd B B - innerProd A B - innerProd A B + innerProd A A)) * hb
      + 2 * (innerProd B C - innerProd A C - innerProd A B + innerProd A A) * hc
  · rw [hsq, hsq, e1, e3, huv, huv]
    simp only [innerProd_sub_left, innerProd_sub_right]
    rw [sym C B, sym C A, sym B A] at *
    apply mul_right_cancel₀ hD
    linear_combination (2 * (innerProd C C - innerProd A C - innerProd A C + innerProd A A)) * hc
      + 2 * (innerProd B C - innerProd A C - innerProd A B + innerProd A A) * hb

/-- If the function returns at all, the point has equal distance from all corners. -/
theorem C43_tetrahedron_partial (O p1 p2 p3 q : Fin 3 → K) (hn : NotInAPlane O p1 p2 p3)
    (h : circumTetrahedron O p1 p2 p3 = some q) :
    sqDist q O = sqDist q p1 ∧ sqDist q O = sqDist q p2 ∧ sqDist q O = sqDist q p3 := by
  have hd0 := det_ne_zero_of_notInAPlane O p1 p2 p3 hn
  have hd : innerProd (p1 - O) (crossProd (p2 - O) (p3 - O)) ≠ 0 := by
    have : innerProd (p1 - O) (crossProd (p2 - O) (p3 - O)) = determinant3 (p1 - O) (p2 - O) (p3 - O) := by
      simp only [innerProd3, determinant3, crossProd_zero, crossProd_one, crossProd_two]; ring
    rw [this]; exact hd0
  have hD : innerProd (p1 - O) (crossProd (p2 - O) (p3 - O)) * 2 ≠ 0 := mul_ne_zero hd two_ne_zero
  simp only [circumTetrahedron] at h
  split at h
  · simp at h
  · have hq := Option.some.inj h
    have hc : ∀ i, (q i - O i) * (innerProd (p1 - O) (crossProd (p2 - O) (p3 - O)) * 2) =
        crossProd (p1 - O) (p2 - O) i * innerProd (p3 - O) (p3 - O)
        + crossProd (p3 - O) (p1 - O) i * innerProd (p2 - O) (p2 - O)
        + crossProd (p2 - O) (p3 - O) i * innerProd (p1 - O) (p1 - O) := by
      intro i
      rw [← hq]
      simp only [add_sub_cancel_right]
      rw [mul_assoc, one_div_mul_cancel hD, mul_one]
    have h0 := hc 0; have h1 := hc 1; have h2 := hc 2
    have eq : ∀ p : Fin 3 → K,
        2 * ((q 0 - O 0) * (p 0 - O 0) + (q 1 - O 1) * (p 1 - O 1) + (q 2 - O 2) * (p 2 - O 2))
          = (p 0 - O 0) ^ 2 + (p 1 - O 1) ^ 2 + (p 2 - O 2) ^ 2 → sqDist q O = sqDist q p := by
      intro p hp
      simp only [sqDist, Fin.sum_univ_three]
      linear_combination hp
    simp only [innerProd3, crossProd_zero, crossProd_one, crossProd_two, Pi.sub_apply] at h0 h1 h2 hd
    refine ⟨eq p1 ?_, eq p2 ?_, eq p3 ?_⟩
    · apply mul_right_cancel₀ hd
      linear_combination (p1 0 - O 0) * h0 + (p1 1 - O 1) * h1 + (p1 2 - O 2) * h2
    · apply mul_right_cancel₀ hd
      linear_combination (p2 0 - O 0) * h0 + (p2 1 - O 1) * h1 + (p2 2 - O 2) * h2
    · apply mul_right_cancel₀ hd
      linear_combination (p3 0 - O 0) * h0 + (p3 1 - O 1) * h1 + (p3 2 - O 2) * h2

omit [IsStrictOrderedRing K] in
/-- When the exception is thrown: the corner `p1` is nearer than `1e-10` to the plane through the others, measured by
the square of `det / |B x C|`; no exception for corners farther away. -/
theorem C43_no_exception (O p1 p2 p3 : Fin 3 → K)
    (h : (1 / 10000000000) ^ 2 * (∑ i, crossProd (p2 - O) (p3 - O) i ^ 2) ≤ determinant3 (p1 - O) (p2 - O) (p3 - O) ^ 2) :
    ∃ q, circumTetrahedron O p1 p2 p3 = some q := by
  have e1 : innerProd (p1 - O) (crossProd (p2 - O) (p3 - O)) = determinant3 (p1 - O) (p2 - O) (p3 - O) := by
    simp only [innerProd3, determinant3, crossProd_zero, crossProd_one, crossProd_two]; ring
  have e2 : innerProd (crossProd (p2 - O) (p3 - O)) (crossProd (p2 - O) (p3 - O))
      = ∑ i, crossProd (p2 - O) (p3 - O) i ^ 2 := by
    simp only [innerProd, pow_two]
  simp only [circumTetrahedron, e1, e2]
  rw [if_neg]
  · exact ⟨_, rfl⟩
  · rw [not_lt, ← pow_two, ← pow_two]; exact h

/-- The threshold is absolute: a regular corner with edges of length `1e-11` (a mesh in the unit meter with features
of ten picometers, or any mesh scaled down) is refused, though it is as far from degenerate as the unit corner, which
is accepted. -/
theorem C43_violated :
    let s : Rat := 1 / 100000000000
    NotInAPlane (![0, 0, 0] : Fin 3 → Rat) ![s, 0, 0] ![0, s, 0] ![0, 0, s]
    ∧ circumTetrahedron (![0, 0, 0] : Fin 3 → Rat) ![s, 0, 0] ![0, s, 0] ![0, 0, s] = none
    ∧ (circumTetrahedron (![0, 0, 0] : Fin 3 → Rat) ![1, 0, 0] ![0, 1, 0] ![0, 0, 1]).isSome = true := by
  refine ⟨?_, ?_, ?_⟩
  · intro r q t h
    have h0 := h 0; have h1 := h 1; have h2 := h 2
    simp at h0 h1 h2
    exact ⟨h0, h1, h2⟩
  · simp only [circumTetrahedron]
    rw [if_pos (by decide +kernel)]
  · simp only [circumTetrahedron]
    rw [if_neg (by decide +kernel)]
    rfl

end Ordered

end VG
