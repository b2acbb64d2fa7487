import Verif.Lemmas.Geometry
import Mathlib.Tactic.Linarith
import Mathlib.Tactic.NormNum
import Mathlib.Tactic.FieldSimp
import Mathlib.Tactic.FinCases

/-!
C39: `is_inside` of triangles and tetrahedra.
-/

namespace VG

variable {K : Type} [Field K] [LinearOrder K] [IsStrictOrderedRing K] {d : Nat}

/-- `p` is a convex combination of the points of the list. -/
def ConvexComb : List (Fin d → K) → (Fin d → K) → Prop
  | l, p => ∃ w : Nat → K, (∀ i, i < l.length → 0 ≤ w i) ∧ (∑ i ∈ Finset.range l.length, w i) = 1
      ∧ ∀ k, p k = ∑ i ∈ Finset.range l.length, w i * (l.getD i 0) k

/-- The three points are not on one line: no affine relation between them. -/
def NotOnALine (a b c : Fin d → K) : Prop :=
  ∀ s t : K, (∀ k, s * (b k - a k) + t * (c k - a k) = 0) → s = 0 ∧ t = 0

/-- The four points are not in one plane. -/
def NotInAPlane (a b c e : Fin d → K) : Prop :=
  ∀ r s t : K, (∀ k, r * (b k - a k) + s * (c k - a k) + t * (e k - a k) = 0) → r = 0 ∧ s = 0 ∧ t = 0

omit [IsStrictOrderedRing K] in
theorem convexComb3 (a b c p : Fin d → K) :
    ConvexComb [a, b, c] p ↔ ∃ s t : K, 0 ≤ s ∧ 0 ≤ t ∧ 0 ≤ 1 - s - t ∧ p = a + s • (b - a) + t • (c - a) := by
  simp only [ConvexComb, List.length_cons, List.length_nil, Nat.reduceAdd, Finset.sum_range_succ,
    Finset.sum_range_zero, zero_add]
  constructor
  · rintro ⟨w, hw, h1, hp⟩
    refine ⟨w 1, w 2, hw 1 (by omega), hw 2 (by omega), ?_, ?_⟩
    · have := hw 0 (by omega)
      have e : 1 - w 1 - w 2 = w 0 := by rw [← h1]; ring
      rw [e]; exact this
    · funext k
      have := hp k
      simp only [List.getD_cons_zero, List.getD_cons_succ] at this
      simp only [Pi.add_apply, Pi.smul_apply, Pi.sub_apply, smul_eq_mul]
      rw [this]
      linear_combination (a k) * h1
  · rintro ⟨s, t, hs, ht, hst, rfl⟩
    refine ⟨fun i => if i = 0 then 1 - s - t else if i = 1 then s else t, ?_, ?_, ?_⟩
    · intro i hi
      have : i = 0 ∨ i = 1 ∨ i = 2 := by omega
      rcases this with rfl | rfl | rfl <;> simp [hs, ht, hst]
    · simp; ring
    · intro k; simp; ring

theorem gram_pos (x y : Fin d → K) (h : ∀ s t : K, (∀ k, s * x k + t * y k = 0) → s = 0 ∧ t = 0) :
    0 < innerProd x x * innerProd y y - innerProd x y * innerProd x y := by
  have hx : x ≠ 0 := by
    rintro rfl
    have := h 1 0 (by simp)
    exact one_ne_zero this.1
  have hxp := innerProd_self_pos x hx
  have hw : innerProd x x • y - innerProd x y • x ≠ 0 := by
    intro e
    have := h (-(innerProd x y)) (innerProd x x) (fun k => by
      have := congrFun e k
      simp only [Pi.sub_apply, Pi.smul_apply, smul_eq_mul, Pi.zero_apply] at this
      linear_combination this)
    exact hxp.ne' this.2
  have hp := innerProd_self_pos _ hw
  have e : innerProd (innerProd x x • y - innerProd x y • x) (innerProd x x • y - innerProd x y • x)
      = innerProd x x * (innerProd x x * innerProd y y - innerProd x y * innerProd x y) := by
    simp only [innerProd_sub_left, innerProd_sub_right, innerProd_smul_left, innerProd_smul_right, innerProd_comm y x]
    ring
  rw [e] at hp
  exact (mul_pos_iff_of_pos_left hxp).1 hp

/-- What the test for a triangle decides: the coordinates of the foot of the perpendicular from the point to the
plane of the triangle are not below `-eps` and add up to at most `1 + 2 eps`. -/
theorem inside_projection (eps : K) (a b c : Fin d → K) (hn : NotOnALine a b c) (s t : K) (w : Fin d → K)
    (h1 : innerProd (b - a) w = 0) (h2 : innerProd (c - a) w = 0) :
    insideTriangle eps a b c (a + s • (b - a) + t • (c - a) + w) = true ↔
      -eps ≤ t ∧ -eps ≤ s ∧ t + s ≤ 1 + 2 * eps := by
  have hg := gram_pos (c - a) (b - a) (fun r q h => by
    obtain ⟨h1, h2⟩ := hn q r (fun k => by have := h k; simp only [Pi.sub_apply] at this; linear_combination this)
    exact ⟨h2, h1⟩)
  have e : a + s • (b - a) + t • (c - a) + w - a = s • (b - a) + t • (c - a) + w := by
    funext k; simp; ring
  simp only [insideTriangle, e]
  have d02 : innerProd (c - a) (s • (b - a) + t • (c - a) + w)
      = s * innerProd (c - a) (b - a) + t * innerProd (c - a) (c - a) := by
    rw [innerProd_add_right, innerProd_add_right, innerProd_smul_right, innerProd_smul_right, h2, add_zero]
  have d12 : innerProd (b - a) (s • (b - a) + t • (c - a) + w)
      = s * innerProd (b - a) (b - a) + t * innerProd (c - a) (b - a) := by
    rw [innerProd_add_right, innerProd_add_right, innerProd_smul_right, innerProd_smul_right, h1, add_zero,
      innerProd_comm (b - a) (c - a)]
  rw [d02, d12]
  generalize innerProd (c - a) (c - a) = A at hg
  generalize innerProd (c - a) (b - a) = B at hg
  generalize innerProd (b - a) (b - a) = C at hg
  have hu : (C * (s * B + t * A) - B * (s * C + t * B)) * (1 / (A * C - B * B)) = t := by
    rw [mul_one_div, div_eq_iff hg.ne']; ring
  have hv : (A * (s * C + t * B) - B * (s * B + t * A)) * (1 / (A * C - B * B)) = s := by
    rw [mul_one_div, div_eq_iff hg.ne']; ring
  rw [hu, hv]
  simp [ge_iff_le, and_assoc]

/-- In a plane the test for triangles without tolerance is exact. -/
theorem C39_triangle_partial (a b c p : Fin 2 → K) (hn : NotOnALine a b c) :
    insideTriangle 0 a b c p = true ↔ ConvexComb [a, b, c] p := by
  rw [convexComb3]
  have hD : (b 0 - a 0) * (c 1 - a 1) - (b 1 - a 1) * (c 0 - a 0) ≠ 0 := by
    intro h
    have h1 := hn (c 1 - a 1) (-(b 1 - a 1)) (fun k => by
      fin_cases k
      · simp only [Fin.zero_eta]; linear_combination h
      · simp only [Fin.mk_one]; ring)
    have h2 := hn (c 0 - a 0) (-(b 0 - a 0)) (fun k => by
      fin_cases k
      · simp only [Fin.zero_eta]; ring
      · simp only [Fin.mk_one]; linear_combination (-1 : K) * h)
    have h3 := hn 0 1 (fun k => by
      fin_cases k
      · simp [h2.1]
      · simp [h1.1])
    exact one_ne_zero h3.2
  have key : ∀ s t : K, insideTriangle 0 a b c (a + s • (b - a) + t • (c - a)) = true ↔ 0 ≤ t ∧ 0 ≤ s ∧ t + s ≤ 1 := by
    intro s t
    have := inside_projection 0 a b c hn s t 0 (innerProd_zero_right _) (innerProd_zero_right _)
    simpa using this
  constructor
  · intro h
    -- Cramer's rule
    have hs := div_mul_cancel₀ ((p 0 - a 0) * (c 1 - a 1) - (p 1 - a 1) * (c 0 - a 0)) hD
    have ht := div_mul_cancel₀ ((b 0 - a 0) * (p 1 - a 1) - (b 1 - a 1) * (p 0 - a 0)) hD
    generalize ((p 0 - a 0) * (c 1 - a 1) - (p 1 - a 1) * (c 0 - a 0))
      / ((b 0 - a 0) * (c 1 - a 1) - (b 1 - a 1) * (c 0 - a 0)) = s at hs
    generalize ((b 0 - a 0) * (p 1 - a 1) - (b 1 - a 1) * (p 0 - a 0))
      / ((b 0 - a 0) * (c 1 - a 1) - (b 1 - a 1) * (c 0 - a 0)) = t at ht
    have hp : p = a + s • (b - a) + t • (c - a) := by
      funext k
      simp only [Pi.add_apply, Pi.smul_apply, Pi.sub_apply, smul_eq_mul]
      apply mul_left_cancel₀ hD
      fin_cases k <;> simp only [Fin.zero_eta, Fin.mk_one]
      · linear_combination (-(b 0 - a 0)) * hs - (c 0 - a 0) * ht
      · linear_combination (-(b 1 - a 1)) * hs - (c 1 - a 1) * ht
    rw [hp] at h
    obtain ⟨h1, h2, h3⟩ := (key _ _).1 h
    exact ⟨_, _, h2, h1, by linarith, hp⟩
  · rintro ⟨s, t, hs, ht, hst, rfl⟩
    exact (key s t).2 ⟨ht, hs, by linarith⟩

/-- In any dimension the points of the triangle are accepted, with any tolerance. -/
theorem C39_triangle_accepts (eps : K) (he : 0 ≤ eps) (a b c p : Fin d → K) (hn : NotOnALine a b c)
    (h : ConvexComb [a, b, c] p) : insideTriangle eps a b c p = true := by
  obtain ⟨s, t, hs, ht, hst, rfl⟩ := (convexComb3 a b c p).1 h
  have := (inside_projection eps a b c hn s t 0 (innerProd_zero_right _) (innerProd_zero_right _)).2
    ⟨by linarith, by linarith, by linarith⟩
  simpa using this

/-- In any dimension a point is accepted without tolerance iff it differs from a point of the triangle by a vector
that is perpendicular to the triangle. -/
theorem C39_triangle_projection (a b c p : Fin d → K) (hn : NotOnALine a b c) :
    insideTriangle 0 a b c p = true ↔
      ∃ q, ConvexComb [a, b, c] q ∧ (∑ k, (b k - a k) * (p k - q k)) = 0 ∧ (∑ k, (c k - a k) * (p k - q k)) = 0 := by
  constructor
  · intro h
    have hg := gram_pos (b - a) (c - a) (fun r q h => hn r q (fun k => by simpa using h k))
    -- the foot of the perpendicular
    obtain ⟨s, t, w, h1, h2, rfl⟩ : ∃ (s t : K) (w : Fin d → K), innerProd (b - a) w = 0 ∧ innerProd (c - a) w = 0
        ∧ p = a + s • (b - a) + t • (c - a) + w := by
      let A := innerProd (b - a) (b - a)
      let B := innerProd (b - a) (c - a)
      let C := innerProd (c - a) (c - a)
      let g := A * C - B * B
      have hg' : g ≠ 0 := hg.ne'
      let x := innerProd (b - a) (p - a)
      let y := innerProd (c - a) (p - a)
      refine ⟨(C * x - B * y) / g, (A * y - B * x) / g,
        (p - a) - ((C * x - B * y) / g) • (b - a) - ((A * y - B * x) / g) • (c - a), ?_, ?_, ?_⟩
      · rw [innerProd_sub_right, innerProd_sub_right, innerProd_smul_right, innerProd_smul_right]
        change x - (C * x - B * y) / g * A - (A * y - B * x) / g * B = 0
        rw [div_mul_eq_mul_div, div_mul_eq_mul_div, sub_sub, ← add_div, sub_eq_zero, eq_div_iff hg']
        simp only [g]; ring
      · rw [innerProd_sub_right, innerProd_sub_right, innerProd_smul_right, innerProd_smul_right,
          innerProd_comm (c - a) (b - a)]
        change y - (C * x - B * y) / g * B - (A * y - B * x) / g * C = 0
        rw [div_mul_eq_mul_div, div_mul_eq_mul_div, sub_sub, ← add_div, sub_eq_zero, eq_div_iff hg']
        simp only [g]; ring
      · funext k; simp
    obtain ⟨ht, hs, hst⟩ := (inside_projection 0 a b c hn s t w h1 h2).1 h
    refine ⟨a + s • (b - a) + t • (c - a), (convexComb3 _ _ _ _).2 ⟨s, t, by linarith, by linarith, by linarith, rfl⟩,
      ?_, ?_⟩
    · rw [← h1]; apply Finset.sum_congr rfl; intro k _; simp
    · rw [← h2]; apply Finset.sum_congr rfl; intro k _; simp
  · rintro ⟨q, hq, h1, h2⟩
    obtain ⟨s, t, hs, ht, hst, rfl⟩ := (convexComb3 _ _ _ _).1 hq
    have e : p = a + s • (b - a) + t • (c - a) + (p - (a + s • (b - a) + t • (c - a))) := by
      funext k; simp
    rw [e]
    exact (inside_projection 0 a b c hn s t _ h1 h2).2 ⟨by linarith, by linarith, by linarith⟩

/-- In space the test for triangles accepts points outside the plane of the triangle: (1/4, 1/4, 7) is accepted by
the triangle (0,0,0), (1,0,0), (0,1,0), but is no convex combination of its corners. -/
theorem C39_violated :
    let a : Fin 3 → Rat := ![0, 0, 0]
    let b : Fin 3 → Rat := ![1, 0, 0]
    let c : Fin 3 → Rat := ![0, 1, 0]
    let p : Fin 3 → Rat := ![1/4, 1/4, 7]
    NotOnALine a b c ∧ insideTriangle 0 a b c p = true ∧ ¬ ConvexComb [a, b, c] p := by
  refine ⟨?_, by decide +kernel, ?_⟩
  · intro s t h
    have h0 := h 0; have h1 := h 1
    simp at h0 h1
    exact ⟨h0, h1⟩
  · rw [convexComb3]
    rintro ⟨s, t, _, _, _, h⟩
    have := congrFun h 2
    simp at this

example : NotOnALine (![0, 0] : Fin 2 → Rat) ![3, 1] ![1, 2] ∧ insideTriangle 0 (![0, 0] : Fin 2 → Rat) ![3, 1] ![1, 2] ![1, 1] = true
    ∧ insideTriangle 0 (![0, 0] : Fin 2 → Rat) ![3, 1] ![1, 2] ![2, 2] = false := by
  refine ⟨?_, by decide +kernel, by decide +kernel⟩
  intro s t h
  have h0 := h 0; have h1 := h 1
  simp at h0 h1
  constructor <;> linarith

/-! ### Tetrahedra -/

omit [IsStrictOrderedRing K] in
theorem convexComb4 (a b c e p : Fin d → K) :
    ConvexComb [a, b, c, e] p ↔ ∃ r s t : K, 0 ≤ r ∧ 0 ≤ s ∧ 0 ≤ t ∧ 0 ≤ 1 - r - s - t
      ∧ p = a + r • (b - a) + s • (c - a) + t • (e - a) := by
  simp only [ConvexComb, List.length_cons, List.length_nil, Nat.reduceAdd, Finset.sum_range_succ,
    Finset.sum_range_zero, zero_add]
  constructor
  · rintro ⟨w, hw, h1, hp⟩
    refine ⟨w 1, w 2, w 3, hw 1 (by omega), hw 2 (by omega), hw 3 (by omega), ?_, ?_⟩
    · have := hw 0 (by omega)
      have e : 1 - w 1 - w 2 - w 3 = w 0 := by rw [← h1]; ring
      rw [e]; exact this
    · funext k
      have := hp k
      simp only [List.getD_cons_zero, List.getD_cons_succ] at this
      simp only [Pi.add_apply, Pi.smul_apply, Pi.sub_apply, smul_eq_mul]
      rw [this]
      linear_combination (a k) * h1
  · rintro ⟨r, s, t, hr, hs, ht, hst, rfl⟩
    refine ⟨fun i => if i = 0 then 1 - r - s - t else if i = 1 then r else if i = 2 then s else t, ?_, ?_, ?_⟩
    · intro i hi
      have : i = 0 ∨ i = 1 ∨ i = 2 ∨ i = 3 := by omega
      rcases this with rfl | rfl | rfl | rfl <;> simp [hr, hs, ht, hst]
    · simp; ring
    · intro k; simp; ring

omit [LinearOrder K] [IsStrictOrderedRing K] in
/-- `det (b - a) (c - a) (e - a)` -/
theorem signedTetrahedron_det [CharZero K] (a b c e : Fin 3 → K) :
    signedTetrahedron a b c e * 6 = determinant3 (b - a) (c - a) (e - a) := by
  rw [signedTetrahedron, div_mul_cancel₀ _ (by norm_num)]
  simp only [innerProd3, determinant3, crossProd_zero, crossProd_one, crossProd_two]
  ring

omit [LinearOrder K] [IsStrictOrderedRing K] in
theorem det_ne_zero_of_notInAPlane (a b c e : Fin 3 → K) (hn : NotInAPlane a b c e) :
    determinant3 (b - a) (c - a) (e - a) ≠ 0 := by
  intro h
  simp only [determinant3, Pi.sub_apply] at h
  -- the columns of cofactors give relations
  have rel : ∀ i j : Fin 3, i ≠ j →
      (c i - a i) * (e j - a j) - (c j - a j) * (e i - a i) = 0 ∧
      (b i - a i) * (e j - a j) - (b j - a j) * (e i - a i) = 0 ∧
      (b i - a i) * (c j - a j) - (b j - a j) * (c i - a i) = 0 := by
    intro i j hij
    have := hn ((c i - a i) * (e j - a j) - (c j - a j) * (e i - a i))
      (-((b i - a i) * (e j - a j) - (b j - a j) * (e i - a i)))
      ((b i - a i) * (c j - a j) - (b j - a j) * (c i - a i)) (fun k => by
        fin_cases i <;> fin_cases j <;> first | exact absurd rfl hij | skip
        all_goals fin_cases k <;> simp only [Fin.zero_eta, Fin.mk_one, Fin.reduceFinMk]
        all_goals first | ring1 | linear_combination h | linear_combination (-1 : K) * h)
    exact ⟨this.1, neg_eq_zero.1 this.2.1, this.2.2⟩
  -- two of the columns are dependent
  have r01 := rel 0 1 (by decide); have r02 := rel 0 2 (by decide); have r12 := rel 1 2 (by decide)
  have zero : ∀ k, c k - a k = 0 := by
    intro k
    have := hn (-(c k - a k)) (b k - a k) 0 (fun j => by
      have := r01.2.2; have := r02.2.2; have := r12.2.2
      fin_cases k <;> fin_cases j <;> simp only [Fin.zero_eta, Fin.mk_one, Fin.reduceFinMk]
      · ring
      · linear_combination r01.2.2
      · linear_combination r02.2.2
      · linear_combination (-1 : K) * r01.2.2
      · ring
      · linear_combination r12.2.2
      · linear_combination (-1 : K) * r02.2.2
      · linear_combination (-1 : K) * r12.2.2
      · ring)
    exact neg_eq_zero.1 this.1
  have := hn 0 1 0 (fun k => by rw [zero k]; ring)
  exact one_ne_zero this.2.1

/-- The test for tetrahedra without tolerance is exact. -/
theorem C39_tetrahedron (a b c e p : Fin 3 → K) (hn : NotInAPlane a b c e) :
    insideTetrahedron 0 a b c e p = true ↔ ConvexComb [a, b, c, e] p := by
  rw [convexComb4]
  have hD := det_ne_zero_of_notInAPlane a b c e hn
  have hV : signedTetrahedron a b c e ≠ 0 := fun h => hD (by rw [← signedTetrahedron_det, h, zero_mul])
  have hVa : |signedTetrahedron a b c e| ≠ 0 := abs_ne_zero.2 hV
  have key : ∀ r s t : K, insideTetrahedron 0 a b c e (a + r • (b - a) + s • (c - a) + t • (e - a)) = true ↔
      0 ≤ r ∧ 0 ≤ s ∧ 0 ≤ t ∧ 0 ≤ 1 - r - s - t := by
    intro r s t
    have hA : signedTetrahedron (a + r • (b - a) + s • (c - a) + t • (e - a)) b c e
        = (1 - r - s - t) * signedTetrahedron a b c e := by
      simp [signedTetrahedron, innerProd3]; ring
    have hB : signedTetrahedron a (a + r • (b - a) + s • (c - a) + t • (e - a)) c e
        = r * signedTetrahedron a b c e := by
      simp [signedTetrahedron, innerProd3]; ring
    have hC : signedTetrahedron a b (a + r • (b - a) + s • (c - a) + t • (e - a)) e
        = s * signedTetrahedron a b c e := by
      simp [signedTetrahedron, innerProd3]; ring
    have hE : signedTetrahedron a b c (a + r • (b - a) + s • (c - a) + t • (e - a))
        = t * signedTetrahedron a b c e := by
      simp [signedTetrahedron, innerProd3]; ring
    have hm : ∀ x : K, |x| * |signedTetrahedron a b c e| * (1 / |signedTetrahedron a b c e|) = |x| := by
      intro x; rw [mul_assoc, mul_one_div_cancel hVa, mul_one]
    simp only [insideTetrahedron, spannedTetrahedron, hA, hB, hC, hE, abs_mul, hm, neg_zero, mul_zero, add_zero,
      ge_iff_le, abs_nonneg, decide_true, Bool.true_and, decide_eq_true_eq]
    constructor
    · intro h
      have a1 := le_abs_self (1 - r - s - t); have a2 := le_abs_self r
      have a3 := le_abs_self s; have a4 := le_abs_self t
      have n1 := neg_abs_le (1 - r - s - t); have n2 := neg_abs_le r
      refine ⟨?_, ?_, ?_, ?_⟩
      · exact abs_eq_self.1 (le_antisymm (by linarith) a2)
      · exact abs_eq_self.1 (le_antisymm (by linarith) a3)
      · exact abs_eq_self.1 (le_antisymm (by linarith) a4)
      · exact abs_eq_self.1 (le_antisymm (by linarith) a1)
    · rintro ⟨h1, h2, h3, h4⟩
      rw [abs_of_nonneg h1, abs_of_nonneg h2, abs_of_nonneg h3, abs_of_nonneg h4]
      linarith
  constructor
  · intro h
    -- Cramer's rule
    have hr := div_mul_cancel₀ (determinant3 (p - a) (c - a) (e - a)) hD
    have hs := div_mul_cancel₀ (determinant3 (b - a) (p - a) (e - a)) hD
    have ht := div_mul_cancel₀ (determinant3 (b - a) (c - a) (p - a)) hD
    generalize determinant3 (p - a) (c - a) (e - a) / determinant3 (b - a) (c - a) (e - a) = r at hr
    generalize determinant3 (b - a) (p - a) (e - a) / determinant3 (b - a) (c - a) (e - a) = s at hs
    generalize determinant3 (b - a) (c - a) (p - a) / determinant3 (b - a) (c - a) (e - a) = t at ht
    have hp : p = a + r • (b - a) + s • (c - a) + t • (e - a) := by
      funext k
      simp only [Pi.add_apply, Pi.smul_apply, Pi.sub_apply, smul_eq_mul]
      apply mul_left_cancel₀ hD
      simp only [determinant3, Pi.sub_apply] at hr hs ht ⊢
      fin_cases k <;> simp only [Fin.zero_eta, Fin.mk_one, Fin.reduceFinMk]
      · linear_combination (-(b 0 - a 0)) * hr - (c 0 - a 0) * hs - (e 0 - a 0) * ht
      · linear_combination (-(b 1 - a 1)) * hr - (c 1 - a 1) * hs - (e 1 - a 1) * ht
      · linear_combination (-(b 2 - a 2)) * hr - (c 2 - a 2) * hs - (e 2 - a 2) * ht
    rw [hp] at h
    obtain ⟨h1, h2, h3, h4⟩ := (key r s t).1 h
    exact ⟨r, s, t, h1, h2, h3, h4, hp⟩
  · rintro ⟨r, s, t, h1, h2, h3, h4, rfl⟩
    exact (key r s t).2 ⟨h1, h2, h3, h4⟩

/-- Points of the tetrahedron are accepted with any tolerance. -/
theorem C39_tetrahedron_accepts (eps : K) (he : 0 ≤ eps) (a b c e p : Fin 3 → K) (hn : NotInAPlane a b c e)
    (h : ConvexComb [a, b, c, e] p) : insideTetrahedron eps a b c e p = true := by
  have h0 := (C39_tetrahedron a b c e p hn).2 h
  simp only [insideTetrahedron, Bool.and_eq_true, decide_eq_true_eq] at h0 ⊢
  obtain ⟨⟨⟨⟨h1, h2⟩, h3⟩, h4⟩, h5⟩ := h0
  refine ⟨⟨⟨⟨?_, ?_⟩, ?_⟩, ?_⟩, ?_⟩ <;> linarith

example : NotInAPlane (![0, 0, 0] : Fin 3 → Rat) ![2, 0, 0] ![0, 3, 0] ![1, 1, 4] := by
  intro r s t h
  have h0 := h 0; have h1 := h 1; have h2 := h 2
  simp at h0 h1 h2
  refine ⟨by linarith, by linarith, h2⟩

example : insideTetrahedron 0 (![0, 0, 0] : Fin 3 → Rat) ![2, 0, 0] ![0, 3, 0] ![1, 1, 4] ![1/2, 1/2, 1] = true
    ∧ insideTetrahedron 0 (![0, 0, 0] : Fin 3 → Rat) ![2, 0, 0] ![0, 3, 0] ![1, 1, 4] ![1/2, 1/2, 3] = false := by
  decide +kernel

end VG
