import Verif.Lemmas.VoronoiSum
import Verif.Props.VoronoiSurfaceSpec
import Verif.Lemmas.Angles

/-!
`apply_voronoi` for triangles in space without obtuse angles.
-/

namespace VG

theorem co3_0 (p : Fin 3 → ℝ) : co p 0 = p 0 := by simp [co]
theorem co3_1 (p : Fin 3 → ℝ) : co p 1 = p 1 := by simp [co]

/-- Four times the squared area. -/
def gramS (A B C : Fin 3 → ℝ) : ℝ :=
  spaceDot A B C * spaceDot B A C + spaceDot B A C * spaceDot C A B + spaceDot C A B * spaceDot A B C

theorem spaceDot_swap (A B C : Fin 3 → ℝ) : spaceDot A B C = spaceDot A C B := by
  unfold spaceDot; exact Finset.sum_congr rfl fun i _ => mul_comm _ _

theorem gramS_eq (A B C : Fin 3 → ℝ) :
    (∑ i, (B i - A i) ^ 2) * (∑ i, (C i - A i) ^ 2) - spaceDot A B C ^ 2 = gramS A B C := by
  unfold gramS spaceDot; simp only [Fin.sum_univ_three]; ring

theorem area_eq (A B C : Fin 3 → ℝ) : 2 * spaceArea A B C = √(gramS A B C) := by
  unfold spaceArea; rw [gramS_eq]; ring

theorem gramS_rot (A B C : Fin 3 → ℝ) : gramS A B C = gramS B C A := by
  unfold gramS
  rw [spaceDot_swap B C A, spaceDot_swap C B A, spaceDot_swap A B C, spaceDot_swap A C B]; ring

theorem gramS_swap (A B C : Fin 3 → ℝ) : gramS A B C = gramS B A C := by
  unfold gramS
  rw [spaceDot_swap C B A]; ring

theorem gramS_nonneg (A B C : Fin 3 → ℝ) : 0 ≤ gramS A B C := by
  have e : gramS A B C = ((B 0 - A 0) * (C 1 - A 1) - (B 1 - A 1) * (C 0 - A 0)) ^ 2
      + ((B 1 - A 1) * (C 2 - A 2) - (B 2 - A 2) * (C 1 - A 1)) ^ 2
      + ((B 2 - A 2) * (C 0 - A 0) - (B 0 - A 0) * (C 2 - A 2)) ^ 2 := by
    unfold gramS spaceDot; simp only [Fin.sum_univ_three]; ring
  rw [e]; positivity

theorem gramS_pos {A B C : Fin 3 → ℝ} (h : spaceArea A B C ≠ 0) : 0 < gramS A B C := by
  rcases lt_or_eq_of_le (gramS_nonneg A B C) with g | g
  · exact g
  · have := area_eq A B C
    rw [← g, Real.sqrt_zero] at this
    exact absurd (by linarith) h

theorem eucl_sq3 (A B C : Fin 3 → ℝ) : eucl A B ^ 2 = spaceDot A B C + spaceDot B A C := by
  unfold eucl
  rw [Real.sq_sqrt (by positivity)]
  unfold spaceDot; simp only [Fin.sum_univ_three]; ring

/-- The circumcenter in terms of the middle of an edge. -/
theorem circ3_mid (A B C : Fin 3 → ℝ) (h : 0 < gramS A B C) (i : Fin 3) :
    circumTriangle3 A B C i = (A i + B i) / 2 + spaceDot C A B / (2 * gramS A B C)
      * (spaceDot B A C * (C i - A i) + spaceDot A B C * (C i - B i)) := by
  have hden : 2 * innerProd (crossProd (A - B) (B - C)) (crossProd (A - B) (B - C)) = 2 * gramS A B C := by
    unfold gramS spaceDot
    simp only [innerProd3, Fin.sum_univ_three, crossProd_zero, crossProd_one, crossProd_two, Pi.sub_apply]; ring
  have ha : innerProd (B - C) (B - C) * innerProd (A - B) (A - C) = (spaceDot B A C + spaceDot C A B) * spaceDot A B C := by
    unfold spaceDot
    simp only [innerProd3, Fin.sum_univ_three, Pi.sub_apply]; ring
  have hb : innerProd (A - C) (A - C) * innerProd (B - A) (B - C) = (spaceDot A B C + spaceDot C A B) * spaceDot B A C := by
    unfold spaceDot
    simp only [innerProd3, Fin.sum_univ_three, Pi.sub_apply]; ring
  have hc : innerProd (A - B) (A - B) * innerProd (C - A) (C - B) = (spaceDot A B C + spaceDot B A C) * spaceDot C A B := by
    unfold spaceDot
    simp only [innerProd3, Fin.sum_univ_three, Pi.sub_apply]; ring
  unfold circumTriangle3
  simp only [hden, ha, hb, hc]
  have hg : gramS A B C = spaceDot A B C * spaceDot B A C + spaceDot B A C * spaceDot C A B + spaceDot C A B * spaceDot A B C := rfl
  generalize spaceDot A B C = p at *
  generalize spaceDot B A C = q at *
  generalize spaceDot C A B = r at *
  generalize gramS A B C = G at *
  have hG : G ≠ 0 := h.ne'
  field_simp
  subst hg
  ring

theorem circ3_rot (A B C : Fin 3 → ℝ) : circumTriangle3 A B C = circumTriangle3 B C A := by
  funext i
  unfold circumTriangle3
  simp only [innerProd3, crossProd_zero, crossProd_one, crossProd_two, Pi.sub_apply]
  have e : ∀ x y z d x' y' z' d' a b c : ℝ, d = d' → x = x' → y = y' → z = z' →
      a * (x / d) + b * (y / d) + c * (z / d) = b * (y' / d') + c * (z' / d') + a * (x' / d') := by
    intro x y z d x' y' z' d' a b c h1 h2 h3 h4; subst h1 h2 h3 h4; ring
  apply e <;> ring

theorem circ3_swap (A B C : Fin 3 → ℝ) : circumTriangle3 A B C = circumTriangle3 B A C := by
  funext i
  unfold circumTriangle3
  simp only [innerProd3, crossProd_zero, crossProd_one, crossProd_two, Pi.sub_apply]
  have e : ∀ x y z d x' y' z' d' a b c : ℝ, d = d' → x = x' → y = y' → z = z' →
      a * (x / d) + b * (y / d) + c * (z / d) = b * (y' / d') + a * (x' / d') + c * (z' / d') := by
    intro x y z d x' y' z' d' a b c h1 h2 h3 h4; subst h1 h2 h3 h4; ring
  apply e <;> ring

/-- Distance of the circumcenter and the middle of an edge. -/
theorem circ3_len (A B C : Fin 3 → ℝ) (h : 0 < gramS A B C) (hc : 0 ≤ spaceDot C A B) :
    |signedLine (circumTriangle3 A B C) (circumLine A B)| = eucl A B / 2 * cotSpace C A B := by
  unfold cotSpace
  rw [area_eq]
  have hL : 0 ≤ eucl A B := Real.sqrt_nonneg _
  have h0 : 0 ≤ eucl A B / 2 * (spaceDot C A B / √(gramS A B C)) :=
    mul_nonneg (by linarith) (div_nonneg hc (Real.sqrt_nonneg _))
  unfold signedLine
  rw [abs_of_nonneg (Real.sqrt_nonneg _),
    Real.sqrt_eq_iff_mul_self_eq (Finset.sum_nonneg fun i _ => mul_self_nonneg _) h0]
  have hs : √(gramS A B C) * √(gramS A B C) = gramS A B C := Real.mul_self_sqrt h.le
  have hL2 := eucl_sq3 A B C
  have e1 : eucl A B / 2 * (spaceDot C A B / √(gramS A B C)) * (eucl A B / 2 * (spaceDot C A B / √(gramS A B C)))
      = (spaceDot A B C + spaceDot B A C) * spaceDot C A B ^ 2 / (4 * gramS A B C) := by
    rw [← hL2]
    have hn : √(gramS A B C) ≠ 0 := (Real.sqrt_pos.2 h).ne'
    generalize √(gramS A B C) = w at hs hn ⊢
    rw [← hs]
    field_simp
    ring
  have e2 : ∀ i, circumLine A B i - circumTriangle3 A B C i = -(spaceDot C A B / (2 * gramS A B C)
      * (spaceDot B A C * (C i - A i) + spaceDot A B C * (C i - B i))) := by
    intro i; rw [circ3_mid A B C h i]; unfold circumLine; ring
  have e3 : ∑ i, (spaceDot B A C * (C i - A i) + spaceDot A B C * (C i - B i)) ^ 2
      = (spaceDot A B C + spaceDot B A C) * gramS A B C := by
    unfold gramS spaceDot; simp only [Fin.sum_univ_three]; ring
  rw [e1]
  simp only [e2]
  have e4 : ∀ x : ℝ, -(spaceDot C A B / (2 * gramS A B C) * x) * -(spaceDot C A B / (2 * gramS A B C) * x)
      = (spaceDot C A B / (2 * gramS A B C)) ^ 2 * x ^ 2 := fun x => by ring
  simp only [e4]
  rw [← Finset.mul_sum, e3]
  have hG := h.ne'
  field_simp
  ring

/-- The triangle over half an edge with the circumcenter as apex. -/
theorem circ3_span (A B C : Fin 3 → ℝ) (h : 0 < gramS A B C) (hc : 0 ≤ spaceDot C A B) :
    spannedTriangle3 (circumTriangle3 A B C) (circumLine A B) A = eucl A B / 4 * (eucl A B / 2 * cotSpace C A B) := by
  unfold cotSpace
  rw [area_eq]
  have hL : 0 ≤ eucl A B := Real.sqrt_nonneg _
  have h0 : 0 ≤ eucl A B / 4 * (eucl A B / 2 * (spaceDot C A B / √(gramS A B C))) :=
    mul_nonneg (by linarith) (mul_nonneg (by linarith) (div_nonneg hc (Real.sqrt_nonneg _)))
  have hs : √(gramS A B C) * √(gramS A B C) = gramS A B C := Real.mul_self_sqrt h.le
  have hL2 := eucl_sq3 A B C
  unfold spannedTriangle3 signedTriangle3
  have e1 : eucl A B / 4 * (eucl A B / 2 * (spaceDot C A B / √(gramS A B C))) * 2
      * (eucl A B / 4 * (eucl A B / 2 * (spaceDot C A B / √(gramS A B C))) * 2)
      = (spaceDot A B C + spaceDot B A C) ^ 2 * spaceDot C A B ^ 2 / (16 * gramS A B C) := by
    rw [← hL2]
    have hn : √(gramS A B C) ≠ 0 := (Real.sqrt_pos.2 h).ne'
    generalize √(gramS A B C) = w at hs hn ⊢
    rw [← hs]
    field_simp
    ring
  have e3 : ∑ i, (spaceDot B A C * (C i - A i) + spaceDot A B C * (C i - B i)) ^ 2
      = (spaceDot A B C + spaceDot B A C) * gramS A B C := by
    unfold gramS spaceDot; simp only [Fin.sum_univ_three]; ring
  have e4 : ∑ i, (spaceDot B A C * (C i - A i) + spaceDot A B C * (C i - B i)) * (A i - B i) = 0 := by
    unfold spaceDot; simp only [Fin.sum_univ_three]; ring
  have e5 : ∑ i, (A i - B i) ^ 2 = spaceDot A B C + spaceDot B A C := by
    unfold spaceDot; simp only [Fin.sum_univ_three]; ring
  have e2 : ∀ i, (circumLine A B - circumTriangle3 A B C) i = -(spaceDot C A B / (2 * gramS A B C)
      * (spaceDot B A C * (C i - A i) + spaceDot A B C * (C i - B i))) := by
    intro i; rw [Pi.sub_apply, circ3_mid A B C h i]; unfold circumLine; ring
  have e6 : ∀ i, (A - circumTriangle3 A B C) i = (A i - B i) / 2 - (spaceDot C A B / (2 * gramS A B C)
      * (spaceDot B A C * (C i - A i) + spaceDot A B C * (C i - B i))) := by
    intro i; rw [Pi.sub_apply, circ3_mid A B C h i]; ring
  unfold euclNorm
  rw [abs_of_nonneg (div_nonneg (Real.sqrt_nonneg _) two_pos.le), div_eq_iff two_ne_zero,
    Real.sqrt_eq_iff_mul_self_eq (by rw [sumSquares_eq]; exact Finset.sum_nonneg fun i _ => mul_self_nonneg _)
      (by linarith), e1, sumSquares_eq]
  simp only [innerProd3, crossProd_zero, crossProd_one, crossProd_two, e2, e6]
  simp only [Fin.sum_univ_three] at e3 e4 e5
  have hG := h.ne'
  generalize hN0 : spaceDot B A C * (C 0 - A 0) + spaceDot A B C * (C 0 - B 0) = n0 at *
  generalize hN1 : spaceDot B A C * (C 1 - A 1) + spaceDot A B C * (C 1 - B 1) = n1 at *
  generalize hN2 : spaceDot B A C * (C 2 - A 2) + spaceDot A B C * (C 2 - B 2) = n2 at *
  generalize A 0 - B 0 = d0 at *
  generalize A 1 - B 1 = d1 at *
  generalize A 2 - B 2 = d2 at *
  have lag : (spaceDot C A B / (2 * gramS A B C)) ^ 2 / 4
      * ((n0 ^ 2 + n1 ^ 2 + n2 ^ 2) * (d0 ^ 2 + d1 ^ 2 + d2 ^ 2) - (n0 * d0 + n1 * d1 + n2 * d2) ^ 2)
      = (spaceDot A B C + spaceDot B A C) ^ 2 * spaceDot C A B ^ 2 / (16 * gramS A B C) := by
    rw [e3, e4, e5]
    field_simp
    ring
  rw [← lag]
  ring

/-- The circumcenter is not behind an edge. -/
theorem crossedEdge3 (A B C : Fin 3 → ℝ) (h : 0 < gramS A B C) (ha : 0 ≤ spaceDot A B C) (hb : 0 ≤ spaceDot B A C)
    (hc : 0 ≤ spaceDot C A B) : crossedEdge (circumTriangle3 A B C) A B C = none := by
  have hp : ∀ i, circumTriangle3 A B C i - A i
      = (spaceDot A B C + spaceDot C A B) * spaceDot B A C / (2 * gramS A B C) * (B i - A i)
        + (spaceDot A B C + spaceDot B A C) * spaceDot C A B / (2 * gramS A B C) * (C i - A i) := by
    intro i
    rw [circ3_mid A B C h i]
    have hg : gramS A B C = spaceDot A B C * spaceDot B A C + spaceDot B A C * spaceDot C A B + spaceDot C A B * spaceDot A B C := rfl
    have hG := h.ne'
    field_simp
    rw [hg]
    ring
  have hsum : (spaceDot A B C + spaceDot C A B) * spaceDot B A C / (2 * gramS A B C)
      + (spaceDot A B C + spaceDot B A C) * spaceDot C A B / (2 * gramS A B C) ≤ 1 := by
    rw [← add_div, div_le_one (by positivity)]
    unfold gramS
    nlinarith [mul_nonneg ha hb, mul_nonneg ha hc, mul_nonneg hb hc]
  have hx : 0 ≤ (spaceDot A B C + spaceDot C A B) * spaceDot B A C / (2 * gramS A B C) := by positivity
  have hy : 0 ≤ (spaceDot A B C + spaceDot B A C) * spaceDot C A B / (2 * gramS A B C) := by positivity
  generalize (spaceDot A B C + spaceDot C A B) * spaceDot B A C / (2 * gramS A B C) = x at *
  generalize (spaceDot A B C + spaceDot B A C) * spaceDot C A B / (2 * gramS A B C) = y at *
  unfold crossedEdge localCoords
  simp only [co3_0, co3_1, Pi.sub_apply, hp]
  by_cases hdet : (B 0 - A 0) * (C 1 - A 1) - (B 1 - A 1) * (C 0 - A 0) = 0
  · rw [if_pos hdet]
  · rw [if_neg hdet]
    have e1 : ((C 1 - A 1) * (x * (B 0 - A 0) + y * (C 0 - A 0)) - (C 0 - A 0) * (x * (B 1 - A 1) + y * (C 1 - A 1)))
        / ((B 0 - A 0) * (C 1 - A 1) - (B 1 - A 1) * (C 0 - A 0)) = x := by
      rw [div_eq_iff hdet]; ring
    have e2 : ((B 0 - A 0) * (x * (B 1 - A 1) + y * (C 1 - A 1)) - (B 1 - A 1) * (x * (B 0 - A 0) + y * (C 0 - A 0)))
        / ((B 0 - A 0) * (C 1 - A 1) - (B 1 - A 1) * (C 0 - A 0)) = y := by
      rw [div_eq_iff hdet]; ring
    rw [e1, e2]
    dsimp only
    rw [if_neg]
    push Not
    exact ⟨hx, hy, hsum⟩

/-! ### One edge -/

/-- What an edge with ends `a`, `b`, opposite to the vertex `c`, gets from a triangle. -/
noncomputable def surfAmt (pt : Nat → Fin 3 → ℝ) (e a b c : Nat) : VoroQ → Nat → ℝ
  | .area, s => if s = e then eucl (pt a) (pt b) / 2 * cotSpace (pt c) (pt a) (pt b) else 0
  | .vbox, s => (if s = a then eucl (pt a) (pt b) / 4 * (eucl (pt a) (pt b) / 2 * cotSpace (pt c) (pt a) (pt b)) else 0)
    + (if s = b then eucl (pt a) (pt b) / 4 * (eucl (pt a) (pt b) / 2 * cotSpace (pt c) (pt a) (pt b)) else 0)
  | .ebox, s =>
    if s = e then eucl (pt a) (pt b) / 2 * (eucl (pt a) (pt b) / 2 * cotSpace (pt c) (pt a) (pt b)) else 0

theorem cotSpace_swap (C A B : Fin 3 → ℝ) : cotSpace C A B = cotSpace C B A := by
  unfold cotSpace
  rw [area_eq, area_eq, spaceDot_swap, gramS_swap]

theorem surfAmt_swap (pt : Nat → Fin 3 → ℝ) (e a b c : Nat) : surfAmt pt e a b c = surfAmt pt e b a c := by
  funext q s
  cases q <;> simp only [surfAmt, eucl_comm (pt a) (pt b), cotSpace_swap (pt c) (pt a) (pt b)]
  rw [add_comm]

theorem circumLine_comm3 (A B : Fin 3 → ℝ) : circumLine A B = circumLine B A := by
  funext i; unfold circumLine; rw [add_comm]

section Cell
variable {m : Mesh (Fin 3 → ℝ)} {e a b c t : Nat}

theorem inside_amt3 (he : EndsAre m e a b) (h : 0 < gramS (m.at0 a) (m.at0 b) (m.at0 c))
    (hc : 0 ≤ spaceDot (m.at0 c) (m.at0 a) (m.at0 b)) (o : Fin 3 → ℝ)
    (ho : o = circumTriangle3 (m.at0 a) (m.at0 b) (m.at0 c)) (q : VoroQ) (s : Nat) :
    ((voroInside geo3 m o t e).map (VoroWrite.addAmt q s)).sum = surfAmt m.at0 e a b c q s
    ∧ ((voroInside geo3 m o t e).map (VoroWrite.partAmt q s)).sum = surfAmt m.at0 e a b c q s := by
  wlog hs : m.ends e = (a, b) generalizing a b
  · have := this he.symm (by rw [gramS_swap]; exact h) (by rw [spaceDot_swap]; exact hc) (by rw [ho, circ3_swap])
      (he.resolve_left hs)
    rw [surfAmt_swap]
    exact this
  have h1 := circ3_span _ _ _ h hc
  have h2 := circ3_span (m.at0 b) (m.at0 a) (m.at0 c) (by rw [gramS_swap]; exact h) (by rw [spaceDot_swap]; exact hc)
  have h3 := circ3_len _ _ _ h hc
  rw [circ3_swap (m.at0 b), circumLine_comm3, eucl_comm, cotSpace_swap] at h2
  rw [← ho] at h1 h2 h3
  unfold voroInside
  rw [hs]
  dsimp only [geo3]
  rw [h1, h2, h3]
  have e1 : ∀ x y : ℝ, 0 + x / 4 * y + x / 4 * y = x / 2 * y := by intro x y; ring
  rw [e1]
  cases q <;> simp [VoroWrite.addAmt, VoroWrite.partAmt, surfAmt, h1, h2]

variable {v0 v1 v2 e0 e1 e2 : Nat}

/-- What a triangle adds. -/
noncomputable def surfCell (pt : Nat → Fin 3 → ℝ) (v0 v1 v2 e0 e1 e2 : Nat) (q : VoroQ) (s : Nat) : ℝ :=
  surfAmt pt e0 v0 v1 v2 q s + surfAmt pt e1 v0 v2 v1 q s + surfAmt pt e2 v1 v2 v0 q s

theorem cell_spec3 {st : MState (Fin 3 → ℝ)} (h : TriAt st.mesh c v0 v1 v2 e0 e1 e2)
    (hD : 0 < gramS (st.mesh.at0 v0) (st.mesh.at0 v1) (st.mesh.at0 v2))
    (d0 : 0 ≤ spaceDot (st.mesh.at0 v0) (st.mesh.at0 v1) (st.mesh.at0 v2))
    (d1 : 0 ≤ spaceDot (st.mesh.at0 v1) (st.mesh.at0 v0) (st.mesh.at0 v2))
    (d2 : 0 ≤ spaceDot (st.mesh.at0 v2) (st.mesh.at0 v0) (st.mesh.at0 v1)) :
    ∃ ws, voroTriangle geo3 st c = some (st, ws) ∧ (∀ w ∈ ws, w.Plain)
      ∧ ∀ q s, (ws.map (VoroWrite.addAmt q s)).sum = surfCell st.mesh.at0 v0 v1 v2 e0 e1 e2 q s
        ∧ (ws.map (VoroWrite.partAmt q s)).sum = surfCell st.mesh.at0 v0 v1 v2 e0 e1 e2 q s := by
  refine ⟨[e0, e1, e2].flatMap (voroInside geo3 st.mesh
    (circumTriangle3 (st.mesh.at0 v0) (st.mesh.at0 v1) (st.mesh.at0 v2)) c), ?_, ?_, ?_⟩
  · unfold voroTriangle
    simp only [h.verts, h.edges]
    have hg : geo3.circ = circumTriangle3 := rfl
    rw [hg, crossedEdge3 _ _ _ hD d0 d1 d2]
  · intro w hw
    obtain ⟨e, _, hw⟩ := List.mem_flatMap.1 hw
    exact inside_plain w hw
  · intro q s
    rw [three_edges, three_edges]
    obtain ⟨a1, b1⟩ := inside_amt3 (t := c) h.at0 hD d2 _ rfl q s
    obtain ⟨a2, b2⟩ := inside_amt3 (t := c) (c := v1) h.at1 (by rw [gramS_rot, gramS_swap, ← gramS_rot]; exact hD) (by exact d1)
      (circumTriangle3 (st.mesh.at0 v0) (st.mesh.at0 v1) (st.mesh.at0 v2)) (by rw [circ3_rot, circ3_rot, circ3_swap]) q s
    obtain ⟨a3, b3⟩ := inside_amt3 (t := c) (c := v0) h.at2 (by rw [← gramS_rot]; exact hD) d0
      (circumTriangle3 (st.mesh.at0 v0) (st.mesh.at0 v1) (st.mesh.at0 v2)) (circ3_rot _ _ _) q s
    rw [a1, a2, a3, b1, b2, b3]
    exact ⟨rfl, rfl⟩

/-! ### Shares -/

theorem edge_is3 (hI : Inv (simplexTopo 2) m) (h : TriAt m c v0 v1 v2 e0 e1 e2) {s : Nat} (hs : s < m.count 1) :
    (s = e0 ↔ EndsAre m s v0 v1) ∧ (s = e1 ↔ EndsAre m s v0 v2) ∧ (s = e2 ↔ EndsAre m s v1 v2) := by
  have l0 := bndOf_valid hI (d := 2) (t := c) (k := 1) (s := e0) (by rw [h.edges]; simp)
  have l1 := bndOf_valid hI (d := 2) (t := c) (k := 1) (s := e1) (by rw [h.edges]; simp)
  have l2 := bndOf_valid hI (d := 2) (t := c) (k := 1) (s := e2) (by rw [h.edges]; simp)
  exact ⟨⟨fun hh => hh ▸ h.at0, fun hh => edge_unique hI hs l0 hh h.at0⟩,
    ⟨fun hh => hh ▸ h.at1, fun hh => edge_unique hI hs l1 hh h.at1⟩,
    ⟨fun hh => hh ▸ h.at2, fun hh => edge_unique hI hs l2 hh h.at2⟩⟩

theorem surfEdge_comm (pt : Nat → Fin 3 → ℝ) (vs : List Nat) (a b : Nat) : surfEdge pt vs a b = surfEdge pt vs b a := by
  unfold surfEdge oppositeOf
  simp only [eucl_comm (pt a) (pt b), cotSpace_swap _ (pt a) (pt b)]
  congr 2
  have e2 : (fun w => decide (w ≠ a ∧ w ≠ b)) = fun w => decide (w ≠ b ∧ w ≠ a) := by
    funext w; rw [decide_eq_decide]; exact and_comm
  rw [e2]
  by_cases h : a ∈ vs ∧ b ∈ vs
  · rw [if_pos h, if_pos h.symm]
  · rw [if_neg h, if_neg fun h' => h h'.symm]

theorem surfEdge_three (pt : Nat → Fin 3 → ℝ) {a b c : Nat} (hab : a ≠ b) (hac : a ≠ c) (hbc : b ≠ c) :
    surfEdge pt [a, b, c] a b = eucl (pt a) (pt b) / 2 * cotSpace (pt c) (pt a) (pt b)
    ∧ surfEdge pt [a, b, c] a c = eucl (pt a) (pt c) / 2 * cotSpace (pt b) (pt a) (pt c)
    ∧ surfEdge pt [a, b, c] b c = eucl (pt b) (pt c) / 2 * cotSpace (pt a) (pt b) (pt c) := by
  refine ⟨?_, ?_, ?_⟩ <;>
    simp [surfEdge, oppositeOf, hab, hac, hbc, hab.symm, hac.symm, hbc.symm]

theorem surf_area (hI : Inv (simplexTopo 2) m) (h : TriAt m c v0 v1 v2 e0 e1 e2) {s : Nat} (hs : s < m.count 1) :
    surfCell m.at0 v0 v1 v2 e0 e1 e2 .area s = surfEdge m.at0 (m.vertsOf 2 c) (m.ends s).1 (m.ends s).2
    ∧ surfCell m.at0 v0 v1 v2 e0 e1 e2 .ebox s = eucl (m.at0 (m.ends s).1) (m.at0 (m.ends s).2) / 2
      * surfEdge m.at0 (m.vertsOf 2 c) (m.ends s).1 (m.ends s).2 := by
  obtain ⟨i0, i1, i2⟩ := edge_is3 hI h hs
  obtain ⟨t0, t1, t2⟩ := surfEdge_three m.at0 h.n01 h.n02 h.n12
  have hne := ends_ne hI hs
  have both : ∀ a b, EndsAre m s a b → surfEdge m.at0 (m.vertsOf 2 c) (m.ends s).1 (m.ends s).2
      = surfEdge m.at0 (m.vertsOf 2 c) a b ∧ eucl (m.at0 (m.ends s).1) (m.at0 (m.ends s).2) = eucl (m.at0 a) (m.at0 b) := by
    intro a b hab
    rcases hab with hab | hab <;> rw [hab]
    · exact ⟨rfl, rfl⟩
    · exact ⟨surfEdge_comm _ _ _ _, eucl_comm _ _⟩
  by_cases h0 : s = e0
  · obtain ⟨b1, b2⟩ := both _ _ (i0.1 h0)
    rw [b1, b2, h.verts, t0]
    simp [surfCell, surfAmt, h0, h.m01, h.m02]
  by_cases h1 : s = e1
  · obtain ⟨b1, b2⟩ := both _ _ (i1.1 h1)
    rw [b1, b2, h.verts, t1]
    simp [surfCell, surfAmt, h1, h.m01.symm, h.m12]
  by_cases h2 : s = e2
  · obtain ⟨b1, b2⟩ := both _ _ (i2.1 h2)
    rw [b1, b2, h.verts, t2]
    simp [surfCell, surfAmt, h2, h.m02.symm, h.m12.symm]
  have hz : surfEdge m.at0 (m.vertsOf 2 c) (m.ends s).1 (m.ends s).2 = 0 := by
    unfold surfEdge oppositeOf
    rw [h.verts, if_neg]
    · simp
    · rintro ⟨ha, hb⟩
      have e : m.ends s = ((m.ends s).1, (m.ends s).2) := rfl
      simp only [List.mem_cons, List.not_mem_nil, or_false] at ha hb
      rcases ha with ha | ha | ha <;> rcases hb with hb | hb | hb <;> rw [ha, hb] at e hne
      · exact hne rfl
      · exact h0 (i0.2 (Or.inl e))
      · exact h1 (i1.2 (Or.inl e))
      · exact h0 (i0.2 (Or.inr e))
      · exact hne rfl
      · exact h2 (i2.2 (Or.inl e))
      · exact h1 (i1.2 (Or.inr e))
      · exact h2 (i2.2 (Or.inr e))
      · exact hne rfl
  rw [hz]
  simp [surfCell, surfAmt, h0, h1, h2]

theorem surf_box (h : TriAt m c v0 v1 v2 e0 e1 e2) (s : Nat) :
    surfCell m.at0 v0 v1 v2 e0 e1 e2 .vbox s = surfBox m.at0 (m.vertsOf 2 c) s := by
  obtain ⟨t0, t1, t2⟩ := surfEdge_three m.at0 h.n01 h.n02 h.n12
  rw [h.verts]
  unfold surfBox
  by_cases h0 : s = v0
  · subst h0
    simp only [List.filter_cons, List.filter_nil, ne_eq, not_true_eq_false, decide_false, h.n01.symm, h.n02.symm,
      not_false_eq_true, decide_true, if_true, Bool.false_eq_true, if_false, List.map_cons, List.map_nil, List.sum_cons,
      List.sum_nil, add_zero]
    rw [t0, t1]
    simp [surfCell, surfAmt, h.n01, h.n02]
  by_cases h1 : s = v1
  · subst h1
    simp only [List.filter_cons, List.filter_nil, ne_eq, not_true_eq_false, decide_false, h.n01, h.n12.symm,
      not_false_eq_true, decide_true, if_true, Bool.false_eq_true, if_false, List.map_cons, List.map_nil, List.sum_cons,
      List.sum_nil, add_zero]
    rw [t2, surfEdge_comm, t0, eucl_comm (m.at0 s) (m.at0 v0)]
    simp [surfCell, surfAmt, h.n01.symm, h.n12]
  by_cases h2 : s = v2
  · subst h2
    simp only [List.filter_cons, List.filter_nil, ne_eq, not_true_eq_false, decide_false, h.n02, h.n12,
      not_false_eq_true, decide_true, if_true, Bool.false_eq_true, if_false, List.map_cons, List.map_nil, List.sum_cons,
      List.sum_nil, add_zero]
    rw [surfEdge_comm, t1, surfEdge_comm, t2, eucl_comm (m.at0 s) (m.at0 v0), eucl_comm (m.at0 s) (m.at0 v1)]
    simp [surfCell, surfAmt, h.n02.symm, h.n12.symm]
  have hz : ∀ b, surfEdge m.at0 [v0, v1, v2] s b = 0 := by
    intro b; simp [surfEdge, oppositeOf, h0, h1, h2]
  simp only [hz, mul_zero]
  simp [surfCell, surfAmt, h0, h1, h2]

theorem surfAmt_sum (pt : Nat → Fin 3 → ℝ) (n : Nat) (han : a < n) (hbn : b < n) :
    ∑ s ∈ Finset.range n, surfAmt pt e a b c .vbox s
      = spaceDot (pt c) (pt a) (pt b) * (spaceDot (pt a) (pt b) (pt c) + spaceDot (pt b) (pt a) (pt c))
        / (4 * √(gramS (pt a) (pt b) (pt c))) := by
  simp only [surfAmt]
  rw [Finset.sum_add_distrib, Finset.sum_ite_eq' (Finset.range n) a, Finset.sum_ite_eq' (Finset.range n) b,
    if_pos (Finset.mem_range.2 han), if_pos (Finset.mem_range.2 hbn), ← eucl_sq3, cotSpace, area_eq]
  ring

theorem surfCell_sum (h : TriAt m c v0 v1 v2 e0 e1 e2) (hD : 0 < gramS (m.at0 v0) (m.at0 v1) (m.at0 v2)) :
    ∑ s ∈ Finset.range m.verts.length, surfCell m.at0 v0 v1 v2 e0 e1 e2 .vbox s
      = spaceArea (m.at0 v0) (m.at0 v1) (m.at0 v2) := by
  simp only [surfCell]
  rw [Finset.sum_add_distrib, Finset.sum_add_distrib, surfAmt_sum _ _ h.l0 h.l1, surfAmt_sum _ _ h.l0 h.l2,
    surfAmt_sum _ _ h.l1 h.l2, ← gramS_rot (m.at0 v0) (m.at0 v1),
    show gramS (m.at0 v0) (m.at0 v2) (m.at0 v1) = gramS (m.at0 v0) (m.at0 v1) (m.at0 v2) by
      rw [gramS_rot, gramS_swap, ← gramS_rot]]
  have hA : spaceArea (m.at0 v0) (m.at0 v1) (m.at0 v2) = √(gramS (m.at0 v0) (m.at0 v1) (m.at0 v2)) / 2 := by
    rw [← area_eq]; ring
  have hn : 0 < √(gramS (m.at0 v0) (m.at0 v1) (m.at0 v2)) := Real.sqrt_pos.2 hD
  have hs : √(gramS (m.at0 v0) (m.at0 v1) (m.at0 v2)) ^ 2 = gramS (m.at0 v0) (m.at0 v1) (m.at0 v2) := Real.sq_sqrt hD.le
  rw [hA, ← add_div, ← add_div, div_eq_div_iff (by positivity) two_ne_zero]
  have e : √(gramS (m.at0 v0) (m.at0 v1) (m.at0 v2)) * (4 * √(gramS (m.at0 v0) (m.at0 v1) (m.at0 v2)))
      = 4 * gramS (m.at0 v0) (m.at0 v1) (m.at0 v2) := by linear_combination 4 * hs
  rw [e]
  unfold gramS
  rw [spaceDot_swap (m.at0 v0) (m.at0 v2), spaceDot_swap (m.at0 v1) (m.at0 v2), spaceDot_swap (m.at0 v2) (m.at0 v1)]
  ring

end Cell

/-- What a triangle should add to a quantity. -/
noncomputable def surfShare (m : Mesh (Fin 3 → ℝ)) (q : VoroQ) (s t : Nat) : ℝ :=
  match q with
  | .area => surfEdge m.at0 (m.vertsOf 2 t) (m.ends s).1 (m.ends s).2
  | .vbox => surfBox m.at0 (m.vertsOf 2 t) s
  | .ebox => eucl (m.at0 (m.ends s).1) (m.at0 (m.ends s).2) / 2
      * surfEdge m.at0 (m.vertsOf 2 t) (m.ends s).1 (m.ends s).2

theorem surf_cell {m : Mesh (Fin 3 → ℝ)} (hI : Inv (simplexTopo 2) m) {c v0 v1 v2 e0 e1 e2 : Nat}
    (h : TriAt m c v0 v1 v2 e0 e1 e2) (q : VoroQ) (s : Nat) (hs : q = .vbox ∨ s < m.count 1) :
    surfCell m.at0 v0 v1 v2 e0 e1 e2 q s = surfShare m q s c := by
  cases q with
  | area => exact (surf_area hI h (by simpa using hs)).1
  | ebox => exact (surf_area hI h (by simpa using hs)).2
  | vbox => exact surf_box h s

/-- Area of the triangle with a given handle. -/
noncomputable def surfAreaAt (m : Mesh (Fin 3 → ℝ)) (t : Nat) : ℝ :=
  spaceArea (m.at0 ((m.vertsOf 2 t).getD 0 0)) (m.at0 ((m.vertsOf 2 t).getD 1 0)) (m.at0 ((m.vertsOf 2 t).getD 2 0))

theorem surf_loop {st : MState (Fin 3 → ℝ)} (hI : Inv (simplexTopo 2) st.mesh) (hnd : NoFlatFace st.mesh)
    (hob : NoObtuseAngle st.mesh) (cs : List Nat) (hcs : ∀ c ∈ cs, c < st.mesh.count 2) :
    ∀ (v : VoroSt), ∃ v', voroTriangles geo3 st v cs = some (st, v')
        ∧ (∀ q s, (q = .vbox ∨ s < st.mesh.count 1) →
            v'.total q s = v.total q s + (cs.map (surfShare st.mesh q s)).sum)
        ∧ (∀ q s, v'.total q s - v.total q s = partSum (v'.parts q s) - partSum (v.parts q s))
        ∧ (∀ q s, ((v.parts q s).map (·.1)).Nodup → ((v'.parts q s).map (·.1)).Nodup)
        ∧ ∑ s ∈ Finset.range st.mesh.verts.length, v'.total .vbox s
            = ∑ s ∈ Finset.range st.mesh.verts.length, v.total .vbox s + (cs.map (surfAreaAt st.mesh)).sum := by
  induction cs with
  | nil => intro v; exact ⟨v, rfl, by simp, by simp, by simp, by simp⟩
  | cons c cs ih =>
    intro v
    have hc := hcs c (by simp)
    obtain ⟨f, hf⟩ := lt_elems hc
    obtain ⟨v0, v1, v2, e0, e1, e2, hv, hT⟩ := triAt_of hI hf
    have hfm := List.mem_of_getElem? hf
    have hD := gramS_pos (hnd f hfm v0 v1 v2 hv)
    have d0 := hob f hfm v0 v1 v2 (by rw [hv])
    have d1 := hob f hfm v1 v0 v2 (by rw [hv]; exact List.Perm.swap _ _ _)
    have d2 := hob f hfm v2 v0 v1 (by rw [hv]; exact (List.perm_append_comm (l₁ := [v0, v1]) (l₂ := [v2])))
    obtain ⟨ws, hr, hp, hw⟩ := cell_spec3 hT hD d0 d1 d2
    obtain ⟨v2', h1, h3, h4, h5, h6⟩ := ih (fun c' hc' => hcs c' (List.mem_cons_of_mem _ hc')) (ws.foldl VoroSt.write v)
    refine ⟨v2', ?_, ?_, ?_, ?_, ?_⟩
    · rw [voroTriangles, hr]; exact h1
    · intro q s hs
      rw [h3 q s hs, (writes_plain ws v hp q s).1, (hw q s).1, surf_cell hI hT q s hs, List.map_cons, List.sum_cons]
      ring
    · intro q s
      have g := h4 q s
      obtain ⟨w1, w2, _⟩ := writes_plain ws v hp q s
      rw [w1, w2, (hw q s).1, (hw q s).2] at g
      linarith
    · intro q s hn
      exact h5 q s ((writes_plain ws v hp q s).2.2 hn)
    · rw [h6, Finset.sum_congr rfl fun s _ => (writes_plain ws v hp .vbox s).1, Finset.sum_add_distrib,
        Finset.sum_congr rfl fun s _ => (hw .vbox s).1, surfCell_sum hT hD, List.map_cons, List.sum_cons, surfAreaAt, hT.verts]
      simp only [List.getD_cons_zero, List.getD_cons_succ]
      ring

end VG
