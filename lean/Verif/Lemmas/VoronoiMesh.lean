import Verif.Lemmas.Voronoi
import Verif.Props.MeshMeasure

/-!
`apply_voronoi` for a whole mesh of triangles in the plane.
-/

namespace VG

/-- The end points of an edge, in either order. -/
def EndsAre {P : Type} (m : Mesh P) (e a b : Nat) : Prop := m.ends e = (a, b) ∨ m.ends e = (b, a)

theorem EndsAre.symm {P : Type} {m : Mesh P} {e a b : Nat} (h : EndsAre m e a b) : EndsAre m e b a := Or.symm h

theorem EndsAre.points {m : Mesh (Fin 2 → ℝ)} {e a b : Nat} (h : EndsAre m e a b) :
    (m.at0 (m.ends e).1 = m.at0 a ∧ m.at0 (m.ends e).2 = m.at0 b)
    ∨ (m.at0 (m.ends e).1 = m.at0 b ∧ m.at0 (m.ends e).2 = m.at0 a) := by
  rcases h with h | h <;> rw [h]
  · exact Or.inl ⟨rfl, rfl⟩
  · exact Or.inr ⟨rfl, rfl⟩

/-! ### One triangle with an obtuse angle at `a` -/

section Obtuse
variable {m : Mesh (Fin 2 → ℝ)} {a b c eab eac ebc t : Nat}

theorem obtuse_covered (h1 : EndsAre m eab a b) (h2 : EndsAre m eac a c) (h3 : EndsAre m ebc b c) (hab : a ≠ b)
    (hac : a ≠ c) (hD : tw (m.at0 a) (m.at0 b) (m.at0 c) ≠ 0) (ha : dp (m.at0 a) (m.at0 b) (m.at0 c) < 0)
    (O : Fin 2 → ℝ) (hO : O = circumTriangle2 (m.at0 a) (m.at0 b) (m.at0 c)) (t' : Nat) (f : VoroWrite → ℝ) (q : VoroQ)
    (s : Nat) (hf : f = VoroWrite.addAmt q s ∨ f = VoroWrite.partAmt q s) :
    ((voroOutside geo2 m O t eab a (m.at0 (m.ends ebc).1) (m.at0 (m.ends ebc).2) (some t')).map f).sum
      = edgeAmt m.at0 eab a b c q s
    ∧ ((voroOutside geo2 m O t eac a (m.at0 (m.ends ebc).1) (m.at0 (m.ends ebc).2) (some t')).map f).sum
      = edgeAmt m.at0 eac a c b q s
    ∧ ((voroCrossed geo2 m O ebc (some t')).map f).sum = edgeAmt m.at0 ebc b c a q s := by
  have hD' : tw (m.at0 a) (m.at0 c) (m.at0 b) ≠ 0 := by rw [tw_swap]; simpa using hD
  have hD2 : tw (m.at0 b) (m.at0 c) (m.at0 a) ≠ 0 := by rw [← tw_rot]; exact hD
  have r1 := outside_amt (t := t) h1 hab hD ha t' _ _ h3.points q s
  have r2 := outside_amt (t := t) h2 hac hD' (by rw [dp_swap]; exact ha) t' _ _ h3.points.symm q s
  have r3 := crossed_amt (t := t') h3 hD2 ha.le q s
  rw [circ_swap, ← hO] at r2
  rw [← hO] at r1
  rw [← circ_perm1, ← hO] at r3
  rcases hf with rfl | rfl
  · exact ⟨r1.1, r2.1, r3.1⟩
  · exact ⟨r1.2, r2.2, r3.2⟩

theorem obtuse_alone (h1 : EndsAre m eab a b) (h2 : EndsAre m eac a c) (h3 : EndsAre m ebc b c) (hab : a ≠ b)
    (hac : a ≠ c) (hD : tw (m.at0 a) (m.at0 b) (m.at0 c) ≠ 0) (ha : dp (m.at0 a) (m.at0 b) (m.at0 c) < 0)
    (O : Fin 2 → ℝ) (hO : O = circumTriangle2 (m.at0 a) (m.at0 b) (m.at0 c)) (n : Nat) (han : a < n) (hbn : b < n)
    (hcn : c < n) :
    ∑ s ∈ Finset.range n, ((voroOutside geo2 m O t eab a (m.at0 (m.ends ebc).1) (m.at0 (m.ends ebc).2) none).map
        (VoroWrite.addAmt .vbox s)).sum
      + ∑ s ∈ Finset.range n, ((voroOutside geo2 m O t eac a (m.at0 (m.ends ebc).1) (m.at0 (m.ends ebc).2) none).map
        (VoroWrite.addAmt .vbox s)).sum = |tw (m.at0 a) (m.at0 b) (m.at0 c)| / 2 := by
  have hD' : tw (m.at0 a) (m.at0 c) (m.at0 b) ≠ 0 := by rw [tw_swap]; simpa using hD
  obtain ⟨z1, e1, r1⟩ := outside_inner (t := t) h1 hab hD ha _ _ h3.points n han hbn
  obtain ⟨z2, e2, r2⟩ := outside_inner (t := t) h2 hac hD' (by rw [dp_swap]; exact ha) _ _ h3.points.symm n han hcn
  rw [circ_swap, ← hO, tw_swap, abs_neg] at r2
  rw [← hO] at r1
  rw [r1, r2, ← add_mul]
  obtain ⟨p1, p2, p3, p4⟩ := obtuse_signs _ _ _ hD ha
  rw [dp_swap (m.at0 a) (m.at0 c) (m.at0 b), dp_swap (m.at0 c) (m.at0 a) (m.at0 b), dp_swap (m.at0 b) (m.at0 a) (m.at0 c)] at e2
  rw [dp_swap (m.at0 c) (m.at0 a) (m.at0 b), dp_swap (m.at0 b) (m.at0 a) (m.at0 c)] at e1
  rw [dp_swap (m.at0 c) (m.at0 a) (m.at0 b)] at p2 p4
  rw [dp_swap (m.at0 b) (m.at0 a) (m.at0 c)] at p1 p3
  have hN := add_pos (mul_pos p1 p4) (mul_pos p2 p3)
  have hz : z1 + z2 = 1 := by
    refine mul_right_cancel₀ hN.ne' ?_
    linear_combination e1 + e2
  rw [hz, one_mul]

end Obtuse

/-! ### One triangle -/

/-- The vertices and edges of a triangle of the mesh. -/
structure TriAt {P : Type} (m : Mesh P) (c v0 v1 v2 e0 e1 e2 : Nat) : Prop where
  verts : m.vertsOf 2 c = [v0, v1, v2]
  edges : m.bndOf 2 c 1 = [e0, e1, e2]
  n01 : v0 ≠ v1
  n02 : v0 ≠ v2
  n12 : v1 ≠ v2
  m01 : e0 ≠ e1
  m02 : e0 ≠ e2
  m12 : e1 ≠ e2
  at0 : EndsAre m e0 v0 v1
  at1 : EndsAre m e1 v0 v2
  at2 : EndsAre m e2 v1 v2
  l0 : v0 < m.verts.length
  l1 : v1 < m.verts.length
  l2 : v2 < m.verts.length

/-- What a triangle should add. -/
noncomputable def cellAmt (pt : Nat → Fin 2 → ℝ) (v0 v1 v2 e0 e1 e2 : Nat) (q : VoroQ) (s : Nat) : ℝ :=
  edgeAmt pt e0 v0 v1 v2 q s + edgeAmt pt e1 v0 v2 v1 q s + edgeAmt pt e2 v1 v2 v0 q s

theorem abs_tw_perm (A B C : Fin 2 → ℝ) : |tw A C B| = |tw A B C| ∧ |tw B C A| = |tw A B C| := by
  refine ⟨by rw [tw_swap, abs_neg], by rw [← tw_rot]⟩

theorem cellAmt_sum {m : Mesh (Fin 2 → ℝ)} {c v0 v1 v2 e0 e1 e2 : Nat} (h : TriAt m c v0 v1 v2 e0 e1 e2)
    (hD : tw (m.at0 v0) (m.at0 v1) (m.at0 v2) ≠ 0) :
    ∑ s ∈ Finset.range m.verts.length, cellAmt m.at0 v0 v1 v2 e0 e1 e2 .vbox s
      = |tw (m.at0 v0) (m.at0 v1) (m.at0 v2)| / 2 := by
  simp only [cellAmt]
  rw [Finset.sum_add_distrib, Finset.sum_add_distrib, edgeAmt_sum _ _ h.l0 h.l1, edgeAmt_sum _ _ h.l0 h.l2,
    edgeAmt_sum _ _ h.l1 h.l2, (abs_tw_perm (m.at0 v0) (m.at0 v1) (m.at0 v2)).1, (abs_tw_perm (m.at0 v0) (m.at0 v1) (m.at0 v2)).2]
  have hp := abs_pos.2 hD
  have hs := tw_sq (m.at0 v0) (m.at0 v1) (m.at0 v2)
  rw [← sq_abs] at hs
  rw [len_sq _ _ (m.at0 v2), len_sq (m.at0 v0) (m.at0 v2) (m.at0 v1), len_sq (m.at0 v1) (m.at0 v2) (m.at0 v0)]
  rw [dp_swap (m.at0 v0) (m.at0 v2) (m.at0 v1), dp_swap (m.at0 v2) (m.at0 v0) (m.at0 v1),
    dp_swap (m.at0 v1) (m.at0 v2) (m.at0 v0)]
  rw [dp_swap (m.at0 v2) (m.at0 v0) (m.at0 v1)] at hs
  rw [← add_div, ← add_div, div_eq_div_iff (by positivity) two_ne_zero]
  linear_combination (-4) * hs

/-- What the statements of one triangle amount to. -/
structure CellWrites (m : Mesh (Fin 2 → ℝ)) (ws : List VoroWrite) (covered : Prop) (amt : VoroQ → Nat → ℝ) (vol : ℝ) :
    Prop where
  plain : ∀ w ∈ ws, w.Plain
  full : covered → ∀ q s, (ws.map (VoroWrite.addAmt q s)).sum = amt q s ∧ (ws.map (VoroWrite.partAmt q s)).sum = amt q s
  same : ∀ q s, q ≠ .area → (ws.map (VoroWrite.addAmt q s)).sum = (ws.map (VoroWrite.partAmt q s)).sum
  vol : ∑ s ∈ Finset.range m.verts.length, (ws.map (VoroWrite.addAmt .vbox s)).sum = vol

section Plain
variable {d : Nat} {G : VoroGeo d} {m : Mesh (Fin d → ℝ)} {o p' q' : Fin d → ℝ} {c e w : Nat} {other : Option Nat}

theorem inside_plain : ∀ x ∈ voroInside G m o c e, x.Plain := by
  simp [voroInside, VoroWrite.Plain]

theorem outside_plain : ∀ x ∈ voroOutside G m o c e w p' q' other, x.Plain := by
  intro x hx
  unfold voroOutside at hx
  cases other <;> simp only [List.mem_append, List.mem_flatMap] at hx
  · rcases hx with ((hx | hx) | ⟨v, _, hx⟩) | hx
    · revert x; simp [VoroWrite.Plain]
    · simp at hx
    · rcases hx with hx | hx
      · revert x; simp [VoroWrite.Plain]
      · split at hx
        · simp at hx
        · revert x; simp [VoroWrite.Plain]
    · revert x; simp [VoroWrite.Plain]
  · rcases hx with ((hx | hx) | ⟨v, _, hx⟩) | hx
    · revert x; simp [VoroWrite.Plain]
    · revert x; simp [VoroWrite.Plain]
    · rcases hx with hx | hx
      · revert x; simp [VoroWrite.Plain]
      · split at hx
        · revert x; simp [VoroWrite.Plain]
        · revert x; simp [VoroWrite.Plain]
    · revert x; simp [VoroWrite.Plain]

theorem crossed_plain : ∀ x ∈ voroCrossed G m o e other, x.Plain := by
  cases other <;> simp [voroCrossed, VoroWrite.Plain]

end Plain

/-- Another triangle is found at the edge. -/
def Neighbour (st : MState (Fin 2 → ℝ)) (c e : Nat) : Prop :=
  ∃ t ∈ (st.coboundary 1 2 e).2, st.mesh.eid 2 t ≠ st.mesh.eid 2 c

theorem neighbour_find {st : MState (Fin 2 → ℝ)} {c e : Nat} :
    (Neighbour st c e → ∃ t, (st.coboundary 1 2 e).2.find? (fun t => decide (st.mesh.eid 2 t ≠ st.mesh.eid 2 c)) = some t)
    ∧ (¬ Neighbour st c e →
      (st.coboundary 1 2 e).2.find? (fun t => decide (st.mesh.eid 2 t ≠ st.mesh.eid 2 c)) = none) := by
  constructor
  · rintro ⟨t, h1, h2⟩
    have : ((st.coboundary 1 2 e).2.find? (fun t => decide (st.mesh.eid 2 t ≠ st.mesh.eid 2 c))).isSome := by
      rw [List.find?_isSome]
      exact ⟨t, h1, by simpa using h2⟩
    exact Option.isSome_iff_exists.1 this
  · intro h
    rw [List.find?_eq_none]
    intro t ht h2
    exact h ⟨t, ht, by simpa using h2⟩

/-- Splitting the statements of a triangle by edge. -/
theorem three_edges (f : Nat → List VoroWrite) (g : VoroWrite → ℝ) (e0 e1 e2 : Nat) :
    (([e0, e1, e2].flatMap f).map g).sum = ((f e0).map g).sum + ((f e1).map g).sum + ((f e2).map g).sum := by
  simp [List.flatMap_cons, add_assoc]

/-- A triangle with an obtuse angle at `a`, whatever the order of its edges. -/
theorem obtuse_cell {m : Mesh (Fin 2 → ℝ)} {a b c eab eac ebc t : Nat}
    (h1 : EndsAre m eab a b) (h2 : EndsAre m eac a c) (h3 : EndsAre m ebc b c) (hab : a ≠ b)
    (hac : a ≠ c) (hD : tw (m.at0 a) (m.at0 b) (m.at0 c) ≠ 0) (ha : dp (m.at0 a) (m.at0 b) (m.at0 c) < 0)
    (n1 : ebc ≠ eab) (n2 : ebc ≠ eac) (la : a < m.verts.length) (lb : b < m.verts.length) (lc : c < m.verts.length)
    (O : Fin 2 → ℝ) (hO : O = circumTriangle2 (m.at0 a) (m.at0 b) (m.at0 c)) (es : List Nat)
    (hes : es.Perm [eab, eac, ebc]) (other : Option Nat) :
    let F := fun e => if ebc ≠ e then voroOutside geo2 m O t e a (m.at0 (m.ends ebc).1) (m.at0 (m.ends ebc).2) other
      else voroCrossed geo2 m O e other
    (∀ w ∈ es.flatMap F, w.Plain)
    ∧ (other ≠ none → ∀ q s, ((es.flatMap F).map (VoroWrite.addAmt q s)).sum
          = edgeAmt m.at0 eab a b c q s + edgeAmt m.at0 eac a c b q s + edgeAmt m.at0 ebc b c a q s
        ∧ ((es.flatMap F).map (VoroWrite.partAmt q s)).sum
          = edgeAmt m.at0 eab a b c q s + edgeAmt m.at0 eac a c b q s + edgeAmt m.at0 ebc b c a q s)
    ∧ (∀ q s, q ≠ .area → ((es.flatMap F).map (VoroWrite.addAmt q s)).sum = ((es.flatMap F).map (VoroWrite.partAmt q s)).sum)
    ∧ (other = none → ∑ s ∈ Finset.range m.verts.length, ((es.flatMap F).map (VoroWrite.addAmt .vbox s)).sum
        = |tw (m.at0 a) (m.at0 b) (m.at0 c)| / 2) := by
  intro F
  have hsum : ∀ g : VoroWrite → ℝ, ((es.flatMap F).map g).sum
      = ((voroOutside geo2 m O t eab a (m.at0 (m.ends ebc).1) (m.at0 (m.ends ebc).2) other).map g).sum
        + ((voroOutside geo2 m O t eac a (m.at0 (m.ends ebc).1) (m.at0 (m.ends ebc).2) other).map g).sum
        + ((voroCrossed geo2 m O ebc other).map g).sum := by
    intro g
    have hp : ((es.flatMap F).map g).Perm (([eab, eac, ebc].flatMap F).map g) := (hes.flatMap_right F).map g
    rw [hp.sum_eq, three_edges]
    dsimp only [F]
    rw [if_pos n1, if_pos n2, if_neg (by simp)]
  refine ⟨?_, ?_, ?_, ?_⟩
  · intro w hw
    obtain ⟨e, _, hw⟩ := List.mem_flatMap.1 hw
    dsimp only [F] at hw
    split at hw
    · exact outside_plain w hw
    · exact crossed_plain w hw
  · intro ho q s
    obtain ⟨t', rfl⟩ := Option.ne_none_iff_exists'.1 ho
    rw [hsum, hsum]
    obtain ⟨r1, r2, r3⟩ := obtuse_covered (t := t) h1 h2 h3 hab hac hD ha O hO t' _ q s (Or.inl rfl)
    obtain ⟨r4, r5, r6⟩ := obtuse_covered (t := t) h1 h2 h3 hab hac hD ha O hO t' _ q s (Or.inr rfl)
    exact ⟨by rw [r1, r2, r3], by rw [r4, r5, r6]⟩
  · intro q s hq
    cases other with
    | some t' =>
      rw [hsum, hsum]
      obtain ⟨r1, r2, r3⟩ := obtuse_covered (t := t) h1 h2 h3 hab hac hD ha O hO t' _ q s (Or.inl rfl)
      obtain ⟨r4, r5, r6⟩ := obtuse_covered (t := t) h1 h2 h3 hab hac hD ha O hO t' _ q s (Or.inr rfl)
      rw [r1, r2, r3, r4, r5, r6]
    | none =>
      rw [hsum, hsum]
      have g1 := outside_eval (t := t) h1 hab O (m.at0 (m.ends ebc).1) (m.at0 (m.ends ebc).2) none q s
      have g2 := outside_eval (t := t) h2 hac O (m.at0 (m.ends ebc).1) (m.at0 (m.ends ebc).2) none q s
      rw [g1.1, g1.2, g2.1, g2.2]
      cases q with
      | area => exact (hq rfl).elim
      | vbox => rfl
      | ebox => rfl
  · rintro rfl
    simp only [hsum]
    have : ∀ s, ((voroCrossed geo2 m O ebc none).map (VoroWrite.addAmt .vbox s)).sum = 0 := by
      intro s; simp [voroCrossed]
    simp only [this, add_zero]
    rw [Finset.sum_add_distrib]
    exact obtuse_alone h1 h2 h3 hab hac hD ha O hO _ la lb lc

end VG
