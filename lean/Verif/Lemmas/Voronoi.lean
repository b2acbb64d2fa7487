import Verif.Lemmas.VoronoiGeo
import Mathlib.Algebra.BigOperators.Group.List.Basic
import Mathlib.Algebra.BigOperators.Group.Finset.Piecewise

/-!
Effect of the statements of `apply_voronoi`.
-/

namespace VG

/-! ### Statements -/

/-- What a statement adds to a total. -/
def VoroWrite.addAmt (q : VoroQ) (s : Nat) : VoroWrite → ℝ
  | .add q' s' x => if q = q' ∧ s = s' then x else 0
  | _ => 0

/-- What a statement adds to the contributions. -/
def VoroWrite.partAmt (q : VoroQ) (s : Nat) : VoroWrite → ℝ
  | .push q' s' _ x => if q = q' ∧ s = s' then x else 0
  | .upd q' s' _ x => if q = q' ∧ s = s' then x else 0
  | _ => 0

/-- Neither an assignment nor a `push_back`. -/
def VoroWrite.Plain : VoroWrite → Prop
  | .add _ _ _ => True
  | .upd _ _ _ _ => True
  | _ => False

/-- Sum of the contributions of all cells. -/
def partSum (l : List (Nat × ℝ)) : ℝ := (l.map (·.2)).sum

theorem partSum_uniqueUpdate (c : Nat) (x : ℝ) (l : List (Nat × ℝ)) :
    partSum (uniqueUpdate c x l) = partSum l + x := by
  induction l with
  | nil => simp [uniqueUpdate, partSum]
  | cons a l ih =>
    obtain ⟨c', y⟩ := a
    unfold uniqueUpdate
    split
    · simp only [partSum, List.map_cons, List.sum_cons]; ring
    · simp only [partSum, List.map_cons, List.sum_cons] at ih ⊢
      rw [ih]; ring

theorem keys_uniqueUpdate (c : Nat) (x : ℝ) (l : List (Nat × ℝ)) (z : Nat) :
    z ∈ (uniqueUpdate c x l).map (·.1) ↔ z = c ∨ z ∈ l.map (·.1) := by
  induction l with
  | nil => simp [uniqueUpdate]
  | cons a l ih =>
    obtain ⟨c', y⟩ := a
    unfold uniqueUpdate
    split
    · next h => simp [h]
    · rw [List.map_cons, List.mem_cons, ih, List.map_cons, List.mem_cons]
      tauto

theorem nodup_uniqueUpdate (c : Nat) (x : ℝ) (l : List (Nat × ℝ)) (h : (l.map (·.1)).Nodup) :
    ((uniqueUpdate c x l).map (·.1)).Nodup := by
  induction l with
  | nil => simp [uniqueUpdate]
  | cons a l ih =>
    obtain ⟨c', y⟩ := a
    rw [List.map_cons, List.nodup_cons] at h
    unfold uniqueUpdate
    split
    · rw [List.map_cons, List.nodup_cons]; exact h
    · next hc =>
      rw [List.map_cons, List.nodup_cons]
      refine ⟨fun hm => ?_, ih h.2⟩
      rcases (keys_uniqueUpdate c x l _).1 hm with hm | hm
      · exact hc hm
      · exact h.1 hm

theorem write_plain (v : VoroSt) (w : VoroWrite) (hw : w.Plain) (q : VoroQ) (s : Nat) :
    (v.write w).total q s = v.total q s + w.addAmt q s
    ∧ partSum ((v.write w).parts q s) = partSum (v.parts q s) + w.partAmt q s
    ∧ (((v.parts q s).map (·.1)).Nodup → (((v.write w).parts q s).map (·.1)).Nodup) := by
  cases w with
  | add q' s' x =>
    refine ⟨?_, by simp [VoroSt.write, VoroWrite.partAmt], id⟩
    simp only [VoroSt.write, VoroWrite.addAmt]
    split
    · next h => rw [h.1, h.2]
    · simp
  | set => exact hw.elim
  | push => exact hw.elim
  | upd q' s' c x =>
    refine ⟨by simp [VoroSt.write, VoroWrite.addAmt], ?_, ?_⟩
    · simp only [VoroSt.write, VoroWrite.partAmt]
      split
      · next h => rw [h.1, h.2, partSum_uniqueUpdate]
      · simp
    · simp only [VoroSt.write]
      split
      · next h => rw [h.1, h.2]; exact nodup_uniqueUpdate _ _ _
      · exact id

theorem writes_plain (ws : List VoroWrite) : ∀ (v : VoroSt), (∀ w ∈ ws, w.Plain) → ∀ (q : VoroQ) (s : Nat),
    (ws.foldl VoroSt.write v).total q s = v.total q s + (ws.map (VoroWrite.addAmt q s)).sum
    ∧ partSum ((ws.foldl VoroSt.write v).parts q s) = partSum (v.parts q s) + (ws.map (VoroWrite.partAmt q s)).sum
    ∧ (((v.parts q s).map (·.1)).Nodup → (((ws.foldl VoroSt.write v).parts q s).map (·.1)).Nodup) := by
  induction ws with
  | nil => intro v _ q s; simp
  | cons w ws ih =>
    intro v hp q s
    obtain ⟨h1, h2, h3⟩ := ih (v.write w) (fun w' hw' => hp w' (List.mem_cons_of_mem _ hw')) q s
    obtain ⟨g1, g2, g3⟩ := write_plain v w (hp w (by simp)) q s
    rw [List.foldl_cons, List.map_cons, List.sum_cons, List.map_cons, List.sum_cons]
    refine ⟨by rw [h1, g1]; ring, by rw [h2, g2]; ring, fun h => h3 (g3 h)⟩

/-! ### One edge of a triangle -/

/-- What an edge with ends `a`, `b`, opposite to the vertex `c`, should get from a triangle. -/
noncomputable def edgeAmt (pt : Nat → Fin 2 → ℝ) (e a b c : Nat) : VoroQ → Nat → ℝ
  | .area, s => if s = e then len (pt a) (pt b) * dp (pt c) (pt a) (pt b) / (2 * |tw (pt a) (pt b) (pt c)|) else 0
  | .vbox, s => (if s = a then len (pt a) (pt b) ^ 2 * dp (pt c) (pt a) (pt b) / (8 * |tw (pt a) (pt b) (pt c)|) else 0)
    + (if s = b then len (pt a) (pt b) ^ 2 * dp (pt c) (pt a) (pt b) / (8 * |tw (pt a) (pt b) (pt c)|) else 0)
  | .ebox, s =>
    if s = e then len (pt a) (pt b) ^ 2 * dp (pt c) (pt a) (pt b) / (4 * |tw (pt a) (pt b) (pt c)|) else 0

theorem edgeAmt_swap (pt : Nat → Fin 2 → ℝ) (e a b c : Nat) : edgeAmt pt e a b c = edgeAmt pt e b a c := by
  have e1 : |tw (pt a) (pt b) (pt c)| = |tw (pt b) (pt a) (pt c)| := by
    rw [← abs_neg]; congr 1; unfold tw; ring
  funext q s
  cases q <;> simp only [edgeAmt, e1, len_swap (pt a), dp_swap (pt c) (pt a)]
  rw [add_comm]

variable {m : Mesh (Fin 2 → ℝ)} {e a b c t : Nat}

theorem inside_amt (he : m.ends e = (a, b) ∨ m.ends e = (b, a)) (hD : tw (m.at0 a) (m.at0 b) (m.at0 c) ≠ 0)
    (hc : 0 ≤ dp (m.at0 c) (m.at0 a) (m.at0 b)) (q : VoroQ) (s : Nat) :
    ((voroInside geo2 m (circumTriangle2 (m.at0 a) (m.at0 b) (m.at0 c)) t e).map (VoroWrite.addAmt q s)).sum
      = edgeAmt m.at0 e a b c q s
    ∧ ((voroInside geo2 m (circumTriangle2 (m.at0 a) (m.at0 b) (m.at0 c)) t e).map (VoroWrite.partAmt q s)).sum
      = edgeAmt m.at0 e a b c q s := by
  wlog hs : m.ends e = (a, b) generalizing a b
  · have hD' : tw (m.at0 b) (m.at0 a) (m.at0 c) ≠ 0 := by
      intro h0; apply hD; rw [tw_rot, tw_swap, h0, neg_zero]
    have := this he.symm hD' (by rw [dp_swap]; exact hc) (he.resolve_left hs)
    have e1 : circumTriangle2 (m.at0 b) (m.at0 a) (m.at0 c) = circumTriangle2 (m.at0 a) (m.at0 b) (m.at0 c) := by
      rw [circ_perm1 (m.at0 b), circ_swap]
    rw [e1] at this
    rw [edgeAmt_swap]
    exact this
  obtain ⟨h1, h2⟩ := span_mid _ _ _ hD
  have h3 := len_mid _ _ _ hD
  rw [abs_of_nonneg hc] at h1 h2 h3
  unfold voroInside
  rw [hs]
  dsimp only [geo2]
  rw [signedLine2, h1, h2, h3]
  have e1 : ∀ x y : ℝ, 0 + x / (8 * y) + x / (8 * y) = x / (4 * y) := by
    intro x y; rw [zero_add, ← mul_div_mul_left x (4 * y) two_ne_zero]; ring
  rw [e1]
  cases q <;> simp [VoroWrite.addAmt, VoroWrite.partAmt, edgeAmt, h1, h2]

theorem circ_swap12 (A B C : Fin 2 → ℝ) : circumTriangle2 B A C = circumTriangle2 A B C := by
  rw [circ_perm1 B, circ_swap]

theorem tw_ne_swap {A B C : Fin 2 → ℝ} (h : tw A B C ≠ 0) : tw B A C ≠ 0 := by
  intro h0; apply h; rw [tw_rot, tw_swap, h0, neg_zero]

/-- The crossed edge, when there is a triangle on the other side. -/
theorem crossed_amt (he : m.ends e = (a, b) ∨ m.ends e = (b, a)) (hD : tw (m.at0 a) (m.at0 b) (m.at0 c) ≠ 0)
    (hc : dp (m.at0 c) (m.at0 a) (m.at0 b) ≤ 0) (q : VoroQ) (s : Nat) :
    ((voroCrossed geo2 m (circumTriangle2 (m.at0 a) (m.at0 b) (m.at0 c)) e (some t)).map (VoroWrite.addAmt q s)).sum
      = edgeAmt m.at0 e a b c q s
    ∧ ((voroCrossed geo2 m (circumTriangle2 (m.at0 a) (m.at0 b) (m.at0 c)) e (some t)).map (VoroWrite.partAmt q s)).sum
      = edgeAmt m.at0 e a b c q s := by
  wlog hs : m.ends e = (a, b) generalizing a b
  · have := this he.symm (tw_ne_swap hD) (by rw [dp_swap]; exact hc) (he.resolve_left hs)
    rw [circ_swap12] at this
    rw [edgeAmt_swap]
    exact this
  obtain ⟨h1, h2⟩ := span_mid _ _ _ hD
  have h3 := len_mid _ _ _ hD
  rw [abs_of_nonpos hc] at h1 h2 h3
  unfold voroCrossed
  rw [hs]
  dsimp only [geo2]
  rw [signedLine2, h1, h2, h3]
  have e1 : ∀ x y : ℝ, 0 + x / (8 * y) + x / (8 * y) = x / (4 * y) := by
    intro x y; rw [zero_add, ← mul_div_mul_left x (4 * y) two_ne_zero]; ring
  rw [e1]
  cases q <;> simp [VoroWrite.addAmt, VoroWrite.partAmt, edgeAmt, h1, h2, neg_div]

/-- 1 if there is a triangle on the other side of the crossed edge. -/
def present : Option Nat → ℝ
  | some _ => 1
  | none => 0

/-- The amounts for an edge at the obtuse corner `a`: `x`, `y` the two parts of the interface. -/
noncomputable def outsideAmt (M O E X : Fin 2 → ℝ) (k : ℝ) (A B : Fin 2 → ℝ) (e a b : Nat) (y : ℝ) : VoroQ → Nat → ℝ
  | .area, s => if s = e then len E M + y else 0
  | .vbox, s =>
    (if s = a then spannedTriangle E M A + (spannedTriangle X E A + k * spannedTriangle O E X) else 0)
    + (if s = b then spannedTriangle E M B + k * spannedTriangle O E B else 0)
  | .ebox, s =>
    if s = e then (spannedTriangle E M A + (spannedTriangle X E A + k * spannedTriangle O E X))
      + (spannedTriangle E M B + k * spannedTriangle O E B) else 0

theorem outside_eval (he : m.ends e = (a, b) ∨ m.ends e = (b, a)) (hab : a ≠ b) (O p' q' : Fin 2 → ℝ)
    (o : Option Nat) (q : VoroQ) (s : Nat) :
    ((voroOutside geo2 m O t e a p' q' o).map (VoroWrite.addAmt q s)).sum
      = outsideAmt (circumLine (m.at0 a) (m.at0 b)) O (lineIntersection (circumLine (m.at0 a) (m.at0 b)) O p' q')
        (lineIntersection (m.at0 a) O p' q') (present o) (m.at0 a) (m.at0 b) e a b
        (len (lineIntersection (circumLine (m.at0 a) (m.at0 b)) O p' q') O) q s
    ∧ ((voroOutside geo2 m O t e a p' q' o).map (VoroWrite.partAmt q s)).sum
      = outsideAmt (circumLine (m.at0 a) (m.at0 b)) O (lineIntersection (circumLine (m.at0 a) (m.at0 b)) O p' q')
        (lineIntersection (m.at0 a) O p' q') (present o) (m.at0 a) (m.at0 b) e a b
        (present o * len (lineIntersection (circumLine (m.at0 a) (m.at0 b)) O p' q') O) q s := by
  unfold voroOutside
  dsimp only [geo2]
  rw [signedLine2, signedLine2]
  rcases he with hs | hs
  · rw [hs]
    dsimp only
    generalize lineIntersection (m.at0 a) O p' q' = X
    generalize lineIntersection (circumLine (m.at0 a) (m.at0 b)) O p' q' = E
    cases o <;> cases q <;> refine ⟨?_, ?_⟩ <;>
      simp [outsideAmt, present, VoroWrite.addAmt, VoroWrite.partAmt, hab.symm]
    all_goals first | done | (split_ifs <;> ring1)
  · rw [hs]
    dsimp only
    rw [circumLine_swap (m.at0 b)]
    generalize lineIntersection (m.at0 a) O p' q' = X
    generalize lineIntersection (circumLine (m.at0 a) (m.at0 b)) O p' q' = E
    cases o <;> cases q <;> refine ⟨?_, ?_⟩ <;>
      simp [outsideAmt, present, VoroWrite.addAmt, VoroWrite.partAmt, hab.symm]
    all_goals first | done | (split_ifs <;> ring1)

/-- An edge at the obtuse corner `a`, when there is a triangle on the other side of the crossed edge. -/
theorem outside_amt (he : m.ends e = (a, b) ∨ m.ends e = (b, a)) (hab : a ≠ b)
    (hD : tw (m.at0 a) (m.at0 b) (m.at0 c) ≠ 0) (ha : dp (m.at0 a) (m.at0 b) (m.at0 c) < 0) (t' : Nat) (p' q' : Fin 2 → ℝ)
    (hpq : (p' = m.at0 b ∧ q' = m.at0 c) ∨ (p' = m.at0 c ∧ q' = m.at0 b)) (q : VoroQ) (s : Nat) :
    ((voroOutside geo2 m (circumTriangle2 (m.at0 a) (m.at0 b) (m.at0 c)) t e a p' q' (some t')).map
      (VoroWrite.addAmt q s)).sum = edgeAmt m.at0 e a b c q s
    ∧ ((voroOutside geo2 m (circumTriangle2 (m.at0 a) (m.at0 b) (m.at0 c)) t e a p' q' (some t')).map
      (VoroWrite.partAmt q s)).sum = edgeAmt m.at0 e a b c q s := by
  have hcut := cut_spec _ _ _ hD ha
  have hc := (obtuse_signs _ _ _ hD ha).2.2.2
  obtain ⟨h1, h2⟩ := span_mid _ _ _ hD
  have h3 := len_mid _ _ _ hD
  rw [abs_of_pos hc] at h1 h2 h3
  have g1 := hcut.apex_sum
  have g2 := hcut.end_sum
  have g3 := hcut.len_sum
  rw [h1] at g1
  rw [h2] at g2
  rw [h3] at g3
  have e8 : ∀ x y : ℝ, x / (4 * y) = x / (8 * y) + x / (8 * y) := by
    intro x y; rw [← mul_div_mul_left x (4 * y) two_ne_zero]; ring
  have key : ∀ x y : Fin 2 → ℝ, lineIntersection x y p' q' = lineIntersection x y (m.at0 b) (m.at0 c) := by
    intro x y
    rcases hpq with ⟨rfl, rfl⟩ | ⟨rfl, rfl⟩
    · rfl
    · rw [lineIntersection_swap]
  obtain ⟨f1, f2⟩ := outside_eval (t := t) he hab (circumTriangle2 (m.at0 a) (m.at0 b) (m.at0 c)) p' q' (some t') q s
  rw [f1, f2, key, key, present, one_mul]
  rw [and_self]
  cases q
  · simp only [outsideAmt, edgeAmt]; rw [g3]
  · simp only [outsideAmt, edgeAmt, one_mul]; rw [g1, g2]
  · simp only [outsideAmt, edgeAmt, one_mul]; rw [g1, g2, e8]

/-- An edge at the obtuse corner `a` without a triangle on the other side: the boxes of both ends together. -/
theorem outside_inner (he : m.ends e = (a, b) ∨ m.ends e = (b, a)) (hab : a ≠ b)
    (hD : tw (m.at0 a) (m.at0 b) (m.at0 c) ≠ 0) (ha : dp (m.at0 a) (m.at0 b) (m.at0 c) < 0) (p' q' : Fin 2 → ℝ)
    (hpq : (p' = m.at0 b ∧ q' = m.at0 c) ∨ (p' = m.at0 c ∧ q' = m.at0 b)) (n : Nat) (han : a < n) (hbn : b < n) :
    ∃ z, z * ((dp (m.at0 a) (m.at0 b) (m.at0 c) + dp (m.at0 b) (m.at0 a) (m.at0 c)) * dp (m.at0 c) (m.at0 a) (m.at0 b)
        + (dp (m.at0 a) (m.at0 b) (m.at0 c) + dp (m.at0 c) (m.at0 a) (m.at0 b)) * dp (m.at0 b) (m.at0 a) (m.at0 c))
        = (dp (m.at0 a) (m.at0 b) (m.at0 c) + dp (m.at0 b) (m.at0 a) (m.at0 c)) * dp (m.at0 c) (m.at0 a) (m.at0 b)
      ∧ ∑ s ∈ Finset.range n, ((voroOutside geo2 m (circumTriangle2 (m.at0 a) (m.at0 b) (m.at0 c)) t e a p' q' none).map
          (VoroWrite.addAmt .vbox s)).sum = z * (|tw (m.at0 a) (m.at0 b) (m.at0 c)| / 2) := by
  have hcut := cut_spec _ _ _ hD ha
  obtain ⟨z, _, _, hz, hsum⟩ := hcut.inner_sum
  refine ⟨z, hz, ?_⟩
  have key : ∀ x y : Fin 2 → ℝ, lineIntersection x y p' q' = lineIntersection x y (m.at0 b) (m.at0 c) := by
    intro x y
    rcases hpq with ⟨rfl, rfl⟩ | ⟨rfl, rfl⟩
    · rfl
    · rw [lineIntersection_swap]
  have e1 : ∀ s, ((voroOutside geo2 m (circumTriangle2 (m.at0 a) (m.at0 b) (m.at0 c)) t e a p' q' none).map
      (VoroWrite.addAmt .vbox s)).sum = _ := fun s => (outside_eval (t := t) he hab _ p' q' none .vbox s).1
  simp only [e1, key, outsideAmt, present, zero_mul, add_zero]
  rw [Finset.sum_add_distrib, Finset.sum_ite_eq' (Finset.range n) a, Finset.sum_ite_eq' (Finset.range n) b,
    if_pos (Finset.mem_range.2 han), if_pos (Finset.mem_range.2 hbn), ← hsum]
  ring

/-- Adding up what an edge gets over all vertices. -/
theorem edgeAmt_sum (pt : Nat → Fin 2 → ℝ) (n : Nat) (han : a < n) (hbn : b < n) :
    ∑ s ∈ Finset.range n, edgeAmt pt e a b c .vbox s
      = len (pt a) (pt b) ^ 2 * dp (pt c) (pt a) (pt b) / (4 * |tw (pt a) (pt b) (pt c)|) := by
  simp only [edgeAmt]
  rw [Finset.sum_add_distrib, Finset.sum_ite_eq' (Finset.range n) a, Finset.sum_ite_eq' (Finset.range n) b,
    if_pos (Finset.mem_range.2 han), if_pos (Finset.mem_range.2 hbn),
    ← mul_div_mul_left _ (4 * |tw (pt a) (pt b) (pt c)|) two_ne_zero]
  ring

/-! ### Which edge is crossed -/

theorem crossedEdge_spec (A B C : Fin 2 → ℝ) (h : tw A B C ≠ 0) :
    (crossedEdge (circumTriangle2 A B C) A B C = none ∧ 0 ≤ dp A B C ∧ 0 ≤ dp B A C ∧ 0 ≤ dp C A B)
    ∨ (crossedEdge (circumTriangle2 A B C) A B C = some (0, 2) ∧ dp C A B < 0)
    ∨ (crossedEdge (circumTriangle2 A B C) A B C = some (1, 1) ∧ dp B A C < 0)
    ∨ (crossedEdge (circumTriangle2 A B C) A B C = some (2, 0) ∧ dp A B C < 0) := by
  obtain ⟨h1, h2⟩ := circ_local A B C h
  have hW : 0 < 2 * tw A B C ^ 2 := by positivity
  have hs := tw_sq A B C
  have hne : ∀ {P Q R : Fin 2 → ℝ}, tw P Q R ≠ 0 → 0 < dp P Q R + dp Q P R := by
    intro P Q R hn
    rw [← sq_len]
    by_contra hc
    have g0 : Q 0 - P 0 = 0 := by nlinarith [sq_nonneg (Q 0 - P 0), sq_nonneg (Q 1 - P 1)]
    have g1 : Q 1 - P 1 = 0 := by nlinarith [sq_nonneg (Q 0 - P 0), sq_nonneg (Q 1 - P 1)]
    apply hn; unfold tw; rw [g0, g1]; ring
  have l1 : 0 < dp A B C + dp B A C := hne h
  have l2 : 0 < dp A B C + dp C A B := by
    have := @hne A C B (by rw [tw_swap]; simpa using h)
    rwa [dp_swap A C B] at this
  have l3 : 0 < dp B A C + dp C A B := by
    have := @hne B C A (by rw [← tw_rot]; exact h)
    rwa [dp_swap B C A, dp_swap C B A] at this
  unfold crossedEdge
  rw [localCoords2 _ _ _ _ h, h1, h2]
  dsimp only
  have sx : (dp A B C + dp C A B) * dp B A C / (2 * tw A B C ^ 2) < 0 ↔ dp B A C < 0 := by
    rw [div_lt_iff₀ hW, zero_mul]
    constructor
    · intro g; by_contra hc; push Not at hc; nlinarith [mul_nonneg l2.le hc]
    · intro g; exact mul_neg_of_pos_of_neg l2 g
  have sy : (dp A B C + dp B A C) * dp C A B / (2 * tw A B C ^ 2) < 0 ↔ dp C A B < 0 := by
    rw [div_lt_iff₀ hW, zero_mul]
    constructor
    · intro g; by_contra hc; push Not at hc; nlinarith [mul_nonneg l1.le hc]
    · intro g; exact mul_neg_of_pos_of_neg l1 g
  have sz : (dp A B C + dp C A B) * dp B A C / (2 * tw A B C ^ 2) + (dp A B C + dp B A C) * dp C A B / (2 * tw A B C ^ 2)
      > 1 ↔ dp A B C < 0 := by
    rw [gt_iff_lt, ← add_div, lt_div_iff₀ hW, one_mul, hs]
    constructor
    · intro g; by_contra hc; push Not at hc; nlinarith [mul_nonneg l3.le hc]
    · intro g; nlinarith [mul_neg_of_pos_of_neg l3 g]
  by_cases hr : dp C A B < 0
  · right; left
    rw [if_pos (Or.inr (Or.inl (sy.2 hr))), if_pos (sy.2 hr)]; exact ⟨rfl, hr⟩
  · by_cases hq : dp B A C < 0
    · right; right; left
      rw [if_pos (Or.inl (sx.2 hq)), if_neg (fun g => hr (sy.1 g)), if_pos (sx.2 hq)]; exact ⟨rfl, hq⟩
    · by_cases hp : dp A B C < 0
      · right; right; right
        rw [if_pos (Or.inr (Or.inr (sz.2 hp))), if_neg (fun g => hr (sy.1 g)), if_neg (fun g => hq (sx.1 g))]
        exact ⟨rfl, hp⟩
      · left
        rw [if_neg (by rw [sx, sy, sz]; tauto)]
        exact ⟨rfl, not_lt.1 hp, not_lt.1 hq, not_lt.1 hr⟩

end VG
