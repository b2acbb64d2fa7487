import Verif.Model.RefineTet
import Mathlib.Tactic.Ring
import Mathlib.Tactic.Linarith
import Mathlib.Tactic.FinCases
import Mathlib.Tactic.IntervalCases
import Mathlib.Data.List.Sort
import Mathlib.Data.Finset.Card

/-!
Lemmas about the refinement of a tetrahedron.  A finite check runs over all statements of the
refinement function with the comparisons passed on the way; what it checks at the end of each way is
then lifted to all positions of the new vertices on their edges, as volumes are affine in each of
these positions.
-/

namespace VG

/-- The end points of an edge of a tetrahedron. -/
def tetEnds (e : Nat) : Nat × Nat := [(0, 1), (0, 2), (0, 3), (1, 2), (1, 3), (2, 3)].getD e (0, 0)

/-- The edge between two vertices of a tetrahedron. -/
def tetEdge (a b : Nat) : Nat :=
  if a = 0 ∧ b = 1 ∨ a = 1 ∧ b = 0 then 0
  else if a = 0 ∧ b = 2 ∨ a = 2 ∧ b = 0 then 1
  else if a = 0 ∧ b = 3 ∨ a = 3 ∧ b = 0 then 2
  else if a = 1 ∧ b = 2 ∨ a = 2 ∧ b = 1 then 3
  else if a = 1 ∧ b = 3 ∨ a = 3 ∧ b = 1 then 4
  else 5

/-- The vertex with which a new vertex coincides when it is moved to the end of its edge. -/
def tetCollapse (c : Nat → Bool) (l : Nat) : Nat :=
  if l < 4 then l else if c (l - 4) then (tetEnds (l - 4)).2 else (tetEnds (l - 4)).1

def isgn (a b : Nat) : Int := if a < b then 1 else if b < a then -1 else 0

/-- The sign of the map 0, 1, 2, 3 to a, b, c, d. -/
def sgn4 (a b c d : Nat) : Int := isgn a b * isgn a c * isgn a d * isgn b c * isgn b d * isgn c d

def cellSgn (c : Nat → Bool) : List Nat → Int
  | [i, j, k, l] => sgn4 (tetCollapse c i) (tetCollapse c j) (tetCollapse c k) (tetCollapse c l)
  | _ => 0

/-- The ends to which a new vertex can be moved; only marked edges have new vertices. -/
def endsOf (b : Bool) : List Bool := if b then [false, true] else [false]

/-- All choices of ends for the new vertices on marked edges. -/
def tetCorners (m : Nat → Bool) : List (List Bool) :=
  (endsOf (m 0)).flatMap fun b0 => (endsOf (m 1)).flatMap fun b1 => (endsOf (m 2)).flatMap fun b2 =>
  (endsOf (m 3)).flatMap fun b3 => (endsOf (m 4)).flatMap fun b4 => (endsOf (m 5)).map fun b5 =>
    [b0, b1, b2, b3, b4, b5]

def cornerFn (bs : List Bool) (e : Nat) : Bool := bs.getD e false

theorem mem_tetCorners (m c : Nat → Bool) :
    [c 0 && m 0, c 1 && m 1, c 2 && m 2, c 3 && m 3, c 4 && m 4, c 5 && m 5] ∈ tetCorners m := by
  have h : ∀ e, (c e && m e) ∈ endsOf (m e) := by
    intro e; unfold endsOf; cases c e <;> cases m e <;> decide
  unfold tetCorners
  simp only [List.mem_flatMap, List.mem_map]
  exact ⟨_, h 0, _, h 1, _, h 2, _, h 3, _, h 4, _, h 5, rfl⟩

/-! ### Determinants -/

section Det
variable {R : Type} [CommRing R]

def det3 (a b c : Nat → R) : R :=
  a 0 * (b 1 * c 2 - b 2 * c 1) - a 1 * (b 0 * c 2 - b 2 * c 0) + a 2 * (b 0 * c 1 - b 1 * c 0)

def det4 (a b c d : Nat → R) : R :=
  a 0 * (b 1 * (c 2 * d 3 - c 3 * d 2) - b 2 * (c 1 * d 3 - c 3 * d 1) + b 3 * (c 1 * d 2 - c 2 * d 1))
  - a 1 * (b 0 * (c 2 * d 3 - c 3 * d 2) - b 2 * (c 0 * d 3 - c 3 * d 0) + b 3 * (c 0 * d 2 - c 2 * d 0))
  + a 2 * (b 0 * (c 1 * d 3 - c 3 * d 1) - b 1 * (c 0 * d 3 - c 3 * d 0) + b 3 * (c 0 * d 1 - c 1 * d 0))
  - a 3 * (b 0 * (c 1 * d 2 - c 2 * d 1) - b 1 * (c 0 * d 2 - c 2 * d 0) + b 2 * (c 0 * d 1 - c 1 * d 0))

def unitRow (v i : Nat) : R := if i = v then 1 else 0

theorem det4_unit_int : ∀ a < 4, ∀ b < 4, ∀ c < 4, ∀ d < 4,
    det4 (R := Int) (unitRow a) (unitRow b) (unitRow c) (unitRow d) = sgn4 a b c d := by decide +kernel

theorem det4_unit {a b c d : Nat} (ha : a < 4) (hb : b < 4) (hc : c < 4) (hd : d < 4) :
    det4 (R := R) (unitRow a) (unitRow b) (unitRow c) (unitRow d) = ((sgn4 a b c d : Int) : R) := by
  have h := det4_unit_int a ha b hb c hc d hd
  have hu : ∀ v i, ((unitRow v i : Int) : R) = unitRow v i := by
    intro v i; unfold unitRow; split <;> simp
  rw [← h]
  unfold det4
  push_cast
  simp only [hu]

/-- Barycentric coordinates of a label; `t e` says where on edge `e` the new vertex is. -/
def tetRow (t : Nat → R) (l i : Nat) : R :=
  if l < 4 then unitRow l i
  else (1 - t (l - 4)) * unitRow (tetEnds (l - 4)).1 i + t (l - 4) * unitRow (tetEnds (l - 4)).2 i

def cellDet (t : Nat → R) : List Nat → R
  | [a, b, c, d] => det4 (tetRow t a) (tetRow t b) (tetRow t c) (tetRow t d)
  | _ => 0

def cornerPt (c : Nat → Bool) (e : Nat) : R := if c e then 1 else 0

theorem tetRow_corner (c : Nat → Bool) (l : Nat) : tetRow (R := R) (cornerPt c) l = unitRow (tetCollapse c l) := by
  funext i
  unfold tetRow tetCollapse cornerPt
  split
  · rfl
  · split <;> simp

theorem tetCollapse_lt (c : Nat → Bool) {l : Nat} (hl : l < 10) : tetCollapse c l < 4 := by
  unfold tetCollapse
  split
  · assumption
  · have : ∀ e < 6, (tetEnds e).1 < 4 ∧ (tetEnds e).2 < 4 := by decide
    have := this (l - 4) (by omega)
    split
    · exact this.2
    · exact this.1

/-- Cells made of four different labels. -/
def CellOK : List Nat → Bool
  | [a, b, c, d] => decide (a < 10) && decide (b < 10) && decide (c < 10) && decide (d < 10) &&
      decide (a ≠ b) && decide (a ≠ c) && decide (a ≠ d) && decide (b ≠ c) && decide (b ≠ d) && decide (c ≠ d)
  | _ => false

theorem cellOK_elim {l : List Nat} (h : CellOK l = true) : ∃ a b c d, l = [a, b, c, d] ∧ a < 10 ∧ b < 10 ∧ c < 10 ∧
    d < 10 ∧ a ≠ b ∧ a ≠ c ∧ a ≠ d ∧ b ≠ c ∧ b ≠ d ∧ c ≠ d := by
  unfold CellOK at h
  split at h
  · rename_i a b c d
    refine ⟨a, b, c, d, rfl, ?_⟩
    simpa [and_assoc] using h
  · cases h

theorem cellDet_corner (c : Nat → Bool) {l : List Nat} (h : CellOK l = true) :
    cellDet (R := R) (cornerPt c) l = ((cellSgn c l : Int) : R) := by
  obtain ⟨i, j, k, m, rfl, hi, hj, hk, hm, _⟩ := cellOK_elim h
  simp only [cellDet, cellSgn, tetRow_corner]
  exact det4_unit (tetCollapse_lt c hi) (tetCollapse_lt c hj) (tetCollapse_lt c hk) (tetCollapse_lt c hm)

/-- Depending on six variables, affine in each. -/
structure MultiAff (F : (Nat → R) → R) : Prop where
  aff : ∀ (t : Nat → R) (e : Nat) (x : R),
    F (fun j => if j = e then x else t j) =
      (1 - x) * F (fun j => if j = e then 0 else t j) + x * F (fun j => if j = e then 1 else t j)
  loc : ∀ t t' : Nat → R, (∀ e < 6, t e = t' e) → F t = F t'

theorem tetRow_aff (t : Nat → R) (e : Nat) (x : R) {l : Nat} (hl : l = e + 4) (i : Nat) :
    tetRow (fun j => if j = e then x else t j) l i =
      (1 - x) * tetRow (fun j => if j = e then 0 else t j) l i + x * tetRow (fun j => if j = e then 1 else t j) l i := by
  subst hl
  unfold tetRow
  rw [if_neg (by omega), if_neg (by omega), if_neg (by omega)]
  simp only [Nat.add_sub_cancel, if_true]
  ring

theorem tetRow_const (t t' : Nat → R) (e : Nat) {l : Nat} (hl : l ≠ e + 4) (h : ∀ j, j ≠ e → t j = t' j) :
    tetRow t l = tetRow t' l := by
  funext i
  unfold tetRow
  split
  · rfl
  · rw [h (l - 4) (by omega)]

theorem cellDet_multiAff {l : List Nat} (h : CellOK l = true) : MultiAff (R := R) (fun t => cellDet t l) := by
  obtain ⟨a, b, c, d, rfl, ha, hb, hc, hd, hab, hac, had, hbc, hbd, hcd⟩ := cellOK_elim h
  refine ⟨fun t e x => ?_, fun t t' ht => ?_⟩
  · dsimp only [cellDet]
    have hne : ∀ (y z : R) (j : Nat), j ≠ e → (fun j => if j = e then y else t j) j = (fun j => if j = e then z else t j) j := by
      intro y z j hj; simp only [if_neg hj]
    by_cases h1 : a = e + 4
    · rw [tetRow_const _ (fun j => if j = e then x else t j) e (l := b) (by omega) (hne x x),
        tetRow_const (fun j => if j = e then (0 : R) else t j) (fun j => if j = e then x else t j) e (l := b) (by omega) (hne 0 x),
        tetRow_const (fun j => if j = e then (1 : R) else t j) (fun j => if j = e then x else t j) e (l := b) (by omega) (hne 1 x),
        tetRow_const (fun j => if j = e then (0 : R) else t j) (fun j => if j = e then x else t j) e (l := c) (by omega) (hne 0 x),
        tetRow_const (fun j => if j = e then (1 : R) else t j) (fun j => if j = e then x else t j) e (l := c) (by omega) (hne 1 x),
        tetRow_const (fun j => if j = e then (0 : R) else t j) (fun j => if j = e then x else t j) e (l := d) (by omega) (hne 0 x),
        tetRow_const (fun j => if j = e then (1 : R) else t j) (fun j => if j = e then x else t j) e (l := d) (by omega) (hne 1 x)]
      simp only [det4, tetRow_aff t e x h1]
      ring
    · rw [tetRow_const (fun j => if j = e then (0 : R) else t j) (fun j => if j = e then x else t j) e (l := a) h1 (hne 0 x),
        tetRow_const (fun j => if j = e then (1 : R) else t j) (fun j => if j = e then x else t j) e (l := a) h1 (hne 1 x)]
      by_cases h2 : b = e + 4
      · rw [tetRow_const (fun j => if j = e then (0 : R) else t j) (fun j => if j = e then x else t j) e (l := c) (by omega) (hne 0 x),
          tetRow_const (fun j => if j = e then (1 : R) else t j) (fun j => if j = e then x else t j) e (l := c) (by omega) (hne 1 x),
          tetRow_const (fun j => if j = e then (0 : R) else t j) (fun j => if j = e then x else t j) e (l := d) (by omega) (hne 0 x),
          tetRow_const (fun j => if j = e then (1 : R) else t j) (fun j => if j = e then x else t j) e (l := d) (by omega) (hne 1 x)]
        simp only [det4, tetRow_aff t e x h2]
        ring
      · rw [tetRow_const (fun j => if j = e then (0 : R) else t j) (fun j => if j = e then x else t j) e (l := b) h2 (hne 0 x),
          tetRow_const (fun j => if j = e then (1 : R) else t j) (fun j => if j = e then x else t j) e (l := b) h2 (hne 1 x)]
        by_cases h3 : c = e + 4
        · rw [tetRow_const (fun j => if j = e then (0 : R) else t j) (fun j => if j = e then x else t j) e (l := d) (by omega) (hne 0 x),
            tetRow_const (fun j => if j = e then (1 : R) else t j) (fun j => if j = e then x else t j) e (l := d) (by omega) (hne 1 x)]
          simp only [det4, tetRow_aff t e x h3]
          ring
        · rw [tetRow_const (fun j => if j = e then (0 : R) else t j) (fun j => if j = e then x else t j) e (l := c) h3 (hne 0 x),
            tetRow_const (fun j => if j = e then (1 : R) else t j) (fun j => if j = e then x else t j) e (l := c) h3 (hne 1 x)]
          by_cases h4 : d = e + 4
          · simp only [det4, tetRow_aff t e x h4]
            ring
          · rw [tetRow_const (fun j => if j = e then (0 : R) else t j) (fun j => if j = e then x else t j) e (l := d) h4 (hne 0 x),
              tetRow_const (fun j => if j = e then (1 : R) else t j) (fun j => if j = e then x else t j) e (l := d) h4 (hne 1 x)]
            ring
  · dsimp only [cellDet]
    have hr : ∀ l, l < 10 → tetRow t l = tetRow t' l := by
      intro l hl
      funext i
      unfold tetRow
      split
      · rfl
      · rw [ht (l - 4) (by omega)]
    rw [hr a ha, hr b hb, hr c hc, hr d hd]

theorem MultiAff.smul {F : (Nat → R) → R} (h : MultiAff F) (s : R) : MultiAff (fun t => s * F t) := by
  refine ⟨fun t e x => ?_, fun t t' ht => ?_⟩
  · rw [h.aff]; ring
  · rw [h.loc t t' ht]

theorem MultiAff.const (s : R) : MultiAff (fun _ : Nat → R => s) :=
  ⟨fun _ _ _ => by ring, fun _ _ _ => rfl⟩

theorem MultiAff.add {F G : (Nat → R) → R} (hF : MultiAff F) (hG : MultiAff G) : MultiAff (fun t => F t + G t) := by
  refine ⟨fun t e x => ?_, fun t t' ht => ?_⟩
  · rw [hF.aff, hG.aff]; ring
  · rw [hF.loc t t' ht, hG.loc t t' ht]

theorem MultiAff.sum {ι : Type} {F : ι → (Nat → R) → R} : ∀ {l : List ι}, (∀ i ∈ l, MultiAff (F i)) →
    MultiAff (fun t => (l.map (fun i => F i t)).sum)
  | [], _ => by simpa using MultiAff.const 0
  | i :: l, h => by
    simp only [List.map_cons, List.sum_cons]
    exact (h i (by simp)).add (MultiAff.sum (l := l) (fun j hj => h j (by simp [hj])))

/-- A function affine in each variable which is one at all corners is one everywhere. -/
theorem MultiAff.eq_one {F : (Nat → R) → R} (h : MultiAff F) (hc : ∀ c : Nat → Bool, F (cornerPt c) = 1) (t : Nat → R) :
    F t = 1 := by
  have key : ∀ k, ∀ t : Nat → R, (∃ c : Nat → Bool, ∀ e, k ≤ e → e < 6 → t e = cornerPt c e) → F t = 1 := by
    intro k
    induction k with
    | zero => rintro t ⟨c, hct⟩; rw [h.loc t (cornerPt c) (fun e he => hct e (Nat.zero_le _) he)]; exact hc c
    | succ k ih =>
      rintro t ⟨c, hct⟩
      have ht : t = fun j => if j = k then t k else t j := by
        funext j; by_cases hj : j = k
        · rw [if_pos hj, hj]
        · rw [if_neg hj]
      rw [ht, h.aff]
      rw [ih (fun j => if j = k then 0 else t j) ⟨fun j => if j = k then false else c j, fun e he he6 => ?_⟩,
        ih (fun j => if j = k then 1 else t j) ⟨fun j => if j = k then true else c j, fun e he he6 => ?_⟩]
      · ring
      · by_cases hek : e = k
        · simp [hek, cornerPt]
        · simp only [if_neg hek, cornerPt]; exact hct e (by omega) he6
      · by_cases hek : e = k
        · simp [hek, cornerPt]
        · simp only [if_neg hek, cornerPt]; exact hct e (by omega) he6
  exact key 6 t ⟨fun _ => false, fun e he he6 => absurd he (by omega)⟩

end Det

section Pos
variable {K : Type} [Field K] [LinearOrder K] [IsStrictOrderedRing K]

/-- A function affine in each variable which is non-negative at all corners of the cube, and positive
at one of them, is positive inside. -/
theorem MultiAff.pos {F : (Nat → K) → K} (h : MultiAff F) (hc : ∀ c : Nat → Bool, 0 ≤ F (cornerPt c))
    {c0 : Nat → Bool} (h0 : 0 < F (cornerPt c0)) {t : Nat → K} (ht : ∀ e < 6, 0 < t e ∧ t e < 1) : 0 < F t := by
  have key : ∀ k, ∀ t : Nat → K, (∀ e < k, e < 6 → 0 < t e ∧ t e < 1) →
      (∃ c : Nat → Bool, ∀ e, k ≤ e → e < 6 → t e = cornerPt c e) →
      0 ≤ F t ∧ ((∀ e, k ≤ e → e < 6 → t e = cornerPt c0 e) → 0 < F t) := by
    intro k
    induction k with
    | zero =>
      rintro t _ ⟨c, hct⟩
      refine ⟨?_, fun h1 => ?_⟩
      · rw [h.loc t (cornerPt c) (fun e he => hct e (Nat.zero_le _) he)]; exact hc c
      · rw [h.loc t (cornerPt c0) (fun e he => h1 e (Nat.zero_le _) he)]; exact h0
    | succ k ih =>
      rintro t hin ⟨c, hct⟩
      have ht : t = fun j => if j = k then t k else t j := by
        funext j; by_cases hj : j = k
        · rw [if_pos hj, hj]
        · rw [if_neg hj]
      have i0 := ih (fun j => if j = k then 0 else t j)
        (fun e he he6 => by simp only [if_neg (show e ≠ k by omega)]; exact hin e (by omega) he6)
        ⟨fun j => if j = k then false else c j, fun e he he6 => by
          by_cases hek : e = k
          · simp [hek, cornerPt]
          · simp only [if_neg hek, cornerPt]; exact hct e (by omega) he6⟩
      have i1 := ih (fun j => if j = k then 1 else t j)
        (fun e he he6 => by simp only [if_neg (show e ≠ k by omega)]; exact hin e (by omega) he6)
        ⟨fun j => if j = k then true else c j, fun e he he6 => by
          by_cases hek : e = k
          · simp [hek, cornerPt]
          · simp only [if_neg hek, cornerPt]; exact hct e (by omega) he6⟩
      have hF := h.aff t k (t k)
      rw [← ht] at hF
      by_cases hk : k < 6
      · have hx := hin k (by omega) hk
        refine ⟨?_, fun h1 => ?_⟩
        · rw [hF]
          exact add_nonneg (mul_nonneg (by linarith [hx.2]) i0.1) (mul_nonneg hx.1.le i1.1)
        · rw [hF]
          cases hb : c0 k with
          | false =>
            have : 0 < F (fun j => if j = k then 0 else t j) := i0.2 (fun e he he6 => by
              by_cases hek : e = k
              · simp [hek, cornerPt, hb]
              · simp only [if_neg hek]; exact h1 e (by omega) he6)
            exact add_pos_of_pos_of_nonneg (mul_pos (by linarith [hx.2]) this) (mul_nonneg hx.1.le i1.1)
          | true =>
            have : 0 < F (fun j => if j = k then 1 else t j) := i1.2 (fun e he he6 => by
              by_cases hek : e = k
              · simp [hek, cornerPt, hb]
              · simp only [if_neg hek]; exact h1 e (by omega) he6)
            exact add_pos_of_nonneg_of_pos (mul_nonneg (by linarith [hx.2]) i0.1) (mul_pos hx.1 this)
      · have heq : F t = F (fun j => if j = k then 0 else t j) :=
          h.loc _ _ (fun e he => by simp only [if_neg (show e ≠ k by omega)])
        rw [heq]
        exact ⟨i0.1, fun h1 => i0.2 (fun e he he6 => by omega)⟩
  exact (key 6 t (fun e he _ => ht e he) ⟨fun _ => false, fun e he he6 => absurd he (by omega)⟩).2
    (fun e he he6 => absurd he (by omega))

end Pos

end VG
