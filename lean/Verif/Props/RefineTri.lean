import Verif.Model.RefineTri
import Mathlib.Algebra.Order.Field.Basic
import Mathlib.Algebra.Order.Ring.Rat
import Mathlib.Tactic.Ring
import Mathlib.Tactic.Linarith
import Mathlib.Tactic.IntervalCases

/-!
C32: refinement of a triangle.

Specification.  Labels 0, 1, 2 are the vertices, 3, 4, 5 the new vertices on the edges 01, 02, 12, at
positions given by parameters strictly between 0 and 1.  Points have any number of coordinates.
-/

namespace VG

variable {K : Type} [Field K] [LinearOrder K] [IsStrictOrderedRing K]

/-- The position of a label; coordinates are numbered. -/
def triPoint (p : Nat → Nat → K) (t : Nat → K) (l k : Nat) : K :=
  match l with
  | 0 => p 0 k
  | 1 => p 1 k
  | 2 => p 2 k
  | 3 => (1 - t 0) * p 0 k + t 0 * p 1 k
  | 4 => (1 - t 1) * p 0 k + t 1 * p 2 k
  | 5 => (1 - t 2) * p 1 k + t 2 * p 2 k
  | _ => 0

/-- Twice the signed area of the projection of a triangle to the coordinates `k` and `l`. -/
def area2 (a b c : Nat → K) (k l : Nat) : K := (b k - a k) * (c l - a l) - (b l - a l) * (c k - a k)

/-- Twice the signed area of a child. -/
def childArea2 (p : Nat → Nat → K) (t : Nat → K) (k l : Nat) : List Nat → K
  | [a, b, c] => area2 (triPoint p t a) (triPoint p t b) (triPoint p t c) k l
  | _ => 0

/-- The area of a child as a multiple of that of the triangle: determinant of the barycentric
coordinates. -/
def triBary (t : Nat → K) : Nat → K × K × K
  | 0 => (1, 0, 0)
  | 1 => (0, 1, 0)
  | 2 => (0, 0, 1)
  | 3 => (1 - t 0, t 0, 0)
  | 4 => (1 - t 1, 0, t 1)
  | 5 => (0, 1 - t 2, t 2)
  | _ => (0, 0, 0)

def triShare (t : Nat → K) : List Nat → K
  | [a, b, c] =>
    (triBary t a).1 * ((triBary t b).2.1 * (triBary t c).2.2 - (triBary t b).2.2 * (triBary t c).2.1)
    - (triBary t a).2.1 * ((triBary t b).1 * (triBary t c).2.2 - (triBary t b).2.2 * (triBary t c).1)
    + (triBary t a).2.2 * ((triBary t b).1 * (triBary t c).2.1 - (triBary t b).2.1 * (triBary t c).1)
  | _ => 0

omit [LinearOrder K] [IsStrictOrderedRing K] in
theorem triPoint_bary (p : Nat → Nat → K) (t : Nat → K) {x : Nat} (hx : x < 6) (k : Nat) :
    triPoint p t x k = (triBary t x).1 * p 0 k + (triBary t x).2.1 * p 1 k + (triBary t x).2.2 * p 2 k ∧
    (triBary t x).1 = 1 - (triBary t x).2.1 - (triBary t x).2.2 := by
  interval_cases x <;> simp [triPoint, triBary]

omit [LinearOrder K] [IsStrictOrderedRing K] in
theorem childArea2_eq (p : Nat → Nat → K) (t : Nat → K) (k l : Nat) {a b c : Nat} (ha : a < 6) (hb : b < 6) (hc : c < 6) :
    childArea2 p t k l [a, b, c] = triShare t [a, b, c] * area2 (p 0) (p 1) (p 2) k l := by
  simp only [childArea2, triShare, area2]
  rw [(triPoint_bary p t ha k).1, (triPoint_bary p t hb k).1, (triPoint_bary p t hc k).1,
    (triPoint_bary p t ha l).1, (triPoint_bary p t hb l).1, (triPoint_bary p t hc l).1,
    (triPoint_bary p t ha k).2, (triPoint_bary p t hb k).2, (triPoint_bary p t hc k).2]
  ring

/-- The possible results. -/
inductive TriCase (m : Nat → Bool) : List (List Nat) → Prop
  | c0 (h : [m 0, m 1, m 2] = [false, false, false]) : TriCase m [[0, 1, 2]]
  | c1a (h : [m 0, m 1, m 2] = [true, false, false]) : TriCase m [[0, 3, 2], [3, 1, 2]]
  | c1b (h : [m 0, m 1, m 2] = [false, true, false]) : TriCase m [[2, 4, 1], [4, 0, 1]]
  | c1c (h : [m 0, m 1, m 2] = [false, false, true]) : TriCase m [[1, 5, 0], [5, 2, 0]]
  | c2a (h : [m 0, m 1, m 2] = [true, true, false]) : TriCase m [[4, 0, 3], [2, 4, 1], [1, 4, 3]]
  | c2a' (h : [m 0, m 1, m 2] = [true, true, false]) : TriCase m [[4, 0, 3], [2, 4, 3], [2, 3, 1]]
  | c2b (h : [m 0, m 1, m 2] = [true, false, true]) : TriCase m [[3, 1, 5], [0, 3, 2], [2, 3, 5]]
  | c2b' (h : [m 0, m 1, m 2] = [true, false, true]) : TriCase m [[3, 1, 5], [0, 3, 5], [0, 5, 2]]
  | c2c (h : [m 0, m 1, m 2] = [false, true, true]) : TriCase m [[5, 2, 4], [1, 5, 0], [0, 5, 4]]
  | c2c' (h : [m 0, m 1, m 2] = [false, true, true]) : TriCase m [[5, 2, 4], [1, 5, 4], [1, 4, 0]]
  | c3 (h : [m 0, m 1, m 2] = [true, true, true]) : TriCase m [[0, 3, 4], [3, 1, 5], [4, 5, 2], [4, 3, 5]]

omit [Field K] [IsStrictOrderedRing K] in
theorem refineTri_case (len : Nat → Nat → K) (m : Nat → Bool) : ∃ cells, refineTri len m = some cells ∧ TriCase m cells := by
  unfold refineTri
  cases h0 : m 0 <;> cases h1 : m 1 <;> cases h2 : m 2
  · exact ⟨_, rfl, .c0 (by rw [h0, h1, h2])⟩
  · exact ⟨tri1cells 5 1, by simp [tri1, *], .c1c (by rw [h0, h1, h2])⟩
  · exact ⟨tri1cells 4 2, by simp [tri1, *], .c1b (by rw [h0, h1, h2])⟩
  · refine ⟨tri2cells len 5 4 1, by simp [tri2, *], ?_⟩
    unfold tri2cells
    dsimp only
    split
    · exact .c2c (by rw [h0, h1, h2])
    · exact .c2c' (by rw [h0, h1, h2])
  · exact ⟨tri1cells 3 0, by simp [tri1, *], .c1a (by rw [h0, h1, h2])⟩
  · refine ⟨tri2cells len 3 5 0, by simp [tri2, *], ?_⟩
    unfold tri2cells
    dsimp only
    split
    · exact .c2b (by rw [h0, h1, h2])
    · exact .c2b' (by rw [h0, h1, h2])
  · refine ⟨tri2cells len 4 3 2, by simp [tri2, *], ?_⟩
    unfold tri2cells
    dsimp only
    split
    · exact .c2a (by rw [h0, h1, h2])
    · exact .c2a' (by rw [h0, h1, h2])
  · exact ⟨_, rfl, .c3 (by rw [h0, h1, h2])⟩

/-- C32: whatever the marks and lengths, the area of each child is a positive multiple of the area of
the triangle (in all coordinate planes), and the multiples add up to one. -/
theorem C32_area (len : Nat → Nat → K) (m : Nat → Bool) (t : Nat → K) (ht : ∀ e < 3, 0 < t e ∧ t e < 1) :
    ∃ cells, refineTri len m = some cells ∧ ∃ share : List Nat → K,
      (∀ c ∈ cells, 0 < share c) ∧ (cells.map share).sum = 1 ∧
      ∀ (p : Nat → Nat → K), ∀ c ∈ cells, ∀ k l, childArea2 p t k l c = share c * area2 (p 0) (p 1) (p 2) k l := by
  obtain ⟨cells, h, hc⟩ := refineTri_case len m
  have t0 := ht 0 (by omega)
  have t1 := ht 1 (by omega)
  have t2 := ht 2 (by omega)
  have s0 : 0 < 1 - t 0 := by linarith
  have s1 : 0 < 1 - t 1 := by linarith
  have s2 : 0 < 1 - t 2 := by linarith
  refine ⟨cells, h, triShare t, ?_, ?_, ?_⟩
  · have a0 := mul_pos t0.1 t1.1
    have a1 := mul_pos t0.1 t2.1
    have a2 := mul_pos t1.1 t2.1
    have b0 := mul_pos t0.1 s1
    have b1 := mul_pos t0.1 s2
    have b2 := mul_pos t1.1 s2
    have c0 := mul_pos s0 t1.1
    have c1 := mul_pos s0 t2.1
    have c2 := mul_pos s1 t2.1
    have d0 := mul_pos s0 s1
    have d1 := mul_pos s0 s2
    have d2 := mul_pos s1 s2
    cases hc <;> simp only [List.mem_cons, List.not_mem_nil, or_false, forall_eq_or_imp, forall_eq, triShare, triBary] <;>
      (try and_intros) <;> first
        | linarith
        | nlinarith
  · cases hc <;> simp only [List.map_cons, List.map_nil, List.sum_cons, List.sum_nil, triShare, triBary] <;> ring
  · intro p c hcm k l
    have hlt : ∃ a b d, c = [a, b, d] ∧ a < 6 ∧ b < 6 ∧ d < 6 := by
      cases hc <;> simp only [List.mem_cons, List.not_mem_nil, or_false] at hcm
      case c0 => exact ⟨_, _, _, hcm, by omega, by omega, by omega⟩
      case c3 => rcases hcm with e | e | e | e <;> exact ⟨_, _, _, e, by omega, by omega, by omega⟩
      case c1a | c1b | c1c => rcases hcm with e | e <;> exact ⟨_, _, _, e, by omega, by omega, by omega⟩
      all_goals (rcases hcm with e | e | e <;> exact ⟨_, _, _, e, by omega, by omega, by omega⟩)
    obtain ⟨a, b, d, rfl, ha, hb, hd⟩ := hlt
    exact childArea2_eq p t k l ha hb hd

/-- The number of children with the vertices `x` and `y`. -/
def sharing (cells : List (List Nat)) (x y : Nat) : Nat := (cells.filter (fun c => decide (x ∈ c ∧ y ∈ c))).length

omit [Field K] [IsStrictOrderedRing K] in
/-- C32: a marked edge of the triangle is split into two edges, each of one child; an edge which is not
marked is kept, as edge of one child.  All other edges of children belong to two children, so that the
children fit together. -/
theorem C32_edges (len : Nat → Nat → K) (m : Nat → Bool) :
    ∃ cells, refineTri len m = some cells ∧
      (∀ q ∈ [(0, 1, 0), (0, 2, 1), (1, 2, 2)],
        (m q.2.2 = true → sharing cells q.1 (3 + q.2.2) = 1 ∧ sharing cells q.2.1 (3 + q.2.2) = 1 ∧ sharing cells q.1 q.2.1 = 0) ∧
        (m q.2.2 = false → sharing cells q.1 q.2.1 = 1 ∧ ∀ c ∈ cells, 3 + q.2.2 ∉ c)) ∧
      (∀ c ∈ cells, c.Nodup ∧ c.length = 3 ∧ ∀ l ∈ c, l < 6) ∧
      ∀ x < 6, ∀ y < 6, x ≠ y → ¬ (x ∈ [0, 1, 3] ∧ y ∈ [0, 1, 3]) → ¬ (x ∈ [0, 2, 4] ∧ y ∈ [0, 2, 4]) →
        ¬ (x ∈ [1, 2, 5] ∧ y ∈ [1, 2, 5]) → sharing cells x y = 0 ∨ sharing cells x y = 2 := by
  obtain ⟨cells, h, hc⟩ := refineTri_case len m
  refine ⟨cells, h, ?_, ?_, ?_⟩
  · cases hc <;> (rename_i hm; simp only [List.cons.injEq, and_true] at hm; obtain ⟨h0, h1, h2⟩ := hm) <;>
      simp only [List.mem_cons, List.not_mem_nil, or_false, forall_eq_or_imp, forall_eq, h0, h1, h2] <;>
      and_intros <;> decide
  · cases hc <;> decide
  · intro x hx y hy
    cases hc <;> interval_cases x <;> interval_cases y <;> decide

set_option linter.unusedSimpArgs false in
omit [Field K] [IsStrictOrderedRing K] in
/-- C32: if two edges are marked and one is longer than the other, the quadrilateral at the third edge is cut
from the middle of the longer one to the vertex opposite to it.  The edges are given by their vertices, the
opposite vertex and the number. -/
theorem C32_longer_edge (len : Nat → Nat → K) (hsym : ∀ a b, len a b = len b a) (m : Nat → Bool) {a b o e a' b' o' e' : Nat}
    (hq : (a, b, o, e) ∈ [(0, 1, 2, 0), (0, 2, 1, 1), (1, 2, 0, 2)])
    (hr : (a', b', o', e') ∈ [(0, 1, 2, 0), (0, 2, 1, 1), (1, 2, 0, 2)])
    (hm : m e = true ∧ m e' = true ∧ ∀ f < 3, f ≠ e → f ≠ e' → m f = false) (hl : len a' b' < len a b) :
    ∃ cells, refineTri len m = some cells ∧ sharing cells (3 + e) o = 2 ∧ sharing cells (3 + e') o' = 0 := by
  simp only [List.mem_cons, List.not_mem_nil, or_false, Prod.mk.injEq] at hq hr
  have s10 := hsym 1 0
  have s20 := hsym 2 0
  have s21 := hsym 2 1
  rcases hq with ⟨rfl, rfl, rfl, rfl⟩ | ⟨rfl, rfl, rfl, rfl⟩ | ⟨rfl, rfl, rfl, rfl⟩ <;>
    rcases hr with ⟨rfl, rfl, rfl, rfl⟩ | ⟨rfl, rfl, rfl, rfl⟩ | ⟨rfl, rfl, rfl, rfl⟩
  · exact absurd hl (lt_irrefl _)
  · have h2 := hm.2.2 2 (by decide) (by decide) (by decide)
    refine ⟨_, by simp only [refineTri, tri2, tri2cells, hm.1, hm.2.1, h2]; rfl, ?_⟩
    simp [s10, s20, s21, not_lt_of_gt hl, hl]; decide
  · have h2 := hm.2.2 1 (by decide) (by decide) (by decide)
    refine ⟨_, by simp only [refineTri, tri2, tri2cells, hm.1, hm.2.1, h2]; rfl, ?_⟩
    simp [s10, s20, s21, not_lt_of_gt hl, hl]; decide
  · have h2 := hm.2.2 2 (by decide) (by decide) (by decide)
    refine ⟨_, by simp only [refineTri, tri2, tri2cells, hm.1, hm.2.1, h2]; rfl, ?_⟩
    simp [s10, s20, s21, not_lt_of_gt hl, hl]; decide
  · exact absurd hl (lt_irrefl _)
  · have h2 := hm.2.2 0 (by decide) (by decide) (by decide)
    refine ⟨_, by simp only [refineTri, tri2, tri2cells, hm.1, hm.2.1, h2]; rfl, ?_⟩
    simp [s10, s20, s21, not_lt_of_gt hl, hl]; decide
  · have h2 := hm.2.2 1 (by decide) (by decide) (by decide)
    refine ⟨_, by simp only [refineTri, tri2, tri2cells, hm.1, hm.2.1, h2]; rfl, ?_⟩
    simp [s10, s20, s21, not_lt_of_gt hl, hl]; decide
  · have h2 := hm.2.2 0 (by decide) (by decide) (by decide)
    refine ⟨_, by simp only [refineTri, tri2, tri2cells, hm.1, hm.2.1, h2]; rfl, ?_⟩
    simp [s10, s20, s21, not_lt_of_gt hl, hl]; decide
  · exact absurd hl (lt_irrefl _)

/-- Edges 01 and 12 marked, the second is longer: cut from its middle to vertex 0. -/
example : ∃ cells, refineTri (fun a b => if a + b = 1 then (3 : Rat) else if a + b = 2 then 5 else 4)
      (fun e => [true, false, true].getD e false) = some cells ∧ sharing cells 5 0 = 2 ∧ sharing cells 3 2 = 0 :=
  C32_longer_edge (a := 1) (b := 2) (o := 0) (e := 2) (a' := 0) (b' := 1) (o' := 2) (e' := 0) _
    (fun a b => by simp only [Nat.add_comm]) _ (by simp) (by simp)
    ⟨rfl, rfl, fun f h1 h2 h3 => by interval_cases f <;> simp_all⟩ (by decide +kernel)

/-- A triangle with edges of lengths 3, 5, 4 with midpoints: two marked edges. -/
example : refineTri (fun a b => if a + b = 1 then (3 : Rat) else if a + b = 2 then 5 else 4)
      (fun e => [true, false, true].getD e false) = some [[3, 1, 5], [0, 3, 5], [0, 5, 2]] ∧
    (∀ e < 3, (0 : Rat) < (fun _ => 1 / 2 : Nat → Rat) e ∧ (fun _ => 1 / 2 : Nat → Rat) e < 1) ∧
    area2 (fun _ => 0) (fun k => if k = 0 then 3 else 0) (fun k => if k = 0 then 3 else 4) 0 1 = (12 : Rat) := by
  decide +kernel

end VG
