import Verif.Model.RefineMarks
import Verif.Props.Queries
import Mathlib.Algebra.Order.Ring.Nat
import Mathlib.Order.Defs.LinearOrder
import Mathlib.Tactic.Linarith

/-!
C36: longest edge closure of the marked edges.
-/

namespace VG

section
variable {K : Type} [Zero K] [LinearOrder K]

/-- `e` is the longest edge of the cell, the first one if there are several. -/
def FirstLongest (len : Nat → K) (es : List Nat) (e : Nat) : Prop :=
  ∃ a b, es = a ++ e :: b ∧ (∀ f ∈ a, len f < len e) ∧ ∀ f ∈ b, len f ≤ len e

/-- Each cell with a marked edge has its longest edge marked. -/
def MarksClosed (len : Nat → K) (cells : List (List Nat)) (m : Nat → Bool) : Prop :=
  ∀ es ∈ cells, (∃ e ∈ es, m e = true) → ∀ e, FirstLongest len es e → m e = true

/-- `m'` marks at least the edges that `m` marks. -/
def MarksLe (m m' : Nat → Bool) : Prop := ∀ e, m e = true → m' e = true

omit [Zero K] in
theorem FirstLongest.mem {len : Nat → K} {es : List Nat} {e : Nat} (h : FirstLongest len es e) : e ∈ es := by
  obtain ⟨a, b, rfl, _⟩ := h; simp

omit [Zero K] in
theorem FirstLongest.unique {len : Nat → K} {es : List Nat} {e f : Nat} (he : FirstLongest len es e)
    (hf : FirstLongest len es f) : e = f := by
  obtain ⟨a, b, rfl, h1, h2⟩ := he
  obtain ⟨a', b', h, h3, h4⟩ := hf
  rcases List.append_eq_append_iff.1 h with ⟨c, rfl, hc⟩ | ⟨c, rfl, hc⟩
  · cases c with
    | nil => simp at hc; exact hc.1
    | cons x c =>
      simp only [List.cons_append, List.cons.injEq] at hc
      obtain ⟨rfl, rfl⟩ := hc
      have := h3 e (by simp)
      have := h2 f (by simp)
      exact absurd this (not_le.2 ‹_›)
  · cases c with
    | nil => simp at hc; exact hc.1.symm
    | cons x c =>
      simp only [List.cons_append, List.cons.injEq] at hc
      obtain ⟨rfl, rfl⟩ := hc
      have := h1 f (by simp)
      have := h4 e (by simp)
      exact absurd this (not_le.2 ‹_›)

omit [Zero K] in
theorem longest_go (len : Nat → K) : ∀ (es : List Nat) (b : Option Nat) (x : K),
    ((∀ e ∈ es, len e ≤ x) ∧
      es.foldl (fun (b : Option Nat × K) e => if len e > b.2 then (some e, len e) else b) (b, x) = (b, x)) ∨
    ∃ e, FirstLongest len es e ∧ x < len e ∧
      es.foldl (fun (b : Option Nat × K) e => if len e > b.2 then (some e, len e) else b) (b, x) = (some e, len e)
  | [], b, x => Or.inl ⟨by simp, rfl⟩
  | e :: es, b, x => by
    simp only [List.foldl_cons]
    by_cases h : len e > x
    · simp only [if_pos h]
      rcases longest_go len es (some e) (len e) with ⟨h1, h2⟩ | ⟨f, ⟨a', b', rfl, h3, h4⟩, h1, h2⟩
      · exact Or.inr ⟨e, ⟨[], es, rfl, by simp, h1⟩, h, h2⟩
      · refine Or.inr ⟨f, ⟨e :: a', b', rfl, ?_, h4⟩, lt_trans h h1, h2⟩
        intro g hg
        rcases List.mem_cons.1 hg with rfl | hg
        · exact h1
        · exact h3 g hg
    · simp only [if_neg h]
      rcases longest_go len es b x with ⟨h1, h2⟩ | ⟨f, ⟨a', b', rfl, h3, h4⟩, h1, h2⟩
      · refine Or.inl ⟨?_, h2⟩
        intro g hg
        rcases List.mem_cons.1 hg with rfl | hg
        · exact not_lt.1 h
        · exact h1 g hg
      · refine Or.inr ⟨f, ⟨e :: a', b', rfl, ?_, h4⟩, h1, h2⟩
        intro g hg
        rcases List.mem_cons.1 hg with rfl | hg
        · exact lt_of_le_of_lt (not_lt.1 h) h1
        · exact h3 g hg

theorem longestEdge_spec (len : Nat → K) (es : List Nat) :
    (longestEdge len es = none ∧ ∀ e ∈ es, len e ≤ 0) ∨ ∃ e, longestEdge len es = some e ∧ FirstLongest len es e := by
  unfold longestEdge
  rcases longest_go len es none 0 with ⟨h1, h2⟩ | ⟨e, h1, h2, h3⟩
  · exact Or.inl ⟨by rw [h2], h1⟩
  · exact Or.inr ⟨e, by rw [h3], h1⟩

/-- Number of occurrences of unmarked edges. -/
def unmarked (cells : List (List Nat)) (m : Nat → Bool) : Nat := (cells.flatten.filter (fun e => !m e)).length

theorem filter_len_mono {α : Type} (p q : α → Bool) : ∀ (l : List α), (∀ a ∈ l, p a = true → q a = true) →
    (l.filter p).length ≤ (l.filter q).length ∧
      ((∃ a ∈ l, p a = false ∧ q a = true) → (l.filter p).length < (l.filter q).length)
  | [], _ => by simp
  | a :: l, h => by
    obtain ⟨h1, h2⟩ := filter_len_mono p q l (fun b hb => h b (by simp [hb]))
    have ha := h a (by simp)
    simp only [List.filter_cons, List.exists_mem_cons_iff]
    cases hp : p a <;> cases hq : q a
    · simp [h1]; exact fun b hb hb1 hb2 => h2 ⟨b, hb, hb1, hb2⟩
    · simp; omega
    · simp [hp, hq] at ha
    · simp only [if_true, List.length_cons]
      constructor
      · omega
      · rintro (h3 | h3)
        · simp at h3
        · have := h2 h3; omega

theorem closeCell_spec {len : Nat → K} {s : (Nat → Bool) × Bool} {es : List Nat}
    (hpos : es ≠ [] → ∃ e ∈ es, 0 < len e) :
    ∃ s', closeCell len s es = some s' ∧ MarksLe s.1 s'.1 ∧
      ((s' = s ∧ ((∃ e ∈ es, s.1 e = true) → ∀ e, FirstLongest len es e → s.1 e = true)) ∨
        (s'.2 = true ∧ ∃ e ∈ es, s.1 e = false ∧ s'.1 e = true)) ∧
      ∀ m, MarksLe s.1 m → ((∃ e ∈ es, m e = true) → ∀ e, FirstLongest len es e → m e = true) → MarksLe s'.1 m := by
  unfold closeCell
  by_cases h : es.any s.1 = true
  · rw [if_pos h]
    obtain ⟨x, hx1, hx2⟩ := List.any_eq_true.1 h
    rcases longestEdge_spec len es with ⟨_, h2⟩ | ⟨e, h1, h2⟩
    · obtain ⟨e, he1, he2⟩ := hpos (List.ne_nil_of_mem hx1)
      exact absurd he2 (not_lt.2 (h2 e he1))
    · rw [h1]
      by_cases he : s.1 e = true
      · refine ⟨s, by simp [he], fun _ h => h, Or.inl ⟨rfl, fun _ f hf => ?_⟩, fun m hm _ => hm⟩
        rw [hf.unique h2]; exact he
      · refine ⟨(setMark s.1 e, true), by simp [he], ?_, Or.inr ⟨rfl, e, h2.mem, by simpa using he, by simp [setMark]⟩, ?_⟩
        · intro f hf
          simp only [setMark]; split <;> simp_all
        · intro m hm hc f hf
          simp only [setMark] at hf
          split at hf
          · subst f; exact hc ⟨x, hx1, hm x hx2⟩ e h2
          · exact hm f hf
  · rw [if_neg h]
    refine ⟨s, rfl, fun _ h => h, Or.inl ⟨rfl, ?_⟩, fun m hm _ => hm⟩
    rintro ⟨x, hx1, hx2⟩
    exact absurd (List.any_eq_true.2 ⟨x, hx1, hx2⟩) h

theorem closePass_spec {len : Nat → K} : ∀ {cells : List (List Nat)} {s : (Nat → Bool) × Bool},
    (∀ es ∈ cells, es ≠ [] → ∃ e ∈ es, 0 < len e) →
    ∃ s', closePass len s cells = some s' ∧ MarksLe s.1 s'.1 ∧
      ((s' = s ∧ MarksClosed len cells s.1) ∨
        (s'.2 = true ∧ ∃ e ∈ cells.flatten, s.1 e = false ∧ s'.1 e = true)) ∧
      ∀ m, MarksLe s.1 m → MarksClosed len cells m → MarksLe s'.1 m
  | [], s, _ => ⟨s, rfl, fun _ h => h, Or.inl ⟨rfl, by simp [MarksClosed]⟩, fun m hm _ => hm⟩
  | es :: cells, s, hp => by
    obtain ⟨s1, e1, l1, c1, m1⟩ := closeCell_spec (s := s) (hp es (by simp))
    obtain ⟨s2, e2, l2, c2, m2⟩ := closePass_spec (cells := cells) (s := s1) (fun x hx => hp x (by simp [hx]))
    refine ⟨s2, by simp [closePass, e1, e2], fun e he => l2 e (l1 e he), ?_, ?_⟩
    · rcases c1 with ⟨rfl, c1⟩ | ⟨c1, e, he, he1, he2⟩
      · rcases c2 with ⟨rfl, c2⟩ | ⟨c2, f, hf, hf1, hf2⟩
        · refine Or.inl ⟨rfl, ?_⟩
          intro x hx
          rcases List.mem_cons.1 hx with rfl | hx
          · exact c1
          · exact c2 x hx
        · exact Or.inr ⟨c2, f, by simp only [List.flatten_cons, List.mem_append]; exact Or.inr hf, hf1, hf2⟩
      · refine Or.inr ⟨?_, e, by simp only [List.flatten_cons, List.mem_append]; exact Or.inl he, he1, l2 e he2⟩
        rcases c2 with ⟨rfl, _⟩ | ⟨c2, _⟩
        · exact c1
        · exact c2
    · intro m hm hc
      exact m2 m (m1 m hm (hc es (by simp))) (fun x hx => hc x (by simp [hx]))

/-- C36: if each cell has an edge of positive length, the closure ends after at most as many passes as
there are unmarked edges on cells plus one; the result contains the marks given, is closed, and is
contained in every closed set of marks that contains those given. -/
theorem C36_least_closed_partial (len : Nat → K) (cells : List (List Nat))
    (hp : ∀ es ∈ cells, es ≠ [] → ∃ e ∈ es, 0 < len e) : ∀ (fuel : Nat) (m : Nat → Bool), unmarked cells m < fuel →
    ∃ m', closeMarks len cells fuel m = .done m' ∧ MarksLe m m' ∧ MarksClosed len cells m' ∧
      ∀ m'', MarksLe m m'' → MarksClosed len cells m'' → MarksLe m' m''
  | 0, m, h => absurd h (by omega)
  | fuel + 1, m, h => by
    obtain ⟨s', e1, l1, c1, m1⟩ := closePass_spec (s := (m, false)) hp
    rcases c1 with ⟨rfl, c1⟩ | ⟨c1, e, he, he1, he2⟩
    · exact ⟨m, by simp [closeMarks, e1], l1, c1, m1⟩
    · obtain ⟨m1', b⟩ := s'
      simp only at c1 he2 l1 m1 he1
      subst c1
      have hlt : unmarked cells m1' < unmarked cells m := by
        unfold unmarked
        refine (filter_len_mono _ _ _ (fun a _ ha => ?_)).2 ⟨e, he, by simp [he2], by simp [he1]⟩
        simp only [Bool.not_eq_eq_eq_not, Bool.not_true] at ha ⊢
        cases hm : m a
        · rfl
        · exact absurd (l1 a hm) (by simp [ha])
      obtain ⟨m', h1, h2, h3, h4⟩ := C36_least_closed_partial len cells hp fuel m1' (by omega)
      refine ⟨m', by simp [closeMarks, e1, h1], fun e he => h2 e (l1 e he), h3, ?_⟩
      intro m'' hm hc
      exact h4 m'' (m1 m'' hm hc) hc

/-- C36, violated: a cell with a marked edge whose edges all have length zero (a cell with coinciding
vertices) makes the code dereference a null pointer, whatever the other cells are. -/
theorem C36_violated (len : Nat → K) (m : Nat → Bool) (es : List Nat) (cells : List (List Nat)) (fuel : Nat)
    (hm : ∃ e ∈ es, m e = true) (h0 : ∀ e ∈ es, len e = 0) :
    closeMarks len (es :: cells) (fuel + 1) m = .null := by
  obtain ⟨x, hx1, hx2⟩ := hm
  have h : longestEdge len es = none := by
    unfold longestEdge
    rcases longest_go len es none 0 with ⟨_, h2⟩ | ⟨e, h1, h2, _⟩
    · rw [h2]
    · rw [h0 e h1.mem] at h2; exact absurd h2 (lt_irrefl _)
  have : es.any m = true := List.any_eq_true.2 ⟨x, hx1, hx2⟩
  simp [closeMarks, closePass, closeCell, this, h]

end

/-- C36: the closure of the marks of a mesh: the edges of the cells are those of the model of meshes. -/
theorem C36_mesh_partial {P K : Type} [Zero K] [LinearOrder K] (n : Nat) (mesh : Mesh P) (len : Nat → K) (m : Nat → Bool)
    (hp : ∀ t < mesh.count n, ∃ e ∈ mesh.bndOf n t 1, 0 < len e) :
    ∃ N, ∀ fuel ≥ N, ∃ m',
      closeMarks len ((List.range (mesh.count n)).map (fun t => mesh.bndOf n t 1)) fuel m = .done m' ∧ MarksLe m m' ∧
      (∀ t < mesh.count n, (∃ e ∈ mesh.bndOf n t 1, m' e = true) → ∀ e, FirstLongest len (mesh.bndOf n t 1) e → m' e = true) ∧
      ∀ m'', MarksLe m m'' →
        (∀ t < mesh.count n, (∃ e ∈ mesh.bndOf n t 1, m'' e = true) → ∀ e, FirstLongest len (mesh.bndOf n t 1) e → m'' e = true) →
        MarksLe m' m'' := by
  refine ⟨unmarked ((List.range (mesh.count n)).map (fun t => mesh.bndOf n t 1)) m + 1, fun fuel hf => ?_⟩
  obtain ⟨m', h1, h2, h3, h4⟩ := C36_least_closed_partial len ((List.range (mesh.count n)).map (fun t => mesh.bndOf n t 1)) (by
    intro es hes _
    obtain ⟨t, ht, rfl⟩ := List.mem_map.1 hes
    exact hp t (List.mem_range.1 ht)) fuel m (by omega)
  refine ⟨m', h1, h2, fun t ht => h3 _ (List.mem_map.2 ⟨t, List.mem_range.2 ht, rfl⟩), fun m'' hm hc => h4 m'' hm ?_⟩
  intro es hes
  obtain ⟨t, ht, rfl⟩ := List.mem_map.1 hes
  exact hc t (List.mem_range.1 ht)

/-- Marks of cells passed on: an edge is marked afterwards if it was before or lies on a marked cell. -/
theorem C36_cell_marks (cells : List (Bool × List Nat)) : ∀ (m : Nat → Bool) (e : Nat),
    cellMarks cells m e = true ↔ m e = true ∨ ∃ c ∈ cells, c.1 = true ∧ e ∈ c.2 := by
  have hs : ∀ (l : List Nat) (m : Nat → Bool) (e : Nat), l.foldl setMark m e = true ↔ m e = true ∨ e ∈ l := by
    intro l
    induction l with
    | nil => simp
    | cons a l ih =>
      intro m e
      rw [List.foldl_cons, ih]
      unfold setMark
      by_cases h : e = a <;> simp [h]
  unfold cellMarks
  induction cells with
  | nil => simp
  | cons c cells ih =>
    intro m e
    rw [List.foldl_cons, ih]
    by_cases hc : c.1 = true
    · simp only [hc, if_true, hs, List.exists_mem_cons_iff, true_and]; tauto
    · simp [hc]

/-- Three triangles in a row; marking one outer edge marks a chain of longer and longer edges. -/
def rowLen : Nat → Nat := fun e => [1, 2, 3, 1, 4, 1, 5].getD e 0

def rowCells : List (List Nat) := [[0, 1, 2], [2, 3, 4], [4, 5, 6]]

example : (∀ es ∈ rowCells, es ≠ [] → ∃ e ∈ es, 0 < rowLen e) ∧ unmarked rowCells (fun e => e == 0) = 8 := by
  decide

example : ∃ m', closeMarks rowLen rowCells 9 (fun e => e == 0) = .done m' ∧
    (List.range 7).filter m' = [0, 2, 4, 6] := ⟨_, rfl, by decide⟩

example : closeMarks rowLen [[7, 8, 9]] 1 (fun e => e == 8) = .null := rfl

end VG
