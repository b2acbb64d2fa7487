import Verif.Model.Orthogonalize
import Verif.Lemmas.Geometry
import Mathlib.LinearAlgebra.Span.Basic
import Mathlib.Tactic.FieldSimp
import Mathlib.Algebra.Module.Pi

/-!
C42: orthogonalization.
-/

namespace VG

variable {K : Type} [Field K] [LinearOrder K] [IsStrictOrderedRing K] {d : Nat}

/-- The span of the vectors of a list. -/
def spanOf (l : List (Fin d → K)) : Submodule K (Fin d → K) := Submodule.span K {v | v ∈ l}

/-- Pairwise orthogonal: the sum of the products of the coordinates is zero. -/
def PairwiseOrthogonal (l : List (Fin d → K)) : Prop := l.Pairwise fun a b => ∑ i, a i * b i = 0

omit [LinearOrder K] [IsStrictOrderedRing K] in
theorem spanOf_le {l : List (Fin d → K)} {S : Submodule K (Fin d → K)} (h : ∀ v ∈ l, v ∈ S) : spanOf l ≤ S :=
  Submodule.span_le.2 h

omit [LinearOrder K] [IsStrictOrderedRing K] in
theorem mem_spanOf {l : List (Fin d → K)} {v : Fin d → K} (h : v ∈ l) : v ∈ spanOf l := Submodule.subset_span h

omit [LinearOrder K] [IsStrictOrderedRing K] in
theorem spanOf_congr {l l' : List (Fin d → K)} (h : ∀ v ∈ l, v ∈ spanOf l') (h' : ∀ v ∈ l', v ∈ spanOf l) :
    spanOf l = spanOf l' := le_antisymm (spanOf_le h) (spanOf_le h')

omit [IsStrictOrderedRing K] in
theorem orthoVector_diff (es : List (Fin d → K)) :
    ∀ (v w : Fin d → K), orthoVector es v = some w → ∃ c ∈ spanOf es, v = w + c := by
  induction es with
  | nil => intro v w h; simp [orthoVector] at h; exact ⟨0, Submodule.zero_mem _, by simp [h]⟩
  | cons e es ih =>
    intro v w h
    rw [orthoVector] at h
    split at h
    · simp at h
    · obtain ⟨c, hc, hv⟩ := ih _ _ h
      refine ⟨c + (innerProd v e / innerProd e e) • e, ?_, ?_⟩
      · refine Submodule.add_mem _ ?_ (Submodule.smul_mem _ _ (mem_spanOf (by simp)))
        exact (spanOf_le fun u hu => mem_spanOf (List.mem_cons_of_mem _ hu)) hc
      · rw [← add_assoc, ← hv]; simp

omit [IsStrictOrderedRing K] in
theorem orthoVector_some (es : List (Fin d → K)) (hne : ∀ e ∈ es, innerProd e e ≠ 0) :
    ∀ v : Fin d → K, ∃ w, orthoVector es v = some w := by
  induction es with
  | nil => intro v; exact ⟨v, rfl⟩
  | cons e es ih =>
    intro v
    rw [orthoVector, if_neg (hne e (by simp))]
    exact ih (fun e' he' => hne e' (List.mem_cons_of_mem _ he')) _

omit [IsStrictOrderedRing K] in
/-- What is orthogonal to all vectors subtracted stays orthogonal. -/
theorem orthoVector_keep (es : List (Fin d → K)) (u : Fin d → K) (hu : ∀ e ∈ es, innerProd e u = 0) :
    ∀ v w : Fin d → K, orthoVector es v = some w → innerProd v u = 0 → innerProd w u = 0 := by
  induction es with
  | nil => intro v w h hv; simp [orthoVector] at h; rw [← h]; exact hv
  | cons e es ih =>
    intro v w h hv
    rw [orthoVector] at h
    split at h
    · simp at h
    · refine ih (fun e' he' => hu e' (List.mem_cons_of_mem _ he')) _ _ h ?_
      rw [innerProd_sub_left, innerProd_smul_left, hu e (by simp), hv]; ring

omit [IsStrictOrderedRing K] in
theorem orthoVector_orth (es : List (Fin d → K)) (ho : es.Pairwise fun a b => innerProd a b = 0) :
    ∀ v w : Fin d → K, orthoVector es v = some w → ∀ e ∈ es, innerProd e w = 0 := by
  induction es with
  | nil => intro v w _ e he; simp at he
  | cons a es ih =>
    intro v w h e he
    rw [List.pairwise_cons] at ho
    rw [orthoVector] at h
    split at h
    · simp at h
    · rename_i hne
      rcases List.mem_cons.1 he with rfl | he
      · rw [innerProd_comm]
        refine orthoVector_keep es e (fun b hb => by rw [innerProd_comm]; exact ho.1 b hb) _ _ h ?_
        rw [innerProd_sub_left, innerProd_smul_left]
        field_simp
        ring
      · exact ih ho.2 _ _ h e he

theorem orthoLoop_spec (eps : K) (heps : 0 < eps) (done todo dropped : List (Fin d → K)) :
    done.Pairwise (fun a b => innerProd a b = 0) → (∀ v ∈ done, eps ≤ norm1 v) → (∀ v ∈ dropped, norm1 v < eps) →
    ∃ fin small, orthoLoop eps done todo dropped = some (fin ++ small, fin.length)
      ∧ fin.Pairwise (fun a b => innerProd a b = 0) ∧ (∀ v ∈ fin, eps ≤ norm1 v) ∧ (∀ v ∈ small, norm1 v < eps)
      ∧ fin.length + small.length = done.length + todo.length + dropped.length
      ∧ spanOf (fin ++ small) = spanOf (done ++ (todo ++ dropped)) := by
  induction done, todo, dropped using orthoLoop.induct eps with
  | case1 done dropped =>
    intro h1 h2 h3
    exact ⟨done, dropped, by rw [orthoLoop], h1, h2, h3, by simp, by simp⟩
  | case2 done dropped v rest hnone =>
    intro h1 h2 h3
    exfalso
    obtain ⟨w, hw⟩ := orthoVector_some done (fun e he h0 => by
      have hz : e = 0 := (innerProd_self_eq_zero e).1 h0
      have := h2 e he
      rw [hz, norm1_eq] at this
      simp at this
      exact absurd heps (not_lt.2 this)) v
    rw [hw] at hnone; simp at hnone
  | case3 done dropped v w hw hlt ih =>
    intro h1 h2 h3
    obtain ⟨fin, small, h4, h5, h6, h7, h8, h9⟩ := ih h1 h2 (by
      intro u hu; rcases List.mem_cons.1 hu with rfl | hu
      · exact hlt
      · exact h3 u hu)
    refine ⟨fin, small, ?_, h5, h6, h7, ?_, ?_⟩
    · rw [orthoLoop, hw]; simp only [if_pos hlt]
      rw [dif_pos trivial]
      exact h4
    · rw [h8]; simp; omega
    · rw [h9]
      obtain ⟨c, hc, hv⟩ := orthoVector_diff done v w hw
      refine spanOf_congr ?_ ?_
      · intro u hu
        simp only [List.nil_append, List.mem_append, List.mem_cons] at hu
        rcases hu with hu | rfl | hu
        · exact mem_spanOf (by simp [hu])
        · have : u = v - c := by rw [hv]; simp
          rw [this]
          refine Submodule.sub_mem _ (mem_spanOf (by simp)) ?_
          exact (spanOf_le fun x hx => mem_spanOf (by simp [hx])) hc
        · exact mem_spanOf (by simp [hu])
      · intro u hu
        simp only [List.cons_append, List.nil_append, List.mem_append, List.mem_cons] at hu
        rcases hu with hu | rfl | hu
        · exact mem_spanOf (by simp [hu])
        · rw [hv]
          refine Submodule.add_mem _ (mem_spanOf (by simp)) ?_
          exact (spanOf_le fun x hx => mem_spanOf (by simp [hx])) hc
        · exact mem_spanOf (by simp [hu])
  | case4 done dropped v rest w hw hlt hne ih =>
    intro h1 h2 h3
    have hrest : rest.dropLast ++ [rest.getLast hne] = rest := List.dropLast_append_getLast hne
    have hlen : rest.length = rest.dropLast.length + 1 := by
      have := congrArg List.length hrest
      simpa using this.symm
    obtain ⟨fin, small, h4, h5, h6, h7, h8, h9⟩ := ih h1 h2 (by
      intro u hu; rcases List.mem_cons.1 hu with rfl | hu
      · exact hlt
      · exact h3 u hu)
    refine ⟨fin, small, ?_, h5, h6, h7, ?_, ?_⟩
    · rw [orthoLoop, hw]; simp only [if_pos hlt]
      rw [dif_neg hne]
      exact h4
    · rw [h8]; simp only [List.length_cons]; omega
    · rw [h9]
      obtain ⟨c, hc, hv⟩ := orthoVector_diff done v w hw
      have hmem : ∀ x, x ∈ rest ↔ x = rest.getLast hne ∨ x ∈ rest.dropLast := by
        intro x
        conv_lhs => rw [← hrest]
        simp [or_comm]
      refine spanOf_congr ?_ ?_
      · intro u hu
        simp only [List.cons_append, List.mem_append, List.mem_cons] at hu
        rcases hu with hu | rfl | hu | rfl | hu
        · exact mem_spanOf (by simp [hu])
        · exact mem_spanOf (by simp [hmem])
        · exact mem_spanOf (by simp [hmem, hu])
        · have : u = v - c := by rw [hv]; simp
          rw [this]
          refine Submodule.sub_mem _ (mem_spanOf (by simp)) ?_
          exact (spanOf_le fun x hx => mem_spanOf (by simp [hx])) hc
        · exact mem_spanOf (by simp [hu])
      · intro u hu
        simp only [List.cons_append, List.mem_append, List.mem_cons, hmem] at hu
        rcases hu with hu | rfl | (rfl | hu) | hu
        · exact mem_spanOf (by simp [hu])
        · rw [hv]
          refine Submodule.add_mem _ (mem_spanOf (by simp)) ?_
          exact (spanOf_le fun x hx => mem_spanOf (by simp [hx])) hc
        · exact mem_spanOf (by simp)
        · exact mem_spanOf (by simp [hu])
        · exact mem_spanOf (by simp [hu])
  | case5 done dropped v rest w hw hge ih =>
    intro h1 h2 h3
    have ho := orthoVector_orth done h1 v w hw
    obtain ⟨fin, small, h4, h5, h6, h7, h8, h9⟩ := ih (by
      rw [List.pairwise_append]
      exact ⟨h1, List.pairwise_singleton _ _, fun a ha b hb => by
        rw [List.mem_singleton.1 hb]; exact ho a ha⟩) (by
      intro u hu; rcases List.mem_append.1 hu with hu | hu
      · exact h2 u hu
      · rw [List.mem_singleton.1 hu]; exact not_lt.1 hge) h3
    refine ⟨fin, small, ?_, h5, h6, h7, ?_, ?_⟩
    · rw [orthoLoop, hw]; simp only [if_neg hge]; exact h4
    · rw [h8]; simp; omega
    · rw [h9]
      obtain ⟨c, hc, hv⟩ := orthoVector_diff done v w hw
      refine spanOf_congr ?_ ?_
      · intro u hu
        simp only [List.append_assoc, List.cons_append, List.nil_append, List.mem_append, List.mem_cons] at hu
        rcases hu with hu | rfl | hu | hu
        · exact mem_spanOf (by simp [hu])
        · have : u = v - c := by rw [hv]; simp
          rw [this]
          refine Submodule.sub_mem _ (mem_spanOf (by simp)) ?_
          exact (spanOf_le fun x hx => mem_spanOf (by simp [hx])) hc
        · exact mem_spanOf (by simp [hu])
        · exact mem_spanOf (by simp [hu])
      · intro u hu
        simp only [List.cons_append, List.mem_append, List.mem_cons] at hu
        rcases hu with hu | rfl | hu | hu
        · exact mem_spanOf (by simp [hu])
        · rw [hv]
          refine Submodule.add_mem _ (mem_spanOf (by simp)) ?_
          exact (spanOf_le fun x hx => mem_spanOf (by simp [hx])) hc
        · exact mem_spanOf (by simp [hu])
        · exact mem_spanOf (by simp [hu])

/-- For every list of vectors and every positive tolerance: no division by zero happens, the number of vectors is kept,
the first `n` vectors are pairwise orthogonal and not zero, the others are smaller than the tolerance, and the vectors
span the same space as before. -/
theorem C42_orthogonalize (eps : K) (heps : 0 < eps) (vs : List (Fin d → K)) :
    ∃ vs' n, orthogonalize eps vs = some (vs', n) ∧ vs'.length = vs.length ∧ n ≤ vs.length
      ∧ PairwiseOrthogonal (vs'.take n) ∧ (∀ v ∈ vs'.take n, eps ≤ ∑ i, |v i|) ∧ (∀ v ∈ vs'.drop n, ∑ i, |v i| < eps)
      ∧ spanOf vs' = spanOf vs := by
  obtain ⟨fin, small, h1, h2, h3, h4, h5, h6⟩ := orthoLoop_spec eps heps [] vs [] List.Pairwise.nil (by simp) (by simp)
  simp only [List.length_nil, Nat.zero_add, Nat.add_zero] at h5
  refine ⟨fin ++ small, fin.length, h1, by simp [h5], by omega, ?_, ?_, ?_, by simpa using h6⟩
  · rw [List.take_left]; exact h2
  · rw [List.take_left]; intro v hv; rw [← norm1_eq]; exact h3 v hv
  · rw [List.drop_left]; intro v hv; rw [← norm1_eq]; exact h4 v hv

omit [LinearOrder K] [IsStrictOrderedRing K] in
/-- If the other vectors are zero, the first `n` alone span the space. -/
theorem C42_span_first (vs vs' : List (Fin d → K)) (n : Nat) (h : spanOf vs' = spanOf vs)
    (hz : ∀ v ∈ vs'.drop n, v = 0) : spanOf (vs'.take n) = spanOf vs := by
  rw [← h]
  refine spanOf_congr (fun v hv => mem_spanOf (List.mem_of_mem_take hv)) fun v hv => ?_
  rw [← List.take_append_drop n vs', List.mem_append] at hv
  rcases hv with hv | hv
  · exact mem_spanOf hv
  · rw [hz v hv]; exact Submodule.zero_mem _

/-- With tolerance zero a zero vector is kept as if it were independent, and the next step divides by zero. -/
theorem C42_violated_zero_tolerance : orthogonalize (0 : Rat) [![0, 0], ![1, 0]] = none := by decide +kernel

/-- A dependent vector is moved to the end. -/
example : (orthogonalize (1 / 1000 : Rat) [![2, 0, 0], ![4, 0, 0], ![1, 3, 0]]).map (fun r => (r.1.map fun v => (v 0, v 1, v 2), r.2))
    = some ([(2, 0, 0), (0, 3, 0), (0, 0, 0)], 2) := by decide +kernel

end VG
