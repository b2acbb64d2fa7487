import Verif.Model.Hyperplane
import Verif.Props.UniqueVertex
import Mathlib.Algebra.Order.Field.Basic
import Mathlib.Algebra.BigOperators.Ring.Finset
import Mathlib.Algebra.BigOperators.Fin
import Mathlib.Analysis.Real.Sqrt
import Verif.Lemmas.Segments
import Mathlib.Tactic.FinCases
import Mathlib.Tactic.Ring
import Mathlib.Tactic.FieldSimp
import Mathlib.Tactic.Linarith
import Mathlib.Tactic.NormNum

/-!
C38: refinement along a hyperplane.

Specification: the signed distance of a point is the inner product of the normal with its offset from
the point of the plane; an edge is cut if its end points are on different sides, further away than the
tolerance.
-/

namespace VG

variable {K : Type} [Field K] [LinearOrder K] [IsStrictOrderedRing K] {d : Nat}

/-- The plane through `h` with normal `n`, as a function that is zero on it. -/
def planeSide (h n p : Fin d → K) : K := (∑ i, n i * p i) - ∑ i, n i * h i

/-- The open segment between two points. -/
def StrictlyBetween (a b p : Fin d → K) : Prop := ∃ t : K, 0 < t ∧ t < 1 ∧ ∀ i, p i = (1 - t) * a i + t * b i

/-- Different sides, further away than `tol`. -/
def CutBy (h n : Fin d → K) (tol : K) (a b : Fin d → K) : Prop :=
  (planeSide h n a < -tol ∧ tol < planeSide h n b) ∨ (planeSide h n b < -tol ∧ tol < planeSide h n a)

omit [LinearOrder K] [IsStrictOrderedRing K] in
theorem hyperDist_eq (h n p : Fin d → K) : hyperDist h n p = planeSide h n p := by
  unfold hyperDist planeSide
  rw [← Finset.sum_sub_distrib]
  exact Finset.sum_congr rfl (fun i _ => by ring)

theorem relTol_nonneg (eps base : K) : 0 ≤ relTol eps base := by
  unfold relTol
  refine le_max_of_le_right ?_
  rcases le_total 0 eps with h | h
  · exact le_max_of_le_left h
  · exact le_max_of_le_right (by linarith)

/-- C38: an edge is marked exactly if it is cut. -/
theorem C38_marks (h n : Fin d → K) {tol : K} (htol : 0 ≤ tol) (p0 p1 : Fin d → K) :
    hyperCuts h n tol p0 p1 = true ↔ CutBy h n tol p0 p1 := by
  unfold hyperCuts CutBy
  rw [hyperDist_eq, hyperDist_eq]
  simp only [gt_iff_lt, decide_eq_true_eq]
  split
  · constructor
    · exact fun h => Or.inr h
    · rintro (⟨h1, h2⟩ | h)
      · linarith
      · exact h
  · constructor
    · exact fun h => Or.inl h
    · rintro (h | ⟨h1, h2⟩)
      · exact h
      · linarith

omit [LinearOrder K] [IsStrictOrderedRing K] in
theorem planeSide_affine (h n a b : Fin d → K) (t : K) :
    planeSide h n (fun i => (1 - t) * a i + t * b i) = (1 - t) * planeSide h n a + t * planeSide h n b := by
  unfold planeSide
  have : ∑ i, n i * ((1 - t) * a i + t * b i) = (1 - t) * ∑ i, n i * a i + t * ∑ i, n i * b i := by
    rw [Finset.mul_sum, Finset.mul_sum, ← Finset.sum_add_distrib]
    exact Finset.sum_congr rfl (fun i _ => by ring)
  rw [this]; ring

/-- C38: the point computed for a cut edge lies on the plane and strictly inside the edge. -/
theorem C38_point {h n : Fin d → K} {tol : K} (htol : 0 ≤ tol) {p0 p1 : Fin d → K}
    (hc : CutBy h n tol p0 p1) :
    planeSide h n (hyperPoint h n p0 p1) = 0 ∧ StrictlyBetween p0 p1 (hyperPoint h n p0 p1) := by
  have hne : hyperDist h n p1 - hyperDist h n p0 ≠ 0 := by
    rw [hyperDist_eq, hyperDist_eq]
    rcases hc with ⟨h1, h2⟩ | ⟨h1, h2⟩
    · intro h; linarith
    · intro h; linarith
  set q := hyperDist h n p0 with hq
  set p := hyperDist h n p1 with hp
  have hform : hyperPoint h n p0 p1 = fun i => (1 - (1 - p / (p - q))) * p0 i + (1 - p / (p - q)) * p1 i := by
    funext i
    simp only [hyperPoint, ← hq, ← hp]
    ring
  constructor
  · rw [hform, planeSide_affine, ← hyperDist_eq, ← hyperDist_eq, ← hq, ← hp]
    field_simp
    ring
  · refine ⟨1 - p / (p - q), ?_, ?_, fun i => by rw [hform]⟩
    · have : 1 - p / (p - q) = -q / (p - q) := by field_simp; ring
      rw [this]
      rw [hq, hp, hyperDist_eq, hyperDist_eq]
      rcases hc with ⟨h1, h2⟩ | ⟨h1, h2⟩
      · exact div_pos (by linarith) (by linarith)
      · exact div_pos_of_neg_of_neg (by linarith) (by linarith)
    · have : 0 < p / (p - q) := by
        rw [hq, hp, hyperDist_eq, hyperDist_eq]
        rcases hc with ⟨h1, h2⟩ | ⟨h1, h2⟩
        · exact div_pos (by linarith) (by linarith)
        · exact div_pos_of_neg_of_neg (by linarith) (by linarith)
      linarith

/-! The loop -/

omit [IsStrictOrderedRing K] in
theorem unique_prefix {P : Type} (dist : P → P → K) (m : Mesh P) (p : P) (tol : K) :
    m.verts <+: (m.makeUniqueVertex dist p tol).1.verts := by
  unfold Mesh.makeUniqueVertex
  split
  · exact List.prefix_refl _
  · exact ⟨_, rfl⟩

section loop
variable {norm : (Fin d → K) → K} {scale : K → K} {eps : K} {h n : Fin d → K}
  {ends : Nat → (Fin d → K) × (Fin d → K)}

omit [IsStrictOrderedRing K] in
theorem hyperEdge_prefix (st : HyperSt K d) (e : Nat) :
    st.dst.verts <+: (hyperEdge norm scale eps h n ends st e).dst.verts := by
  unfold hyperEdge
  simp only
  split
  · exact unique_prefix _ _ _ _
  · exact List.prefix_refl _

omit [IsStrictOrderedRing K] in
theorem hyperMark_keep : ∀ (order : List Nat) (st : HyperSt K d) (e : Nat), e ∉ order →
    (hyperMark norm scale eps h n ends st order).mark e = st.mark e ∧
    (hyperMark norm scale eps h n ends st order).vtx e = st.vtx e
  | [], st, e, _ => ⟨rfl, rfl⟩
  | x :: order, st, e, he => by
    simp only [List.mem_cons, not_or] at he
    have h1 := hyperMark_keep order (hyperEdge norm scale eps h n ends st x) e he.2
    unfold hyperMark at h1 ⊢
    rw [List.foldl_cons]
    refine ⟨h1.1.trans ?_, h1.2.trans ?_⟩ <;>
    · unfold hyperEdge
      simp only
      split <;> simp [setMark, he.1]

omit [IsStrictOrderedRing K] in
theorem hyperMark_prefix : ∀ (order : List Nat) (st : HyperSt K d),
    st.dst.verts <+: (hyperMark norm scale eps h n ends st order).dst.verts
  | [], _ => List.prefix_refl _
  | x :: order, st => by
    have h1 := hyperMark_prefix order (hyperEdge norm scale eps h n ends st x)
    unfold hyperMark at h1 ⊢
    rw [List.foldl_cons]
    exact (hyperEdge_prefix st x).trans h1

omit [IsStrictOrderedRing K] in
/-- Each edge is treated in some state on the way. -/
theorem hyperMark_split {order : List Nat} (hn : order.Nodup) {e : Nat} (he : e ∈ order) (st : HyperSt K d) :
    ∃ pre post, order = pre ++ e :: post ∧
      (hyperMark norm scale eps h n ends st order).mark e =
        (hyperEdge norm scale eps h n ends (hyperMark norm scale eps h n ends st pre) e).mark e ∧
      (hyperMark norm scale eps h n ends st order).vtx e =
        (hyperEdge norm scale eps h n ends (hyperMark norm scale eps h n ends st pre) e).vtx e ∧
      (hyperEdge norm scale eps h n ends (hyperMark norm scale eps h n ends st pre) e).dst.verts <+:
        (hyperMark norm scale eps h n ends st order).dst.verts := by
  obtain ⟨pre, post, rfl⟩ := List.append_of_mem he
  have h2 : e ∉ post := by
    have := (List.nodup_append.1 hn).2.1
    exact (List.nodup_cons.1 this).1
  have hs : hyperMark norm scale eps h n ends st (pre ++ e :: post) =
      hyperMark norm scale eps h n ends (hyperEdge norm scale eps h n ends (hyperMark norm scale eps h n ends st pre) e) post := by
    simp [hyperMark]
  refine ⟨pre, post, rfl, ?_, ?_, ?_⟩
  · rw [hs]; exact (hyperMark_keep post _ e h2).1
  · rw [hs]; exact (hyperMark_keep post _ e h2).2
  · rw [hs]; exact hyperMark_prefix post _

end loop

/-- C38 for the whole call.  Full statement: an edge is marked exactly if it is cut, and the vertex
assigned to it lies on the plane and strictly inside the edge.  The second half is false, see
`C38_violated`.  Proved: the marks; the vertex assigned is within a millionth of the norm of a
point that lies on the plane and inside the edge, or at that point if its norm is zero. -/
theorem C38_call_partial (norm : (Fin d → K) → K) (hnorm : norm (fun _ => 0) = 0) (scale : K → K)
    (eps : K) (h n : Fin d → K)
    (ends : Nat → (Fin d → K) × (Fin d → K)) (st : HyperSt K d) {order : List Nat} (hn : order.Nodup) {e : Nat} (he : e ∈ order) :
    ((hyperMark norm scale eps h n ends st order).mark e = true ↔
      CutBy h n (relTol eps (norm (fun i => (ends e).2 i - (ends e).1 i))) (ends e).1 (ends e).2) ∧
    ((hyperMark norm scale eps h n ends st order).mark e = true → ∃ q v w,
      planeSide h n q = 0 ∧ StrictlyBetween (ends e).1 (ends e).2 q ∧
      (hyperMark norm scale eps h n ends st order).vtx e = some v ∧
      (hyperMark norm scale eps h n ends st order).dst.verts[v]? = some w ∧
      (w.pt = q ∨ norm (fun i => q i - w.pt i) < scale (norm q))) := by
  obtain ⟨pre, post, -, h1, h2, h3⟩ := hyperMark_split (norm := norm) (scale := scale) (eps := eps) (h := h) (n := n) (ends := ends) hn he st
  rw [h1, h2]
  generalize hyperMark norm scale eps h n ends st pre = s at h1 h2 h3
  generalize (hyperMark norm scale eps h n ends st order).dst.verts = final at h3
  have ht := relTol_nonneg eps (norm (fun i => (ends e).2 i - (ends e).1 i))
  rw [← C38_marks h n ht]
  unfold hyperEdge at h3 ⊢
  simp only at h3 ⊢
  split at h3
  · rename_i hc
    rw [if_pos hc]
    refine ⟨by simp [setMark, hc], fun _ => ?_⟩
    obtain ⟨c1, c2⟩ := C38_point ht ((C38_marks h n ht _ _).1 hc)
    generalize hyperPoint h n (ends e).1 (ends e).2 = q at c1 c2 h3 ⊢
    have huv : ∃ w, (s.dst.makeUniqueVertexDefault (fun a b => norm (fun i => a i - b i)) norm scale q).1.verts[
        (s.dst.makeUniqueVertexDefault (fun a b => norm (fun i => a i - b i)) norm scale q).2]? = some w ∧
        (w.pt = q ∨ norm (fun i => q i - w.pt i) < scale (norm q)) := by
      by_cases hs : 0 < scale (norm q)
      · obtain ⟨_, _, w, hw1, hw2, _⟩ := C25_tolerance (fun a b => norm (fun i => a i - b i)) (by simp [hnorm]) s.dst q hs
        exact ⟨w, hw1, Or.inr hw2⟩
      · unfold Mesh.makeUniqueVertexDefault
        rw [C25_no_tolerance _ _ _ (not_lt.1 hs)]
        refine ⟨⟨s.dst.vgen, q⟩, ?_, Or.inl rfl⟩
        simp [Mesh.makeVertex]
    obtain ⟨w, hw1, hw2⟩ := huv
    exact ⟨q, _, w, c1, c2, by simp, prefix_getElem? h3 hw1, hw2⟩
  · rename_i hc
    rw [if_neg hc]
    exact ⟨by simp [hc], fun hf => by simp at hf⟩

/-! Violation -/

/-- Length in the plane. -/
noncomputable def norm2 (p : Fin 2 → ℝ) : ℝ := Real.sqrt (p 0 ^ 2 + p 1 ^ 2)

/-- Two edges of a triangle far away from the origin; the plane is the first axis. -/
noncomputable def farEnds : Nat → (Fin 2 → ℝ) × (Fin 2 → ℝ)
  | 0 => (![10000000, -1], ![10000000, 1])
  | _ => (![10000002, -1], ![10000000, 1])

/-- C38 violated: far away from the origin the points of two edges of a triangle of size 2 are merged into
one vertex, which is not inside the second edge; the triangle refined with it is degenerate. -/
theorem C38_violated :
    let r := hyperMark norm2 (fun x => x / 1000000) 0 ![0, 0] ![0, 1] farEnds ⟨Mesh.empty, fun _ => false, fun _ => none⟩ [0, 1]
    r.mark 0 = true ∧ r.mark 1 = true ∧ r.vtx 0 = some 0 ∧ r.vtx 1 = some 0 ∧
    r.dst.ptOf 0 = some ![10000000, 0] ∧
    ¬ StrictlyBetween (farEnds 1).1 (farEnds 1).2 ![10000000, 0] := by
  have e0 : hyperPoint ![0, 0] ![0, 1] (farEnds 0).1 (farEnds 0).2 = ![(10000000 : ℝ), 0] := by
    funext i; fin_cases i <;> norm_num [hyperPoint, hyperDist, farEnds, Fin.sum_univ_two]
  have e1 : hyperPoint ![0, 0] ![0, 1] (farEnds 1).1 (farEnds 1).2 = ![(10000001 : ℝ), 0] := by
    funext i; fin_cases i <;> norm_num [hyperPoint, hyperDist, farEnds, Fin.sum_univ_two]
  have c0 : ∀ t, t = 0 → hyperCuts ![0, 0] ![0, 1] t (farEnds 0).1 (farEnds 0).2 = true := by
    rintro t rfl
    norm_num [hyperCuts, hyperDist, farEnds, Fin.sum_univ_two]
  have c1 : ∀ t, t = 0 → hyperCuts ![0, 0] ![0, 1] t (farEnds 1).1 (farEnds 1).2 = true := by
    rintro t rfl
    norm_num [hyperCuts, hyperDist, farEnds, Fin.sum_univ_two]
  have ht : ∀ b : ℝ, relTol 0 b = 0 := fun b => by simp [relTol]
  have n0 : norm2 ![(10000000 : ℝ), 0] = 10000000 := by
    simp only [norm2, Matrix.cons_val_zero, Matrix.cons_val_one]
    rw [show ((10000000 : ℝ) ^ 2 + 0 ^ 2) = 10000000 ^ 2 by ring]
    exact Real.sqrt_sq (by norm_num)
  have n1 : norm2 ![(10000001 : ℝ), 0] = 10000001 := by
    simp only [norm2, Matrix.cons_val_zero, Matrix.cons_val_one]
    rw [show ((10000001 : ℝ) ^ 2 + 0 ^ 2) = 10000001 ^ 2 by ring]
    exact Real.sqrt_sq (by norm_num)
  have nd : norm2 (fun i => (![10000001, 0] : Fin 2 → ℝ) i - (![10000000, 0] : Fin 2 → ℝ) i) = 1 := by
    simp only [norm2, Matrix.cons_val_zero, Matrix.cons_val_one]
    rw [show (((10000001 : ℝ) - 10000000) ^ 2 + (0 - 0) ^ 2) = 1 by norm_num]
    exact Real.sqrt_one
  have hr : hyperMark norm2 (fun x => x / 1000000) 0 ![0, 0] ![0, 1] farEnds ⟨Mesh.empty, fun _ => false, fun _ => none⟩ [0, 1] =
      ⟨Mesh.empty.makeVertex none ![10000000, 0], setMark (setMark (fun _ => false) 0) 1,
        fun x => if x = 1 then some 0 else if x = 0 then some 0 else none⟩ := by
    simp only [hyperMark, List.foldl_cons, List.foldl_nil, hyperEdge, c0 _ (ht _), c1 _ (ht _), if_true, e0, e1]
    simp only [Mesh.makeUniqueVertexDefault, Mesh.makeUniqueVertex, n0, n1]
    norm_num [Mesh.empty, Mesh.makeVertex, List.findIdx?_cons, nd]
  simp only [hr]
  refine ⟨rfl, rfl, rfl, rfl, rfl, ?_⟩
  rintro ⟨t, h1, h2, h3⟩
  have := h3 0
  have h4 := h3 1
  simp [farEnds] at this h4
  linarith

/-- The hypothesis of `C38_call_partial` on the norm holds for the length in the plane. -/
example : norm2 (fun _ => 0) = 0 := by simp [norm2]

/-- A cut edge. -/
example : CutBy (![0, 0] : Fin 2 → ℚ) ![0, 1] (1 / 2) ![3, -1] ![5, 1] ∧
    hyperPoint (![0, 0] : Fin 2 → ℚ) ![0, 1] ![3, -1] ![5, 1] = ![4, 0] := by
  constructor
  · left; norm_num [planeSide, Fin.sum_univ_two]
  · funext i; fin_cases i <;> norm_num [hyperPoint, hyperDist, Fin.sum_univ_two]

end VG
