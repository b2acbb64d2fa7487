import Verif.Lemmas.UniformTets
import Verif.Lemmas.CellRefine

/-!
After any refinement no two cells have the same vertices, if no two had before.
-/

namespace VG

/-- Each cell has all four vertices in its labels, and its labels are in no other cell. -/
def coverOK (cells : List (List Nat)) : Bool :=
  cells.all (fun c => decide (labelSpan c = [0, 1, 2, 3]) && ((cells.filter (fun c' => c.all (fun l => decide (l ∈ c')))).length == 1))

set_option maxRecDepth 10000 in
theorem tetTree_cover : ∀ b0 b1 b2 b3 b4 b5 : Bool, (tetTree (cornerFn [b0, b1, b2, b3, b4, b5])).check (fun _ => coverOK) [] [] = true := by
  decide +kernel

theorem coverOK_iff {cells : List (List Nat)} (h : coverOK cells = true) {c : List Nat} (hc : c ∈ cells) :
    labelSpan c = [0, 1, 2, 3] ∧ (cells.filter (fun c' => decide (c ⊆ c'))).length = 1 := by
  simp only [coverOK, Bool.and_eq_true, List.all_eq_true, decide_eq_true_eq, beq_iff_eq] at h
  refine ⟨(h c hc).1, ?_⟩
  rw [← (h c hc).2]
  congr 1
  refine List.filter_congr fun c' _ => ?_
  rw [Bool.eq_iff_iff, decide_eq_true_iff, List.all_eq_true]
  simp only [decide_eq_true_eq]
  rfl

theorem TriCase.covers {m : Nat → Bool} {cells : List (List Nat)} (h : TriCase m cells) :
    (∀ c ∈ cells, ∀ a < 3, ∃ l ∈ c, a = (triLabelEnds l).1 ∨ a = (triLabelEnds l).2) ∧
    (∀ c ∈ cells, ∀ c' ∈ cells, c ⊆ c' → c = c') ∧ cells.Nodup := by
  cases h <;> decide

section
variable {K : Type} [Field K] [LinearOrder K] {src : SegState (Nat → K)} {dist : (Nat → K) → (Nat → K) → K}
  {mark : Nat → Bool} {r : RefSt (Nat → K)} {C : Nat → List (List Nat)} {R : Nat → List (Option (Vtx (Nat → K)))} {w ev : Nat → Nat}

theorem Refined.tri_case (h : Refined 2 src (triKids dist) mark r C R w ev) {t : Nat} (ht : t < src.mesh.count 2) :
    TriCase (fun i => mark ((src.mesh.bndOf 2 t 1).getD i 0)) (C t) := by
  obtain ⟨cells, e, h1⟩ := refineTri_case (vtxDist dist (R t)) (fun i => mark ((src.mesh.bndOf 2 t 1).getD i 0))
  have e' : triKids dist (R t) (fun i => mark ((src.mesh.bndOf 2 t 1).getD i 0)) = some cells := e
  rw [h.made t ht] at e'
  rw [Option.some.inj e']
  exact h1

theorem Refined.tri_single (h : Refined 2 src (triKids dist) mark r C R w ev) (hI : Inv (simplexTopo 2) src.mesh)
    (hone : ∀ t < src.mesh.count 2, ∀ t' < src.mesh.count 2, src.mesh.vertsOf 2 t ⊆ src.mesh.vertsOf 2 t' → t' = t)
    {i j : Nat} (hi : i < r.out.mesh.count 2) (hj : j < r.out.mesh.count 2)
    (hv : (r.out.mesh.vertsOf 2 i).Perm (r.out.mesh.vertsOf 2 j)) : i = j := by
  obtain ⟨t, c, ki, ht, hc, vi⟩ := h.kid_of hi
  obtain ⟨t', c', kj, ht', hc', vj⟩ := h.kid_of hj
  rw [vi, vj] at hv
  have hT := triCell_of hI ht
  obtain ⟨hall, hset, _⟩ := (h.tri_case ht).covers
  have hsh : ∀ l ∈ c, ∃ l' ∈ c', labelVertex 2 src.mesh w ev t' l' = labelVertex 2 src.mesh w ev t l := fun l hl =>
    List.mem_map.1 (hv.mem_iff.1 (List.mem_map.2 ⟨l, hl, rfl⟩))
  have hsub : src.mesh.vertsOf 2 t ⊆ src.mesh.vertsOf 2 t' := by
    intro v hv
    obtain ⟨a, ha, rfl⟩ := hT.mem_verts.1 hv
    obtain ⟨l, hl, hal⟩ := hall c hc a ha
    obtain ⟨l', hl', e⟩ := hsh l hl
    have := h.shared_label hI ht ht' hc hc' hl hl' e
    rcases hal with rfl | rfl
    · exact this.1
    · exact this.2
  have := hone t ht t' ht' hsub
  subst this
  have hcc : c ⊆ c' := by
    intro l hl
    obtain ⟨l', hl', e⟩ := hsh l hl
    rw [← h.tri_label_inj hI ht hc hc' hl hl' e]; exact hl'
  have : c = c' := hset c hc c' hc' hcc
  subst this
  have hn : r.kids.Nodup := by
    rw [h.kids_eq]
    exact flatMap_nodup List.nodup_range fun t ht => (h.tri_case (List.mem_range.1 ht)).covers.2.2
  obtain ⟨hi', ei⟩ := List.getElem?_eq_some_iff.1 ki
  obtain ⟨hj', ej⟩ := List.getElem?_eq_some_iff.1 kj
  exact (List.Nodup.getElem_inj_iff hn).1 (ei.trans ej.symm)

theorem Refined.tet_cover (h : Refined 3 src (tetKids dist) mark r C R w ev) (hd : ∀ a b, dist a b = dist b a)
    (hI : Inv (simplexTopo 3) src.mesh) {t : Nat} (ht : t < src.mesh.count 3) : coverOK (C t) = true := by
  obtain ⟨hvn, hvl, _⟩ := simplex_verts (by omega) hI ht
  have hrec := h.recs t ht
  have hmade := h.made t ht
  unfold tetKids at hmade
  generalize hid' : (fun a : Nat => ((R t)[a]?.join.map (fun v : Vtx (Nat → K) => v.id)).getD 0) = id' at hmade
  have hidd : ∀ a < 4, id' a = outId 3 src.mesh w t a := by
    intro a ha
    obtain ⟨x, h1, h2⟩ := hrec a ha
    rw [← hid']
    simp only [h1, Option.join_some, Option.map_some, Option.getD_some]
    exact h.vid h2
  have hid : ∀ a < 4, ∀ b < 4, id' a = id' b → a = b := by
    intro a ha b hb e
    rw [hidd a ha, hidd b hb, h.outId_inj hI (by omega) ht ht (by omega) (by omega), List.getD_eq_getElem _ _ (by omega),
      List.getD_eq_getElem _ _ (by omega)] at e
    exact hvn.getElem_inj_iff.1 e
  obtain ⟨cells', path, e1, _, h4⟩ := RTree.check_sound (edgeOrder (vtxDist dist (R t)) (vtxDist_symm hd (R t)) id' hid) (vtxDist dist (R t))
    (tetTree (fun i => mark ((src.mesh.bndOf 3 t 1).getD i 0))) [] [] (by simp) (P := fun _ => coverOK) (by
      rw [tetTree_list]
      exact tetTree_cover _ _ _ _ _ _)
  have e2 := hmade.symm.trans e1
  have := Option.some.inj e2
  subst this
  exact h4

theorem Refined.tet_single (h : Refined 3 src (tetKids dist) mark r C R w ev) (hd : ∀ a b, dist a b = dist b a)
    (hI : Inv (simplexTopo 3) src.mesh)
    (hone : ∀ t < src.mesh.count 3, ∀ t' < src.mesh.count 3, src.mesh.vertsOf 3 t ⊆ src.mesh.vertsOf 3 t' → t' = t)
    {i j : Nat} (hi : i < r.out.mesh.count 3) (hj : j < r.out.mesh.count 3)
    (hv : (r.out.mesh.vertsOf 3 i).Perm (r.out.mesh.vertsOf 3 j)) : i = j := by
  obtain ⟨t, c, ki, ht, hc, vi⟩ := h.kid_of hi
  obtain ⟨t', c', kj, ht', hc', vj⟩ := h.kid_of hj
  rw [vi, vj] at hv
  obtain ⟨hspan, hone1⟩ := coverOK_iff (h.tet_cover hd hI ht) hc
  have hsh : ∀ l ∈ c, ∃ l' ∈ c', labelVertex 3 src.mesh w ev t' l' = labelVertex 3 src.mesh w ev t l := fun l hl =>
    List.mem_map.1 (hv.mem_iff.1 (List.mem_map.2 ⟨l, hl, rfl⟩))
  have hsub : src.mesh.vertsOf 3 t ⊆ src.mesh.vertsOf 3 t' := by
    intro v hv
    obtain ⟨a, ha, rfl⟩ := (tetVtx_mem hI ht).1 hv
    have : a ∈ labelSpan c := by
      rw [hspan]
      simp only [List.mem_cons, List.not_mem_nil, or_false]
      omega
    obtain ⟨l, hl, e⟩ := (spanOf_local hI ht ha).2 this
    obtain ⟨l', hl', e'⟩ := hsh l hl
    exact spanOf_mem hI ht' ⟨l', hl', ((h.label_ends hI ht' ht hc' hc hl' hl).1 e' _).2 e⟩
  have := hone t ht t' ht' hsub
  subst this
  have hcc : c ⊆ c' := by
    intro l hl
    obtain ⟨l', hl', e⟩ := hsh l hl
    rw [← h.label_inj hI ht hc' hc hl' hl e]; exact hl'
  have hn : r.kids.Nodup := by
    rw [h.kids_eq]
    refine flatMap_nodup List.nodup_range fun t ht => ?_
    have hG := h.tet_cover hd hI (List.mem_range.1 ht)
    rw [List.nodup_iff_count_le_one]
    intro c
    by_cases hc : c ∈ C t
    · rw [← (coverOK_iff hG hc).2, List.count_eq_length_filter]
      refine (List.monotone_filter_right _ fun x hx => ?_).length_le
      rw [beq_iff_eq] at hx
      subst hx
      exact decide_eq_true fun _ h => h
    · rw [List.count_eq_zero_of_not_mem hc]; omega
  obtain ⟨x, hx⟩ := List.length_eq_one_iff.1 hone1
  have m1 : c ∈ (C t').filter (fun c' => decide (c ⊆ c')) := List.mem_filter.2 ⟨hc, decide_eq_true fun _ h => h⟩
  have m2 : c' ∈ (C t').filter (fun c' => decide (c ⊆ c')) := List.mem_filter.2 ⟨hc', decide_eq_true hcc⟩
  rw [hx, List.mem_singleton] at m1 m2
  have : c = c' := m1.trans m2.symm
  subst this
  obtain ⟨hi', ei⟩ := List.getElem?_eq_some_iff.1 ki
  obtain ⟨hj', ej⟩ := List.getElem?_eq_some_iff.1 kj
  exact (List.Nodup.getElem_inj_iff hn).1 (ei.trans ej.symm)

end

section
variable {K : Type} [Field K]

/-- A sum over consecutive intervals. -/
theorem sum_intervals (F : Nat → K) (first : Nat → Nat) (h0 : first 0 = 0) : ∀ N, (∀ t < N, first t ≤ first (t + 1)) →
    ((List.range (first N)).map F).sum = ((List.range N).map fun t => ((List.range (first (t + 1) - first t)).map fun j => F (first t + j)).sum).sum
  | 0, _ => by rw [h0]; rfl
  | N + 1, h => by
    have ih := sum_intervals F first h0 N (fun t ht => h t (by omega))
    have e : first (N + 1) = first N + (first (N + 1) - first N) := by have := h N (by omega); omega
    rw [List.range_succ, List.map_append, List.sum_append, ← ih]
    conv_lhs => rw [e]
    rw [List.range_add, List.map_append, List.sum_append, List.map_map]
    simp [Function.comp_def]

end

end VG
