import Verif.Lemmas.UniformKids
import Verif.Lemmas.RefineFit
import Mathlib.Data.List.Sublists

/-!
The labels of the children of a tetrahedron with all edges marked: which labels are together in a child.
-/

namespace VG

/-- The vertex `a` is one of those of which the label is made. -/
def hasEnd (a l : Nat) : Bool := (labelEnds l).1 == a || (labelEnds l).2 == a

/-- The vertices of which the labels are made. -/
def labelSpan (g : List Nat) : List Nat := (List.range 4).filter (fun a => g.any (hasEnd a))

/-- Each two of the labels have a vertex in common. -/
def labelsMeet (g : List Nat) : Bool := g.all (fun x => g.all (fun y => (List.range 4).any (fun a => hasEnd a x && hasEnd a y)))

/-- The sets of `n` labels. -/
def labelSets (n : Nat) : List (List Nat) := (List.range 10).sublistsLen n

/-- The labels are in one of the cells. -/
def together (cells : List (List Nat)) (g : List Nat) : Bool := cells.any (fun c => g.all (fun l => decide (l ∈ c)))

/-- Labels of less than four vertices are together iff each two have a vertex in common. -/
def glueOK (n inside : Nat) (cells : List (List Nat)) : Bool :=
  (labelSets n).all (fun g => decide (labelSpan g = [0, 1, 2, 3]) || (together cells g == labelsMeet g)) &&
    decide (((labelSets n).filter (fun g => decide (labelSpan g = [0, 1, 2, 3]) && together cells g)).length = inside)

/-- The children of a tetrahedron with all edges marked, as far as the edges and facets go. -/
def uniGlueOK (cells : List (List Nat)) : Bool :=
  glueOK 2 1 cells && glueOK 3 8 cells && cells.all (fun c => decide (labelSpan c = [0, 1, 2, 3])) &&
    (List.range 10).all (fun l => cells.any (fun c => decide (l ∈ c))) &&
    cells.all (fun c => ((cells.filter (fun c' => c.all (fun l => decide (l ∈ c')))).length == 1))

set_option maxRecDepth 100000 in
theorem tetTree_glue : (tetTree (cornerFn [true, true, true, true, true, true])).check (fun _ => uniGlueOK) [] [] = true := by
  decide +kernel

/-- The sets of labels made of the vertices `A`, each two with a vertex in common. -/
def meeting (n : Nat) (A : List Nat) : List (List Nat) := (labelSets n).filter (fun g => decide (labelSpan g = A) && labelsMeet g)

theorem meeting_edges : ∀ A ∈ (List.range 4).sublists, ((A.length = 2 → (meeting 2 A).length = 2) ∧ (A.length = 3 → (meeting 2 A).length = 3)) ∧
    ((A.length = 2 → (meeting 3 A).length = 0) ∧ (A.length = 3 → (meeting 3 A).length = 4)) := by
  decide +kernel

theorem span_two : ∀ g ∈ labelSets 2, 2 ≤ (labelSpan g).length := by decide +kernel

theorem span_three : ∀ g ∈ labelSets 3, 2 ≤ (labelSpan g).length := by decide +kernel

theorem label_with : ∀ a < 4, ∀ b < 4, ∃ l < 10, (labelEnds l).1 = a ∧ (labelEnds l).2 = b ∨ (labelEnds l).1 = b ∧ (labelEnds l).2 = a := by
  decide

theorem mem_labelSpan {g : List Nat} {a : Nat} : a ∈ labelSpan g ↔ ∃ l ∈ g, hasEnd a l = true := by
  unfold labelSpan
  rw [List.mem_filter, List.mem_range, List.any_eq_true]
  refine ⟨fun h => h.2, fun h => ⟨?_, h⟩⟩
  obtain ⟨l, _, h2⟩ := h
  have := labelEnds_lt l
  unfold hasEnd at h2
  simp only [Bool.or_eq_true, beq_iff_eq] at h2
  omega

theorem labelSpan_perm {g g' : List Nat} (h : ∀ l, l ∈ g ↔ l ∈ g') : labelSpan g = labelSpan g' := by
  unfold labelSpan
  refine List.filter_congr fun a _ => ?_
  rw [Bool.eq_iff_iff, List.any_eq_true, List.any_eq_true]
  simp only [h]

theorem labelsMeet_iff {g : List Nat} : labelsMeet g = true ↔ ∀ x ∈ g, ∀ y ∈ g, ∃ a < 4, hasEnd a x = true ∧ hasEnd a y = true := by
  unfold labelsMeet
  simp only [List.all_eq_true, List.any_eq_true, List.mem_range, Bool.and_eq_true]

theorem together_iff {cells : List (List Nat)} {g : List Nat} : together cells g = true ↔ ∃ c ∈ cells, g ⊆ c := by
  unfold together
  simp only [List.any_eq_true, List.all_eq_true, decide_eq_true_eq]
  rfl

theorem mem_labelSets {n : Nat} {g : List Nat} : g ∈ labelSets n ↔ List.Sublist g (List.range 10) ∧ g.length = n := by
  unfold labelSets
  exact List.mem_sublistsLen

/-- The labels in order. -/
def sortLabels (g : List Nat) : List Nat := (List.range 10).filter (fun l => decide (l ∈ g))

theorem mem_sortLabels {g : List Nat} (h : ∀ l ∈ g, l < 10) {l : Nat} : l ∈ sortLabels g ↔ l ∈ g := by
  unfold sortLabels
  rw [List.mem_filter, List.mem_range, decide_eq_true_iff]
  exact ⟨fun h => h.2, fun hl => ⟨h l hl, hl⟩⟩

theorem sortLabels_perm {g : List Nat} (hn : g.Nodup) (h : ∀ l ∈ g, l < 10) : (sortLabels g).Perm g :=
  (List.perm_ext_iff_of_nodup (List.nodup_range.filter _) hn).2 fun _ => mem_sortLabels h

theorem sortLabels_mem {g : List Nat} (hn : g.Nodup) (h : ∀ l ∈ g, l < 10) : sortLabels g ∈ labelSets g.length :=
  mem_labelSets.2 ⟨List.filter_sublist, (sortLabels_perm hn h).length_eq⟩

theorem labelSets_nodup {n : Nat} {g : List Nat} (h : g ∈ labelSets n) : g.Nodup := (mem_labelSets.1 h).1.nodup List.nodup_range

theorem labelSets_lt {n : Nat} {g : List Nat} (h : g ∈ labelSets n) : ∀ l ∈ g, l < 10 := fun _ hl =>
  List.mem_range.1 ((mem_labelSets.1 h).1.subset hl)

/-- Sets of labels with the same members are the same. -/
theorem labelSets_eq {n : Nat} {g g' : List Nat} (h : g ∈ labelSets n) (h' : g' ∈ labelSets n) (e : ∀ l, l ∈ g ↔ l ∈ g') : g = g' := by
  refine List.Perm.eq_of_pairwise (le := (· < ·)) (fun a b _ _ => by omega) ?_ ?_ ((List.perm_ext_iff_of_nodup (labelSets_nodup h) (labelSets_nodup h')).2 e)
  · exact List.Pairwise.sublist (mem_labelSets.1 h).1 List.pairwise_lt_range
  · exact List.Pairwise.sublist (mem_labelSets.1 h').1 List.pairwise_lt_range

/-- The children of a tetrahedron with all edges marked: which labels are together. -/
structure UniGlue (cells : List (List Nat)) : Prop where
  edges : ∀ g ∈ labelSets 2, labelSpan g ≠ [0, 1, 2, 3] → ((∃ c ∈ cells, g ⊆ c) ↔ labelsMeet g = true)
  inner1 : ((labelSets 2).filter (fun g => decide (labelSpan g = [0, 1, 2, 3]) && together cells g)).length = 1
  facets : ∀ g ∈ labelSets 3, labelSpan g ≠ [0, 1, 2, 3] → ((∃ c ∈ cells, g ⊆ c) ↔ labelsMeet g = true)
  inner2 : ((labelSets 3).filter (fun g => decide (labelSpan g = [0, 1, 2, 3]) && together cells g)).length = 8
  span : ∀ c ∈ cells, labelSpan c = [0, 1, 2, 3]
  used : ∀ l < 10, ∃ c ∈ cells, l ∈ c
  one : ∀ c ∈ cells, (cells.filter (fun c' => decide (c ⊆ c'))).length = 1

theorem uniGlue_of {cells : List (List Nat)} (h : uniGlueOK cells = true) : UniGlue cells := by
  simp only [uniGlueOK, glueOK, Bool.and_eq_true, List.all_eq_true, Bool.or_eq_true, decide_eq_true_eq, beq_iff_eq, List.any_eq_true,
    List.mem_range] at h
  obtain ⟨⟨⟨⟨⟨h1, h2⟩, h3, h4⟩, h5⟩, h6⟩, h7⟩ := h
  refine ⟨fun g hg hne => ?_, h2, fun g hg hne => ?_, h4, h5, h6, fun c hc => ?_⟩
  · rw [← together_iff, (h1 g hg).resolve_left hne]
  · rw [← together_iff, (h3 g hg).resolve_left hne]
  · rw [← h7 c hc]
    congr 1
    refine List.filter_congr fun c' _ => ?_
    rw [Bool.eq_iff_iff, decide_eq_true_iff, List.all_eq_true]
    simp only [decide_eq_true_eq]
    rfl

section
variable {P : Type} {K : Type} [Field K] [LinearOrder K] {src : SegState P} {dist : P → P → K}
  {mark : Nat → Bool} {r : RefSt P} {C : Nat → List (List Nat)} {R : Nat → List (Option (Vtx P))} {w ev : Nat → Nat}

/-- With all edges marked, the labels of each cell are together as in `UniGlue`. -/
theorem Refined.uni_glue (h : Refined 3 src (tetKids dist) mark r C R w ev) (hd : ∀ a b, dist a b = dist b a)
    (hI : Inv (simplexTopo 3) src.mesh) (hm : ∀ e < src.mesh.count 1, mark e = true) {t : Nat} (ht : t < src.mesh.count 3) :
    UniGlue (C t) := by
  obtain ⟨hvn, hvl, _⟩ := simplex_verts (by omega) hI ht
  have hrec := h.recs t ht
  have hmade := h.made t ht
  unfold tetKids at hmade
  generalize hid' : (fun a : Nat => ((R t)[a]?.join.map (fun v : Vtx P => v.id)).getD 0) = id' at hmade
  have hidd : ∀ a < 4, id' a = outId 3 src.mesh w t a := by
    intro a ha
    obtain ⟨x, h1, h2⟩ := hrec a ha
    rw [← hid']
    simp only [h1, Option.join_some, Option.map_some, Option.getD_some]
    exact h.vid h2
  have hid : ∀ a < 4, ∀ b < 4, id' a = id' b → a = b := by
    intro a ha b hb e
    rw [hidd a ha, hidd b hb, h.outId_inj hI (by omega) ht ht (by omega) (by omega), List.getD_eq_getElem _ _ (by omega),
      List.getD_eq_getElem _ _ (by omega)] at e
    exact hvn.getElem_inj_iff.1 e
  have hq : ∀ q < 6, mark ((src.mesh.bndOf 3 t 1).getD q 0) = true := by
    intro q hq
    have hlen := (simplex_edge (by omega) hI ht).1
    have he : (edgeIdx (3 + 1)).length = 6 := by decide
    rw [he] at hlen
    exact hm _ (bndOf_valid hI (getD_mem (by omega)))
  obtain ⟨cells', path, e1, _, h4⟩ := RTree.check_sound (edgeOrder (vtxDist dist (R t)) (vtxDist_symm hd (R t)) id' hid) (vtxDist dist (R t))
    (tetTree (fun i => mark ((src.mesh.bndOf 3 t 1).getD i 0))) [] [] (by simp) (P := fun _ => uniGlueOK) (by
      rw [tetTree_list, hq 0 (by omega), hq 1 (by omega), hq 2 (by omega), hq 3 (by omega), hq 4 (by omega), hq 5 (by omega)]
      exact tetTree_glue)
  have e2 := hmade.symm.trans e1
  have := Option.some.inj e2
  subst this
  rw [List.nil_append] at h4
  exact uniGlue_of h4

end

end VG
