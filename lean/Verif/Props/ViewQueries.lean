import Verif.Lemmas.ViewQueries
import Verif.Props.Queries

/-!
C15: cached queries on a view describe the content of the view.
-/

namespace VG

variable {P : Type}

/-- Specification: every boundary element of dimension `k` of an element of dimension `d` in the view is
in the view. -/
def ContainsFaces (T : Topo) (st : MV P) (k d : Nat) : Prop :=
  ∀ t ∈ st.view.content d, ∀ s, OnBoundary T st.mesh k s d t → s ∈ st.view.content k

/-- C15, coboundary.  The full statement is the same with `MVReached T true`, that is with `handle_mesh` as a
way of filling the view; it is false, see `C15_violated_handle_mesh`.  Proved for views filled, changed and
asked in any order by all operations that are not `handle_mesh`: an answer consists of exactly the elements
of the view having `s` on their boundary, each once. -/
theorem C15_coboundary_partial {T : Topo} (hT : LibTopo T) {st : MV P} (h : MVReached T false st)
    {k d s : Nat} (hd : d ≤ T.cellDim) (hs : s ∈ st.view.content k)
    {l : List Nat} (hl : (st.view.coboundary st.mesh k d s).2 = some l) :
    l.Nodup ∧ ∀ t, t ∈ l ↔ t ∈ st.view.content d ∧ OnBoundary T st.mesh k s d t := by
  have hI := h.inv hT.wf
  obtain ⟨_, _, _, _, hu⟩ := h
  have e := (VC.coboundary_spec hT.wf hI.inv hu hI.view k d s).2.2.2.2.1 l hl hs
  subst e
  refine ⟨List.Nodup.filter _ (hI.view.nodup d), fun t => ?_⟩
  rw [← mem_bndOf_iff hT.wf hI.inv hd]
  simp

/-- C15: on a view that contains the boundary elements of its elements a coboundary query does not throw
(non-negative ids assumed).  Without it the query may throw, see `C15_violated_missing_faces`. -/
theorem C15_coboundary_answers_partial {T : Topo} (hT : LibTopo T) {st : MV P}
    (h : MVReached T false st) {k d : Nat} (s : Nat) (hd : d ≤ T.cellDim) (hc : ContainsFaces T st k d)
    (hn : ∀ s ∈ st.view.content k, 0 ≤ st.mesh.eid k s) :
    ∃ l, (st.view.coboundary st.mesh k d s).2 = some l := by
  have hI := h.inv hT.wf
  obtain ⟨_, _, _, _, hu⟩ := h
  have := (VC.coboundary_spec hT.wf hI.inv hu hI.view k d s).2.2.2.2.2
    (fun t ht s hs => hc t ht s ((mem_bndOf_iff hT.wf hI.inv hd).1 hs)) hn
  exact Option.ne_none_iff_exists'.1 this

/-- C15, neighbors: see `C15_coboundary_partial`. -/
theorem C15_neighbors_partial {T : Topo} (hT : LibTopo T) {st : MV P} (h : MVReached T false st)
    {d c t : Nat} (hd : d ≤ T.cellDim) (ht : t ∈ st.view.content d)
    (hc : ContainsFaces T st c d) (hn : ∀ s ∈ st.view.content c, 0 ≤ st.mesh.eid c s) :
    ∃ l, (st.view.neighbors st.mesh d c t).2 = some l ∧ l.Nodup ∧
      ∀ u, u ∈ l ↔ u ∈ st.view.content d ∧ u ≠ t ∧
        ∃ s, OnBoundary T st.mesh c s d t ∧ OnBoundary T st.mesh c s d u := by
  have hI := h.inv hT.wf
  obtain ⟨_, _, _, _, hu⟩ := h
  have hb : ∀ s t, s ∈ st.mesh.bndOf d t c ↔ OnBoundary T st.mesh c s d t := fun s t =>
    mem_bndOf_iff hT.wf hI.inv hd
  obtain ⟨_, _, _, h4, h5⟩ := VC.neighbors_spec hT.wf hI.inv hu hI.view d c t
  obtain ⟨l, hl⟩ := Option.ne_none_iff_exists'.1 (h5 (fun t ht s hs => hc t ht s ((hb s t).1 hs)) hn)
  obtain ⟨h6, h7⟩ := h4 l hl ht
  refine ⟨l, hl, h6, fun u => (h7 u).trans ?_⟩
  simp only [hb]
  constructor
  · rintro ⟨h1, h2, s, _, h3, h4⟩; exact ⟨h1, h2.symm, s, h3, h4⟩
  · rintro ⟨h1, h2, s, h3, h4⟩; exact ⟨h1, h2.symm, s, hc t ht s h3, h3, h4⟩

/-- C15, boundary of a view: a facet in the view is on the boundary iff an odd number of cells of the view
uses it. -/
theorem C15_boundary_partial {T : Topo} (hT : LibTopo T) {st : MV P} (h : MVReached T false st)
    {s : Nat} (hs : s ∈ st.view.content (T.cellDim - 1)) :
    (st.view.isBoundary T st.mesh (T.cellDim - 1) s).2 = true ↔
      ∃ l : List Nat, l.Nodup ∧ (∀ c, c ∈ l ↔ c ∈ st.view.content T.cellDim ∧ UsedBy T st.mesh s c) ∧
        l.length % 2 = 1 := by
  have hI := h.inv hT.wf
  obtain ⟨_, _, _, _, hu⟩ := h
  rw [(VC.isBoundary_spec hT.wf hI.inv hu hI.view _ s).2.2.2 (le_refl _) hs, if_pos rfl]
  have hb : ∀ c, s ∈ st.mesh.bndOf T.cellDim c (T.cellDim - 1) ↔ UsedBy T st.mesh s c := fun c =>
    mem_bndOf_iff hT.wf hI.inv (le_refl _)
  constructor
  · intro ho
    refine ⟨_, List.Nodup.filter _ (hI.view.nodup T.cellDim), fun c => ?_, ho⟩
    simp [hb]
  · rintro ⟨l, h1, h2, ho⟩
    have : l.Perm ((st.view.content T.cellDim).filter
        (fun t => s ∈ st.mesh.bndOf T.cellDim t (T.cellDim - 1))) := by
      refine (List.perm_ext_iff_of_nodup h1 (List.Nodup.filter _ (hI.view.nodup _))).2 (fun c => ?_)
      rw [h2 c]; simp [hb]
    unfold numCellsV
    rw [← this.length_eq]; exact ho

/-- C15, boundary of a view below facets: on a facet of the view which is on the boundary of the view. -/
theorem C15_lower_boundary_partial {T : Topo} (hT : LibTopo T) {st : MV P} (h : MVReached T false st)
    {k s : Nat} (hk : k < T.cellDim - 1) (hs : s ∈ st.view.content k) :
    (st.view.isBoundary T st.mesh k s).2 = true ↔
      ∃ f ∈ st.view.content (T.cellDim - 1), (st.view.isBoundary T st.mesh (T.cellDim - 1) f).2 = true ∧
        OnBoundary T st.mesh k s (T.cellDim - 1) f := by
  have hI := h.inv hT.wf
  obtain ⟨_, _, _, _, hu⟩ := h
  rw [(VC.isBoundary_spec hT.wf hI.inv hu hI.view k s).2.2.2 (by omega) hs, if_neg (by omega)]
  refine exists_congr (fun f => and_congr_right (fun hf => ?_))
  rw [(VC.isBoundary_spec hT.wf hI.inv hu hI.view _ f).2.2.2 (le_refl _) hf, if_pos rfl,
    mem_bndOf_iff hT.wf hI.inv (by omega)]

/-! ### The violations -/

/-- Two triangles at one edge; the view is filled with `handle_mesh`. -/
def filledView : List (VQOp Unit) :=
  [.mesh (.vertex none ()), .mesh (.vertex none ()), .mesh (.vertex none ()), .mesh (.vertex none ()),
   .mesh (.elem 2 [0, 1, 2]), .mesh (.elem 2 [1, 2, 3]), .handleMesh]

def filledViewState : MV Unit := (MV.empty.run (simplexTopo 2) filledView).getD MV.empty

theorem filledView_reached : MVReached (simplexTopo 2) true filledViewState :=
  ⟨filledView, by simp [filledView, VQOp.creation, MOp.Distinct], by simp, rfl, by unfold UniqueVids; decide⟩

/-- C15 is violated: after `handle_mesh` the view contains both triangles, but no triangle is found at vertex
1, the triangles are not neighbors, and no edge is on the boundary. -/
theorem C15_violated_handle_mesh :
    MVReached (simplexTopo 2) true filledViewState ∧
    filledViewState.view.content 2 = [0, 1] ∧ 1 ∈ filledViewState.view.content 0 ∧
    OnBoundary (simplexTopo 2) filledViewState.mesh 0 1 2 0 ∧
    (filledViewState.view.coboundary filledViewState.mesh 0 2 1).2 = some [] ∧
    (filledViewState.view.neighbors filledViewState.mesh 2 1 0).2 = some [] ∧
    filledViewState.view.content 1 = [0, 1, 2, 3, 4] ∧
    (∀ e < 5, (filledViewState.view.isBoundary (simplexTopo 2) filledViewState.mesh 1 e).2 = false) := by
  refine ⟨filledView_reached, by decide, by decide, ?_, by decide, by decide, by decide, by decide⟩
  exact ⟨_, rfl, by decide⟩

/-- A view holding a vertex and a triangle, but not the other vertices. -/
def unclosedView : List (VQOp Unit) :=
  [.mesh (.vertex none ()), .mesh (.vertex none ()), .mesh (.vertex none ()), .mesh (.elem 2 [0, 1, 2]),
   .insert 0 0, .insert 2 0]

def unclosedViewState : MV Unit := (MV.empty.run (simplexTopo 2) unclosedView).getD MV.empty

/-- C15 is violated: the coboundary of a vertex in the view throws, because another vertex of its triangle is
not in the view. -/
theorem C15_violated_missing_faces :
    MVReached (simplexTopo 2) false unclosedViewState ∧
    0 ∈ unclosedViewState.view.content 0 ∧ 0 ∈ unclosedViewState.view.content 2 ∧
    (unclosedViewState.view.coboundary unclosedViewState.mesh 0 2 0).2 = none :=
  ⟨⟨unclosedView, by simp [unclosedView, VQOp.creation, MOp.Distinct], by simp [unclosedView], rfl,
    by unfold UniqueVids; decide⟩, by decide, by decide, by decide⟩

/-! ### A concrete history -/

/-- One of two triangles with its boundary in the view; asked, the other one added, asked again. -/
def viewHistory : List (VQOp Unit) :=
  [.mesh (.vertex none ()), .mesh (.vertex none ()), .mesh (.vertex none ()), .mesh (.vertex none ()),
   .mesh (.elem 2 [0, 1, 2]), .insert 2 0, .insert 0 0, .insert 0 1, .insert 0 2, .insert 1 0, .insert 1 1,
   .insert 1 2, .coboundary 1 2 2, .isBoundary 1 2, .neighbors 2 1 0, .mesh (.elem 2 [1, 2, 3]),
   .insert 2 1, .insert 0 3, .insert 1 3, .insert 1 4]

def viewHistoryState : MV Unit := (MV.empty.run (simplexTopo 2) viewHistory).getD MV.empty

example : MVReached (simplexTopo 2) false viewHistoryState :=
  ⟨viewHistory, by simp [viewHistory, VQOp.creation, MOp.Distinct], by simp [viewHistory], rfl,
    by unfold UniqueVids; decide⟩

example : (viewHistoryState.view.coboundary viewHistoryState.mesh 1 2 2).2 = some [0, 1] ∧
    (viewHistoryState.view.neighbors viewHistoryState.mesh 2 1 0).2 = some [1] ∧
    (viewHistoryState.view.isBoundary (simplexTopo 2) viewHistoryState.mesh 1 2).2 = false ∧
    (viewHistoryState.view.isBoundary (simplexTopo 2) viewHistoryState.mesh 1 0).2 = true := by decide

end VG
