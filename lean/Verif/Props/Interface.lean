import Verif.Lemmas.Interface
import Verif.Props.ViewQueries

/-!
C18: interface flags of two segments.
-/

namespace VG

variable {P : Type}

/-- Specification: the facet is in the segment and exactly one cell of the segment uses it. -/
def BoundaryOfSeg (T : Topo) (st : IState P) (g f : Nat) : Prop :=
  f ∈ (st.seg g).content (T.cellDim - 1) ∧
  ∃ c, (c ∈ (st.seg g).content T.cellDim ∧ UsedBy T st.mesh f c) ∧
    ∀ c', c' ∈ (st.seg g).content T.cellDim → UsedBy T st.mesh f c' → c' = c

/-- Specification: no cell using the facet is in both segments, and no three different cells of the two
segments use it. -/
def ProperAt (T : Topo) (st : IState P) (a b f : Nat) : Prop :=
  (∀ c ∈ (st.seg a).content T.cellDim, UsedBy T st.mesh f c → c ∉ (st.seg b).content T.cellDim) ∧
  (∀ c d e, (∀ x ∈ [c, d, e], (x ∈ (st.seg a).content T.cellDim ∨ x ∈ (st.seg b).content T.cellDim) ∧
    UsedBy T st.mesh f x) → c = d ∨ c = e ∨ d = e)

theorem ProperAt.symm {T : Topo} {st : IState P} {a b f : Nat} (h : ProperAt T st a b f) :
    ProperAt T st b a f :=
  ⟨fun c hc hu hc' => h.1 c hc' hu hc, fun c d e hx => h.2 c d e (fun x hx' => ⟨(hx x hx').1.symm, (hx x hx').2⟩)⟩

/-- The facet flags after a query for any dimension. -/
theorem facetFlag_iff {T : Topo} (hT : LibTopo T) {st : IState P} (hI : IInv T st) (hu : UniqueVids st.mesh)
    {a b k s f : Nat} (hab : a ≠ b) (hk : k ≤ T.cellDim - 1) (hf : f < st.mesh.count (T.cellDim - 1))
    (hp : ProperAt T st a b f) :
    (((st.isInterface T a b k s).1.flags (pairKey a b) (T.cellDim - 1)).data
        (st.mesh.eid (T.cellDim - 1) f) = true ↔ BoundaryOfSeg T st a f ∧ BoundaryOfSeg T st b f) := by
  have hb : ∀ c, f ∈ st.mesh.bndOf T.cellDim c (T.cellDim - 1) ↔ UsedBy T st.mesh f c := fun c =>
    mem_bndOf_iff hT.wf hI.inv (le_refl _)
  obtain ⟨h1, h2, h3, h4, h5, h6⟩ := isInterface_spec hT.wf hI hu hab k s
  obtain ⟨x, y, hxy, hfr, e0, e1⟩ := h6 hk
  constructor
  · intro hd
    obtain ⟨⟨ca, hca, hca'⟩, ⟨cb, hcb, hcb'⟩⟩ := h1.sound a b hab f (by rw [h2]; exact hf) (by rw [h2]; exact hd)
    rw [h3] at hca hcb
    rw [h2] at hca' hcb'
    have fa : f ∈ (st.seg a).content (T.cellDim - 1) := hI.closed a ca hca _ f hca'
    have fb : f ∈ (st.seg b).content (T.cellDim - 1) := hI.closed b cb hcb _ f hcb'
    rw [hb] at hca' hcb'
    have hne : ca ≠ cb := by rintro rfl; exact hp.1 ca hca hca' hcb
    have h3c : ∀ c, (c ∈ (st.seg a).content T.cellDim ∨ c ∈ (st.seg b).content T.cellDim) →
        UsedBy T st.mesh f c → c = ca ∨ c = cb := by
      intro c hc hc'
      rcases hp.2 c ca cb (by
        intro x hx
        simp only [List.mem_cons, List.not_mem_nil, or_false] at hx
        rcases hx with rfl | rfl | rfl
        · exact ⟨hc, hc'⟩
        · exact ⟨Or.inl hca, hca'⟩
        · exact ⟨Or.inr hcb, hcb'⟩) with h | h | h
      · exact Or.inl h
      · exact Or.inr h
      · exact absurd h hne
    refine ⟨⟨fa, ca, ⟨hca, hca'⟩, fun c hc hc' => ?_⟩, ⟨fb, cb, ⟨hcb, hcb'⟩, fun c hc hc' => ?_⟩⟩
    · refine (h3c c (Or.inl hc) hc').resolve_right ?_
      rintro rfl; exact hp.1 c hc hc' hcb
    · refine (h3c c (Or.inr hc) hc').resolve_left ?_
      rintro rfl; exact hp.1 c hca hc' hc
  · rintro ⟨ha, hb'⟩
    have key : ∀ g, BoundaryOfSeg T st g f → numCellsV T st.mesh (st.seg g).content f % 2 = 1 := by
      rintro g ⟨_, c, ⟨hc, hcu⟩, huniq⟩
      have hnd := List.Nodup.filter (fun t => decide (f ∈ st.mesh.bndOf T.cellDim t (T.cellDim - 1)))
        ((hI.seg g).nodup T.cellDim)
      have : (((st.seg g).content T.cellDim).filter
          (fun t => f ∈ st.mesh.bndOf T.cellDim t (T.cellDim - 1))).Perm [c] := by
        refine (List.perm_ext_iff_of_nodup hnd (by simp)).2 (fun x => ?_)
        simp only [List.mem_filter, decide_eq_true_eq, hb, List.mem_singleton]
        constructor
        · rintro ⟨h1, h2⟩; exact huniq x h1 h2
        · rintro rfl; exact ⟨hc, hcu⟩
      unfold numCellsV
      rw [this.length_eq]; rfl
    have hx : BoundaryOfSeg T st x f ∧ BoundaryOfSeg T st y f := by
      rcases hxy with ⟨rfl, rfl⟩ | ⟨rfl, rfl⟩
      · exact ⟨ha, hb'⟩
      · exact ⟨hb', ha⟩
    exact (hfr.2 k hk e0 e1).1 f hx.1.1 hx.2.1 (key x hx.1)

/-- C18 for facets.  The full statement, for `IReached T true` and without `ProperAt`, is false (see below).
Proved: in all histories in which cells are added to segments (in any order, with any queries, mesh creations
and changes of other segments in between), the answer for a facet at which the segments meet properly is the
specification. -/
theorem C18_facets_partial {T : Topo} (hT : LibTopo T) (hn : 1 ≤ T.cellDim) {st : IState P}
    (h : IReached T false st) {a b f : Nat} (hab : a ≠ b) (hf : f < st.mesh.count (T.cellDim - 1))
    (hp : ProperAt T st a b f) :
    (st.isInterface T a b (T.cellDim - 1) f).2 = true ↔ BoundaryOfSeg T st a f ∧ BoundaryOfSeg T st b f := by
  have hI := h.inv hT.wf hn
  obtain ⟨_, _, _, _, hu⟩ := h
  rw [(isInterface_spec hT.wf hI hu hab (T.cellDim - 1) f).2.2.2.2.1]
  exact facetFlag_iff hT hI hu hab (le_refl _) hf hp

/-- C18, below facets: an element of one of the segments is on the interface iff it is on a facet of the
interface. -/
theorem C18_lower_partial {T : Topo} (hT : LibTopo T) (hn : 1 ≤ T.cellDim) {st : IState P}
    (h : IReached T false st) {a b k s : Nat} (hab : a ≠ b) (hk : k < T.cellDim - 1)
    (hs : s ∈ (st.seg a).content k ∨ s ∈ (st.seg b).content k)
    (hp : ∀ f < st.mesh.count (T.cellDim - 1), ProperAt T st a b f) :
    (st.isInterface T a b k s).2 = true ↔
      ∃ f, BoundaryOfSeg T st a f ∧ BoundaryOfSeg T st b f ∧ OnBoundary T st.mesh k s (T.cellDim - 1) f := by
  have hI := h.inv hT.wf hn
  obtain ⟨_, _, _, _, hu⟩ := h
  obtain ⟨h1, h2, h3, h4, h5, h6⟩ := isInterface_spec hT.wf hI hu hab k s
  obtain ⟨x, y, hxy, hfr, e0, e1⟩ := h6 (le_of_lt hk)
  have hs' : s ∈ (st.seg x).content k ∨ s ∈ (st.seg y).content k := by
    rcases hxy with ⟨rfl, rfl⟩ | ⟨rfl, rfl⟩
    · exact hs
    · exact hs.symm
  rw [h5, (hfr.2 k (le_of_lt hk) e0 e1).2 hk s hs']
  refine exists_congr (fun f => ?_)
  constructor
  · rintro ⟨hfx, _, hfd, hfs⟩
    have hfv := (hI.seg x).valid _ f hfx
    obtain ⟨q1, q2⟩ := (facetFlag_iff hT hI hu hab (le_of_lt hk) hfv (hp f hfv)).1 hfd
    exact ⟨q1, q2, (mem_bndOf_iff hT.wf hI.inv (Nat.sub_le _ _)).1 hfs⟩
  · rintro ⟨q1, q2, hfs⟩
    have hfv := (hI.seg a).valid _ f q1.1
    have : f ∈ (st.seg x).content (T.cellDim - 1) ∧ f ∈ (st.seg y).content (T.cellDim - 1) := by
      rcases hxy with ⟨rfl, rfl⟩ | ⟨rfl, rfl⟩
      · exact ⟨q1.1, q2.1⟩
      · exact ⟨q2.1, q1.1⟩
    exact ⟨this.1, this.2, (facetFlag_iff hT hI hu hab (le_of_lt hk) hfv (hp f hfv)).2 ⟨q1, q2⟩,
      (mem_bndOf_iff hT.wf hI.inv (Nat.sub_le _ _)).2 hfs⟩

/-- C18: the order of the segments does not matter (same histories). -/
theorem C18_symmetric_partial {T : Topo} (hT : LibTopo T) (hn : 1 ≤ T.cellDim) {st : IState P}
    (h : IReached T false st) {a b f : Nat} (hab : a ≠ b) (hf : f < st.mesh.count (T.cellDim - 1))
    (hp : ProperAt T st a b f) :
    (st.isInterface T a b (T.cellDim - 1) f).2 = (st.isInterface T b a (T.cellDim - 1) f).2 := by
  rw [Bool.eq_iff_iff, C18_facets_partial hT hn h hab hf hp,
    C18_facets_partial hT hn h (Ne.symm hab) hf hp.symm, and_comm]

/-! ### The violations -/

def twoTriangles : List (IOp Unit) :=
  [.mesh (.vertex none ()), .mesh (.vertex none ()), .mesh (.vertex none ()), .mesh (.vertex none ()),
   .mesh (.elem 2 [0, 1, 2]), .mesh (.elem 2 [1, 2, 3])]

/-- Triangle 0 in segment 0, triangle 1 in segment 1; asked for the common edge 2; then triangle 1 is added to
segment 0 too. -/
def staleOps : List (IOp Unit) :=
  twoTriangles ++ [.add 0 2 0, .add 1 2 1, .isInterface 0 1 1 2, .add 0 2 1]

def staleState : IState Unit := (IState.empty.run (simplexTopo 2) staleOps).getD IState.empty

/-- The same without the query. -/
def freshOps : List (IOp Unit) := twoTriangles ++ [.add 0 2 0, .add 1 2 1, .add 0 2 1]

def freshState : IState Unit := (IState.empty.run (simplexTopo 2) freshOps).getD IState.empty

theorem staleState_reached : IReached (simplexTopo 2) false staleState :=
  ⟨staleOps, by simp [staleOps, twoTriangles, IOp.creation, MOp.Distinct],
    by simp [staleOps, twoTriangles, IOp.Grows, simplexTopo], rfl, by unfold UniqueVids; decide⟩

theorem freshState_reached : IReached (simplexTopo 2) false freshState :=
  ⟨freshOps, by simp [freshOps, twoTriangles, IOp.creation, MOp.Distinct],
    by simp [freshOps, twoTriangles, IOp.Grows, simplexTopo], rfl, by unfold UniqueVids; decide⟩

/-- C18 is violated: the common edge is inside segment 0 now (both triangles of the edge are in it), the code
itself says it is not on the boundary of segment 0, yet it is still reported as interface; without the earlier
query it is not. -/
theorem C18_violated_stale :
    IReached (simplexTopo 2) false staleState ∧ IReached (simplexTopo 2) false freshState ∧
    (staleState.seg 0).content 2 = [0, 1] ∧ (freshState.seg 0).content 2 = [0, 1] ∧
    UsedBy (simplexTopo 2) staleState.mesh 2 0 ∧ UsedBy (simplexTopo 2) staleState.mesh 2 1 ∧
    ((staleState.seg 0).isBoundary (simplexTopo 2) staleState.mesh 1 2).2 = false ∧
    (staleState.isInterface (simplexTopo 2) 0 1 1 2).2 = true ∧
    (freshState.isInterface (simplexTopo 2) 0 1 1 2).2 = false := by
  refine ⟨staleState_reached, freshState_reached, by decide, by decide, ?_, ?_, by decide, by decide, by decide⟩
  · exact (mem_bndOf_iff (simplexTopo_wf 2) (staleState_reached.inv (simplexTopo_wf 2) (by decide)).inv (le_refl _)).1
      (show 2 ∈ staleState.mesh.bndOf 2 0 1 by decide)
  · exact (mem_bndOf_iff (simplexTopo_wf 2) (staleState_reached.inv (simplexTopo_wf 2) (by decide)).inv (le_refl _)).1
      (show 2 ∈ staleState.mesh.bndOf 2 1 1 by decide)

/-- C18 is violated: the answer depends on the order of the segments, and the query in one order changes the
answer in the other order although nothing was modified. -/
theorem C18_violated_asymmetric :
    (freshState.isInterface (simplexTopo 2) 0 1 1 2).2 = false ∧
    (freshState.isInterface (simplexTopo 2) 1 0 1 2).2 = true ∧
    (((freshState.isInterface (simplexTopo 2) 1 0 1 2).1.isInterface (simplexTopo 2) 0 1 1 2)).2 = true := by
  decide

/-- A segment that shrinks: the flag of the removed cell's facet stays. -/
def shrinkOps : List (IOp Unit) :=
  twoTriangles ++ [.add 0 2 0, .add 1 2 1, .isInterface 0 1 1 2, .remove 0 2 0, .remove 0 1 0, .remove 0 1 1,
    .remove 0 1 2]

def shrinkState : IState Unit := (IState.empty.run (simplexTopo 2) shrinkOps).getD IState.empty

/-- C18 is violated: segment 0 has no cell and no edge any more, its former edge is still reported. -/
theorem C18_violated_removed :
    IReached (simplexTopo 2) true shrinkState ∧ (shrinkState.seg 0).content 2 = [] ∧
    (shrinkState.seg 0).content 1 = [] ∧ (shrinkState.isInterface (simplexTopo 2) 0 1 1 2).2 = true :=
  ⟨⟨shrinkOps, by simp [shrinkOps, twoTriangles, IOp.creation, MOp.Distinct], by simp, rfl,
    by unfold UniqueVids; decide⟩, by decide, by decide, by decide⟩

/-! ### A concrete history -/

def ifOps : List (IOp Unit) :=
  twoTriangles ++ [.add 0 2 0, .isInterface 1 0 1 2, .add 1 2 1, .isBoundary 0 1 0]

def ifState : IState Unit := (IState.empty.run (simplexTopo 2) ifOps).getD IState.empty

theorem ifState_reached : IReached (simplexTopo 2) false ifState :=
  ⟨ifOps, by simp [ifOps, twoTriangles, IOp.creation, MOp.Distinct],
    by simp [ifOps, twoTriangles, IOp.Grows, simplexTopo], rfl, by unfold UniqueVids; decide⟩

theorem ifState_proper (f : Nat) : ProperAt (simplexTopo 2) ifState 0 1 f := by
  have h0 : (ifState.seg 0).content 2 = [0] := by decide
  have h1 : (ifState.seg 1).content 2 = [1] := by decide
  refine ⟨fun c hc _ hc' => ?_, fun c d e hx => ?_⟩
  · change c ∈ (ifState.seg 0).content 2 at hc
    change c ∈ (ifState.seg 1).content 2 at hc'
    rw [h0] at hc; rw [h1] at hc'
    simp at hc hc'; omega
  · have : ∀ x ∈ [c, d, e], x = 0 ∨ x = 1 := by
      intro x hx'
      have := (hx x hx').1
      change x ∈ (ifState.seg 0).content 2 ∨ x ∈ (ifState.seg 1).content 2 at this
      rw [h0, h1] at this
      simpa using this
    simp only [List.mem_cons, List.not_mem_nil, or_false, forall_eq_or_imp, forall_eq] at this
    omega

example : (ifState.isInterface (simplexTopo 2) 0 1 1 2).2 = true ∧
    (ifState.isInterface (simplexTopo 2) 1 0 1 2).2 = true ∧
    (ifState.isInterface (simplexTopo 2) 0 1 1 0).2 = false ∧
    (ifState.isInterface (simplexTopo 2) 0 1 0 1).2 = true ∧
    (ifState.isInterface (simplexTopo 2) 0 1 0 0).2 = false := by decide

example : BoundaryOfSeg (simplexTopo 2) ifState 0 2 ∧ BoundaryOfSeg (simplexTopo 2) ifState 1 2 :=
  (C18_facets_partial (Or.inl ⟨2, rfl⟩) (by decide) ifState_reached (by decide) (by decide) (ifState_proper 2)).1
    (by decide)

end VG
