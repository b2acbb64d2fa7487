import Verif.Lemmas.Views
import Verif.Lemmas.SegmentsOn
import Verif.Lemmas.SegRecords

/-!
C12 views of views, C26 membership in segments, C27 erasing from a segment, C29 (elements), C30 equality of
segment sets.
-/

namespace VG

variable {P : Type}

/-! ### C12 -/

/-- States reached by histories of creations in the mesh and through views, and of new views. -/
def VReached (T : Topo) (st : VState P) : Prop :=
  ∃ ops : List (VOp P), VState.empty.run T ops = some st

/-- C12: for every history and every chain of views, a view lists exactly the elements that were
entered by a creation through the view itself or through a view made from it, directly or over other
views; each once; and all of them exist in the mesh. -/
theorem C12_view_content {T : Topo} (hT : LibTopo T) {st : VState P} (h : VReached T st) (w k : Nat) :
    (st.content w k).Nodup ∧
    (∀ s, s ∈ st.content w k ↔ ∃ v, Encl st.parent v w ∧ (k, s) ∈ st.through v) ∧
    (∀ s ∈ st.content w k, s < st.mesh.count k) := by
  obtain ⟨ops, hr⟩ := h
  have hI := VInv.run hT.wf VInv.empty hr
  refine ⟨hI.nodup w k, hI.content w k, ?_⟩
  intro s hs
  obtain ⟨v, _, h2⟩ := (hI.content w k s).1 hs
  exact hI.through v _ h2

/-- C12: an element created through a view is afterwards in the mesh, in this view and in each view
enclosing it, and views not enclosing it keep their content. -/
theorem C12_created_visible {T : Topo} (hT : LibTopo T) {ops : List (VOp P)} {st st' : VState P}
    (hr : VState.empty.run T ops = some st) (hdist : ∀ op ∈ ops.filterMap VOp.creation, op.Distinct)
    {v : Nat} {op : MOp P} (hd : op.Distinct) (hs : st.step T (.via v op) = some st')
    (hu : UniqueVids st'.mesh) :
    (st.mesh.created T op).2 < st'.mesh.count (st.mesh.created T op).1 ∧
    (∀ w, Encl st.parent v w → (st.mesh.created T op).2 ∈ st'.content w (st.mesh.created T op).1) ∧
    (∀ w, ¬ Encl st.parent v w → ∀ k s, s ∈ st'.content w k ↔ s ∈ st.content w k) := by
  have hI := VInv.run hT.wf VInv.empty hr
  have hI' := hI.step hT.wf hs
  have hs' := hs
  simp only [VState.step] at hs'
  split at hs'
  · rename_i hv
    simp only [Option.map_eq_some_iff] at hs'
    obtain ⟨m', h1, rfl⟩ := hs'
    have hmr := vrun_mesh hr
    have hu0 : UniqueVids st.mesh := UniqueVids.of_prefix (step_verts h1) hu
    have hIm := run_inv hT.wf (Inv.empty T) hdist hmr hu0
    have hlog := created_logged hT.wf hIm hu0 hd h1
    obtain ⟨h2, _⟩ := step_logValid hT.wf hI.valid h1
    refine ⟨h2 _ (List.mem_of_mem_drop hlog), ?_, ?_⟩
    · intro w hw
      simp only
      rw [mem_handleInserts hI.parents hv]
      exact Or.inr ⟨hw, hlog⟩
    · intro w hw k s
      simp only
      rw [mem_handleInserts hI.parents hv]
      simp [hw]
  · cases hs'

/-- A chain of two views and a third one: the triangle made through the inner one is in both, not in
the third. -/
example : ∃ st : VState Unit, VState.empty.run (simplexTopo 2)
      [.view none, .view (some 0), .view none, .mesh (.vertex none ()), .mesh (.vertex none ()),
       .mesh (.vertex none ()), .via 1 (.elem 2 [0, 1, 2])] = some st ∧
      st.content 1 2 = [0] ∧ st.content 0 2 = [0] ∧ st.content 2 2 = [] ∧
      st.content 0 1 = [0, 1, 2] ∧ Encl st.parent 1 0 := by
  refine ⟨_, rfl, by decide, by decide, by decide, by decide, ?_⟩
  exact .up (p := 0) rfl (.self 0)

/-! ### C26 -/

/-- Configurations whose boundary tables are closed: simplices, quadrilaterals, polygons, thin meshes. -/
def ClosedTopo (T : Topo) : Prop := (∃ n, T = simplexTopo n) ∨ (∃ n, n ≤ 2 ∧ T = cubeTopo n) ∨
  (∃ n, T = thinTopo (simplexTopo n)) ∨ (∃ n, T = thinTopo (cubeTopo n)) ∨ T = polyTopo ∨ T = thinTopo polyTopo

theorem ClosedTopo.lib {T : Topo} (h : ClosedTopo T) : LibTopo T := by
  rcases h with ⟨n, rfl⟩ | ⟨n, _, rfl⟩ | h
  · exact Or.inl ⟨n, rfl⟩
  · exact Or.inr (Or.inl ⟨n, rfl⟩)
  · exact Or.inr (Or.inr h)

theorem thinTopo_closed (T : Topo) : (thinTopo T).Closed := by
  intro d n k idxs j jdxs _ _ h
  simp [thinTopo] at h

theorem polyTopo_closed : polyTopo.Closed := by
  intro d n k idxs j jdxs hd _ h1 h2
  have h3 := polyTopo_wf.dim d n k idxs h1
  have h4 := polyTopo_wf.dim k _ j jdxs h2
  have : d ≤ 2 := hd
  omega

theorem ClosedTopo.closed {T : Topo} (h : ClosedTopo T) : T.Closed := by
  rcases h with ⟨n, rfl⟩ | ⟨n, hn, rfl⟩ | ⟨n, rfl⟩ | ⟨n, rfl⟩ | rfl | rfl
  · exact simplexTopo_closed n
  · exact cubeTopo_closed hn
  · exact thinTopo_closed _
  · exact thinTopo_closed _
  · exact polyTopo_closed
  · exact thinTopo_closed _

/-- Specification of what belongs to a segment: the elements which were added to it or created in it,
and the elements on their boundary. -/
def Belongs (T : Topo) (st : SegState P) (g k s : Nat) : Prop :=
  ∃ d t, (d, t) ∈ st.added g ∧ ((k = d ∧ s = t) ∨ OnBoundary T st.mesh k s d t)

theorem belongs_iff {T : Topo} (hT : ClosedTopo T) {st : SegState P} (hI : SegInv T st) (g k s : Nat) :
    Belongs T st g k s ↔ s ∈ st.view g k := by
  rw [hI.view]
  unfold Belongs Closure
  constructor
  · rintro ⟨d, t, h1, h2⟩
    refine ⟨(d, t), h1, ?_⟩
    rcases h2 with h2 | h2
    · exact Or.inl h2
    · exact Or.inr ((mem_bndOf_iff hT.lib.wf hI.mesh (hI.valid g _ h1).1).2 h2)
  · rintro ⟨⟨d, t⟩, h1, h2⟩
    refine ⟨d, t, h1, ?_⟩
    rcases h2 with h2 | h2
    · exact Or.inl h2
    · exact Or.inr ((mem_bndOf_iff hT.lib.wf hI.mesh (hI.valid g _ h1).1).1 h2)

/-- C26 for simplices and quadrilaterals, after any history of creations in the mesh, creations in
segments and additions to segments: a segment lists exactly the elements added to or created in it and
their boundary elements, each once. -/
theorem C26_content_partial {T : Topo} (hT : ClosedTopo T) {st : SegState P} (h : SegReached T st)
    (g k : Nat) :
    (st.view g k).Nodup ∧ ∀ s, s ∈ st.view g k ↔ Belongs T st g k s :=
  ⟨(h.inv hT.lib.wf hT.closed).nodup g k,
    fun s => (belongs_iff hT (h.inv hT.lib.wf hT.closed) g k s).symm⟩

/-- C26: the record of the element agrees with the list of the segment. -/
theorem C26_is_in_segment_partial {T : Topo} (hT : ClosedTopo T) {st : SegState P} (h : SegReached T st)
    {g k s : Nat} (hs : s < st.mesh.count k) : st.isIn g k s = true ↔ s ∈ st.view g k := by
  have hI := h.inv hT.lib.wf hT.closed
  obtain ⟨_, _, _, hu⟩ := h
  unfold SegState.isIn
  rw [decide_eq_true_eq, hI.segs]
  constructor
  · rintro ⟨t, ht, he⟩
    have := eid_inj hI.mesh hu hs (hI.view_lt ht) he
    rw [this]; exact ht
  · intro h1
    exact ⟨s, h1, rfl⟩

/-- C26: `segment_ids` are exactly the segments listing the element, each once. -/
theorem C26_segment_ids_partial {T : Topo} (hT : ClosedTopo T) {st : SegState P} (h : SegReached T st)
    {k s : Nat} (hs : s < st.mesh.count k) :
    (st.segmentIds k s).Nodup ∧ ∀ g, g ∈ st.segmentIds k s ↔ s ∈ st.view g k := by
  refine ⟨(h.inv hT.lib.wf hT.closed).segsNodup _ _, fun g => ?_⟩
  rw [← C26_is_in_segment_partial hT h hs]
  unfold SegState.isIn SegState.segmentIds
  rw [decide_eq_true_eq]

/-- Specification: some segment has an element of the same dimension whose id is at least as large. -/
def HasRecord (st : SegState P) (k s : Nat) : Prop :=
  ∃ g, ∃ t ∈ st.view g k, (st.mesh.eid k s).toNat ≤ (st.mesh.eid k t).toNat

theorem hasRecord_iff {T : Topo} (hT : ClosedTopo T) {st : SegState P} (h : SegReached T st) {k s : Nat} :
    st.recorded k s = true ↔ HasRecord st k s :=
  recorded_iff hT.lib.wf hT.closed h

/-- C26: the queries `is_in_segment` and `segment_ids` are defined exactly for the elements whose id is not larger than all
ids of elements in segments; then they give the segments listing the element. -/
theorem C26_queries_partial {T : Topo} (hT : ClosedTopo T) {st : SegState P} (h : SegReached T st)
    {k s : Nat} (hs : s < st.mesh.count k) :
    (HasRecord st k s → (∀ g, st.queryIn g k s = some (decide (s ∈ st.view g k))) ∧
      ∃ gs, st.queryIds k s = some gs ∧ gs.Nodup ∧ ∀ g, g ∈ gs ↔ s ∈ st.view g k) ∧
    (¬ HasRecord st k s → (∀ g, st.queryIn g k s = none ∧ s ∉ st.view g k) ∧ st.queryIds k s = none) := by
  unfold SegState.queryIn SegState.queryIds
  rw [← hasRecord_iff hT h]
  constructor
  · intro hr
    refine ⟨fun g => ?_, _, if_pos hr, C26_segment_ids_partial hT h hs⟩
    rw [if_pos hr]
    congr 1
    rw [Bool.eq_iff_iff, C26_is_in_segment_partial hT h hs, decide_eq_true_iff]
  · intro hr
    refine ⟨fun g => ⟨if_neg hr, fun hm => hr ?_⟩, if_neg hr⟩
    exact (hasRecord_iff hT h).2 ⟨g, s, hm, le_refl _⟩

/-- C26: boundary elements of listed elements are listed. -/
theorem C26_closed_partial {T : Topo} (hT : ClosedTopo T) {st : SegState P} (h : SegReached T st)
    {g d t k s : Nat} (hd1 : 1 ≤ d) (hd : d ≤ T.cellDim) (ht : t ∈ st.view g d) (hs : s ∈ st.mesh.bndOf d t k) :
    s ∈ st.view g k := by
  have hwf := hT.lib.wf
  have hI := h.inv hwf hT.closed
  obtain ⟨⟨D, u⟩, hx, hc⟩ := (hI.view g d t).1 ht
  rw [hI.view]
  refine ⟨(D, u), hx, ?_⟩
  obtain ⟨hD, hu⟩ := hI.valid g _ hx
  simp only at hc hD hu ⊢
  rcases hc with ⟨rfl, rfl⟩ | hc
  · exact Or.inr hs
  · right
    have hb := (mem_bndOf_iff hwf hI.mesh hD).1 hc
    have hsb := (mem_bndOf_iff hwf hI.mesh hd).1 hs
    rw [mem_bndOf_iff hwf hI.mesh hD]
    unfold OnBoundary at hb
    rw [if_neg (by omega)] at hb
    obtain ⟨e, f, idxs, ix, he, hf, hl, hix, hsv⟩ := hb
    have hfe : f.verts ⊆ e.verts := by
      intro v hv
      exact (pick_ok hwf hix hl (hI.mesh.verts D e (List.mem_of_getElem? he))).2 ((hsv v).1 hv)
    have hdD := (hwf.dim D _ d idxs hl).2
    by_cases hk : k = 0
    · subst hk
      unfold OnBoundary at hsb ⊢
      rw [if_pos rfl] at hsb ⊢
      obtain ⟨f', hf', hv⟩ := hsb
      rw [hf] at hf'
      cases hf'
      exact ⟨e, he, hfe hv⟩
    · have hk' := hsb
      unfold OnBoundary at hk'
      rw [if_neg hk] at hk'
      obtain ⟨f', g', jdxs, jx, hf', hg', hl', hjx, hsv'⟩ := hk'
      rw [hf] at hf'
      cases hf'
      have hkd := hwf.dim d _ k jdxs hl'
      rcases hT with ⟨n, rfl⟩ | ⟨n, hn, rfl⟩ | ⟨n, rfl⟩ | ⟨n, rfl⟩ | rfl | rfl
      · have hk2 : k ≤ 2 := by
          simp only [simplexTopo, List.mem_append] at hl'
          rcases hl' with hl' | hl'
          · split at hl'
            · simp at hl'; omega
            · simp at hl'
          · split at hl'
            · simp at hl'; omega
            · simp at hl'
        have hDn : D ≤ n := hD
        rw [onBoundary_simplex hI.mesh (by omega) hk2 (by omega)]
        refine ⟨e, g', he, hg', ?_⟩
        intro v hv
        refine hfe ?_
        exact (pick_ok hwf hjx hl' (hI.mesh.verts d f (List.mem_of_getElem? hf))).2 ((hsv' v).1 hv)
      · have hDn : D ≤ n := hD
        omega
      · simp [thinTopo] at hl
      · simp [thinTopo] at hl
      · have hDn : D ≤ 2 := hD
        omega
      · simp [thinTopo] at hl

/-- C26: the element set of the segmentation is the union of the segments, each element once. -/
theorem C26_all_elements_partial {T : Topo} (hT : ClosedTopo T) {st : SegState P} (h : SegReached T st)
    (k : Nat) : (st.all k).Nodup ∧ ∀ s, s ∈ st.all k ↔ ∃ g, s ∈ st.view g k :=
  ⟨(h.inv hT.lib.wf hT.closed).allNodup k, (h.inv hT.lib.wf hT.closed).all k⟩

/-- Two triangles in two segments with a common edge. -/
def twoSegs : List (SOp Unit) :=
  [.mesh (.vertex none ()), .mesh (.vertex none ()), .mesh (.vertex none ()), .mesh (.vertex none ()),
   .make 0 (.elem 2 [0, 1, 2]), .mesh (.elem 2 [1, 2, 3]), .add 1 2 1]

example : ∃ st, SegState.empty.run (simplexTopo 2) twoSegs = some st ∧
    st.segmentIds 1 2 = [0, 1] ∧ st.segmentIds 1 0 = [0] ∧ st.view 1 1 = [2, 3, 4] ∧
    st.view 0 1 = [0, 1, 2] ∧ st.all 1 = [0, 1, 2, 3, 4] := by
  refine ⟨_, rfl, by decide, by decide, by decide, by decide, by decide⟩

example : SegReached (simplexTopo 2) (((SegState.empty.run (simplexTopo 2) twoSegs)).getD SegState.empty) := by
  refine ⟨twoSegs, ?_, rfl, ?_⟩
  · intro op hop o ho
    simp [twoSegs] at hop
    rcases hop with rfl | rfl | rfl | rfl <;> simp [SOp.creation] at ho <;> subst ho <;>
      simp [MOp.Distinct]
  · unfold UniqueVids; decide

/-- One hexahedron, created in segment 0. -/
def oneHex : List (SOp Unit) :=
  [.mesh (.vertex none ()), .mesh (.vertex none ()), .mesh (.vertex none ()), .mesh (.vertex none ()),
   .mesh (.vertex none ()), .mesh (.vertex none ()), .mesh (.vertex none ()), .mesh (.vertex none ()),
   .make 0 (.elem 3 [0, 1, 2, 3, 4, 5, 6, 7])]

/-- Two triangles, the second one is made in a segment. -/
def lateSeg : List (SOp Unit) :=
  [.mesh (.vertex none ()), .mesh (.vertex none ()), .mesh (.vertex none ()), .mesh (.vertex none ()),
   .mesh (.elem 2 [0, 1, 2]), .make 0 (.elem 2 [1, 2, 3])]

/-- Two triangles, the first one is made in a segment. -/
def earlySeg : List (SOp Unit) :=
  [.mesh (.vertex none ()), .mesh (.vertex none ()), .mesh (.vertex none ()), .mesh (.vertex none ()),
   .make 0 (.elem 2 [0, 1, 2]), .mesh (.elem 2 [1, 2, 3])]

/-- The hypotheses of `C26_queries_partial` hold for an element in no segment with a record (first part) and for one without
(second part, `C26_violated_query`): a triangle made before the one in the segment. -/
example : ∃ st, SegState.empty.run (simplexTopo 2) lateSeg = some st ∧
      SegReached (simplexTopo 2) st ∧ HasRecord st 2 0 ∧ st.queryIn 0 2 0 = some false ∧ st.queryIds 2 0 = some [] :=
  ⟨_, rfl, ⟨lateSeg, by simp [lateSeg, SOp.creation, MOp.Distinct], rfl, by unfold UniqueVids; decide⟩, ⟨0, 1, by decide, by decide⟩,
    by decide, by decide⟩

/-- C26 is violated: for an element in no segment whose id is larger than those of the elements in segments, neither
query is defined: a triangle made after another one was added to a segment. -/
theorem C26_violated_query :
    ∃ st, SegState.empty.run (simplexTopo 2) earlySeg = some st ∧
      SegReached (simplexTopo 2) st ∧ st.mesh.count 2 = 2 ∧ st.view 0 2 = [0] ∧ st.queryIn 0 2 0 = some true ∧
      st.queryIn 0 2 1 = none ∧ st.queryIds 2 1 = none :=
  ⟨_, rfl, ⟨earlySeg, by simp [earlySeg, SOp.creation, MOp.Distinct], rfl, by unfold UniqueVids; decide⟩, by decide, by decide, by decide,
    by decide, by decide⟩

/-- C26, violated for hexahedra (because of the wrong edge of C07): the edge (2,6) of a facet of the
hexahedron is listed in the segment the hexahedron was created in, but its record says that it is in
no segment. -/
theorem C26_violated_hexahedron :
    ∃ st e, SegState.empty.run (cubeTopo 3) oneHex = some st ∧
      (st.mesh.elems 1)[12]? = some e ∧ e.verts = [2, 6] ∧
      12 ∈ st.view 0 1 ∧ st.isIn 0 1 12 = false ∧ 12 ∉ st.all 1 := by
  refine ⟨_, _, rfl, rfl, by decide +kernel, by decide +kernel, by decide +kernel, by decide +kernel⟩

/-- C26: for hexahedra (and quadrilaterals and lines) everything except the edges is right: the list of the segment, the
record of the element and the list of all elements. -/
theorem C26_hexahedra_partial {n : Nat} {st : SegState P} (h : SegReached (cubeTopo n) st) (g : Nat) {k : Nat} (hk : k ≠ 1) :
    ((st.view g k).Nodup ∧ ∀ s, s ∈ st.view g k ↔ Belongs (cubeTopo n) st g k s) ∧
    (∀ s, s < st.mesh.count k → (st.isIn g k s = true ↔ s ∈ st.view g k)) ∧
    ((st.all k).Nodup ∧ ∀ s, s ∈ st.all k ↔ ∃ g, s ∈ st.view g k) := by
  have hwf := cubeTopo_wf n
  have hI := h.invOn hwf (cubeTopo_closedOn n)
  obtain ⟨_, _, _, hu⟩ := h
  refine ⟨⟨hI.nodup g k, fun s => ?_⟩, fun s hs => hI.isIn hu hk hs, ⟨hI.allNodup k, fun s => hI.all k s hk⟩⟩
  rw [hI.view g k s hk]
  unfold Belongs Closure
  constructor
  · rintro ⟨⟨d, t⟩, h1, h2⟩
    exact ⟨d, t, h1, h2.imp id (mem_bndOf_iff hwf hI.mesh (hI.valid g _ h1).1).1⟩
  · rintro ⟨d, t, h1, h2⟩
    exact ⟨(d, t), h1, h2.imp id (mem_bndOf_iff hwf hI.mesh (hI.valid g _ h1).1).2⟩

example : ∃ st, SegState.empty.run (cubeTopo 3) oneHex = some st ∧ SegReached (cubeTopo 3) st ∧
    st.view 0 2 = [0, 1, 2, 3, 4, 5] ∧ st.view 0 3 = [0] ∧ (st.view 0 0).length = 8 := by
  refine ⟨_, rfl, ⟨oneHex, ?_, rfl, ?_⟩, by decide +kernel, by decide +kernel, by decide +kernel⟩
  · intro op hop o ho
    simp [oneHex] at hop
    rcases hop with rfl | rfl <;> simp [SOp.creation] at ho <;> subst ho <;> simp [MOp.Distinct]
  · unfold UniqueVids; decide +kernel

/-! ### C27 -/

/-- C27, violated for every state, segment and element: `erase(segment, element)` never removes the
element itself. -/
theorem C27_element_stays {T : Topo} (hT : ClosedTopo T) {st : SegState P} (h : SegReached T st)
    {g k s : Nat} (hs : s ∈ st.view g k) :
    s ∈ (st.eraseElem T g k s).view g k ∧ (st.eraseElem T g k s).isIn g k s = true := by
  have hI := h.inv hT.lib.wf hT.closed
  unfold SegState.eraseElem SegState.isIn
  rw [eraseAll_mesh]
  constructor
  · rw [eraseAll_view g _ st (hI.nodup g)]
    refine ⟨hs, fun _ hm => ?_⟩
    have := (mem_marked.1 hm).2.1
    omega
  · rw [decide_eq_true_eq, eraseAll_segs g _ st hI.segsNodup]
    refine ⟨(hI.segs _ _ _).2 ⟨s, hs, rfl⟩, ?_⟩
    rintro - ⟨d, t⟩ hx ⟨h1, _⟩
    have := (mem_marked.1 hx).2.1
    simp only at h1
    omega

/-- A concrete case: the first triangle of two segments is erased from its segment and is still there. -/
example : ∃ st, SegState.empty.run (simplexTopo 2) twoSegs = some st ∧ 0 ∈ st.view 0 2 ∧
    0 ∈ (st.eraseElem (simplexTopo 2) 0 2 0).view 0 2 := by
  refine ⟨_, rfl, by decide, by decide⟩

/-- C27, partial: after `erase(segment, e)` no element of the segment has `e` on its boundary, all
other elements of the segment stay, other segments and the mesh are not changed, and the records of
the elements agree.  Missing: `e` itself (`C27_element_stays`). -/
theorem C27_referencing_elements_partial {T : Topo} (hT : ClosedTopo T) {st : SegState P}
    (h : SegReached T st) (g k s : Nat) :
    let st' := st.eraseElem T g k s
    st'.mesh = st.mesh ∧
    (∀ d t, k < d → d ≤ T.cellDim →
      (t ∈ st'.view g d ↔ t ∈ st.view g d ∧ ¬ OnBoundary T st.mesh k s d t)) ∧
    (∀ d t, d ≤ k → (t ∈ st'.view g d ↔ t ∈ st.view g d)) ∧
    (∀ g' d t, g' ≠ g → (t ∈ st'.view g' d ↔ t ∈ st.view g' d)) ∧
    (∀ g' d t, d ≤ T.cellDim → t < st.mesh.count d →
      (st'.isIn g' d t = true ↔ t ∈ st'.view g' d)) := by
  intro st'
  have hI := h.inv hT.lib.wf hT.closed
  obtain ⟨_, _, _, hu⟩ := h
  have hmesh : st'.mesh = st.mesh := eraseAll_mesh g _ st
  have hview : ∀ g' d t, t ∈ st'.view g' d ↔
      t ∈ st.view g' d ∧ (g' = g → (d, t) ∉ st.marked T g k s) :=
    fun g' d t => eraseAll_view g _ st (hI.nodup g) g' d t
  refine ⟨hmesh, ?_, ?_, ?_, ?_⟩
  · intro d t hkd hd
    rw [hview, mem_marked, mem_bndOf_iff hT.lib.wf hI.mesh hd]
    constructor
    · rintro ⟨h1, h2⟩
      exact ⟨h1, fun h3 => h2 rfl ⟨hd, hkd, h1, h3⟩⟩
    · rintro ⟨h1, h2⟩
      exact ⟨h1, fun _ h3 => h2 h3.2.2.2⟩
  · intro d t hdk
    rw [hview, mem_marked]
    constructor
    · exact fun h => h.1
    · exact fun h1 => ⟨h1, fun _ h2 => by have := h2.2.1; omega⟩
  · intro g' d t hg
    rw [hview]
    constructor
    · exact fun h => h.1
    · exact fun h1 => ⟨h1, fun h2 => absurd h2 hg⟩
  · intro g' d t _ ht
    unfold SegState.isIn
    rw [decide_eq_true_eq, hmesh, hview]
    refine (eraseAll_segs g (st.marked T g k s) st hI.segsNodup d (st.mesh.eid d t) g').trans ?_
    rw [hI.segs]
    constructor
    · rintro ⟨⟨u, hu1, hu2⟩, h2⟩
      have e := eid_inj hI.mesh hu ht (hI.view_lt hu1) hu2
      subst e
      exact ⟨hu1, fun hg hm => h2 hg _ hm ⟨rfl, rfl⟩⟩
    · rintro ⟨h1, h2⟩
      refine ⟨⟨t, h1, rfl⟩, ?_⟩
      rintro hg ⟨d', u⟩ hx ⟨rfl, he⟩
      have hxm := mem_marked.1 hx
      have e := eid_inj hI.mesh hu ht (hI.view_lt hxm.2.2.1) he
      subst e
      exact h2 hg hx

/-- A concrete case: erasing the common edge from segment 1 removes the triangle of segment 1 only. -/
example : ∃ st, SegState.empty.run (simplexTopo 2) twoSegs = some st ∧ st.view 1 2 = [1] ∧
    (st.eraseElem (simplexTopo 2) 1 1 2).view 1 2 = [] ∧
    (st.eraseElem (simplexTopo 2) 1 1 2).view 0 2 = [0] := by
  refine ⟨_, rfl, by decide, by decide, by decide⟩

/-! ### C29 -/

/-- C29, violated: after `segmentation.clear()` the element set of the segmentation still lists the
elements of the former segments, although no segment has them. -/
theorem C29_violated_all_elements :
    ∃ st, SegState.empty.run (simplexTopo 2) twoSegs = some st ∧
      st.clearAll.all 2 = [0, 1] ∧ ∀ g d, st.clearAll.view g d = [] := by
  refine ⟨_, rfl, by decide, fun _ _ => rfl⟩

/-! ### C60 -/

/-- C60, violated for every element: after `clear(segment)` no element is listed in the segment, but
each element which was listed still has it in its record, and is still in the element set of the
segmentation. -/
theorem C60_violated {T : Topo} (hT : ClosedTopo T) {st : SegState P} (h : SegReached T st)
    {g k s : Nat} (hs : s ∈ st.view g k) :
    (st.clearSegment g).view g k = [] ∧ (st.clearSegment g).isIn g k s = true ∧
    s ∈ (st.clearSegment g).all k := by
  have hI := h.inv hT.lib.wf hT.closed
  refine ⟨by simp [SegState.clearSegment], ?_, (hI.all k s).2 ⟨g, hs⟩⟩
  exact (C26_is_in_segment_partial hT h (hI.view_lt hs)).2 hs

example : ∃ st, SegState.empty.run (simplexTopo 2) twoSegs = some st ∧ 0 ∈ st.view 0 2 := by
  refine ⟨_, rfl, by decide⟩

/-- C60, partial: `clear(segment)` empties the list of the segment, and leaves the lists and records of
other segments and the mesh unchanged.  Missing: the records of the elements of the segment. -/
theorem C60_clear_segment_partial (st : SegState P) (g : Nat) :
    (st.clearSegment g).mesh = st.mesh ∧ (∀ k, (st.clearSegment g).view g k = []) ∧
    ∀ g', g' ≠ g → ∀ k, (st.clearSegment g).view g' k = st.view g' k ∧
      ∀ s, (st.clearSegment g).isIn g' k s = st.isIn g' k s := by
  refine ⟨rfl, by simp [SegState.clearSegment], ?_⟩
  intro g' hg k
  exact ⟨by simp [SegState.clearSegment, hg], fun s => rfl⟩

/-! ### C30 -/

/-- C30 for arbitrary lists: equality up to order, with multiplicity. -/
theorem C30_equal_iff_count (a b : List Nat) :
    segIdsEqual a b = true ↔ ∀ g, a.count g = b.count g := by
  rw [← List.perm_iff_count]
  unfold segIdsEqual
  constructor
  · intro h
    split at h
    · cases h
    · rw [beq_iff_eq] at h
      exact (List.perm_insertionSort (· ≤ ·) a).symm.trans (h ▸ List.perm_insertionSort (· ≤ ·) b)
  · intro h
    rw [if_neg (by simp [h.length_eq]), beq_iff_eq]
    refine List.Perm.eq_of_pairwise (le := (· ≤ ·)) (fun _ _ _ _ h1 h2 => Nat.le_antisymm h1 h2)
      (List.pairwise_insertionSort _ a) (List.pairwise_insertionSort _ b) ?_
    exact ((List.perm_insertionSort (· ≤ ·) a).trans h).trans (List.perm_insertionSort (· ≤ ·) b).symm

/-- C30: `is_equal` for two elements holds iff they are in the same segments. -/
theorem C30_same_segments {T : Topo} (hT : ClosedTopo T) {st : SegState P} (h : SegReached T st)
    {k s k' s' : Nat} (hs : s < st.mesh.count k) (hs' : s' < st.mesh.count k') :
    segIdsEqual (st.segmentIds k s) (st.segmentIds k' s') = true ↔
      ∀ g, s ∈ st.view g k ↔ s' ∈ st.view g k' := by
  obtain ⟨h1, h2⟩ := C26_segment_ids_partial hT h hs
  obtain ⟨h3, h4⟩ := C26_segment_ids_partial hT h hs'
  rw [C30_equal_iff_count, ← List.perm_iff_count, List.perm_ext_iff_of_nodup h1 h3]
  refine forall_congr' (fun g => ?_)
  rw [h2, h4]

example : segIdsEqual [3, 1, 2] [2, 3, 1] = true ∧ segIdsEqual [1, 1, 2] [1, 2, 2] = false := by decide

end VG
