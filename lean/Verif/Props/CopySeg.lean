import Verif.Lemmas.CopySeg
import Verif.Props.Copy
import Verif.Props.Segments
import Verif.Props.Interface

/-!
C63 copying a mesh with its segments, C64 extracting the boundary of all segments.
-/

namespace VG

variable {P N : Type}

theorem CInv.madeOf {T : Topo} {src : Mesh P} {used : List Nat} {L : List (List Nat)} {c : CopySt P}
    (h2 : CInv T src used L c) (h3 : ∀ vs ∈ L, vs ⊆ used) (h4 : ∀ w ∈ used, ∃ vs ∈ L, w ∈ vs)
    (hL : ∀ vs ∈ L, ∀ v ∈ vs, v < src.verts.length) : MadeOf T src L c.dst := by
  refine ⟨fun v => used.idxOf v, ?_, ?_, ?_, h2.cells⟩
  · rintro v w ⟨vs, hvs, hv⟩ ⟨ws, hws, hw⟩ he
    have e1 := List.getElem_idxOf (List.idxOf_lt_length_iff.2 (h3 vs hvs hv))
    have e2 := List.getElem_idxOf (List.idxOf_lt_length_iff.2 (h3 ws hws hw))
    simp only at he
    rw [← e1, ← e2]; simp only [he]
  · intro i
    rw [h2.len]
    constructor
    · intro hi
      obtain ⟨vs, hvs, hv⟩ := h4 used[i] (List.getElem_mem hi)
      exact ⟨vs, hvs, _, hv, h2.nodup.idxOf_getElem i hi⟩
    · rintro ⟨vs, hvs, v, hv, rfl⟩
      exact List.idxOf_lt_length_iff.2 (h3 vs hvs hv)
  · intro vs hvs v hv
    have hlt := List.idxOf_lt_length_iff.2 (h3 vs hvs hv)
    have hp := h2.pts (used.idxOf v) v (by rw [List.getElem?_eq_getElem hlt, List.getElem_idxOf])
    have hv' := hL vs hvs v hv
    unfold Mesh.ptOf at hp
    have hb := List.getElem?_eq_getElem hv'
    have ha := List.getElem?_eq_getElem (l := c.dst.verts) (by rw [h2.len]; exact hlt)
    refine ⟨_, _, ha, hb, ?_⟩
    rw [ha, hb] at hp
    simpa using hp

theorem onBoundary_irrefl {T : Topo} (hT : T.WF) {m : Mesh P} {d s t : Nat} (hd : 1 ≤ d) :
    ¬ OnBoundary T m d s d t := by
  unfold OnBoundary
  rw [if_neg (by omega)]
  rintro ⟨e, f, idxs, ix, _, _, h, _⟩
  have := (hT.dim d _ d idxs h).2
  omega

/-! ### C63 -/

variable [DecidableEq N]

/-- Specification: the cell with number `i` of the copy comes from the cell `t`, which is the `i`-th of the
accepted ones. -/
def CopyOf (T : Topo) (src : SegState P) (sel : Nat → Bool) (i t : Nat) : Prop :=
  ((List.range (src.mesh.count T.cellDim)).filter sel)[i]? = some t

/-- C63.  The full statement, that the copy has the same segments (ids, names, elements), is false (see
below).  Proved, for simplices and quadrilaterals, any source reached by creations and additions, any
predicate accepting only cells with a record (`HasRecord`), and a destination whose segmentation has never listed an element nor used the names of the ids
needed: the copy succeeds; the mesh is made of the accepted cells; each copied cell is in the same segments
as the original; an element is in a segment iff a copied cell of this segment has it on its boundary (or is it);
the segments present are those of the accepted cells, with numbers as names. -/
theorem C63_copy_partial {nm : Int → N} (hnm : Function.Injective nm) {T : Topo} (hT : ClosedTopo T)
    (hn : 1 ≤ T.cellDim) {src dst : SegMesh P N} (hs : SegReached T src.st) (sel : Nat → Bool)
    (hall : dst.st.all = fun _ => [])
    (hrec : ∀ t < src.st.mesh.count T.cellDim, sel t = true → HasRecord src.st T.cellDim t)
    (hfree : ∀ t < src.st.mesh.count T.cellDim, ∀ g ∈ src.st.segmentIds T.cellDim t, dst.reg.names (nm (g : Int)) = none) :
    ∃ o, copySeg nm T src sel dst = .ok o ∧
      MadeOf T src.st.mesh (((List.range (src.st.mesh.count T.cellDim)).filter sel).map (src.st.mesh.vertsOf T.cellDim))
        o.st.mesh ∧
      BuiltCells T o.st.mesh ∧
      (∀ i t, CopyOf T src.st sel i t → ∀ g, g ∈ o.st.segmentIds T.cellDim i ↔ g ∈ src.st.segmentIds T.cellDim t) ∧
      (∀ g k s, s ∈ o.st.view g k ↔ ∃ i t, CopyOf T src.st sel i t ∧ g ∈ src.st.segmentIds T.cellDim t ∧
        ((k = T.cellDim ∧ s = i) ∨ OnBoundary T o.st.mesh k s T.cellDim i)) ∧
      (∀ id n, (id, n) ∈ o.reg.segs ↔
        ∃ i t, CopyOf T src.st sel i t ∧ ∃ g ∈ src.st.segmentIds T.cellDim t, id = (g : Int) ∧ n = nm (g : Int)) := by
  have hI := hs.inv hT.lib.wf hT.closed
  have hu : UniqueVids src.st.mesh := hs.choose_spec.2.2
  have hc : src.st.mesh.count T.cellDim = (src.st.mesh.elems T.cellDim).length := by
    unfold Mesh.count; rw [if_neg (by omega)]
  have hv : ∀ t ∈ (List.range (src.st.mesh.count T.cellDim)).filter sel, (src.st.mesh.vertsOf T.cellDim t).Nodup ∧
      T.Arity T.cellDim (src.st.mesh.vertsOf T.cellDim t).length ∧
      ∀ v ∈ src.st.mesh.vertsOf T.cellDim t, v < src.st.mesh.verts.length := by
    intro t ht
    have ht' := (List.mem_filter.1 ht).1
    rw [List.mem_range, hc] at ht'
    have : src.st.mesh.vertsOf T.cellDim t = ((src.st.mesh.elems T.cellDim)[t]).verts := by
      unfold Mesh.vertsOf
      rw [List.getD_eq_getElem _ _ (by rw [List.length_map]; exact ht')]
      simp
    rw [this]
    exact hI.mesh.verts T.cellDim _ (List.getElem_mem ht')
  obtain ⟨c, used, e, i⟩ := copySegCells_spec hnm hT.lib.wf hn hu (SCInv.start nm T src.st dst hall) hv (by
    intro t ht
    have ht' := List.mem_filter.1 ht
    exact (hasRecord_iff hT hs).2 (hrec t (List.mem_range.1 ht'.1) ht'.2)) (by
    intro t ht g hg
    have ht' := List.mem_range.1 (List.mem_filter.1 ht).1
    simp only [not_not]
    exact hfree t ht' g hg)
  rw [List.nil_append] at i
  have hcells : c.out.st.mesh.count T.cellDim = ((List.range (src.st.mesh.count T.cellDim)).filter sel).length := by
    have h1 := congrArg List.length i.cp.cells
    have h2 : c.out.st.mesh.count T.cellDim = (c.out.st.mesh.elems T.cellDim).length := by
      unfold Mesh.count; rw [if_neg (by omega)]
    rw [h2]
    simpa only [List.length_map] using h1
  have hview : ∀ g k s, s ∈ c.out.st.view g k ↔ ∃ i t, CopyOf T src.st sel i t ∧ g ∈ src.st.segmentIds T.cellDim t ∧
        ((k = T.cellDim ∧ s = i) ∨ OnBoundary T c.out.st.mesh k s T.cellDim i) := by
    intro g k s
    rw [(C26_content_partial hT i.reached g k).2]
    unfold Belongs
    constructor
    · rintro ⟨d, t, h1, h2⟩
      obtain ⟨j, t', h3, h4, h5⟩ := (i.added g _).1 h1
      simp only [Prod.mk.injEq] at h5
      rw [h5.1, h5.2] at h2
      exact ⟨j, t', h3, h4, h2⟩
    · rintro ⟨j, t', h3, h4, h5⟩
      exact ⟨T.cellDim, j, (i.added g _).2 ⟨j, t', h3, h4, rfl⟩, h5⟩
  refine ⟨c.out, by simp only [copySeg, e]; rfl, ?_, i.cp.built, ?_, hview, ?_⟩
  · refine i.cp.madeOf ?_ ?_ ?_
    · intro vs hvs
      obtain ⟨t, ht, rfl⟩ := List.mem_map.1 hvs
      exact i.sub t ht
    · intro w hw
      obtain ⟨t, ht, hw'⟩ := i.back w hw
      exact ⟨_, List.mem_map.2 ⟨t, ht, rfl⟩, hw'⟩
    · intro vs hvs
      obtain ⟨t, ht, rfl⟩ := List.mem_map.1 hvs
      exact (hv t ht).2.2
  · intro j t hjt g
    have hj : j < c.out.st.mesh.count T.cellDim := by
      rw [hcells]; exact (List.getElem?_eq_some_iff.1 hjt).1
    rw [(C26_segment_ids_partial hT i.reached hj).2 g, hview]
    constructor
    · rintro ⟨j', t', h1, h2, h3⟩
      have hjj : j = j' := by
        rcases h3 with h3 | h3
        · exact h3.2
        · exact absurd h3 (onBoundary_irrefl hT.lib.wf hn)
      subst hjj
      unfold CopyOf at h1 hjt
      rw [hjt] at h1
      rw [Option.some.inj h1]; exact h2
    · intro hg
      exact ⟨j, t, hjt, hg, Or.inl ⟨rfl, rfl⟩⟩
  · intro id n
    rw [i.segs]
    constructor
    · rintro ⟨t, ht, g, hg, h⟩
      obtain ⟨j, hj⟩ := List.mem_iff_getElem?.1 ht
      simp only [Prod.mk.injEq] at h
      exact ⟨j, t, hj, g, hg, h⟩
    · rintro ⟨j, t, hj, g, hg, h1, h2⟩
      exact ⟨t, List.mem_of_getElem? hj, g, hg, by rw [h1, h2]⟩

/-! #### The violations -/

/-- Numbers as names of ids, and letters. -/
abbrev segNm : Int → Sum Int Char := Sum.inl

/-- A triangle in a segment with the name `b` (made by `segmentation["b"]`); a second segment holds one edge of it. -/
def namedSrc : SegMesh Unit (Sum Int Char) :=
  ⟨(SegState.empty.run (simplexTopo 2) [.mesh (.vertex none ()), .mesh (.vertex none ()), .mesh (.vertex none ()),
      .make 0 (.elem 2 [0, 1, 2]), .add 1 1 0]).getD SegState.empty,
   (Reg.empty.run segNm [.getName (Sum.inr 'b'), .make]).1⟩

theorem namedSrc_reached : SegReached (simplexTopo 2) namedSrc.st :=
  ⟨[.mesh (.vertex none ()), .mesh (.vertex none ()), .mesh (.vertex none ()),
      .make 0 (.elem 2 [0, 1, 2]), .add 1 1 0], by simp [SOp.creation, MOp.Distinct], rfl, by unfold UniqueVids; decide⟩

/-- C63 is violated: the copy of a segmented mesh into an empty one loses the name of the segment and the segment
that contains no cell. -/
theorem C63_violated_names :
    namedSrc.reg.segs = [(0, Sum.inr 'b'), (1, Sum.inl 1)] ∧ namedSrc.st.view 1 1 = [0] ∧
    ∃ o, copySeg segNm (simplexTopo 2) namedSrc (fun _ => true) SegMesh.empty = .ok o ∧
      o.reg.segs = [(0, Sum.inl 0)] ∧ o.st.view 1 1 = [] :=
  ⟨by decide, by decide, _, rfl, by decide, by decide⟩

/-- C63 is violated: assigning a segmented mesh twice to the same object throws the second time, although the
object is cleared first. -/
theorem C63_violated_again :
    ∃ o, copySeg segNm (simplexTopo 2) namedSrc (fun _ => true) SegMesh.empty = .ok o ∧
      copySeg segNm (simplexTopo 2) namedSrc (fun _ => true) o = .error .thrown :=
  ⟨_, rfl, rfl⟩

/-- C63 is violated: after the assignment of an empty segmented mesh the view of all segmented elements still
lists elements, although no segment and no element exists. -/
theorem C63_violated_all :
    ∃ o, copySeg segNm (simplexTopo 2) namedSrc (fun _ => true) SegMesh.empty = .ok o ∧
      ∃ o', copySeg segNm (simplexTopo 2) SegMesh.empty (fun _ => true) o = .ok o' ∧
        o'.st.mesh.count 2 = 0 ∧ o'.st.all 2 = [0] :=
  ⟨_, rfl, _, rfl, by decide, by decide⟩

/-- C63 is violated: assigning a segmented mesh to itself removes all its elements and segments, whatever the mesh. -/
theorem C63_violated_self (nm : Int → N) (T : Topo) (s : SegMesh P N) :
    ∃ o, copySegSelf nm T s (fun _ => true) = .ok o ∧ (∀ d, o.st.mesh.count d = 0) ∧ (∀ g d, o.st.view g d = []) ∧
      o.reg.segs = [] := by
  have hc : ∀ d, s.cleared.st.mesh.count d = 0 := fun d => by
    unfold SegMesh.cleared Mesh.count Mesh.empty
    by_cases h : d = 0 <;> simp [h]
  refine ⟨s.cleared, ?_, hc, fun _ _ => rfl, rfl⟩
  unfold copySegSelf
  rw [hc]
  rfl

/-- C63 is violated: copying a mesh in which the last cell is in no segment is undefined, as the segments of this cell are
asked for (`C26_violated_query`). -/
theorem C63_violated_no_segment :
    ∃ st : SegState Unit, SegReached (simplexTopo 2) st ∧ st.mesh.count 2 = 2 ∧ st.view 0 2 = [0] ∧
      copySeg segNm (simplexTopo 2) ⟨st, (Reg.empty.run segNm [.make]).1⟩ (fun _ => true) SegMesh.empty = .error .undefined :=
  ⟨(SegState.empty.run (simplexTopo 2) earlySeg).getD SegState.empty,
    ⟨earlySeg, by simp [earlySeg, SOp.creation, MOp.Distinct], rfl, by unfold UniqueVids; decide⟩, by decide, by decide, rfl⟩

/-- C63 is violated: a mesh with cells and no segments cannot be assigned: undefined, whatever the mesh. -/
theorem C63_violated_no_segments {nm : Int → N} {T : Topo} {src dst : SegMesh P N} (hr : ∀ d, src.st.recs d = 0)
    (hc : 0 < src.st.mesh.count T.cellDim) : copySeg nm T src (fun _ => true) dst = .error .undefined := by
  unfold copySeg
  have h1 : (List.range (src.st.mesh.count T.cellDim)).filter (fun _ => true) =
      0 :: (List.range' 1 (src.st.mesh.count T.cellDim - 1)) := by
    rw [List.filter_true, List.range_eq_range']
    obtain ⟨n, hn⟩ := Nat.exists_eq_succ_of_ne_zero (Nat.pos_iff_ne_zero.1 hc)
    rw [hn]; rfl
  have h2 : ∀ c : CopySegSt P N, copySegCell nm T src c 0 = .error .undefined := by
    intro c
    unfold copySegCell SegState.queryIds SegState.recorded
    rw [hr]
    split
    · rfl
    · split
      · rfl
      · simp
  rw [h1]
  simp only [copySegCells, h2]
  rfl

/-- The case of a triangle with a segment. -/
example : namedSrc.st.mesh.count 2 = 1 ∧ namedSrc.st.view 0 2 = [0] ∧
    ∃ o, copySegSelf segNm (simplexTopo 2) namedSrc (fun _ => true) = .ok o ∧ o.st.mesh.count 2 = 0 :=
  ⟨by decide, by decide, _, rfl, by decide⟩

/-- The hypotheses of `C63_copy_partial` hold for this source and an empty destination. -/
example : ∃ o, copySeg segNm (simplexTopo 2) namedSrc (fun _ => true) SegMesh.empty = .ok o ∧
    (∀ g, g ∈ o.st.segmentIds 2 0 ↔ g ∈ namedSrc.st.segmentIds 2 0) ∧ namedSrc.st.segmentIds 2 0 = [0] ∧
    o.st.view 0 1 = [0, 1, 2] := by
  obtain ⟨o, h, _, _, h2, _⟩ := C63_copy_partial (nm := segNm) (fun _ _ h => Sum.inl.inj h) (Or.inl ⟨2, rfl⟩) (by decide)
    namedSrc_reached (fun _ => true) (dst := SegMesh.empty) rfl
    (fun t ht _ => ⟨0, 0, by decide, by
      have h1 : namedSrc.st.mesh.count 2 = 1 := by decide
      have h0 : t = 0 := by have ht' : t < namedSrc.st.mesh.count 2 := ht; omega
      subst h0; decide⟩) (fun _ _ _ _ => rfl)
  refine ⟨o, h, h2 0 0 (by unfold CopyOf; decide), by decide, ?_⟩
  have : copySeg segNm (simplexTopo 2) namedSrc (fun _ => true) SegMesh.empty = .ok _ := rfl
  rw [this] at h
  cases h
  decide

/-! ### C64 -/

/-- Facets which `is_boundary(segment, facet)` accepts, in terms of the cells of the segment: an odd number of
cells of the segment has the facet (for segments without facets of three or more cells: exactly one,
`C64_manifold`). -/
def OddCells (T : Topo) (st : IState P) (g f : Nat) : Prop :=
  f ∈ (st.seg g).content (T.cellDim - 1) ∧
  ∃ cs : List Nat, cs.Nodup ∧ (∀ c, c ∈ cs ↔ c ∈ (st.seg g).content T.cellDim ∧ UsedBy T st.mesh f c) ∧ cs.length % 2 = 1

theorem oddCells_iff {T : Topo} (hT : LibTopo T) {st : IState P} (hI : IInv T st) {g f : Nat} :
    OddCells T st g f ↔ f ∈ (st.seg g).content (T.cellDim - 1) ∧ numCellsV T st.mesh (st.seg g).content f % 2 = 1 := by
  have hb : ∀ c, f ∈ st.mesh.bndOf T.cellDim c (T.cellDim - 1) ↔ UsedBy T st.mesh f c := fun c =>
    mem_bndOf_iff hT.wf hI.inv (le_refl _)
  have hnd := List.Nodup.filter (fun t => decide (f ∈ st.mesh.bndOf T.cellDim t (T.cellDim - 1)))
    ((hI.seg g).nodup T.cellDim)
  refine and_congr_right (fun _ => ?_)
  unfold numCellsV
  constructor
  · rintro ⟨cs, h1, h2, h3⟩
    refine (congrArg (· % 2) (List.Perm.length_eq ?_)).trans h3
    refine (List.perm_ext_iff_of_nodup hnd h1).2 (fun x => ?_)
    simp only [List.mem_filter, decide_eq_true_eq, hb, h2]
  · intro h
    exact ⟨_, hnd, fun c => by simp only [List.mem_filter, decide_eq_true_eq, hb], h⟩

/-- C64.  The full statement is for all hulls; false if the names of the segments are taken (see below).  Proved,
for histories in which cells are added to segments (with any queries in between, `IReached T false`), any list
of segments, and a hull segmentation which has never listed an element nor used the names of these segments: the
extraction succeeds; the hull mesh is made of the facets on the boundary of a segment, each once; a hull cell is in
the segment `g` of the hull iff its facet is on the boundary of the segment `g` of the volume; lower elements are in a
hull segment iff they are on such a cell; the segments of the hull are those of the volume. -/
theorem C64_hull_partial {nm : Int → N} (hnm : Function.Injective nm) {T T' : Topo} (hT : LibTopo T) (hT' : ClosedTopo T')
    (hd : T'.cellDim + 1 = T.cellDim) (hn : 1 ≤ T'.cellDim) (hnv : T'.nv T'.cellDim = T.nv T'.cellDim) {st : IState P}
    (h : IReached T false st) (gs : List Nat) {hull : SegMesh P N} (hall : hull.st.all = fun _ => [])
    (hfree : ∀ g ∈ gs, hull.reg.names (nm (g : Int)) = none) :
    ∃ (o : SegMesh P N) (fs : List Nat), extractBoundarySeg nm T T' st gs hull = .ok o ∧ fs.Nodup ∧
      (∀ f, f ∈ fs ↔ ∃ g ∈ gs, OddCells T st g f) ∧
      MadeOf T' st.mesh (fs.map (st.mesh.vertsOf (T.cellDim - 1))) o.st.mesh ∧ BuiltCells T' o.st.mesh ∧
      (∀ (i f : Nat), fs[i]? = some f → ∀ g, g ∈ o.st.segmentIds T'.cellDim i ↔ g ∈ gs ∧ OddCells T st g f) ∧
      (∀ g k s, s ∈ o.st.view g k ↔ ∃ i f : Nat, fs[i]? = some f ∧ g ∈ gs ∧ OddCells T st g f ∧
        ((k = T'.cellDim ∧ s = i) ∨ OnBoundary T' o.st.mesh k s T'.cellDim i)) ∧
      (∀ id n, (id, n) ∈ o.reg.segs ↔ ∃ g ∈ gs, id = (g : Int) ∧ n = nm (g : Int)) := by
  have hn' : 1 ≤ T.cellDim := by omega
  have hI := h.inv hT.wf hn'
  obtain ⟨_, _, _, _, hu⟩ := h
  have hF : T.cellDim - 1 = T'.cellDim := by omega
  have hpair : ∀ g f, (g, f) ∈ hullPairs T st gs ↔ g ∈ gs ∧ OddCells T st g f := by
    intro g f
    unfold hullPairs
    simp only [List.mem_flatMap, List.mem_map, Prod.mk.injEq]
    have hcol : ∀ g f, f ∈ (collectFacets T st.mesh (st.seg g) ((st.seg g).content (T.cellDim - 1))).2 ↔ OddCells T st g f := by
      intro g f
      rw [oddCells_iff hT hI]
      exact (collectFacets_spec hT.wf hI.inv hu _ (hI.seg g) (fun f hf => hf)).2.2.2 f
    constructor
    · rintro ⟨g', hg', f', hf', rfl, rfl⟩
      exact ⟨hg', (hcol _ _).1 hf'⟩
    · rintro ⟨hg, hf⟩
      exact ⟨g, hg, f, (hcol _ _).2 hf, rfl, rfl⟩
  have hok : ∀ x ∈ hullPairs T st gs, FacetOK T T' st.mesh x.2 := by
    rintro ⟨g, f⟩ hx
    have hf := ((hpair g f).1 hx).2.1
    have hlt := (hI.seg g).valid _ f hf
    have hc : st.mesh.count (T.cellDim - 1) = (st.mesh.elems T'.cellDim).length := by
      unfold Mesh.count; rw [if_neg (by omega), hF]
    refine ⟨hlt, ?_⟩
    rw [hc] at hlt
    have : st.mesh.vertsOf (T.cellDim - 1) f = ((st.mesh.elems T'.cellDim)[f]).verts := by
      unfold Mesh.vertsOf
      rw [hF, List.getD_eq_getElem _ _ (by rw [List.length_map]; exact hlt)]
      simp
    rw [this]
    obtain ⟨h1, h2, h3⟩ := hI.inv.verts T'.cellDim _ (List.getElem_mem hlt)
    exact ⟨h1, Or.inl ((h2.lower (by omega)).trans hnv.symm), h3⟩
  obtain ⟨c, used, fs, e, i, hreg⟩ := hullSegs_spec hnm hT'.lib.wf hn hI.inv hu (gs := gs)
    (HInv.start nm T T' st.mesh hull hall) (by simp) hok (fun g hg => by simp only [not_not]; exact hfree g hg)
  rw [List.nil_append] at i
  have hmem : ∀ f, f ∈ fs ↔ ∃ g ∈ gs, OddCells T st g f := by
    intro f
    rw [i.seen]
    exact exists_congr (fun g => hpair g f)
  have hview : ∀ g k s, s ∈ c.out.st.view g k ↔ ∃ i f : Nat, fs[i]? = some f ∧ g ∈ gs ∧ OddCells T st g f ∧
        ((k = T'.cellDim ∧ s = i) ∨ OnBoundary T' c.out.st.mesh k s T'.cellDim i) := by
    intro g k s
    rw [(C26_content_partial hT' i.reached g k).2]
    unfold Belongs
    constructor
    · rintro ⟨d, t, h1, h2⟩
      obtain ⟨j, f, h3, h4, h5⟩ := (i.added g _).1 h1
      simp only [Prod.mk.injEq] at h5
      rw [h5.1, h5.2] at h2
      exact ⟨j, f, h3, ((hpair g f).1 h4).1, ((hpair g f).1 h4).2, h2⟩
    · rintro ⟨j, f, h3, h4, h4', h5⟩
      exact ⟨T'.cellDim, j, (i.added g _).2 ⟨j, f, h3, (hpair g f).2 ⟨h4, h4'⟩, rfl⟩, h5⟩
  refine ⟨c.out, fs, by simp only [extractBoundarySeg, e]; rfl, i.nodup, hmem, ?_, i.cp.built, ?_, hview, ?_⟩
  · refine i.cp.madeOf ?_ ?_ ?_
    · intro vs hvs
      obtain ⟨t, ht, rfl⟩ := List.mem_map.1 hvs
      exact i.sub t ht
    · intro w hw
      obtain ⟨t, ht, hw'⟩ := i.back w hw
      exact ⟨_, List.mem_map.2 ⟨t, ht, rfl⟩, hw'⟩
    · intro vs hvs
      obtain ⟨f, hf, rfl⟩ := List.mem_map.1 hvs
      obtain ⟨g, hg⟩ := (i.seen f).1 hf
      exact (hok _ hg).2.2.2
  · intro j f hjf g
    have hj : j < c.out.st.mesh.count T'.cellDim := by
      unfold Mesh.count
      rw [if_neg (by omega)]
      have := congrArg List.length i.cp.cells
      simp only [List.length_map] at this
      rw [this]; exact (List.getElem?_eq_some_iff.1 hjf).1
    rw [(C26_segment_ids_partial hT' i.reached hj).2 g, hview]
    constructor
    · rintro ⟨j', f', h1, h2, h3, h4⟩
      have hjj : j = j' := by
        rcases h4 with h4 | h4
        · exact h4.2
        · exact absurd h4 (onBoundary_irrefl hT'.lib.wf hn)
      subst hjj
      rw [hjf] at h1
      rw [Option.some.inj h1]; exact ⟨h2, h3⟩
    · rintro ⟨hg, ho⟩
      exact ⟨j, f, hjf, hg, ho, Or.inl ⟨rfl, rfl⟩⟩
  · intro id n
    rw [hreg]
    simp only [SegMesh.cleared, Reg.clear, List.not_mem_nil, false_or, Prod.mk.injEq]

/-- C64: where no facet has three different cells of the segment, the facets taken are those used by exactly one cell of
the segment. -/
theorem C64_manifold {T : Topo} (hT : LibTopo T) (hn : 1 ≤ T.cellDim) {st : IState P} (h : IReached T false st) {g f : Nat}
    (hman : ∀ a b c, (∀ x ∈ [a, b, c], x ∈ (st.seg g).content T.cellDim ∧ UsedBy T st.mesh f x) → a = b ∨ a = c ∨ b = c) :
    OddCells T st g f ↔ BoundaryOfSeg T st g f := by
  have hI := h.inv hT.wf hn
  have hb : ∀ c, f ∈ st.mesh.bndOf T.cellDim c (T.cellDim - 1) ↔ UsedBy T st.mesh f c := fun c =>
    mem_bndOf_iff hT.wf hI.inv (le_refl _)
  constructor
  · rintro ⟨hf, cs, h1, h2, h3⟩
    refine ⟨hf, ?_⟩
    rcases cs with _ | ⟨a, _ | ⟨b, _ | ⟨c, cs⟩⟩⟩
    · simp at h3
    · refine ⟨a, (h2 a).1 (by simp), fun c hc hc' => ?_⟩
      have := (h2 c).2 ⟨hc, hc'⟩
      simpa using this
    · simp at h3
    · exfalso
      have hx := hman a b c (by
        intro x hx
        refine (h2 x).1 ?_
        simp only [List.mem_cons, List.not_mem_nil, or_false] at hx ⊢
        rcases hx with rfl | rfl | rfl <;> simp)
      simp only [List.nodup_cons, List.mem_cons, not_or] at h1
      rcases hx with h | h | h
      · exact h1.1.1 h
      · exact h1.1.2.1 h
      · exact h1.2.1.1 h
  · rintro ⟨hf, c, hc, huniq⟩
    refine ⟨hf, [c], by simp, fun x => ?_, rfl⟩
    rw [List.mem_singleton]
    constructor
    · rintro rfl; exact hc
    · rintro ⟨h1, h2⟩; exact huniq x h1 h2

/-- Two triangles with a common edge in two segments: the hull has the five edges, the common one is in both hull
segments. -/
example : ∃ o, extractBoundarySeg segNm (simplexTopo 2) (simplexTopo 1) ifState [0, 1] SegMesh.empty = .ok o ∧
    (o.st.mesh.elems 1).map (·.verts) = [[0, 1], [0, 2], [1, 2], [1, 3], [2, 3]] ∧ o.st.view 0 1 = [0, 1, 2] ∧
    o.st.view 1 1 = [2, 3, 4] ∧ o.st.segmentIds 1 2 = [0, 1] :=
  ⟨_, rfl, by decide, by decide, by decide, by decide⟩

example : ∃ (o : SegMesh Unit (Sum Int Char)) (fs : List Nat),
    extractBoundarySeg segNm (simplexTopo 2) (simplexTopo 1) ifState [0, 1] SegMesh.empty = .ok o ∧ fs.Nodup := by
  obtain ⟨o, fs, h1, h2, _⟩ := C64_hull_partial (nm := segNm) (fun _ _ h => Sum.inl.inj h) (T := simplexTopo 2)
    (T' := simplexTopo 1) (Or.inl ⟨2, rfl⟩) (Or.inl ⟨1, rfl⟩) rfl (by decide) rfl ifState_reached [0, 1]
    (hull := SegMesh.empty) rfl (fun _ _ => rfl)
  exact ⟨o, fs, h1, h2⟩

/-- C64 is violated: extracting the boundary a second time into the same hull mesh and segmentation throws, although
both are cleared first. -/
theorem C64_violated_again :
    ∃ o, extractBoundarySeg segNm (simplexTopo 2) (simplexTopo 1) ifState [0, 1] SegMesh.empty = .ok o ∧
      extractBoundarySeg segNm (simplexTopo 2) (simplexTopo 1) ifState [0, 1] o = .error .thrown :=
  ⟨_, rfl, rfl⟩

end VG
