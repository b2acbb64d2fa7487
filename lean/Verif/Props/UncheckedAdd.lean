import Verif.Model.UncheckedAdd
import Verif.Props.CopySegmentation

/-!
C89: `unchecked_add` puts the same elements into a segment as `add`.
-/

namespace VG

variable {P : Type}

/-! ### Lemmas -/

theorem uncheckedAll_mesh (g : Nat) : ∀ (xs : List (Nat × Nat)) (st : SegState P),
    (xs.foldl (SegState.simpleUncheckedAdd g) st).mesh = st.mesh ∧
    (xs.foldl (SegState.simpleUncheckedAdd g) st).added = st.added
  | [], _ => ⟨rfl, rfl⟩
  | x :: xs, st => uncheckedAll_mesh g xs (st.simpleUncheckedAdd g x)

theorem uncheckedAll_view (g : Nat) : ∀ (xs : List (Nat × Nat)) (st : SegState P),
    (xs.foldl (SegState.simpleUncheckedAdd g) st).view =
      (fun g' => if g' = g then xs.foldl View.push (st.view g) else st.view g')
  | [], st => by funext g'; simp; rintro rfl; rfl
  | x :: xs, st => by
    rw [List.foldl_cons, uncheckedAll_view g xs]
    funext g'
    by_cases h : g' = g <;> simp [SegState.simpleUncheckedAdd, h]

theorem uncheckedAll_all (g : Nat) : ∀ (xs : List (Nat × Nat)) (st : SegState P),
    (xs.foldl (SegState.simpleUncheckedAdd g) st).all = xs.foldl View.push st.all
  | [], _ => rfl
  | x :: xs, st => by
    rw [List.foldl_cons, uncheckedAll_all g xs]
    rfl

theorem uncheckedAll_segs (g : Nat) : ∀ (xs : List (Nat × Nat)) (st st' : SegState P), st.mesh = st'.mesh →
    st.segs = st'.segs →
    (xs.foldl (SegState.simpleUncheckedAdd g) st).segs = (xs.foldl (SegState.simpleAdd g) st').segs
  | [], _, _, _, h => h
  | x :: xs, st, st', hm, h => by
    rw [List.foldl_cons, List.foldl_cons]
    refine uncheckedAll_segs g xs _ _ hm ?_
    simp only [SegState.simpleUncheckedAdd, SegState.simpleAdd, hm, h]

theorem foldl_push (k : Nat) : ∀ (xs : List (Nat × Nat)) (v : View),
    xs.foldl View.push v k = v k ++ (xs.filter (fun x => x.1 == k)).map (·.2)
  | [], v => by simp
  | x :: xs, v => by
    rw [List.foldl_cons, foldl_push k xs]
    by_cases h : x.1 = k
    · subst h
      simp [View.push]
    · simp [View.push, h, Ne.symm h]

theorem mem_foldl_push (xs : List (Nat × Nat)) (v : View) (k s : Nat) :
    s ∈ xs.foldl View.push v k ↔ s ∈ v k ∨ (k, s) ∈ xs := by
  rw [foldl_push, List.mem_append]
  refine or_congr_right ?_
  simp only [List.mem_map, List.mem_filter, beq_iff_eq]
  constructor
  · rintro ⟨⟨a, b⟩, ⟨h1, rfl⟩, rfl⟩; exact h1
  · intro h; exact ⟨(k, s), ⟨h, rfl⟩, rfl⟩

theorem closureOf_nodup {T : Topo} (hT : T.WF) {m : Mesh P} (hI : Inv T m) (h0 : m.elems 0 = []) (d t : Nat) :
    (m.closureOf T d t).Nodup := by
  unfold Mesh.closureOf
  rw [List.nodup_cons]
  constructor
  · simp only [List.mem_flatMap, List.mem_map, Prod.mk.injEq, not_exists, not_and]
    rintro k hk s hs rfl
    exfalso
    rcases List.mem_cons.1 hk with rfl | hk
    · simp [Mesh.bndOf, h0] at hs
    · obtain ⟨⟨k', idxs⟩, h1, rfl⟩ := List.mem_map.1 hk
      have := (hT.dim _ _ _ _ h1).2
      simp at this
  · rw [List.nodup_flatMap]
    constructor
    · intro k _
      exact (bndOf_nodup hT hI d t k).map (fun a b h => (Prod.mk.inj h).2)
    · have : (0 :: (T.layers d (T.nv d)).map (·.1)).Nodup := by
        rw [List.nodup_cons]
        refine ⟨?_, hT.once d _⟩
        intro h
        obtain ⟨⟨k', idxs⟩, h1, h2⟩ := List.mem_map.1 h
        have := (hT.dim _ _ _ _ h1).1
        simp only at h2
        omega
      refine List.Pairwise.imp ?_ this
      intro a b hab x h1 h2
      obtain ⟨_, _, rfl⟩ := List.mem_map.1 h1
      obtain ⟨_, _, h⟩ := List.mem_map.1 h2
      exact hab (Prod.mk.inj h).1.symm

/-! ### C89 -/

/-- C89: for every state, `unchecked_add` puts the same elements into the segment and into the list of all segmented
elements as `add`, and makes the same records. -/
theorem C89_same_elements_partial (T : Topo) (st : SegState P) (g d t : Nat) :
    (st.uncheckedAdd T g d t).mesh = (st.addElem T g d t).mesh ∧
    (∀ g' k s, s ∈ (st.uncheckedAdd T g d t).view g' k ↔ s ∈ (st.addElem T g d t).view g' k) ∧
    (∀ k s, s ∈ (st.uncheckedAdd T g d t).all k ↔ s ∈ (st.addElem T g d t).all k) ∧
    (∀ g' k s, (st.uncheckedAdd T g d t).isIn g' k s = (st.addElem T g d t).isIn g' k s) ∧
    (∀ k s, (st.uncheckedAdd T g d t).segmentIds k s = (st.addElem T g d t).segmentIds k s) := by
  have hm : (st.uncheckedAdd T g d t).mesh = (st.addElem T g d t).mesh := by
    unfold SegState.uncheckedAdd SegState.addElem
    simp only
    rw [(uncheckedAll_mesh g _ st).1, (addAll_mesh g _ st).1]
  have hsg : (st.uncheckedAdd T g d t).segs = (st.addElem T g d t).segs := by
    unfold SegState.uncheckedAdd SegState.addElem
    exact uncheckedAll_segs g _ st st rfl rfl
  refine ⟨hm, ?_, ?_, ?_, ?_⟩
  · intro g' k s
    unfold SegState.uncheckedAdd SegState.addElem
    simp only
    rw [uncheckedAll_view, addAll_view]
    simp only
    split
    · rw [mem_foldl_push, View.mem_foldl_ins]
    · rfl
  · intro k s
    unfold SegState.uncheckedAdd SegState.addElem
    simp only
    rw [uncheckedAll_all, addAll_all, mem_foldl_push, View.mem_foldl_ins]
  · intro g' k s
    unfold SegState.isIn
    rw [hsg, hm]
  · intro k s
    unfold SegState.segmentIds
    rw [hsg, hm]

/-- C89: the elements of a segment are listed once each after `unchecked_add` exactly if neither the element nor one of its
boundary elements of this dimension was in the segment before; and in the list of all segmented elements exactly if none of
them was in any segment before. -/
theorem C89_once_partial {T : Topo} (hT : ClosedTopo T) {st : SegState P} (h : SegReached T st) {g d t : Nat}
    (hd : d ≤ T.cellDim) (k : Nat) :
    (((st.uncheckedAdd T g d t).view g k).Nodup ↔
      ∀ s, (k = d ∧ s = t) ∨ OnBoundary T st.mesh k s d t → s ∉ st.view g k) ∧
    (((st.uncheckedAdd T g d t).all k).Nodup ↔
      ∀ s, (k = d ∧ s = t) ∨ OnBoundary T st.mesh k s d t → ∀ g', s ∉ st.view g' k) := by
  have hI := h.inv hT.lib.wf hT.closed
  have hn := closureOf_nodup hT.lib.wf hI.mesh hI.noZero d t
  have hmem : ∀ s, (k, s) ∈ st.mesh.closureOf T d t ↔ (k = d ∧ s = t) ∨ OnBoundary T st.mesh k s d t := by
    intro s
    rw [mem_closureOf hT.lib.wf hI.mesh, mem_bndOf_iff hT.lib.wf hI.mesh hd]
  have hmem' : ∀ s, s ∈ ((st.mesh.closureOf T d t).filter (fun x => x.1 == k)).map (·.2) ↔
      (k, s) ∈ st.mesh.closureOf T d t := by
    intro s
    simp only [List.mem_map, List.mem_filter, beq_iff_eq]
    constructor
    · rintro ⟨⟨a, b⟩, ⟨h1, rfl⟩, rfl⟩; exact h1
    · intro h; exact ⟨(k, s), ⟨h, rfl⟩, rfl⟩
  have hnk : (((st.mesh.closureOf T d t).filter (fun x => x.1 == k)).map (·.2)).Nodup := by
    refine List.Nodup.map_on ?_ (hn.filter _)
    rintro ⟨a, b⟩ h1 ⟨a', b'⟩ h2 hb
    simp only [List.mem_filter, beq_iff_eq] at h1 h2 hb
    rw [h1.2, h2.2, hb]
  have key : ∀ v : View, (v k).Nodup → (((st.mesh.closureOf T d t).foldl View.push v k).Nodup ↔
      ∀ s, (k = d ∧ s = t) ∨ OnBoundary T st.mesh k s d t → s ∉ v k) := by
    intro v hv
    rw [foldl_push, List.nodup_append']
    simp only [hv, hnk, true_and]
    constructor
    · intro h1 s hs hs'
      exact h1 hs' ((hmem' s).2 ((hmem s).2 hs))
    · intro h1 s hs hs'
      exact h1 s ((hmem s).1 ((hmem' s).1 hs')) hs
  constructor
  · unfold SegState.uncheckedAdd
    simp only
    rw [uncheckedAll_view]
    simp only [if_true]
    exact key _ (hI.nodup g k)
  · unfold SegState.uncheckedAdd
    simp only
    rw [uncheckedAll_all, key _ (hI.allNodup k)]
    refine forall_congr' fun s => imp_congr_right fun _ => ?_
    rw [hI.all]
    push Not
    rfl

/-! #### Violations -/

/-- Two triangles with a common edge, the first one in segment 0. -/
def uncTri : SegState Unit :=
  (SegState.empty.run (simplexTopo 2) [.mesh (.vertex none ()), .mesh (.vertex none ()), .mesh (.vertex none ()),
    .mesh (.vertex none ()), .make 0 (.elem 2 [0, 1, 2]), .mesh (.elem 2 [1, 2, 3])]).getD SegState.empty

theorem uncTri_reached : SegReached (simplexTopo 2) uncTri :=
  ⟨[.mesh (.vertex none ()), .mesh (.vertex none ()), .mesh (.vertex none ()),
    .mesh (.vertex none ()), .make 0 (.elem 2 [0, 1, 2]), .mesh (.elem 2 [1, 2, 3])],
    by simp [SOp.creation, MOp.Distinct], rfl, by unfold UniqueVids; decide⟩

/-- C89 is violated: a triangle that is not in the segment is added, and the edge it shares with a triangle of the segment
is listed twice. -/
theorem C89_violated :
    SegReached (simplexTopo 2) uncTri ∧ uncTri.isIn 0 2 1 = false ∧
    (uncTri.uncheckedAdd (simplexTopo 2) 0 2 1).view 0 1 = [0, 1, 2, 2, 3, 4] ∧
    (uncTri.addElem (simplexTopo 2) 0 2 1).view 0 1 = [0, 1, 2, 3, 4] :=
  ⟨uncTri_reached, by decide, by decide, by decide⟩

/-- C89 is violated: also if no element is in the segment before, the list of all segmented elements has the common edge
twice. -/
theorem C89_violated_all :
    (∀ k, uncTri.view 1 k = []) ∧
    (uncTri.uncheckedAdd (simplexTopo 2) 1 2 1).view 1 1 = [2, 3, 4] ∧
    (uncTri.uncheckedAdd (simplexTopo 2) 1 2 1).all 1 = [0, 1, 2, 2, 3, 4] :=
  ⟨fun _ => rfl, by decide, by decide⟩

/-- C89 is violated: if a triangle of the segment is added again and then one of its vertices is erased from the segment, the
segment still lists the triangle, although `is_in_segment` is false for it.  With `add` it does not. -/
theorem C89_violated_erase :
    (∃ st : SegState Unit, st = (uncTri.uncheckedAdd (simplexTopo 2) 0 2 0).eraseElemOnce (simplexTopo 2) 0 0 0 ∧
      st.isIn 0 2 0 = false ∧ st.view 0 2 = [0] ∧ st.all 2 = [0]) ∧
    ∃ st : SegState Unit, st = (uncTri.addElem (simplexTopo 2) 0 2 0).eraseElemOnce (simplexTopo 2) 0 0 0 ∧
      st.isIn 0 2 0 = false ∧ st.view 0 2 = [] ∧ st.all 2 = [] :=
  ⟨⟨_, rfl, by decide, by decide, by decide⟩, _, rfl, by decide, by decide, by decide⟩

/-- The hypotheses of `C89_once_partial` hold for this mesh: the cells are listed once, the edges are not. -/
example : ((uncTri.uncheckedAdd (simplexTopo 2) 0 2 1).view 0 2).Nodup ∧
    ¬ ((uncTri.uncheckedAdd (simplexTopo 2) 0 2 1).view 0 1).Nodup := by
  constructor
  · rw [(C89_once_partial (Or.inl ⟨2, rfl⟩) uncTri_reached (g := 0) (d := 2) (t := 1) (by decide) 2).1]
    rintro s (⟨_, rfl⟩ | hb)
    · decide
    · exact absurd hb (onBoundary_irrefl (simplexTopo_wf 2) (by decide))
  · decide

end VG
