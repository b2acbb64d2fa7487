import Verif.Lemmas.Ranges
import Verif.Props.Incidence

/-!
# C99: ranges and element views
-/

namespace VG

variable {P : Type}

/-- C99, every element once: iterating over the elements of a dimension visits every element exactly once; the number of
steps is `size()`, and access by position gives the same elements. -/
theorem C99_each_once (T : Topo) (m : Mesh P) (d : Nat) :
    (m.range T d).Nodup ∧ (∀ s, s ∈ m.range T d ↔ s < m.count d) ∧ (m.range T d).length = m.rangeSize d ∧
    (∀ i, i < m.rangeSize d → ∃ s, m.rangeAt T d i = some s ∧ s < m.count d) ∧
    (∀ i, m.rangeSize d ≤ i → m.rangeAt T d i = none) := by
  have hp : (m.range T d).Perm (List.range (m.count d)) := by
    unfold Mesh.range
    split
    · exact List.Perm.refl _
    · exact keyFold_perm _ _
  have hl : (m.range T d).length = m.count d := by rw [hp.length_eq, List.length_range]
  have hm : ∀ s, s ∈ m.range T d ↔ s < m.count d := fun s => by rw [hp.mem_iff, List.mem_range]
  refine ⟨hp.nodup_iff.2 List.nodup_range, hm, hl, fun i hi => ?_, fun i hi => ?_⟩
  · have : i < (m.range T d).length := by rw [hl]; exact hi
    exact ⟨(m.range T d)[i], List.getElem?_eq_getElem this, (hm _).1 (List.getElem_mem this)⟩
  · exact List.getElem?_eq_none (by rw [hl]; exact hi)

/-- C99 for vertices and cells: number `i` of the range is the one created as number `i`, also after other elements were
created. -/
theorem C99_creation_order {T : Topo} (hT : LibTopo T) {m m' : Mesh P} (hb : Built T m) {ops : List (MOp P)}
    (hd : ∀ op ∈ ops, op.Distinct) (hr : m.run T ops = some m') (hu : UniqueVids m') {d : Nat}
    (h : d = 0 ∨ d = T.cellDim) {i : Nat} (hi : i < m.count d) :
    m.rangeAt T d i = some i ∧ m'.rangeAt T d i = some i := by
  have hg := run_grown hT.wf (hb.inv hT.wf) hd hr hu
  have key : ∀ n : Nat, i < n → (List.range n)[i]? = some i := fun n hn => by
    rw [List.getElem?_eq_getElem (by simpa using hn), List.getElem_range]
  unfold Mesh.rangeAt Mesh.range
  rw [if_pos h, if_pos h]
  exact ⟨key _ hi, key _ (lt_of_lt_of_le hi (hg.count d))⟩

/-- C99 for elements of other dimensions: they are ordered by the ids of their vertices, sorted and compared
lexicographically. -/
theorem C99_by_vertices {T : Topo} (hT : LibTopo T) {m : Mesh P} (hb : Built T m) {d : Nat} (h0 : d ≠ 0)
    (hc : d < T.cellDim) {i j s t : Nat} {e f : Elem} (hij : i < j) (hs : m.rangeAt T d i = some s)
    (ht : m.rangeAt T d j = some t) (he : (m.elems d)[s]? = some e) (hf : (m.elems d)[t]? = some f) :
    ∃ a b : List Int, a.Perm (e.verts.map m.vid) ∧ b.Perm (f.verts.map m.vid) ∧ a.Pairwise (· ≤ ·) ∧ b.Pairwise (· ≤ ·) ∧
      Precedes a b := by
  have hI := hb.inv hT.wf
  have hu : UniqueVids m := by obtain ⟨_, _, _, hu⟩ := hb; exact hu
  have hve : m.vertsOf d s = e.verts := by unfold Mesh.vertsOf; simp [List.getD_eq_getElem?_getD, he]
  have hvf : m.vertsOf d t = f.verts := by unfold Mesh.vertsOf; simp [List.getD_eq_getElem?_getD, hf]
  have hsort := keyFold_sorted (fun t => m.key (m.vertsOf d t)) (m.count d) (by
    intro i hi j hj hk
    have hx : ∀ i < m.count d, ∃ e, (m.elems d)[i]? = some e ∧ m.vertsOf d i = e.verts := by
      intro i hi
      have : i < (m.elems d).length := by simpa [Mesh.count, h0] using hi
      refine ⟨_, List.getElem?_eq_getElem this, ?_⟩
      unfold Mesh.vertsOf
      simp [List.getD_eq_getElem?_getD, this]
    obtain ⟨e, he, hve⟩ := hx i hi
    obtain ⟨f, hf, hvf⟩ := hx j hj
    simp only [hve, hvf] at hk
    have hp := (C03_key_eq_iff_perm _ _).1 hk
    refine hI.slot_unique (by omega) he hf ?_
    have h5 := (hI.verts d e (List.mem_of_getElem? he)).2.2
    have h6 := (hI.verts d f (List.mem_of_getElem? hf)).2.2
    exact perm_of_map_perm (S := fun v => v < m.verts.length) (fun a b ha hb hab => vid_inj hu ha hb hab) h5 h6 hp)
  rw [← range_key T m h0 (by omega)] at hsort
  unfold Mesh.rangeAt at hs ht
  obtain ⟨h1, h2⟩ := List.getElem?_eq_some_iff.1 hs
  obtain ⟨h3, h4⟩ := List.getElem?_eq_some_iff.1 ht
  have hlt := List.pairwise_iff_getElem.1 hsort i j h1 h3 hij
  rw [h2, h4, hve, hvf] at hlt
  refine ⟨m.key e.verts, m.key f.verts, elementKey_perm _, elementKey_perm _, elementKey_pairwise _, elementKey_pairwise _, ?_⟩
  unfold keyLt at hlt
  split at hlt
  · rename_i hne
    refine absurd ?_ hne
    unfold Mesh.key
    rw [(elementKey_perm _).length_eq, (elementKey_perm _).length_eq, List.length_map, List.length_map]
    have h5 := (hI.verts d e (List.mem_of_getElem? he)).2.1
    have h6 := (hI.verts d f (List.mem_of_getElem? hf)).2.1
    rcases h5 with h5 | ⟨_, h5, _⟩
    · rcases h6 with h6 | ⟨_, h6, _⟩
      · rw [h5, h6]
      · omega
    · omega
  · exact precedes_of_loop _ _ hlt

/-- C99, elements created later: the elements there before are visited in the same order as before, and their handles
stand for the same elements.  Full statement: number `i` of the range stays number `i` when elements are created.  This
holds for vertices and cells (`C99_creation_order`) and is false for other elements, see `C99_violated`. -/
theorem C99_order_kept_partial {T : Topo} (hT : LibTopo T) {m m' : Mesh P} (hb : Built T m) {ops : List (MOp P)}
    (hd : ∀ op ∈ ops, op.Distinct) (hr : m.run T ops = some m') (hu : UniqueVids m') (d : Nat) :
    (m.range T d).Sublist (m'.range T d) ∧
    ∀ s ∈ m.range T d, (d = 0 → m'.verts[s]? = m.verts[s]?) ∧ (d ≠ 0 → (m'.elems d)[s]? = (m.elems d)[s]?) := by
  have hI := hb.inv hT.wf
  have hg := run_grown hT.wf hI hd hr hu
  constructor
  · by_cases h : d = 0 ∨ d = T.cellDim
    · unfold Mesh.range
      rw [if_pos h, if_pos h]
      exact List.range_sublist.2 (hg.count d)
    · exact hg.range hI (fun h' => h (Or.inl h')) (fun h' => h (Or.inr h'))
  · intro s hs
    have hlt := ((C99_each_once T m d).2.1 s).1 hs
    refine ⟨fun h0 => ?_, fun h0 => ?_⟩
    · subst h0
      have : s < m.verts.length := by simpa [Mesh.count] using hlt
      rw [List.getElem?_eq_getElem this]
      exact prefix_getElem? hg.verts (List.getElem?_eq_getElem this)
    · have : s < (m.elems d).length := by simpa [Mesh.count, h0] using hlt
      rw [List.getElem?_eq_getElem this]
      exact prefix_getElem? (hg.elems d) (List.getElem?_eq_getElem this)

/-- C99, views: `element_view(mesh, f)` lists exactly the elements for which `f` is true, each once, in the order of the
range. -/
theorem C99_element_view (T : Topo) (m : Mesh P) (d : Nat) (f : Nat → Bool) :
    (∀ s, s ∈ m.elementView T d f ↔ s < m.count d ∧ f s = true) ∧ (m.elementView T d f).Nodup ∧
    (m.elementView T d f).Sublist (m.range T d) := by
  obtain ⟨h1, h2, _⟩ := C99_each_once T m d
  unfold Mesh.elementView
  rw [viewLoop_eq, List.nil_append]
  refine ⟨fun s => by rw [List.mem_filter, h2], h1.sublist List.filter_sublist, List.filter_sublist⟩

/-- C99, views of a segment: the elements of the segment for which `f` is true, in the order of the segment. -/
theorem C99_element_view_segment (st : SegState P) (g d : Nat) (f : Nat → Bool) :
    (∀ s, s ∈ st.elementView g d f ↔ s ∈ st.view g d ∧ f s = true) ∧ (st.elementView g d f).Sublist (st.view g d) := by
  unfold SegState.elementView
  rw [viewLoop_eq, List.nil_append]
  exact ⟨fun s => List.mem_filter, List.filter_sublist⟩

/-- A triangle, and then a second one. -/
def rangeOps1 : List (MOp Unit) := [.vertex none (), .vertex none (), .vertex none (), .vertex none (), .elem 2 [1, 2, 3]]

/-- See `rangeOps1`. -/
def rangeOps2 : List (MOp Unit) := [.elem 2 [0, 1, 2]]

/-- C99 is violated for lines: after a second triangle is created, number 0 of the lines is another line, and the lines are
not in the order of their ids. -/
theorem C99_violated : ∃ m m' : Mesh Unit, Mesh.empty.run (simplexTopo 2) rangeOps1 = some m ∧
    m.run (simplexTopo 2) rangeOps2 = some m' ∧
    (m.elems 1).map (·.verts) = [[1, 2], [1, 3], [2, 3]] ∧ m.range (simplexTopo 2) 1 = [0, 1, 2] ∧
    (m'.elems 1).map (·.verts) = [[1, 2], [1, 3], [2, 3], [0, 1], [0, 2]] ∧ m'.range (simplexTopo 2) 1 = [3, 4, 0, 1, 2] ∧
    m.rangeAt (simplexTopo 2) 1 0 = some 0 ∧ m'.rangeAt (simplexTopo 2) 1 0 = some 3 ∧ m'.eid 1 3 = 3 := by
  refine ⟨_, _, rfl, rfl, ?_⟩
  decide +kernel

example : (∀ op ∈ rangeOps1 ++ rangeOps2, op.Distinct) ∧
    (Mesh.empty.run (simplexTopo 2) (rangeOps1 ++ rangeOps2)).isSome = true := by
  refine ⟨by simp [rangeOps1, rangeOps2, MOp.Distinct], by decide +kernel⟩

example : ∃ m : Mesh Unit, Mesh.empty.run (simplexTopo 2) (rangeOps1 ++ rangeOps2) = some m ∧
    m.elementView (simplexTopo 2) 1 (fun s => (m.vertsOf 1 s).contains 1) = [3, 0, 1] := by
  refine ⟨_, rfl, ?_⟩
  decide +kernel

end VG
