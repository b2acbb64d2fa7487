import Verif.Lemmas.Erase
import Mathlib.Logic.Relation

/-!
C23 erasing elements, C24 creating elements after erasing.
-/

namespace VG

variable {P : Type}

/-- Configurations for which references are transitive: simplices, meshes of lines, quadrilaterals or polygons, thin meshes.
For hexahedra see `C23_violated_hexahedron`. -/
def EraseTopo (T : Topo) : Prop := (∃ n, T = simplexTopo n) ∨ (∃ n ≤ 2, T = cubeTopo n) ∨
  (∃ n, T = thinTopo (simplexTopo n)) ∨ (∃ n, T = thinTopo (cubeTopo n)) ∨ T = polyTopo ∨ T = thinTopo polyTopo

theorem EraseTopo.lib {T : Topo} (h : EraseTopo T) : LibTopo T := by
  rcases h with ⟨n, rfl⟩ | ⟨n, _, rfl⟩ | h
  · exact Or.inl ⟨n, rfl⟩
  · exact Or.inr (Or.inl ⟨n, rfl⟩)
  · exact Or.inr (Or.inr h)

/-- Boundary elements of boundary elements are boundary elements. -/
theorem bndOf_trans {T : Topo} (hT : EraseTopo T) {m : Mesh P} (hI : Inv T m)
    {d t k s j r : Nat} (hd : d ≤ T.cellDim) (hk1 : 1 ≤ k)
    (h1 : s ∈ m.bndOf d t k) (h2 : r ∈ m.bndOf k s j) (hkd : k < d) (hjk : j < k) :
    r ∈ m.bndOf d t j := by
  have hW := hT.lib.wf
  rw [mem_bndOf_iff hW hI hd] at h1 ⊢
  rw [mem_bndOf_iff hW hI (by omega)] at h2
  have hbase := h1
  unfold OnBoundary at hbase
  rw [if_neg (by omega)] at hbase
  obtain ⟨e, f, idxs, ix, he, hf, hl, hix, hsv⟩ := hbase
  have hsub : f.verts ⊆ e.verts := by
    intro v hv
    obtain ⟨i, hi, rfl⟩ := List.mem_map.1 ((hsv v).1 hv)
    have h3 := (hW.idx d _ k idxs (hI.verts d e (List.mem_of_getElem? he)).2.1 hl ix hix).2.2 i hi
    rw [List.getD_eq_getElem _ _ (by omega)]
    exact List.getElem_mem _
  by_cases hj : j = 0
  · unfold OnBoundary at h2 ⊢
    rw [if_pos hj] at h2 ⊢
    obtain ⟨f', hf', hr⟩ := h2
    rw [hf] at hf'
    cases hf'
    exact ⟨e, he, hsub hr⟩
  · rcases hT with ⟨n, rfl⟩ | ⟨n, hn, rfl⟩ | ⟨n, rfl⟩ | ⟨n, rfl⟩ | rfl | rfl
    · have hk2 : k ≤ 2 := by
        simp only [simplexTopo, List.mem_append] at hl
        rcases hl with hl | hl <;> split at hl <;> simp at hl <;> omega
      rw [onBoundary_simplex hI (by omega) (by omega) (by omega)] at h2 ⊢
      obtain ⟨f', g, hf', hg, hsub'⟩ := h2
      rw [hf] at hf'
      cases hf'
      exact ⟨e, g, he, hg, fun v hv => hsub (hsub' hv)⟩
    · exfalso
      have : d ≤ 2 := Nat.le_trans hd hn
      omega
    · simp [thinTopo] at hl
    · simp [thinTopo] at hl
    · exfalso
      have : d ≤ 2 := hd
      omega
    · simp [thinTopo] at hl

theorem mem_store {m : Mesh P} {d : Nat} {x : ENode} :
    x ∈ m.store.nodes d ↔ ∃ s, s < m.count d ∧
      x = ⟨s, m.key (m.bndOf d s 0), m.eid d s, fun k => if d = 0 then [] else m.bndOf d s k⟩ := by
  simp only [Mesh.store, List.mem_map, List.mem_range]
  constructor
  · rintro ⟨s, h1, h2⟩; exact ⟨s, h1, h2.symm⟩
  · rintro ⟨s, h1, h2⟩; exact ⟨s, h1, h2.symm⟩

theorem bndOf_dim {T : Topo} (hT : T.WF) {m : Mesh P} (hI : Inv T m) {d t k s : Nat} (hd1 : 1 ≤ d)
    (hd : d ≤ T.cellDim) (h : s ∈ m.bndOf d t k) : k < d := by
  rw [mem_bndOf_iff hT hI hd] at h
  unfold OnBoundary at h
  split at h
  · omega
  · obtain ⟨e, f, idxs, ix, he, hf, hl, _⟩ := h
    exact (hT.dim d _ k idxs hl).2

theorem count_dims {T : Topo} {m : Mesh P} (hd : DimsOK T m) {d : Nat} (h1 : 1 ≤ d)
    (h : 0 < m.count d) : d ≤ T.cellDim := by
  by_contra hc
  unfold Mesh.count at h
  rw [if_neg (by omega), hd d (by simp only [List.mem_range'_1]; omega)] at h
  simp at h

theorem store_wf {T : Topo} (hT : T.WF) {m : Mesh P} (hI : Inv T m) (hu : UniqueVids m)
    (hdim : DimsOK T m) : EWF m.store := by
  refine ⟨fun d => ?_, fun d => ?_, fun d x hx k a ha => ?_⟩
  · simp only [Mesh.store, List.map_map, Function.comp_def]
    simpa using List.nodup_range
  · simp only [Mesh.store, List.map_map, Function.comp_def]
    refine (List.nodup_map_iff_inj_on List.nodup_range).2 fun a ha b hb he => ?_
    rw [List.mem_range] at ha hb
    exact eid_inj hI hu ha hb he
  · obtain ⟨t, ht, rfl⟩ := mem_store.1 hx
    simp only at ha
    split at ha
    · simp at ha
    · rename_i hd
      have hdc := count_dims hdim (Nat.one_le_iff_ne_zero.2 hd) (Nat.lt_of_le_of_lt (Nat.zero_le _) ht)
      have hkd := bndOf_dim hT hI (Nat.one_le_iff_ne_zero.2 hd) hdc ha
      refine ⟨hkd, _, mem_store.2 ⟨a, bndOf_valid hI ha, rfl⟩, rfl⟩

/-- References by id in the storage of a mesh. -/
theorem store_uses {T : Topo} (hT : T.WF) {m : Mesh P} (hI : Inv T m) (hu : UniqueVids m)
    (hdim : DimsOK T m) (p q : Nat × Int) :
    m.store.Uses p q ↔ ∃ t s, p.1 ≠ 0 ∧ t < m.count p.1 ∧ p.2 = m.eid p.1 t ∧ q.2 = m.eid q.1 s ∧
      s ∈ m.bndOf p.1 t q.1 := by
  have hw := store_wf hT hI hu hdim
  constructor
  · rintro ⟨c, ⟨x, hx, h1, h2⟩, hm⟩
    obtain ⟨t, ht, rfl⟩ := mem_store.1 hx
    obtain ⟨a, ha, y, hy, h3, h4⟩ := forall₂_mem' (h2 q.1) hm
    simp only at ha
    split at ha
    · simp at ha
    · rename_i hd
      obtain ⟨s, hs, rfl⟩ := mem_store.1 hy
      simp only at h3 h4
      subst h3
      exact ⟨t, s, hd, ht, h1.symm, h4.symm, ha⟩
  · rintro ⟨t, s, h0, ht, h1, h2, h3⟩
    have hx := mem_store.2 ⟨t, ht, rfl⟩
    obtain ⟨c, hc, hc2⟩ := hw.content hx
    rw [h1.symm] at hc
    refine ⟨c, hc, ?_⟩
    have hy := mem_store (m := m) (d := q.1).2 ⟨s, bndOf_valid hI h3, rfl⟩
    have := (hw.mem_bnd_iff hy hc2).1 (by simp only; rw [if_neg h0]; exact h3)
    rw [h2]; exact this

theorem store_good {T : Topo} (hT : EraseTopo T) {m : Mesh P} (hI : Inv T m) (hu : UniqueVids m)
    (hdim : DimsOK T m) : EGood T.cellDim m.store := by
  have hW := hT.lib.wf
  refine ⟨store_wf hW hI hu hdim, fun d hd => ?_, fun p q r hpq hqr => ?_⟩
  · simp only [Mesh.store]
    have : m.count d = 0 := by
      unfold Mesh.count
      rw [if_neg (by omega), hdim d (by simp only [List.mem_range'_1]; omega)]
      rfl
    rw [this]; rfl
  · rw [store_uses hW hI hu hdim] at hpq hqr ⊢
    obtain ⟨t, s, h0, ht, h1, h2, h3⟩ := hpq
    obtain ⟨t', s', h0', ht', h1', h2', h3'⟩ := hqr
    have hs := bndOf_valid hI h3
    have : s = t' := eid_inj hI hu hs ht' (by rw [← h2, ← h1'])
    subst this
    have hd := count_dims hdim (Nat.one_le_iff_ne_zero.2 h0) (Nat.lt_of_le_of_lt (Nat.zero_le _) ht)
    have hkd := bndOf_dim hW hI (Nat.one_le_iff_ne_zero.2 h0) hd h3
    have hjk := bndOf_dim hW hI (Nat.one_le_iff_ne_zero.2 h0') (by omega) h3'
    exact ⟨t, s', h0, ht, h1, h2', bndOf_trans hT hI hd (by omega) h3 h3' hkd hjk⟩

/-- Storage reached by a history of creations, cell erasures, copies and queries, and then erasing
sets of elements of any dimension, one after another. -/
inductive EReached (P : Type) (T : Topo) : EMesh → Prop
  | built (st : MState P) (h : Reached T st) : EReached P T st.mesh.store
  | erase (M M' : EMesh) (es : List (Nat × ENode)) (h : EReached P T M) (he : ∀ e ∈ es, e.2 ∈ M.nodes e.1)
      (h' : M.eraseElements T.cellDim (M.markAll es (fun _ => [])) = some M') : EReached P T M'

theorem EReached.good {T : Topo} (hT : EraseTopo T) {M : EMesh} (h : EReached P T M) : EGood T.cellDim M := by
  induction h with
  | built st h => exact store_good hT (h.inv hT.lib.wf).inv h.choose_spec.2.2 (h.inv hT.lib.wf).dims
  | erase M M' es _ he h' ih =>
    obtain ⟨M'', h1, h2, _⟩ := eraseElements_spec ih he
    rw [h'] at h1
    cases h1
    exact h2

/-! ### C23 -/

/-- Specification: the element with dimension and id `p` has the element `q` on its boundary,
transitively, or is `q`. -/
def EMesh.Above (M : EMesh) (p q : Nat × Int) : Prop := Relation.ReflTransGen M.Uses p q

theorem above_iff {cd : Nat} {M : EMesh} (h : EGood cd M) (p q : Nat × Int) :
    M.Above p q ↔ p = q ∨ M.Uses p q := by
  constructor
  · intro ha
    unfold EMesh.Above at ha
    induction ha with
    | refl => exact Or.inl rfl
    | tail _ h2 ih =>
      rcases ih with rfl | ih
      · exact Or.inr h2
      · exact Or.inr (h.trans _ _ _ ih h2)
  · rintro (rfl | ha)
    · exact Relation.ReflTransGen.refl
    · exact Relation.ReflTransGen.single ha

/-- C23: marking the elements `es` with `mark_erase_elements` and calling `erase_elements` succeeds;
the elements left are exactly those which are not above one of `es`, each with its id and with the
same boundary elements (by id, in order); and all references are to elements which are left. -/
theorem C23_erase_elements {T : Topo} (hT : EraseTopo T) {M : EMesh} (h : EReached P T M)
    {es : List (Nat × ENode)} (he : ∀ e ∈ es, e.2 ∈ M.nodes e.1) :
    ∃ M', M.eraseElements T.cellDim (M.markAll es (fun _ => [])) = some M' ∧
      (∀ d i c, M'.Content d i c ↔ M.Content d i c ∧ ∀ e ∈ es, ¬ M.Above (d, i) (e.1, e.2.id)) ∧
      (∀ d, ∀ x ∈ M'.nodes d, ∀ k, ∀ a ∈ x.bnd k, ∃ y ∈ M'.nodes k, y.addr = a) := by
  have hg := h.good hT
  obtain ⟨M', h1, h2, h3⟩ := eraseElements_spec hg he
  refine ⟨M', h1, fun d i c => ?_, fun d x hx k a ha => (h2.wf.refs d x hx k a ha).2⟩
  rw [h3]
  simp only [not_exists, not_and]
  refine and_congr Iff.rfl (forall_congr' fun e => forall_congr' fun _ => ?_)
  rw [above_iff hg]

/-- C23 for `erase_element`. -/
theorem C23_erase_element {T : Topo} (hT : EraseTopo T) {M : EMesh} (h : EReached P T M) {d : Nat}
    {e : ENode} (he : e ∈ M.nodes d) :
    ∃ M', M.eraseElement T.cellDim d e = some M' ∧
      (∀ d' i c, M'.Content d' i c ↔ M.Content d' i c ∧ ¬ M.Above (d', i) (d, e.id)) ∧
      (∀ d', ∀ x ∈ M'.nodes d', ∀ k, ∀ a ∈ x.bnd k, ∃ y ∈ M'.nodes k, y.addr = a) := by
  obtain ⟨M', h1, h2, h3⟩ := C23_erase_elements hT h (es := [(d, e)]) (by simpa using he)
  refine ⟨M', h1, fun d' i c => ?_, h3⟩
  rw [h2]; simp

/-- C23: the number of elements erased is the number of elements above. -/
theorem C23_remaining_ids {T : Topo} (hT : EraseTopo T) {M : EMesh} (h : EReached P T M) {d : Nat}
    {e : ENode} (he : e ∈ M.nodes d) :
    ∃ M', M.eraseElement T.cellDim d e = some M' ∧ ∀ d', ((M'.nodes d').map (·.id)).Nodup ∧
      ∀ i, i ∈ (M'.nodes d').map (·.id) ↔ i ∈ (M.nodes d').map (·.id) ∧ ¬ M.Above (d', i) (d, e.id) := by
  have hg := h.good hT
  obtain ⟨M', h1, h2, h3⟩ := eraseElements_spec hg (es := [(d, e)]) (by simpa using he)
  refine ⟨M', h1, fun d' => ⟨h2.wf.ids d', fun i => ?_⟩⟩
  have key : ∀ N : EMesh, EWF N → (i ∈ (N.nodes d').map (·.id) ↔ ∃ c, N.Content d' i c) := by
    intro N hN
    constructor
    · intro hi
      obtain ⟨x, hx, rfl⟩ := List.mem_map.1 hi
      obtain ⟨c, hc, _⟩ := hN.content hx
      exact ⟨c, hc⟩
    · rintro ⟨c, x, hx, rfl, _⟩
      exact List.mem_map_of_mem hx
  rw [key M' h2.wf, key M hg.wf]
  simp only [h3, above_iff hg]
  constructor
  · rintro ⟨c, h4, h5⟩; exact ⟨⟨c, h4⟩, fun h6 => h5 ⟨(d, e), by simp, h6⟩⟩
  · rintro ⟨⟨c, h4⟩, h5⟩; exact ⟨c, h4, fun ⟨x, hx, h6⟩ => h5 (by simp at hx; subst hx; exact h6)⟩

/-- Two triangles with a common edge. -/
def eraseTriangles : List (QOp Unit) :=
  [.mesh (.vertex none ()), .mesh (.vertex none ()), .mesh (.vertex none ()), .mesh (.vertex none ()),
   .mesh (.elem 2 [0, 1, 2]), .mesh (.elem 2 [1, 2, 3])]

def eraseTrianglesState : MState Unit :=
  (MState.empty.run (simplexTopo 2) eraseTriangles).getD MState.empty

theorem eraseTriangles_reached : Reached (simplexTopo 2) eraseTrianglesState :=
  ⟨eraseTriangles, by simp [eraseTriangles, QOp.meshOps, MOp.Distinct], rfl, by unfold UniqueVids; decide⟩

/-- The element of dimension `d` with id `i`. -/
def EMesh.get (M : EMesh) (d : Nat) (i : Int) : ENode :=
  ((M.nodes d).find? (fun n => n.id == i)).getD ⟨0, [], -1, fun _ => []⟩

/-- The mesh of two triangles with the edge between vertices 0 and 1 erased. -/
def erasedEdge : EMesh :=
  (eraseTrianglesState.mesh.store.eraseElement 2 1 (eraseTrianglesState.mesh.store.get 1 0)).getD ⟨fun _ => []⟩

/-- Erasing edge 0 erases the first triangle, too, and moves edge 4 to its place. -/
example : (erasedEdge.nodes 2).map (fun x => (x.id, x.bnd 1)) = [(1, [2, 3, 0])] ∧
    (erasedEdge.nodes 1).map (fun x => (x.addr, x.id)) = [(0, 4), (1, 1), (2, 2), (3, 3)] := by decide +kernel

/-- One hexahedron. -/
def eraseHex : List (QOp Unit) :=
  [.mesh (.vertex none ()), .mesh (.vertex none ()), .mesh (.vertex none ()), .mesh (.vertex none ()),
   .mesh (.vertex none ()), .mesh (.vertex none ()), .mesh (.vertex none ()), .mesh (.vertex none ()),
   .mesh (.elem 3 [0, 1, 2, 3, 4, 5, 6, 7])]

def eraseHexState : MState Unit := (MState.empty.run (cubeTopo 3) eraseHex).getD MState.empty

theorem eraseHex_reached : Reached (cubeTopo 3) eraseHexState :=
  ⟨eraseHex, by simp [eraseHex, QOp.meshOps, MOp.Distinct], rfl, by unfold UniqueVids; decide⟩

/-- The hexahedron after erasing its edge between vertices 2 and 6. -/
def erasedHex : EMesh :=
  (eraseHexState.mesh.store.eraseElement 3 1 (eraseHexState.mesh.store.get 1 12)).getD ⟨fun _ => []⟩

/-- C23 violated for hexahedra: the hexahedron does not list its edge between vertices 2 and 6 (see
C07), so erasing that edge erases two faces but not the hexahedron, which then has references to
faces that do not exist any more. -/
theorem C23_violated_hexahedron :
    eraseHexState.mesh.store.vertexIds (eraseHexState.mesh.store.get 1 12) = [2, 6] ∧
    (eraseHexState.mesh.store.eraseElement 3 1 (eraseHexState.mesh.store.get 1 12)).isSome = true ∧
    ∃ x ∈ erasedHex.nodes 3, ∃ a ∈ x.bnd 2, ∀ y ∈ erasedHex.nodes 2, y.addr ≠ a := by
  refine ⟨by decide +kernel, by decide +kernel, erasedHex.get 3 0, ?_, ?_⟩
  · have h : (erasedHex.nodes 3).find? (fun n => n.id == 0) = some (erasedHex.get 3 0) := rfl
    exact List.mem_of_find?_eq_some h
  · refine ⟨4, by decide +kernel, ?_⟩
    have h : ∀ a ∈ (erasedHex.nodes 2).map (·.addr), a ≠ 4 := by decide +kernel
    exact fun y hy => h y.addr (List.mem_map_of_mem hy)

/-! ### C24 -/

/-- C24.  Full statement: after any erasures, creating an element of intermediate dimension returns
the stored element with that vertex set if there is one and otherwise makes a new one with that
vertex set.  False: see `C24_violated`.  Proved: it holds after any interleaving of creations and
erasures of cells (and queries and copies).  The stored elements stay where they are. -/
theorem C24_after_cell_erasures_partial {T : Topo} (hT : LibTopo T) {st : MState P} (h : Reached T st)
    {d : Nat} {vs : List Nat} (hd1 : 1 ≤ d) (hd : d < T.cellDim) (hv : vs.Nodup) (hlen : T.Arity d vs.length)
    (hr : ∀ v ∈ vs, v < st.mesh.verts.length) :
    (∀ (s : Nat) (f : Elem), (st.mesh.elems d)[s]? = some f → SameVerts f.verts vs →
      (st.mesh.makeElem T d vs).slot = s ∧ (st.mesh.makeElem T d vs).mesh.elems = st.mesh.elems) ∧
    ((∀ f ∈ st.mesh.elems d, ¬ SameVerts f.verts vs) →
      (st.mesh.makeElem T d vs).slot = (st.mesh.elems d).length ∧
      ∃ e, e.verts = vs ∧ (st.mesh.makeElem T d vs).mesh.elems d = st.mesh.elems d ++ [e]) := by
  have hI := (h.inv hT.wf).inv
  have hs := makeElem_spec hT.wf hI h.choose_spec.2.2 hd1 ⟨hv, hlen, hr⟩
  refine ⟨fun s f hf hsv => ?_, fun hno => ?_⟩
  · have hfm := List.mem_of_getElem? hf
    have hp := sameVerts_perm (hI.verts d f hfm).1 hv hsv
    have hnew : (st.mesh.makeElem T d vs).new = false := by
      rw [Bool.eq_false_iff]
      intro hc
      rcases hs.isnew.1 hc with h1 | h1
      · omega
      · exact h1 f hfm hp
    have hold := hs.old hnew
    obtain ⟨g, hg, hgp, _⟩ := hs.found
    rw [hold] at hg
    refine ⟨hI.slot_unique (d := d) (by omega) hg hf (hgp.trans hp.symm), ?_⟩
    rw [hold]; rfl
  · exact hs.appended (hs.isnew.2 (Or.inr fun f hf hp => hno f hf (sameVerts_of_perm hp)))

/-- C24 for the boundary elements of any new element, after any interleaving of creations and
erasures of cells: stored elements are kept, and the new mesh has no two elements of the same
intermediate dimension with the same vertex set. -/
theorem C24_faces_shared_partial {T : Topo} (hT : LibTopo T) {st : MState P} (h : Reached T st)
    {d : Nat} {vs : List Nat} (hd1 : 1 ≤ d) (hv : vs.Nodup) (hlen : T.Arity d vs.length)
    (hr : ∀ v ∈ vs, v < st.mesh.verts.length) :
    (∀ k, st.mesh.elems k <+: (st.mesh.makeElem T d vs).mesh.elems k) ∧
    ∀ (k i j : Nat) (e f : Elem), k < T.cellDim → ((st.mesh.makeElem T d vs).mesh.elems k)[i]? = some e →
      ((st.mesh.makeElem T d vs).mesh.elems k)[j]? = some f → SameVerts e.verts f.verts → i = j := by
  have hI := (h.inv hT.wf).inv
  have hs := makeElem_spec hT.wf hI h.choose_spec.2.2 hd1 ⟨hv, hlen, hr⟩
  refine ⟨hs.ext.elems, fun k i j e f hk hi hj hsv => ?_⟩
  exact hs.inv.slot_unique (by omega) hi hj (sameVerts_perm (hs.inv.verts k e (List.mem_of_getElem? hi)).1
    (hs.inv.verts k f (List.mem_of_getElem? hj)).1 hsv)

/-- A history with an erased cell: the triangle is made again and its edges are shared. -/
def eraseAndRemake : List (QOp Unit) :=
  eraseTriangles ++ [.coboundary 1 2 0, .eraseCell 0, .coboundary 1 2 0, .mesh (.elem 2 [2, 1, 0])]

def eraseAndRemakeState : MState Unit :=
  (MState.empty.run (simplexTopo 2) eraseAndRemake).getD MState.empty

theorem eraseAndRemake_reached : Reached (simplexTopo 2) eraseAndRemakeState :=
  ⟨eraseAndRemake, by simp [eraseAndRemake, eraseTriangles, QOp.meshOps, MOp.Distinct], rfl,
    by unfold UniqueVids; decide⟩

example : (eraseAndRemakeState.mesh.elems 1).length = 5 ∧
    (eraseAndRemakeState.mesh.elems 2).map (·.id) = [1, 2] ∧
    (eraseAndRemakeState.coboundary 1 2 0).2 = [1] := by decide +kernel

/-- C24 violated: after erasing the edge with vertices 0, 1 (which erases the first triangle), the
edge with vertices 2, 3 is stored under the key of the erased edge.  Looking up the edge 0, 1, as the
creation of the triangle 0, 1, 2 does for its first edge, returns the edge with vertices 2, 3; and
looking up the edge 2, 3 finds nothing although it is stored, so a second one would be created. -/
theorem C24_violated :
    EReached Unit (simplexTopo 2) erasedEdge ∧
    (erasedEdge.lookup 1 [0, 1]).map erasedEdge.vertexIds = some [2, 3] ∧
    (erasedEdge.lookup 1 [2, 3]).isNone = true ∧
    erasedEdge.vertexIds (erasedEdge.get 1 4) = [2, 3] := by
  refine ⟨?_, by decide +kernel, by decide +kernel, by decide +kernel⟩
  refine EReached.erase _ _ [(1, eraseTrianglesState.mesh.store.get 1 0)]
    (EReached.built eraseTrianglesState eraseTriangles_reached) ?_ rfl
  intro e he
  simp only [List.mem_singleton] at he
  subst he
  have h : (eraseTrianglesState.mesh.store.nodes 1).find? (fun n => n.id == 0) =
    some (eraseTrianglesState.mesh.store.get 1 0) := rfl
  exact List.mem_of_find?_eq_some h

/-- In the storage of a mesh built by creations the lookup is right: an element found has the
vertices asked for. -/
example : (eraseTrianglesState.mesh.store.lookup 1 [0, 1]).map eraseTrianglesState.mesh.store.vertexIds =
    some [0, 1] := by decide +kernel

end VG
