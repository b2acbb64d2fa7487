import Verif.Lemmas.Reach

/-!
C04 shared faces and edges are stored once, C05 no element nobody asked for, C08 orientation.
-/

namespace VG

variable {P : Type}

/-- The mesh configurations of the library covered here. -/
def LibTopo (T : Topo) : Prop := (∃ n, T = simplexTopo n) ∨ (∃ n, T = cubeTopo n) ∨
  (∃ n, T = thinTopo (simplexTopo n)) ∨ (∃ n, T = thinTopo (cubeTopo n)) ∨
  T = polyTopo ∨ T = thinTopo polyTopo

theorem thinTopo_wf (T : Topo) : (thinTopo T).WF where
  dim _ _ _ _ h := by simp [thinTopo] at h
  idx _ _ _ _ _ h := by simp [thinTopo] at h
  distinct _ _ _ _ _ h := by simp [thinTopo] at h
  once _ _ := by simp [thinTopo]
  dims _ _ := by simp [thinTopo]

theorem LibTopo.wf {T : Topo} (h : LibTopo T) : T.WF := by
  rcases h with ⟨n, rfl⟩ | ⟨n, rfl⟩ | ⟨n, rfl⟩ | ⟨n, rfl⟩ | rfl | rfl
  · exact simplexTopo_wf n
  · exact cubeTopo_wf n
  · exact thinTopo_wf _
  · exact thinTopo_wf _
  · exact polyTopo_wf
  · exact thinTopo_wf _

/-- Specification: two vertex lists name the same vertices. -/
def SameVerts (a b : List Nat) : Prop := ∀ v, v ∈ a ↔ v ∈ b

theorem sameVerts_perm {a b : List Nat} (ha : a.Nodup) (hb : b.Nodup) (h : SameVerts a b) :
    a.Perm b := (List.perm_ext_iff_of_nodup ha hb).2 h

theorem sameVerts_of_perm {a b : List Nat} (h : a.Perm b) : SameVerts a b := fun _ => h.mem_iff

/-- C04a: after any history of creations, no two stored elements of the same intermediate dimension
have the same vertex set. -/
theorem C04_no_two_elements_with_same_vertices {T : Topo} (hT : LibTopo T) {m : Mesh P}
    (hb : Built T m) {d : Nat} (hd : d < T.cellDim) {i j : Nat} {e f : Elem}
    (hi : (m.elems d)[i]? = some e) (hj : (m.elems d)[j]? = some f) (hs : SameVerts e.verts f.verts) :
    i = j := by
  have hI := hb.inv hT.wf
  exact hI.slot_unique (by omega) hi hj (sameVerts_perm (hI.verts d e (List.mem_of_getElem? hi)).1
    (hI.verts d f (List.mem_of_getElem? hj)).1 hs)

/-- C04b: every element refers, for each boundary element prescribed by its topology, to the one
stored element with that vertex set. -/
theorem C04_refers_to_the_shared_element {T : Topo} (hT : LibTopo T) {m : Mesh P} (hb : Built T m)
    {d : Nat} (hd : d ≤ T.cellDim) {e : Elem} (he : e ∈ m.elems d) {k : Nat}
    {idxs : List (List Nat)} (hl : (k, idxs) ∈ T.layers d e.verts.length) {p : Nat} {ix : List Nat}
    (hp : idxs[p]? = some ix) :
    (e.bndSlots k).length = idxs.length ∧
    ∃ s f, (e.bndSlots k)[p]? = some s ∧ (m.elems k)[s]? = some f ∧
      SameVerts f.verts (ix.map (fun i => e.verts.getD i 0)) ∧
      ∀ s' f', (m.elems k)[s']? = some f' → SameVerts f'.verts (ix.map (fun i => e.verts.getD i 0)) →
        s' = s := by
  have hI := hb.inv hT.wf
  obtain ⟨refs, h1, h2⟩ := (hI.bnd d e he).lookup (hT.wf.once d _) hl
  have hbs : e.bndSlots k = refs.map (·.1) := by unfold Elem.bndSlots; rw [h1]
  obtain ⟨r, hr, f, h3, h4, _, _⟩ := forall₂_getElem? h2 hp
  refine ⟨by rw [hbs, List.length_map, h2.length_eq], r.1, f, by rw [hbs, List.getElem?_map, hr]; rfl, h3,
    sameVerts_of_perm h4, ?_⟩
  intro s' f' hs' hv'
  refine C04_no_two_elements_with_same_vertices hT hb (d := k) ?_ hs' h3 ?_
  · have := (hT.wf.dim d _ k idxs hl).2; omega
  · intro v
    rw [hv' v]
    exact (sameVerts_of_perm h4 v).symm

/-- C04c, the same through an operation: creating a cell adds an element of intermediate dimension
with a given vertex set only if there was none before. -/
theorem C04_create_reuses {T : Topo} (hT : LibTopo T) {m : Mesh P} (hb : Built T m) {d : Nat}
    (hd1 : 1 ≤ d) (hd : d < T.cellDim) {vs : List Nat} (hn : vs.Nodup) (hlen : vs.length = T.nv d)
    (hvalid : ∀ v ∈ vs, v < m.verts.length) {s : Nat} {f : Elem} (hs : (m.elems d)[s]? = some f)
    (hf : SameVerts f.verts vs) :
    (m.makeElem T d vs).slot = s ∧ (m.makeElem T d vs).new = false ∧
      ∀ k, (m.makeElem T d vs).mesh.elems k = m.elems k := by
  have hI := hb.inv hT.wf
  obtain ⟨ops, _, _, hu⟩ := hb
  have hs' := makeElem_spec hT.wf hI hu hd1 ⟨hn, Or.inl hlen, hvalid⟩
  have hp := sameVerts_perm (hI.verts d f (List.mem_of_getElem? hs)).1 hn hf
  have hnew : (m.makeElem T d vs).new = false := by
    by_contra h
    rw [Bool.not_eq_false, hs'.isnew] at h
    rcases h with h | h
    · omega
    · exact h f (List.mem_of_getElem? hs) hp
  have hold := hs'.old hnew
  obtain ⟨g, h1, h2, _⟩ := hs'.found
  refine ⟨?_, hnew, fun k => by rw [hold]; rfl⟩
  rw [hold] at h1
  exact hI.slot_unique (by omega) h1 hs (h2.trans hp.symm)

/-- C04, violated when two vertices carry the same id, which the id generator allows (C01): the
second triangle refers, as its edge between its first two vertices, to an edge of the first. -/
theorem C04_violated_with_duplicate_ids :
    ∃ m : Mesh Unit, Mesh.empty.run (simplexTopo 2)
        [.vertex (some 0) (), .vertex none (), .vertex none (), .vertex none (),
         .elem 2 [0, 2, 3], .elem 2 [1, 2, 3]] = some m ∧
      ∃ e f, (m.elems 2)[1]? = some e ∧ e.verts = [1, 2, 3] ∧ (e.bndSlots 1)[0]? = some 0 ∧
        (m.elems 1)[0]? = some f ∧ f.verts = [0, 2] := by
  refine ⟨_, rfl, ?_⟩
  exact ⟨_, _, rfl, rfl, by decide, rfl, by decide⟩

/-! ### C05 -/

/-- C05a: after any history of vertex and cell creations, each element of intermediate dimension is
on the boundary of some stored element of higher dimension. -/
theorem C05_no_unreferenced_element {T : Topo} (hT : LibTopo T) {ops : List (MOp P)} {m : Mesh P}
    (hd : ∀ op ∈ ops, op.Distinct) (hc : ∀ op ∈ ops, op.CellsOnly T)
    (hr : Mesh.empty.run T ops = some m) (hu : UniqueVids m) {k s : Nat} {f : Elem}
    (hk : k < T.cellDim) (hs : (m.elems k)[s]? = some f) :
    ∃ d e, k < d ∧ d ≤ T.cellDim ∧ e ∈ m.elems d ∧ s ∈ e.bndSlots k := by
  have hI := run_inv hT.wf (Inv.empty T) hd hr hu
  have hJ : NoJunk T m := run_noJunk hT.wf (Inv.empty T) (by intro d s f _ h; simp [Mesh.empty] at h)
    hd hc hr hu
  obtain ⟨d, e, he, href⟩ := hJ k s f (by omega) hs
  have hs' := (Refers.iff_bndSlots hT.wf hI he).1 href
  obtain ⟨refs, perm, h1, h2⟩ := href
  obtain ⟨i, hi⟩ := List.mem_iff_getElem?.1 h1
  obtain ⟨⟨k', idxs⟩, hl, h3, _⟩ := forall₂_getElem?' (hI.bnd d e he) hi
  simp only at h3
  subst h3
  refine ⟨d, e, (hT.wf.dim d _ k' idxs (List.mem_of_getElem? hl)).2, ?_, he, hs'⟩
  -- no elements above the dimension of cells
  by_contra hgt
  have : ∀ (ops : List (MOp P)) (m0 : Mesh P), (∀ j, T.cellDim < j → m0.elems j = []) → Inv T m0 →
      (∀ op ∈ ops, op.Distinct) → m0.run T ops = some m → ∀ j, T.cellDim < j → m.elems j = [] := by
    intro ops
    induction ops with
    | nil => intro m0 h0 _ _ hr; simp [Mesh.run] at hr; subst hr; exact h0
    | cons op ops ih =>
      intro m0 h0 hI0 hd0 hr
      simp only [Mesh.run] at hr
      obtain ⟨m1, hr1, hr2⟩ := Option.bind_eq_some_iff.1 hr
      have hu0 : UniqueVids m0 := (hu.of_prefix (run_verts hr2)).of_prefix (step_verts hr1)
      refine ih m1 ?_ (step_inv hT.wf hI0 hu0 (hd0 op (by simp)) hr1) (fun o ho => hd0 o (by simp [ho])) hr2
      intro j hj
      cases op with
      | vertex id p => simp [Mesh.step] at hr1; subst hr1; exact h0 j hj
      | elem d' vs =>
        simp only [Mesh.step] at hr1
        split at hr1
        · rename_i hc'
          simp only [Option.some.injEq] at hr1
          subst hr1
          have hsp := makeElem_spec hT.wf hI0 hu0 hc'.1 ⟨hd0 (.elem d' vs) (by simp), hc'.2.2.1, hc'.2.2.2⟩
          rw [hsp.higher j (by omega)]
          exact h0 j hj
        · cases hr1
  have := this ops Mesh.empty (fun _ _ => rfl) (Inv.empty T) hd hr d (by omega)
  rw [this] at he
  simp at he

/-- Every list of distinct entries of `vs` is, up to order, selected by increasing indices. -/
theorem exists_index_subset {vs ws : List Nat} (hw : ws.Nodup) (hs : ws ⊆ vs) :
    ∃ ix, IsSubsetOfSize vs.length ws.length ix ∧ (pick vs ix).Perm ws := by
  let ix0 := ws.map (fun w => vs.idxOf w)
  have hpick : pick vs ix0 = ws := by
    simp only [pick, ix0, List.map_map]
    conv_rhs => rw [← List.map_id ws]
    refine List.map_congr_left ?_
    intro w hw'
    have hlt : vs.idxOf w < vs.length := List.idxOf_lt_length_of_mem (hs hw')
    simp only [Function.comp, id]
    rw [List.getD_eq_getElem _ _ hlt, List.getElem_idxOf]
  have hnd : ix0.Nodup := by
    refine List.Nodup.map_on ?_ hw
    intro a ha b hb hab
    exact (List.idxOf_inj (hs ha)).1 hab
  let ix := ix0.insertionSort (· ≤ ·)
  have hperm : ix.Perm ix0 := List.perm_insertionSort _ _
  refine ⟨ix, ⟨by rw [hperm.length_eq]; simp [ix0], ?_, ?_⟩, ?_⟩
  · have h1 := List.pairwise_insertionSort (· ≤ ·) ix0
    have h2 : ix.Nodup := hperm.nodup_iff.2 hnd
    exact (h1.and h2).imp (fun h => lt_of_le_of_ne h.1 h.2)
  · intro i hi
    have := hperm.mem_iff.1 hi
    simp only [ix0, List.mem_map] at this
    obtain ⟨w, hw', rfl⟩ := this
    exact List.idxOf_lt_length_of_mem (hs hw')
  · conv_rhs => rw [← hpick]
    exact hperm.map _

/-- C05b: in a simplex mesh each such element is on the boundary of some stored cell. -/
theorem C05_simplex_no_junk {n : Nat} {ops : List (MOp P)} {m : Mesh P}
    (hd : ∀ op ∈ ops, op.Distinct) (hc : ∀ op ∈ ops, op.CellsOnly (simplexTopo n))
    (hr : Mesh.empty.run (simplexTopo n) ops = some m) (hu : UniqueVids m) {k s : Nat} {f : Elem}
    (hk : k < n) (hs : (m.elems k)[s]? = some f) :
    ∃ c ∈ m.elems n, s ∈ c.bndSlots k := by
  have hT : LibTopo (simplexTopo n) := Or.inl ⟨n, rfl⟩
  have hI := run_inv hT.wf (Inv.empty _) hd hr hu
  have hb : Built (simplexTopo n) m := ⟨ops, hd, hr, hu⟩
  -- every stored element has its vertices among those of a cell
  have key : ∀ j, ∀ (k s : Nat) (f : Elem), n - k = j → k ≤ n → (m.elems k)[s]? = some f →
      ∃ c ∈ m.elems n, f.verts ⊆ c.verts := by
    intro j
    induction j using Nat.strong_induction_on with
    | _ j ih =>
      intro k s f hj hkn hs
      by_cases hkn' : k = n
      · subst hkn'; exact ⟨f, List.mem_of_getElem? hs, List.Subset.refl _⟩
      · obtain ⟨d, e, h1, h2, h3, h4⟩ := C05_no_unreferenced_element hT hd hc hr hu
          (show k < (simplexTopo n).cellDim by simp only [simplexTopo]; omega) hs
        simp only [simplexTopo] at h2
        obtain ⟨i, hi⟩ := List.mem_iff_getElem?.1 h3
        obtain ⟨c, hc1, hc2⟩ := ih (n - d) (by omega) d i e rfl h2 hi
        refine ⟨c, hc1, ?_⟩
        obtain ⟨refs, perm, ha, hb'⟩ := (Refers.iff_bndSlots hT.wf hI h3).2 h4
        obtain ⟨q, hq⟩ := List.mem_iff_getElem?.1 ha
        obtain ⟨⟨k', idxs⟩, hl, hk', hf2⟩ := forall₂_getElem?' (hI.bnd d e h3) hq
        simp only at hk'
        subst hk'
        obtain ⟨t, ht⟩ := List.mem_iff_getElem?.1 hb'
        obtain ⟨ix, hix, g, hg, hgp, _⟩ := forall₂_getElem?' hf2 ht
        have : g = f := by
          simp only at hg
          rw [hs] at hg; exact (Option.some.inj hg).symm
        subst this
        intro v hv
        have hv' := hgp.subset hv
        exact hc2 ((pick_ok hT.wf (List.mem_of_getElem? hix) (List.mem_of_getElem? hl)
          (hI.verts d e h3)).2 hv')
  obtain ⟨c, hcm, hsub⟩ := key (n - k) k s f rfl (by omega) hs
  -- dimension of f
  have hk12 : (k = 1 ∧ 2 ≤ n) ∨ (k = 2 ∧ 3 ≤ n) := by
    obtain ⟨d, e, h1, h2, h3, h4⟩ := C05_no_unreferenced_element hT hd hc hr hu
      (show k < (simplexTopo n).cellDim by simp only [simplexTopo]; omega) hs
    obtain ⟨refs, perm, ha, hb'⟩ := (Refers.iff_bndSlots hT.wf hI h3).2 h4
    obtain ⟨q, hq⟩ := List.mem_iff_getElem?.1 ha
    obtain ⟨⟨k', idxs⟩, hl, hk', hf2⟩ := forall₂_getElem?' (hI.bnd d e h3) hq
    simp only at hk'
    subst hk'
    have := List.mem_of_getElem? hl
    simp only [simplexTopo, List.mem_append] at this
    rcases this with h | h
    · split at h
      · simp at h; omega
      · simp at h
    · split at h
      · simp at h; omega
      · simp at h
  have hfv := hI.verts k f (List.mem_of_getElem? hs)
  have hcv := hI.verts n c hcm
  obtain ⟨ix, hix, hperm⟩ := exists_index_subset hfv.1 hsub
  have hlen : f.verts.length = k + 1 := hfv.2.1.fixed
  have hclen : c.verts.length = n + 1 := hcv.2.1.fixed
  rw [hlen, hclen] at hix
  have hlayer : ∃ idxs, (k, idxs) ∈ (simplexTopo n).layers n c.verts.length ∧ ix ∈ idxs := by
    rcases hk12 with ⟨rfl, hn⟩ | ⟨rfl, hn⟩
    · exact ⟨edgeIdx (n + 1), by simp [simplexTopo, hn], (C06_edges_are_pairs _ _).2 hix⟩
    · exact ⟨triIdx (n + 1), by simp [simplexTopo, hn], (C06_triangles_are_triples _ _).2 hix⟩
  obtain ⟨idxs, hl, hixm⟩ := hlayer
  obtain ⟨p, hp⟩ := List.mem_iff_getElem?.1 hixm
  obtain ⟨_, s', f', h1, h2, h3, h4⟩ := C04_refers_to_the_shared_element hT hb
    (show n ≤ (simplexTopo n).cellDim from le_refl _) hcm hl hp
  have : s = s' := h4 s f hs (sameVerts_of_perm hperm.symm)
  subst this
  exact ⟨c, hcm, List.mem_of_getElem? h1⟩

/-- C05c: ids of every element type are exactly 0, 1, ..., in the order of creation; for vertices
provided that no explicit id was used. -/
theorem C05_ids_are_positions {T : Topo} {ops : List (MOp P)} {m : Mesh P}
    (hg : ∀ op ∈ ops, op.Generated)
    (hr : Mesh.empty.run T ops = some m) :
    (∀ d, (m.elems d).map (·.id) = List.range (m.elems d).length) ∧
    m.verts.map (·.id) = (List.range m.verts.length).map (fun k : Nat => (k : Int)) :=
  ⟨fun d => (run_idsCont (fun _ => ⟨rfl, rfl⟩) hr d).1, (run_vidsCont VidsCont.empty hg hr).1⟩

/-! ### C08 -/

/-- C08: `local_vertex(e, boundary, i)` is the `i`-th vertex of that boundary element in the order in
which `e` lists it, although the stored boundary element may have another vertex order. -/
theorem C08_local_vertex {T : Topo} (hT : LibTopo T) {m : Mesh P} (hb : Built T m) {d : Nat}
    (hd : d ≤ T.cellDim) {e : Elem} (he : e ∈ m.elems d) {k : Nat} {idxs : List (List Nat)}
    (hl : (k, idxs) ∈ T.layers d e.verts.length) {p : Nat} {ix : List Nat} (hp : idxs[p]? = some ix) {s : Nat}
    (hs : (e.bndSlots k)[p]? = some s) {i v : Nat} (hi : ix[i]? = some v) :
    m.localVertex e k s i = e.verts[v]? := by
  have hI := hb.inv hT.wf
  obtain ⟨refs, h1, h2⟩ := (hI.bnd d e he).lookup (hT.wf.once d _) hl
  have hbs : e.bndSlots k = refs.map (·.1) := by unfold Elem.bndSlots; rw [h1]
  obtain ⟨r, hr, f, h3, h4, h5, h6⟩ := forall₂_getElem? h2 hp
  have hrs : r.1 = s := by
    rw [hbs, List.getElem?_map, hr] at hs
    simpa using hs
  have hkn : k ≠ T.cellDim := by have := (hT.wf.dim d _ k idxs hl).2; omega
  -- the first reference with this handle is this one
  have hfirst : refs.find? (fun r => r.1 == s) = some r := by
    rw [List.find?_eq_some_iff_getElem]
    refine ⟨by simp [hrs], p, (List.getElem?_eq_some_iff.1 hr).1, (List.getElem?_eq_some_iff.1 hr).2, ?_⟩
    intro q hq
    have hql : q < refs.length := by have := (List.getElem?_eq_some_iff.1 hr).1; omega
    simp only [Bool.not_eq_true', beq_eq_false_iff_ne]
    intro hqs
    obtain ⟨ix', hix', g, g1, g2, _⟩ := forall₂_getElem?' h2 (List.getElem?_eq_getElem hql)
    rw [hqs, ← hrs] at g1
    have hgf : g = f := by rw [h3] at g1; exact (Option.some.inj g1).symm
    subst hgf
    have hpp : (pick e.verts ix').Perm (pick e.verts ix) := g2.symm.trans h4
    have hev := hI.verts d e he
    have w1 := hT.wf.idx d _ k idxs (hI.verts d e he).2.1 hl ix' (List.mem_of_getElem? hix')
    have w2 := hT.wf.idx d _ k idxs (hI.verts d e he).2.1 hl ix (List.mem_of_getElem? hp)
    have hixp : ix'.Perm ix := by
      refine perm_of_map_perm (S := fun i => i < e.verts.length) ?_ ?_ ?_ hpp
      · intro a b ha hb' hab
        rw [List.getD_eq_getElem _ _ ha, List.getD_eq_getElem _ _ hb'] at hab
        exact (List.Nodup.getElem_inj_iff hev.1).1 hab
      · intro a ha; exact w1.2.2 a ha
      · intro a ha; exact w2.2.2 a ha
    have hdist := List.pairwise_iff_getElem.1 (hT.wf.distinct d _ k idxs hev.2.1 hl)
    obtain ⟨b1, rfl⟩ := List.getElem?_eq_some_iff.1 hix'
    obtain ⟨b2, rfl⟩ := List.getElem?_eq_some_iff.1 hp
    exact hdist q p b1 b2 hq hixp
  have hvlt : v < e.verts.length := by
    exact (hT.wf.idx d _ k idxs (hI.verts d e he).2.1 hl ix (List.mem_of_getElem? hp)).2.2 v (List.mem_of_getElem? hi)
  obtain ⟨q, hq1, hq2⟩ := h6 i (e.verts.getD v 0) (by simp [pick, hi])
  have hvo : m.vertsOf k s = f.verts := by
    unfold Mesh.vertsOf
    rw [List.getD_eq_getElem?_getD, List.getElem?_map, ← hrs, h3]; rfl
  unfold Mesh.localVertex
  rw [h1]
  simp only [hfirst, hq1, Option.bind_some, hvo, hq2]
  rw [List.getD_eq_getElem _ _ hvlt, List.getElem?_eq_getElem hvlt]

/-! ### A concrete mesh: two tetrahedra sharing a face listed in different order -/

/-- Two tetrahedra. -/
def twoTets : List (MOp Unit) :=
  [.vertex none (), .vertex none (), .vertex none (), .vertex none (), .vertex none (),
   .elem 3 [0, 1, 2, 3], .elem 3 [3, 2, 1, 4]]

def twoTetsMesh : Mesh Unit := (Mesh.empty.run (simplexTopo 3) twoTets).getD Mesh.empty

example : Built (simplexTopo 3) twoTetsMesh :=
  Built.of_generated (ops := twoTets) (by simp [twoTets, MOp.Distinct]) (by simp [twoTets, MOp.Generated]) rfl

example : (twoTetsMesh.elems 3).length = 2 ∧ (twoTetsMesh.elems 2).length = 7 ∧
    (twoTetsMesh.elems 1).length = 9 := by decide

/-- The shared face is listed first in the second tetrahedron, in the order 3,2,1. -/
example : ∃ e, (twoTetsMesh.elems 3)[1]? = some e ∧ (e.bndSlots 2)[0]? = some 3 ∧
    twoTetsMesh.vertsOf 2 3 = [1, 2, 3] ∧
    (List.range 3).map (twoTetsMesh.localVertex e 2 3) = [some 3, some 2, some 1] :=
  ⟨_, rfl, by decide, by decide, by decide⟩

end VG
