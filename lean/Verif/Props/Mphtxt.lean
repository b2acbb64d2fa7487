import Verif.Lemmas.MphtxtGeo

/-!
C74, C75, C76: the writer of Comsol files.
-/

namespace VG

variable {P : Type} {S : MphSrc P}

/-! ### C74 -/

theorem vertexIndex_spec {m : Mesh P} (hu : UniqueVids m) {v : Nat} (hv : v < m.verts.length) :
    vertexIndex m (m.vid v) = v := by
  unfold vertexIndex
  have key : ∀ n, n ≤ m.verts.length → v < n →
      (List.range n).foldl (fun f i => upd f (m.vid i) i) (fun _ => 0) (m.vid v) = v := by
    intro n
    induction n with
    | zero => intro _ h; omega
    | succ n ih =>
      intro hn hv'
      rw [List.range_succ, List.foldl_append]
      simp only [List.foldl_cons, List.foldl_nil, upd]
      split
      · rename_i he
        exact (vid_inj hu hv (by omega) he).symm
      · rename_i he
        refine ih (by omega) ?_
        rcases Nat.lt_succ_iff_lt_or_eq.1 hv' with h | h
        · exact h
        · subst h; exact absurd rfl he
  exact key _ (le_refl _) hv

theorem vertexIndex_map (h : S.Ready) {k t : Nat} (hk : k ≠ 0) (ht : t < S.st.mesh.count k) :
    (S.st.mesh.vertsOf k t).map (fun v => vertexIndex S.st.mesh (S.st.mesh.vid v)) = S.st.mesh.vertsOf k t := by
  have hI := h.reached.inv (simplexTopo_wf 3) (simplexTopo_closed 3)
  have hu : UniqueVids S.st.mesh := by obtain ⟨_, _, _, hu⟩ := h.reached; exact hu
  obtain ⟨e, he⟩ := elem_of_lt hk ht
  have hv := (hI.mesh.verts k e (List.mem_of_getElem? he)).2.2
  rw [vertsOf_elem he]
  conv_rhs => rw [← List.map_id e.verts]
  exact List.map_congr_left (fun v hv' => vertexIndex_spec hu (hv v hv'))

theorem domains_spec : ∀ (cs : List Nat),
    (∀ l, S.domains cs = .ok l → l = cs.map (fun c => (((S.st.segmentIds 3 c).headD 0 : Nat) : Int) + 1)) ∧
    ((∀ c ∈ cs, S.st.segmentIds 3 c ≠ []) → ∃ l, S.domains cs = .ok l) ∧
    ((∃ c ∈ cs, S.st.segmentIds 3 c = []) → S.domains cs = .error .undefined)
  | [] => ⟨fun l h => (by cases h; rfl), fun _ => ⟨[], rfl⟩, fun ⟨c, h, _⟩ => (by simp at h)⟩
  | c :: cs => by
    obtain ⟨h1, h2, h3⟩ := domains_spec cs
    unfold MphSrc.domains
    cases hc : S.st.segmentIds 3 c with
    | nil =>
      refine ⟨fun l h => (by cases h), fun h => ?_, fun _ => rfl⟩
      exact absurd hc (h c (by simp))
    | cons g l' =>
      simp only
      refine ⟨fun l h => ?_, fun h => ?_, fun h => ?_⟩
      · cases hd : S.domains cs with
        | error e => rw [hd] at h; cases h
        | ok l1 =>
          rw [hd] at h
          cases h
          rw [h1 l1 hd]
          simp [hc]
      · obtain ⟨l1, hl⟩ := h2 (fun x hx => h x (by simp [hx]))
        rw [hl]
        exact ⟨_, rfl⟩
      · obtain ⟨x, hx, he⟩ := h
        rcases List.mem_cons.1 hx with rfl | hx
        · rw [hc] at he; cases he
        · rw [h3 ⟨x, hx, he⟩]

theorem Listed.unique (h : S.Ready) {ts ts' : List Nat} (h1 : Listed S ts) (h2 : Listed S ts') : ts = ts' := by
  have hI := h.reached.inv (simplexTopo_wf 3) (simplexTopo_closed 3)
  have hu : UniqueVids S.st.mesh := by obtain ⟨_, _, _, hu⟩ := h.reached; exact hu
  have hn : ∀ {l : List Nat}, Listed S l → l.Nodup := fun h => h.1.imp (fun h e => by rw [e] at h; omega)
  refine List.Perm.eq_of_pairwise (le := fun t u => S.st.mesh.eid 2 t < S.st.mesh.eid 2 u)
    (fun a b _ _ h3 h4 => by omega) h1.1 h2.1 ?_
  exact (List.perm_ext_iff_of_nodup (hn h1) (hn h2)).2 (fun t => (h1.2 t).trans (h2.2 t).symm)

/-- Everything about a written file. -/
theorem write_spec (h : S.Ready) (hp : ∀ t u, S.par t u = S.par u t) :
    ∃ l a, S.used = .ok l ∧ S.contacts = .ok a ∧ UInv S l ∧ ContactInv S a ∧
      (∀ g ∈ S.gs, ∀ t, HullTri S.st g t → a.1 (S.st.mesh.eid 2 t) ≠ -1) ∧
      (∀ g ∈ S.gs, ∀ t, HullTri S.st g t → TriEntered S g t l) ∧ Listed S (l.map (·.2.tri)) ∧
      ∀ F, S.write = .ok F → F.points = S.st.mesh.verts.map (·.pt) ∧
        F.tris = (l.map (·.2.tri)).map (S.st.mesh.vertsOf 2) ∧
        F.contacts = (l.map (·.2.tri)).map (fun t => a.1 (S.st.mesh.eid 2 t)) ∧
        F.sides = l.map (fun x => (x.2.up, x.2.down)) ∧
        F.tets = (List.range (S.st.mesh.count 3)).map (S.st.mesh.vertsOf 3) ∧
        S.domains (List.range (S.st.mesh.count 3)) = .ok F.domains := by
  have hI := h.reached.inv (simplexTopo_wf 3) (simplexTopo_closed 3)
  obtain ⟨l, h1, h2, h3⟩ := used_spec h
  obtain ⟨a, h4, h5, h6⟩ := contacts_spec h hp
  refine ⟨l, a, h1, h4, h2, h5, h6, h3, ⟨?_, fun t => ?_⟩, fun F hF => ?_⟩
  · have := h2.order
    unfold InOrder at this
    rw [List.pairwise_map] at this ⊢
    refine this.imp_of_mem (fun {x y} hx hy hlt => ?_)
    have e1 := (h2.entry x.1 x.2 hx).1
    have e2 := (h2.entry y.1 y.2 hy).1
    omega
  · constructor
    · intro ht
      obtain ⟨⟨x, i⟩, hx, rfl⟩ := List.mem_map.1 ht
      exact (h2.entry x i hx).2
    · rintro ⟨g, hg, hh⟩
      obtain ⟨i, k1, k2, _⟩ := h3 g hg t hh hh
      exact List.mem_map.2 ⟨_, k1, k2⟩
  · unfold MphSrc.write at hF
    rw [h1, h4] at hF
    simp only at hF
    cases hd : S.domains (List.range (S.st.mesh.count 3)) with
    | error e => rw [hd] at hF; cases hF
    | ok doms =>
      rw [hd] at hF
      cases hF
      refine ⟨rfl, ?_, ?_, rfl, ?_, rfl⟩
      · rw [List.map_map]
        refine List.map_congr_left (fun x hx => ?_)
        obtain ⟨_, g, _, hh⟩ := h2.entry x.1 x.2 hx
        exact vertexIndex_map h (by omega) (hI.view_lt hh.1)
      · rw [List.map_map]; rfl
      · refine List.map_congr_left (fun c hc => ?_)
        exact vertexIndex_map h (by omega) (List.mem_range.1 hc)

/-- C74, geometry: point `v` of the file is the point of vertex `v`; line `c` of the tetrahedra names the points of the
vertices of cell `c`; and the triangles are exactly those on the boundary of some segment, each once, in the order of
their ids, with the points of their vertices. -/
theorem C74_geometry (h : S.Ready) (hp : ∀ t u, S.par t u = S.par u t) {F : MphFile P} (hF : S.write = .ok F) :
    F.points = S.st.mesh.verts.map (·.pt) ∧ F.tets.length = S.st.mesh.count 3 ∧
    (∀ c < S.st.mesh.count 3, F.tets[c]? = some (S.st.mesh.vertsOf 3 c)) ∧
    ∃ ts, Listed S ts ∧ F.tris = ts.map (S.st.mesh.vertsOf 2) ∧ F.contacts.length = ts.length ∧ F.sides.length = ts.length := by
  obtain ⟨l, a, _, _, _, _, _, _, h7, h8⟩ := write_spec h hp
  obtain ⟨e1, e2, e3, e4, e5, _⟩ := h8 F hF
  refine ⟨e1, by rw [e5]; simp, fun c hc => ?_, _, h7, e2, by rw [e3]; simp, by rw [e4]; simp⟩
  rw [e5, List.getElem?_map, List.getElem?_range hc]
  rfl

/-- C74, segments: the file names for each cell one of its segments, counted from one; so the segment if no cell is
in two. -/
theorem C74_domains (h : S.Ready) (hp : ∀ t u, S.par t u = S.par u t) {F : MphFile P} (hF : S.write = .ok F) :
    F.domains.length = S.st.mesh.count 3 ∧
    ∀ c < S.st.mesh.count 3, ∃ g : Nat, F.domains[c]? = some ((g : Int) + 1) ∧ c ∈ S.st.view g 3 := by
  obtain ⟨l, a, _, _, _, _, _, _, _, h8⟩ := write_spec h hp
  obtain ⟨_, _, _, _, _, hd⟩ := h8 F hF
  obtain ⟨d1, _, d3⟩ := domains_spec (S := S) (List.range (S.st.mesh.count 3))
  have e := d1 _ hd
  refine ⟨by rw [e]; simp, fun c hc => ?_⟩
  cases hs : S.st.segmentIds 3 c with
  | nil => rw [d3 ⟨c, List.mem_range.2 hc, hs⟩] at hd; cases hd
  | cons g l' =>
    refine ⟨g, ?_, ?_⟩
    · rw [e, List.getElem?_map, List.getElem?_range hc]
      simp [hs]
    · exact ((C26_segment_ids_partial (Or.inl ⟨3, rfl⟩) h.reached hc).2 g).1 (by rw [hs]; simp)

/-- C74: a file is written if every cell is in a segment.  The full statement has no such hypothesis (cells in no
segment have the number zero, as the comment in the code says); see `C74_violated`. -/
theorem C74_written_partial (h : S.Ready) (hp : ∀ t u, S.par t u = S.par u t)
    (hc : ∀ c < S.st.mesh.count 3, ∃ g, c ∈ S.st.view g 3) : ∃ F, S.write = .ok F := by
  obtain ⟨l, a, h1, h2, _⟩ := write_spec h hp
  obtain ⟨_, d2, _⟩ := domains_spec (S := S) (List.range (S.st.mesh.count 3))
  obtain ⟨doms, hd⟩ := d2 (fun c hc' e => by
    have hlt := List.mem_range.1 hc'
    obtain ⟨g, hg⟩ := hc c hlt
    have := ((C26_segment_ids_partial (Or.inl ⟨3, rfl⟩) h.reached hlt).2 g).2 hg
    rw [e] at this
    simp at this)
  unfold MphSrc.write
  rw [h1, h2]
  simp only
  rw [hd]
  exact ⟨_, rfl⟩

/-- Whenever a cell is in no segment, writing is undefined behaviour. -/
theorem C74_undefined (h : S.Ready) (hp : ∀ t u, S.par t u = S.par u t) {c : Nat} (hlt : c < S.st.mesh.count 3)
    (hc : ∀ g, c ∉ S.st.view g 3) : S.write = .error .undefined := by
  obtain ⟨l, a, h1, h2, _⟩ := write_spec h hp
  obtain ⟨_, _, d3⟩ := domains_spec (S := S) (List.range (S.st.mesh.count 3))
  have hs : S.st.segmentIds 3 c = [] := by
    rw [List.eq_nil_iff_forall_not_mem]
    intro g hg
    exact hc g (((C26_segment_ids_partial (Or.inl ⟨3, rfl⟩) h.reached hlt).2 g).1 hg)
  unfold MphSrc.write
  rw [h1, h2]
  simp only
  rw [d3 ⟨c, List.mem_range.2 hlt, hs⟩]

/-! ### C75 -/

section Real
variable {st : SegState (Fin 3 → ℝ)} {seg : Nat → VC} {gs : List Nat}

theorem link_iff (h : (MphSrc.ofPoints st seg gs).Ready) {t u : Nat} :
    FlatLink (MphSrc.ofPoints st seg gs) t u ↔ SideBySide st gs t u := by
  have hI := h.reached.inv (simplexTopo_wf 3) (simplexTopo_closed 3)
  unfold FlatLink SideBySide
  refine exists_congr (fun g => and_congr_right (fun _ => and_congr_right (fun ht => and_congr_right (fun hu =>
    and_congr_right (fun _ => and_congr_right (fun _ => ?_))))))
  obtain ⟨a, b, w, _, _, _, hv⟩ := facetAt_of hI.mesh (hI.view_lt ht.1)
  obtain ⟨a', b', w', _, _, _, hv'⟩ := facetAt_of hI.mesh (hI.view_lt hu.1)
  exact normalsParallel_iff hv.verts hv'.verts

theorem chain_iff (h : (MphSrc.ofPoints st seg gs).Ready) {t u : Nat} :
    Relation.ReflTransGen (FlatLink (MphSrc.ofPoints st seg gs)) t u ↔ Relation.ReflTransGen (SideBySide st gs) t u := by
  have : FlatLink (MphSrc.ofPoints st seg gs) = SideBySide st gs := by
    funext t u
    exact propext (link_iff h)
  rw [this]

/-- C75: the contact indices in the file are `0, ..., n - 1`, each used; triangles with the same index are connected by
triangles side by side (on the boundary of a common segment, with a common vertex, in the same segments, nearly
parallel).  If triangles side by side are on the boundary of the same segments, the converse holds: connected triangles
have the same index, so the contacts are exactly the connected regions; this is the case under `SegParts` (no cell in
two segments, triangles of segments belong to cells, at most two cells at a triangle).  The full statement asks for
this without `SameHulls`, see `C75_violated_several`, and for triangles in one plane, see `C75_violated_plane`. -/
theorem C75_contacts_partial (h : (MphSrc.ofPoints st seg gs).Ready) {F : MphFile (Fin 3 → ℝ)}
    (hF : (MphSrc.ofPoints st seg gs).write = .ok F) {ts : List Nat} (hl : Listed (MphSrc.ofPoints st seg gs) ts) :
    ∃ (ix : Nat → Int) (n : Int), F.contacts = ts.map ix ∧
      (∀ i, (0 ≤ i ∧ i < n) ↔ ∃ t ∈ ts, ix t = i) ∧
      (∀ t ∈ ts, ∀ u ∈ ts, ix t = ix u → Relation.ReflTransGen (SideBySide st gs) t u) ∧
      (SameHulls st gs → ∀ t ∈ ts, ∀ u ∈ ts, (ix t = ix u ↔ Relation.ReflTransGen (SideBySide st gs) t u)) := by
  have hI := h.reached.inv (simplexTopo_wf 3) (simplexTopo_closed 3)
  obtain ⟨l, a, _, _, _, hc, hcov, _, h7, h8⟩ := write_spec h (fun t u => normalsParallel_symm t u)
  obtain ⟨_, _, e3, _⟩ := h8 F hF
  have := hl.unique h h7
  rw [← this] at e3
  have hall : ∀ t ∈ ts, t ∈ st.all 2 ∧ a.1 (st.mesh.eid 2 t) ≠ -1 := by
    intro t ht
    obtain ⟨g, hg, hh⟩ := (hl.2 t).1 ht
    exact ⟨(hI.all 2 t).2 ⟨g, hh.1⟩, hcov g hg t hh⟩
  have hconn : ∀ t ∈ ts, ∀ u ∈ ts, a.1 (st.mesh.eid 2 t) = a.1 (st.mesh.eid 2 u) →
      Relation.ReflTransGen (SideBySide st gs) t u := fun t ht u hu he =>
    (chain_iff h).1 (hc.conn t (hall t ht).1 u (hall u hu).1 (hall t ht).2 he)
  refine ⟨fun t => a.1 (st.mesh.eid 2 t), a.2, e3, fun i => ⟨fun hi => ?_, ?_⟩, hconn, fun hs t ht u hu => ⟨hconn t ht u hu, ?_⟩⟩
  · obtain ⟨g, hg, t, hh, he⟩ := hc.used i hi.1 hi.2
    exact ⟨t, (hl.2 t).2 ⟨g, hg, hh⟩, he⟩
  · rintro ⟨t, ht, rfl⟩
    obtain ⟨h1, h2, _⟩ := hc.range t (hall t ht).1 (hall t ht).2
    exact ⟨h1, h2⟩
  · intro hch
    replace hch := (chain_iff h).2 hch
    have key : a.1 (st.mesh.eid 2 u) = a.1 (st.mesh.eid 2 t) := by
      clear hu
      induction hch with
      | refl => rfl
      | tail _ h2 ih =>
        rw [← ih]
        refine (hc.max (fun t u hl => hs t u ((link_iff h).1 hl)) _ _ h2 ?_)
        intro e
        exact (hall t ht).2 (ih.symm.trans e)
    exact key.symm

theorem normals_sq (n p q : Fin 3 → ℝ) (hp : ∑ i, n i * p i = 0) (hq : ∑ i, n i * q i = 0) :
    (∑ i, n i * crossProd p q i) ^ 2 = (∑ i, n i ^ 2) * ∑ i, crossProd p q i ^ 2 := by
  rw [Fin.sum_univ_three] at hp hq
  simp only [Fin.sum_univ_three, crossProd_zero, crossProd_one, crossProd_two]
  have e0 : n 1 * (p 0 * q 1 - p 1 * q 0) - n 2 * (p 2 * q 0 - p 0 * q 2) = 0 := by
    linear_combination p 0 * hq - q 0 * hp
  have e1 : n 2 * (p 1 * q 2 - p 2 * q 1) - n 0 * (p 0 * q 1 - p 1 * q 0) = 0 := by
    linear_combination p 1 * hq - q 1 * hp
  have e2 : n 0 * (p 2 * q 0 - p 0 * q 2) - n 1 * (p 1 * q 2 - p 2 * q 1) = 0 := by
    linear_combination p 2 * hq - q 2 * hp
  linear_combination -(n 1 * (p 0 * q 1 - p 1 * q 0) - n 2 * (p 2 * q 0 - p 0 * q 2)) * e0
    - (n 2 * (p 1 * q 2 - p 2 * q 1) - n 0 * (p 0 * q 1 - p 1 * q 0)) * e1
    - (n 0 * (p 2 * q 0 - p 0 * q 2) - n 1 * (p 1 * q 2 - p 2 * q 1)) * e2

theorem SegParts.sameHulls (h : (MphSrc.ofPoints st seg gs).Ready) (hs : SegParts st) : SameHulls st gs :=
  fun _ _ hl _ _ ht => ((link_iff h).2 hl).inSegment hs ht

/-- C75: triangles on the boundary of a common segment, in the same segments, with a common vertex, exactly in one
plane and not degenerate, have the same contact index, if triangles side by side are on the boundary of the same
segments. -/
theorem C75_flat_partial (h : (MphSrc.ofPoints st seg gs).Ready) {F : MphFile (Fin 3 → ℝ)}
    (hF : (MphSrc.ofPoints st seg gs).write = .ok F) {ts : List Nat} (hl : Listed (MphSrc.ofPoints st seg gs) ts)
    (hs : SameHulls st gs) {i j t u : Nat} (hi : ts[i]? = some t) (hj : ts[j]? = some u) {g : Nat} (hg : g ∈ gs)
    (ht : HullTri st g t) (hu : HullTri st g u) (hsame : ∀ g', t ∈ st.view g' 2 ↔ u ∈ st.view g' 2)
    {a b w a' b' w' : Nat} (hvt : st.mesh.vertsOf 2 t = [a, b, w]) (hvu : st.mesh.vertsOf 2 u = [a', b', w'])
    (hcommon : ∃ v, v ∈ [a, b, w] ∧ v ∈ [a', b', w'])
    (hplane : ∀ x ∈ [a', b', w'], offPlane st.mesh a b w (st.mesh.at0 x) = 0)
    (hn : NotOnALine (st.mesh.at0 a) (st.mesh.at0 b) (st.mesh.at0 w))
    (hn' : NotOnALine (st.mesh.at0 a') (st.mesh.at0 b') (st.mesh.at0 w')) :
    F.contacts[i]? = F.contacts[j]? := by
  obtain ⟨ix, n, e1, _, _, e4⟩ := C75_contacts_partial h hF hl
  have hti := List.mem_of_getElem? hi
  have huj := List.mem_of_getElem? hj
  rw [e1, List.getElem?_map, List.getElem?_map, hi, hj]
  refine congrArg some ((e4 hs t hti u huj).2 (Relation.ReflTransGen.single ?_))
  refine ⟨g, hg, ht, hu, ?_, hsame, a, b, w, a', b', w', hvt, hvu, ?_⟩
  · obtain ⟨v, h1, h2⟩ := hcommon
    exact ⟨v, by rw [hvt]; exact h1, by rw [hvu]; exact h2⟩
  · have pos : ∀ {A B W : Fin 3 → ℝ}, NotOnALine A B W → 0 < ∑ i, crossProd (B - A) (W - A) i ^ 2 := by
      intro A B W hn
      by_contra hc
      have hz : ∑ i, crossProd (B - A) (W - A) i ^ 2 = 0 :=
        le_antisymm (not_lt.1 hc) (Finset.sum_nonneg (fun i _ => sq_nonneg _))
      rw [Fin.sum_univ_three, crossProd_zero, crossProd_one, crossProd_two] at hz
      simp only [Pi.sub_apply] at hz
      have z0 := sq_nonneg ((B 1 - A 1) * (W 2 - A 2) - (B 2 - A 2) * (W 1 - A 1))
      have z1 := sq_nonneg ((B 2 - A 2) * (W 0 - A 0) - (B 0 - A 0) * (W 2 - A 2))
      have z2 := sq_nonneg ((B 0 - A 0) * (W 1 - A 1) - (B 1 - A 1) * (W 0 - A 0))
      have y0 : (B 1 - A 1) * (W 2 - A 2) - (B 2 - A 2) * (W 1 - A 1) = 0 := by
        have : ((B 1 - A 1) * (W 2 - A 2) - (B 2 - A 2) * (W 1 - A 1)) ^ 2 = 0 := by linarith
        exact pow_eq_zero_iff (two_ne_zero) |>.1 this
      have y1 : (B 2 - A 2) * (W 0 - A 0) - (B 0 - A 0) * (W 2 - A 2) = 0 := by
        have : ((B 2 - A 2) * (W 0 - A 0) - (B 0 - A 0) * (W 2 - A 2)) ^ 2 = 0 := by linarith
        exact pow_eq_zero_iff (two_ne_zero) |>.1 this
      have y2 : (B 0 - A 0) * (W 1 - A 1) - (B 1 - A 1) * (W 0 - A 0) = 0 := by
        have : ((B 0 - A 0) * (W 1 - A 1) - (B 1 - A 1) * (W 0 - A 0)) ^ 2 = 0 := by linarith
        exact pow_eq_zero_iff (two_ne_zero) |>.1 this
      have hw : ∀ k, W k - A k = 0 := by
        intro k
        have := hn (W k - A k) (-(B k - A k)) (fun j => by
          fin_cases k <;> fin_cases j <;> simp only [Fin.mk_zero, Fin.mk_one, Fin.isValue, Fin.reduceFinMk] <;> linarith)
        exact this.1
      have := hn 0 1 (fun k => by rw [hw k]; ring)
      exact one_ne_zero this.2
    have p1 := hplane a' (by simp)
    have p2 := hplane b' (by simp)
    have p3 := hplane w' (by simp)
    have q1 := pos hn
    have q2 := pos hn'
    have d : ∀ X : Fin 3 → ℝ, offPlane st.mesh a b w X = ∑ i, crossProd (st.mesh.at0 b - st.mesh.at0 a)
        (st.mesh.at0 w - st.mesh.at0 a) i * (X i - st.mesh.at0 a i) := by
      intro X
      unfold offPlane determinant3
      rw [Fin.sum_univ_three, crossProd_zero, crossProd_one, crossProd_two]
      simp only [Pi.sub_apply]
      ring
    rw [d, Fin.sum_univ_three] at p1 p2 p3
    have key := normals_sq (crossProd (st.mesh.at0 b - st.mesh.at0 a) (st.mesh.at0 w - st.mesh.at0 a))
      (st.mesh.at0 b' - st.mesh.at0 a') (st.mesh.at0 w' - st.mesh.at0 a')
      (by rw [Fin.sum_univ_three]; simp only [Pi.sub_apply]; linarith) (by rw [Fin.sum_univ_three]; simp only [Pi.sub_apply]; linarith)
    simp only
    rw [key]
    have := mul_pos q1 q2
    nlinarith

/-! ### C76 -/

/-- If tetrahedra at a triangle are on different sides of it, there are at most two. -/
theorem NoOverlap.two {m : Mesh (Fin 3 → ℝ)} (hI : Inv (simplexTopo 3) m) (hn : NoOverlap m) {t a b c : Nat}
    (ha : UsedBy (simplexTopo 3) m t a) (hb : UsedBy (simplexTopo 3) m t b) (hc : UsedBy (simplexTopo 3) m t c) :
    a = b ∨ a = c ∨ b = c := by
  by_contra hne
  push Not at hne
  obtain ⟨h1, h2, h3⟩ := hne
  have no : ∀ {x}, UsedBy (simplexTopo 3) m t x → ¬ (Behind m t x ∧ InFront m t x) := fun hx => not_both hI hx
  rcases hn.solid t a ha with hA | hA
  · have hB := (hn.sides t a b ha hb h1).1 hA
    have hC := (hn.sides t a c ha hc h2).1 hA
    exact no hb ⟨(hn.sides t b c hb hc h3).2 hC, hB⟩
  · have hB := (hn.sides t b a hb ha (Ne.symm h1)).2 hA
    have hC := (hn.sides t b c hb hc h3).1 hB
    exact no hc ⟨(hn.sides t c a hc ha (Ne.symm h2)).2 hA, hC⟩

/-- C76: if no tetrahedron is flat, tetrahedra at a triangle are on different sides of it, and no tetrahedron is in two
segments, the two numbers written for a triangle are: the segment (counted from one) of the tetrahedron on the side from which the
normal of the triangle points away, and that of the tetrahedron on the other side; zero if there is no tetrahedron of
a segment. -/
theorem C76_sides (h : (MphSrc.ofPoints st seg gs).Ready) {F : MphFile (Fin 3 → ℝ)}
    (hF : (MphSrc.ofPoints st seg gs).write = .ok F) {ts : List Nat} (hl : Listed (MphSrc.ofPoints st seg gs) ts)
    (hone : ∀ g g' c, c ∈ st.view g 3 → c ∈ st.view g' 3 → g = g') (hn : NoOverlap st.mesh) :
    ∃ up down : Nat → Int, F.sides = ts.map (fun t => (up t, down t)) ∧ ∀ t ∈ ts,
      (∀ g ∈ gs, ∀ c, CellAt st g t c → (Behind st.mesh t c → up t = (g : Int) + 1) ∧
        (InFront st.mesh t c → down t = (g : Int) + 1)) ∧
      (up t = 0 ∨ ∃ g ∈ gs, ∃ c, CellAt st g t c ∧ Behind st.mesh t c ∧ up t = (g : Int) + 1) ∧
      (down t = 0 ∨ ∃ g ∈ gs, ∃ c, CellAt st g t c ∧ InFront st.mesh t c ∧ down t = (g : Int) + 1) := by
  have hI := h.reached.inv (simplexTopo_wf 3) (simplexTopo_closed 3)
  obtain ⟨l, a, _, _, hU, _, _, hent, h7, h8⟩ := write_spec h (fun t u => normalsParallel_symm t u)
  obtain ⟨_, _, _, e4, _⟩ := h8 F hF
  have hts := hl.unique h h7
  have haway : ∀ {g t c}, CellAt st g t c → (pointsAway st.mesh t c = true ↔ Behind st.mesh t c) := fun hc =>
    away_behind hI.mesh hc.2
  have hfront : ∀ {g t c}, CellAt st g t c → (pointsAway st.mesh t c = false ↔ InFront st.mesh t c) := by
    intro g t c hc
    rw [← Bool.not_eq_true, haway hc]
    constructor
    · intro hb
      exact (hn.solid t c hc.2).resolve_left hb
    · exact fun hf hb => not_both hI.mesh hc.2 ⟨hb, hf⟩
  -- the entry of a triangle
  let info : Nat → TriInfo := fun t => ((l.map (·.2)).find? (fun i => i.tri == t)).getD ⟨t, 0, 0⟩
  have hinj : ∀ x i x' i', (x, i) ∈ l → (x', i') ∈ l → i.tri = i'.tri → (x, i) = (x', i') := by
    intro x i x' i' h1 h2 he
    have hx : x = x' := by rw [(hU.entry x i h1).1, (hU.entry x' i' h2).1, he]
    have hnd : (l.map (·.1)).Nodup := hU.order.imp (fun h e => by omega)
    exact List.inj_on_of_nodup_map hnd h1 h2 hx
  have hinfo : ∀ x i, (x, i) ∈ l → info i.tri = i := by
    intro x i hi
    show ((l.map (·.2)).find? (fun j => j.tri == i.tri)).getD ⟨i.tri, 0, 0⟩ = i
    cases hf : (l.map (·.2)).find? (fun j => j.tri == i.tri) with
    | none =>
      have := List.find?_eq_none.1 hf i (List.mem_map.2 ⟨_, hi, rfl⟩)
      simp at this
    | some j =>
      obtain ⟨⟨x', j'⟩, hj, rfl⟩ := List.mem_map.1 (List.mem_of_find?_eq_some hf)
      have he := List.find?_some hf
      simp only [beq_iff_eq] at he
      have := hinj x' j' x i hj hi he
      cases this
      rfl
  refine ⟨fun t => (info t).up, fun t => (info t).down, ?_, fun t ht => ?_⟩
  · rw [e4, hts, List.map_map]
    refine List.map_congr_left (fun x hx => ?_)
    simp only [Function.comp_apply, hinfo x.1 x.2 hx]
  · have ht' := ht
    rw [hts] at ht'
    obtain ⟨⟨x, i⟩, hi, rfl⟩ := List.mem_map.1 ht'
    simp only at ht ⊢
    rw [hinfo x i hi]
    have hup : i.up = 0 ∨ ∃ g ∈ gs, ∃ c, CellAt st g i.tri c ∧ Behind st.mesh i.tri c ∧ i.up = (g : Int) + 1 := by
      by_cases h0 : i.up = 0
      · exact Or.inl h0
      · obtain ⟨g, hg, k1, _, c, k2, k3⟩ := hU.up x i hi h0
        exact Or.inr ⟨g, hg, c, k2, (haway k2).1 k3, k1⟩
    have hdn : i.down = 0 ∨ ∃ g ∈ gs, ∃ c, CellAt st g i.tri c ∧ InFront st.mesh i.tri c ∧ i.down = (g : Int) + 1 := by
      by_cases h0 : i.down = 0
      · exact Or.inl h0
      · obtain ⟨g, hg, k1, _, c, k2, k3⟩ := hU.down x i hi h0
        exact Or.inr ⟨g, hg, c, k2, (hfront k2).1 k3, k1⟩
    refine ⟨fun g hg c hc => ?_, hup, hdn⟩
    -- the triangle is on the boundary of the segment
    have hhull : HullTri st g i.tri := by
      obtain ⟨g', hg', hh⟩ := (hl.2 _).1 ht
      by_cases he : g = g'
      · subst he; exact hh
      · have hv : i.tri ∈ st.view g 2 := C26_closed_partial (Or.inl ⟨3, rfl⟩) h.reached (by omega) (by decide) hc.1 (used_lt hI.mesh hc.2).2.2
        obtain ⟨_, l', _, n2, n3⟩ := hh
        obtain ⟨c', hc'⟩ : ∃ c', c' ∈ l' := by
          cases l' with
          | nil => simp at n3
          | cons x _ => exact ⟨x, by simp⟩
        replace hc' := (n2 c').1 hc'
        refine ⟨hv, [c], by simp, fun b => ?_, rfl⟩
        rw [List.mem_singleton]
        constructor
        · rintro rfl; exact hc
        · intro hb
          rcases hn.two hI.mesh hb.2 hc.2 hc'.2 with e | e | e
          · exact e
          · subst e; exact absurd (hone _ _ _ hb.1 hc'.1) he
          · subst e; exact absurd (hone _ _ _ hc.1 hc'.1) he
    obtain ⟨i', k1, k2, c', k3, k4, k5⟩ := hent g hg i.tri hhull hhull
    have hii : i' = i := by
      have := hinj _ _ _ _ k1 hi k2
      cases this; rfl
    subst hii
    -- the tetrahedron found is the only one of the segment
    have hcc : c = c' := by
      by_contra hne
      obtain ⟨_, l', n1, n2, n3⟩ := hhull
      have hsub : ∀ x ∈ l', x = c ∨ x = c' := by
        intro x hx
        rcases hn.two hI.mesh ((n2 x).1 hx).2 hc.2 k3.2 with e | e | e
        · exact Or.inl e
        · exact Or.inr e
        · exact absurd e hne
      have hp : l'.Perm [c, c'] := by
        refine (List.perm_ext_iff_of_nodup n1 (by simp [hne])).2 (fun x => ?_)
        constructor
        · intro hx
          rcases hsub x hx with e | e <;> simp [e]
        · intro hx
          rcases List.mem_cons.1 hx with rfl | hx
          · exact (n2 x).2 hc
          · rw [List.mem_singleton] at hx
            subst hx
            exact (n2 x).2 k3
      have hlen := hp.length_eq
      simp only [List.length_cons, List.length_nil] at hlen
      omega
    subst hcc
    refine ⟨fun hb => ?_, fun hf => ?_⟩
    · have hne := k4 ((haway hc).2 hb)
      rcases hup with h0 | ⟨g', hg', c', m1, m2, m3⟩
      · exact absurd h0 hne
      · by_cases he : c' = c
        · subst he
          rw [m3, hone _ _ _ m1.1 hc.1]
        · have := (hn.sides i'.tri c' c m1.2 hc.2 he).1 m2
          exact absurd ⟨hb, this⟩ (not_both hI.mesh hc.2)
    · have hne := k5 ((hfront hc).2 hf)
      rcases hdn with h0 | ⟨g', hg', c', m1, m2, m3⟩
      · exact absurd h0 hne
      · by_cases he : c' = c
        · subst he
          rw [m3, hone _ _ _ m1.1 hc.1]
        · have := (hn.sides i'.tri c c' hc.2 m1.2 (Ne.symm he)).2 m2
          exact absurd ⟨this, hf⟩ (not_both hI.mesh hc.2)

end Real

end VG
