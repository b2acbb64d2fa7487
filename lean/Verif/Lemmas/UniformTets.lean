import Verif.Lemmas.UniformLabels
import Verif.Lemmas.UniformEdges
import Verif.Lemmas.RefineFacets

/-!
The numbers of edges and facets of a uniformly refined mesh of tetrahedra.
-/

namespace VG

section
variable {P : Type} {m : Mesh P}

/-! ### Parts of tetrahedra -/

/-- Elements of less dimension than the cells are given by their vertices. -/
theorem part_same (hI : Inv (simplexTopo 3) m) {k f g : Nat} (hk : k = 1 ∨ k = 2) (hf : f < m.count k) (hg : g < m.count k)
    (h : (m.vertsOf k f).Perm (m.vertsOf k g)) : f = g := by
  obtain ⟨e, he⟩ := elem_of_lt (by omega) hf
  obtain ⟨e', he'⟩ := elem_of_lt (by omega) hg
  rw [vertsOf_elem he, vertsOf_elem he'] at h
  refine hI.slot_unique ?_ he he' h
  rcases hk with rfl | rfl <;> decide

theorem part_verts (hI : Inv (simplexTopo 3) m) {k f : Nat} (hk : 1 ≤ k) (hf : f < m.count k) :
    (m.vertsOf k f).Nodup ∧ (m.vertsOf k f).length = k + 1 := by
  obtain ⟨e, he⟩ := elem_of_lt (by omega) hf
  rw [vertsOf_elem he]
  obtain ⟨h1, h2, _⟩ := hI.verts k e (List.mem_of_getElem? he)
  exact ⟨h1, h2.fixed⟩

/-- Vertices of a cell make an edge or a facet of it. -/
theorem part_exists (hI : Inv (simplexTopo 3) m) {k t : Nat} (hk : k = 1 ∨ k = 2) (ht : t < m.count 3) {l : List Nat} (hn : l.Nodup)
    (hl : l.length = k + 1) (hs : l ⊆ m.vertsOf 3 t) : ∃ f ∈ m.bndOf 3 t k, (m.vertsOf k f).Perm l := by
  rcases hk with rfl | rfl
  · match l, hl with
    | [x, y], _ =>
      obtain ⟨hvn, hvl, _⟩ := simplex_verts (by omega) hI ht
      obtain ⟨a, ha, rfl⟩ := List.getElem_of_mem (hs (show x ∈ [x, y] by simp))
      obtain ⟨b, hb, rfl⟩ := List.getElem_of_mem (hs (show y ∈ [_, y] by simp))
      have hab : a ≠ b := by
        rintro rfl
        simp at hn
      obtain ⟨f, h1, h2⟩ := edge_slot hI ht (show a < 4 by omega) (show b < 4 by omega) hab
      have hlen := (simplex_edge (by omega) hI ht).1
      have he : (edgeIdx (3 + 1)).length = 6 := by decide
      rw [he] at hlen
      have hp : tetEdge a b < 6 := by
        unfold tetEdge
        repeat' split
        all_goals omega
      refine ⟨_, getD_mem (l := m.bndOf 3 t 1) (a := tetEdge a b) (by omega), ?_⟩
      rw [vertsOf_elem h1]
      rw [List.getD_eq_getElem _ _ ha, List.getD_eq_getElem _ _ hb] at h2
      exact h2
  · exact facet_exists hI ht hn hl hs

/-- Elements of cells made with the cells are parts of them. -/
theorem fromCells_part (hI : Inv (simplexTopo 3) m) (h : FromCells (simplexTopo 3) m) {k f : Nat} (hk : k = 1 ∨ k = 2) (hf : f < m.count k) :
    ∃ t < m.count 3, m.vertsOf k f ⊆ m.vertsOf 3 t := by
  obtain ⟨e, he⟩ := elem_of_lt (by omega) hf
  obtain ⟨c, hc, hd⟩ := h k e (List.mem_of_getElem? he)
  have hcl : c.verts.length = 4 := (hI.verts 3 c hc).2.1.fixed
  obtain ⟨t, ht⟩ := List.getElem?_of_mem hc
  have htl : t < m.count 3 := by simpa [Mesh.count, simplexTopo] using (List.getElem?_eq_some_iff.1 ht).1
  have key : ∀ d vs j ws, Descends (simplexTopo 3) d vs j ws → d ≤ 3 → vs.length = d + 1 → ws ⊆ vs := by
    intro d vs j ws hd
    induction hd with
    | refl => exact fun _ _ x hx => hx
    | step hl hix _ ih =>
      rename_i d vs k idxs ix j ws _
      intro hd3 hlen
      have hp : k ≤ 3 ∧ ix.length = k + 1 ∧ ∀ i ∈ ix, i < d + 1 := by
        have h3 : ∀ x ∈ (simplexTopo 3).layers 3 4, ∀ ix ∈ x.2, x.1 ≤ 3 ∧ ix.length = x.1 + 1 ∧ ∀ i ∈ ix, i < 4 := by decide
        have h2 : ∀ x ∈ (simplexTopo 3).layers 2 3, ∀ ix ∈ x.2, x.1 ≤ 3 ∧ ix.length = x.1 + 1 ∧ ∀ i ∈ ix, i < 3 := by decide
        have h1 : ∀ x ∈ (simplexTopo 3).layers 1 2, ∀ ix ∈ x.2, x.1 ≤ 3 ∧ ix.length = x.1 + 1 ∧ ∀ i ∈ ix, i < 2 := by decide
        have h0 : ∀ x ∈ (simplexTopo 3).layers 0 1, ∀ ix ∈ x.2, x.1 ≤ 3 ∧ ix.length = x.1 + 1 ∧ ∀ i ∈ ix, i < 1 := by decide
        rw [hlen] at hl
        obtain rfl | rfl | rfl | rfl : d = 0 ∨ d = 1 ∨ d = 2 ∨ d = 3 := by omega
        · exact h0 _ hl _ hix
        · exact h1 _ hl _ hix
        · exact h2 _ hl _ hix
        · exact h3 _ hl _ hix
      intro x hx
      refine pick_mem (ih hp.1 (by unfold pick; rw [List.length_map]; exact hp.2.1) hx) ?_
      rw [hlen]; exact hp.2.2
  refine ⟨t, htl, ?_⟩
  rw [vertsOf_elem he, show m.vertsOf 3 t = c.verts from vertsOf_elem ht]
  exact key _ _ _ _ hd (by decide) hcl

end

section
variable {P : Type} {K : Type} [Field K] [LinearOrder K] {src : SegState P} {dist : P → P → K}
  {mark : Nat → Bool} {r : RefSt P} {C : Nat → List (List Nat)} {R : Nat → List (Option (Vtx P))} {w ev : Nat → Nat}

/-- A vertex of a tetrahedron. -/
def tetVtx (m : Mesh P) (t a : Nat) : Nat := (m.vertsOf 3 t).getD a 0

/-- The vertex `v` is one of those of which the label `l` of `t` is made. -/
def EndOf (m : Mesh P) (t l v : Nat) : Prop := tetVtx m t (labelEnds l).1 = v ∨ tetVtx m t (labelEnds l).2 = v

/-- The vertices of which the labels are made. -/
def SpanOf (m : Mesh P) (t : Nat) (g : List Nat) (v : Nat) : Prop := ∃ l ∈ g, EndOf m t l v

theorem tetVtx_mem {m : Mesh P} (hI : Inv (simplexTopo 3) m) {t : Nat} (ht : t < m.count 3) {v : Nat} :
    v ∈ m.vertsOf 3 t ↔ ∃ a < 4, tetVtx m t a = v := by
  obtain ⟨_, hvl, _⟩ := simplex_verts (by omega) hI ht
  constructor
  · intro hv
    obtain ⟨a, ha, rfl⟩ := List.getElem_of_mem hv
    exact ⟨a, by omega, List.getD_eq_getElem _ _ ha⟩
  · rintro ⟨a, ha, rfl⟩
    exact getD_mem (by omega)

theorem tetVtx_inj {m : Mesh P} (hI : Inv (simplexTopo 3) m) {t : Nat} (ht : t < m.count 3) {a b : Nat} (ha : a < 4) (hb : b < 4)
    (e : tetVtx m t a = tetVtx m t b) : a = b := by
  obtain ⟨hvn, hvl, _⟩ := simplex_verts (by omega) hI ht
  unfold tetVtx at e
  rw [List.getD_eq_getElem _ _ (by omega), List.getD_eq_getElem _ _ (by omega)] at e
  exact hvn.getElem_inj_iff.1 e

theorem endOf_local {m : Mesh P} (hI : Inv (simplexTopo 3) m) {t : Nat} (ht : t < m.count 3) {a l : Nat} (ha : a < 4) :
    EndOf m t l (tetVtx m t a) ↔ hasEnd a l = true := by
  have := labelEnds_lt l
  unfold EndOf hasEnd
  rw [Bool.or_eq_true, beq_iff_eq, beq_iff_eq]
  constructor
  · rintro (h | h)
    · exact Or.inl (tetVtx_inj hI ht this.1 ha h)
    · exact Or.inr (tetVtx_inj hI ht this.2 ha h)
  · rintro (rfl | rfl)
    · exact Or.inl rfl
    · exact Or.inr rfl

theorem spanOf_local {m : Mesh P} (hI : Inv (simplexTopo 3) m) {t : Nat} (ht : t < m.count 3) {a : Nat} {g : List Nat} (ha : a < 4) :
    SpanOf m t g (tetVtx m t a) ↔ a ∈ labelSpan g := by
  rw [mem_labelSpan]
  unfold SpanOf
  simp only [endOf_local hI ht ha]

theorem spanOf_mem {m : Mesh P} (hI : Inv (simplexTopo 3) m) {t : Nat} (ht : t < m.count 3) {v : Nat} {g : List Nat} (h : SpanOf m t g v) :
    v ∈ m.vertsOf 3 t := by
  obtain ⟨l, _, h | h⟩ := h
  · exact (tetVtx_mem hI ht).2 ⟨_, (labelEnds_lt l).1, h⟩
  · exact (tetVtx_mem hI ht).2 ⟨_, (labelEnds_lt l).2, h⟩

/-- Labels, of one cell or of two, give the same vertex iff they are made of the same vertices. -/
theorem Refined.label_ends {kids : List (Option (Vtx P)) → (Nat → Bool) → Option (List (List Nat))}
    (h : Refined 3 src kids mark r C R w ev) (hI : Inv (simplexTopo 3) src.mesh) {t t' : Nat} (ht : t < src.mesh.count 3)
    (ht' : t' < src.mesh.count 3) {c c' : List Nat} (hc : c ∈ C t) (hc' : c' ∈ C t') {l l' : Nat} (hl : l ∈ c) (hl' : l' ∈ c') :
    labelVertex 3 src.mesh w ev t l = labelVertex 3 src.mesh w ev t' l' ↔ ∀ v, EndOf src.mesh t l v ↔ EndOf src.mesh t' l' v := by
  rw [h.tet_label_iff hI ht ht' hc hc' hl hl', labelName_ends _ (h.label_lt ht hc hl).2, labelName_ends _ (h.label_lt ht' hc' hl').2,
    ptName_eq_iff]
  obtain ⟨a1, a2⟩ := labelEnds_lt l
  obtain ⟨b1, b2⟩ := labelEnds_lt l'
  rw [h.outId_inj hI (by omega) ht ht' (by omega) (by omega), h.outId_inj hI (by omega) ht ht' (by omega) (by omega),
    h.outId_inj hI (by omega) ht ht' (by omega) (by omega), h.outId_inj hI (by omega) ht ht' (by omega) (by omega)]
  change (tetVtx src.mesh t _ = tetVtx src.mesh t' _ ∧ tetVtx src.mesh t _ = tetVtx src.mesh t' _) ∨
    (tetVtx src.mesh t _ = tetVtx src.mesh t' _ ∧ tetVtx src.mesh t _ = tetVtx src.mesh t' _) ↔ _
  unfold EndOf
  generalize tetVtx src.mesh t (labelEnds l).1 = x
  generalize tetVtx src.mesh t (labelEnds l).2 = y
  generalize tetVtx src.mesh t' (labelEnds l').1 = z
  generalize tetVtx src.mesh t' (labelEnds l').2 = u
  constructor
  · rintro (⟨rfl, rfl⟩ | ⟨rfl, rfl⟩) v
    · exact Iff.rfl
    · exact or_comm
  · intro hv
    have h1 := (hv x).1 (Or.inl rfl)
    have h2 := (hv y).1 (Or.inr rfl)
    have h3 := (hv z).2 (Or.inl rfl)
    have h4 := (hv u).2 (Or.inr rfl)
    omega

/-- The element `f` of dimension `k` of the refined mesh is given by the labels `g` of the child `c` of the cell `t`. -/
structure PartLabels (k : Nat) (src : SegState P) (r : RefSt P) (C : Nat → List (List Nat)) (w ev : Nat → Nat) (f t : Nat) (c g : List Nat) : Prop where
  cell : t < src.mesh.count 3
  child : c ∈ C t
  nodup : g.Nodup
  length : g.length = k + 1
  sub : g ⊆ c
  verts : (r.out.mesh.vertsOf k f).Perm (g.map (labelVertex 3 src.mesh w ev t))

/-- The element `f` of dimension `k` of the refined mesh is inside of the element `x.2` of dimension `x.1` of the source, and of no
smaller one. -/
def Inside (k : Nat) (src : SegState P) (r : RefSt P) (C : Nat → List (List Nat)) (w ev : Nat → Nat) (f : Nat) (x : Nat × Nat) : Prop :=
  ∃ t c g, PartLabels k src r C w ev f t c g ∧ ∀ v, SpanOf src.mesh t g v ↔ v ∈ src.mesh.vertsOf x.1 x.2

end

section
variable {K : Type} {src : SegState (Nat → K)}
  {mark : Nat → Bool} {r : RefSt (Nat → K)} {C : Nat → List (List Nat)} {R : Nat → List (Option (Vtx (Nat → K)))} {w ev : Nat → Nat}

/-- Each edge and each facet of the refined mesh has labels. -/
theorem Refined.part_labels {kids : List (Option (Vtx (Nat → K))) → (Nat → Bool) → Option (List (List Nat))}
    (h : Refined 3 src kids mark r C R w ev) (hF : FromCells (simplexTopo 3) r.out.mesh) {k f : Nat} (hk : k = 1 ∨ k = 2)
    (hf : f < r.out.mesh.count k) : ∃ t c g, PartLabels k src r C w ev f t c g := by
  have hI' := (h.reached.inv (simplexTopo_wf 3) (simplexTopo_closed 3)).mesh
  obtain ⟨i, hi, hs⟩ := fromCells_part hI' hF hk hf
  obtain ⟨t, c, _, ht, hc, hv⟩ := h.kid_of hi
  rw [hv] at hs
  obtain ⟨g, hg1, hg2⟩ := map_subset_lift hs
  obtain ⟨hn, hl⟩ := part_verts hI' (show 1 ≤ k by omega) hf
  refine ⟨t, c, g, ht, hc, ?_, ?_, hg1, by rw [hg2]⟩
  · rw [← hg2] at hn
    exact List.Nodup.of_map _ hn
  · rw [← hg2, List.length_map] at hl
    exact hl

/-- The vertices of which the labels are made do not depend on the cell. -/
theorem Refined.span_eq {kids : List (Option (Vtx (Nat → K))) → (Nat → Bool) → Option (List (List Nat))}
    (h : Refined 3 src kids mark r C R w ev) (hI : Inv (simplexTopo 3) src.mesh) {k f t t' : Nat} {c c' g g' : List Nat}
    (hL : PartLabels k src r C w ev f t c g) (hL' : PartLabels k src r C w ev f t' c' g') (v : Nat) :
    SpanOf src.mesh t g v → SpanOf src.mesh t' g' v := by
  rintro ⟨l, hl, hv⟩
  obtain ⟨l', hl', e⟩ := List.mem_map.1 ((hL.verts.symm.trans hL'.verts).mem_iff.1 (List.mem_map_of_mem hl))
  exact ⟨l', hl', ((h.label_ends hI hL'.cell hL.cell hL'.child hL.child (hL'.sub hl') (hL.sub hl)).1 e v).2 hv⟩

/-- The labels of a cell for labels of another, made of vertices of the first. -/
theorem Refined.lift_labels {kids : List (Option (Vtx (Nat → K))) → (Nat → Bool) → Option (List (List Nat))}
    (h : Refined 3 src kids mark r C R w ev) (hI : Inv (simplexTopo 3) src.mesh) {t t' : Nat} (ht : t < src.mesh.count 3)
    (ht' : t' < src.mesh.count 3) {c' : List Nat} (hc' : c' ∈ C t') (hused : ∀ l < 10, ∃ c ∈ C t, l ∈ c) :
    ∀ {g' : List Nat}, g' ⊆ c' → (∀ v, SpanOf src.mesh t' g' v → v ∈ src.mesh.vertsOf 3 t) →
    ∃ g : List Nat, (∀ l ∈ g, l < 10) ∧ g.map (labelVertex 3 src.mesh w ev t) = g'.map (labelVertex 3 src.mesh w ev t') ∧
      (∀ l ∈ g, ∃ l' ∈ g', ∀ v, EndOf src.mesh t l v ↔ EndOf src.mesh t' l' v) ∧
      ∀ l' ∈ g', ∃ l ∈ g, ∀ v, EndOf src.mesh t l v ↔ EndOf src.mesh t' l' v
  | [], _, _ => ⟨[], by simp, rfl, by simp, by simp⟩
  | l' :: g', hs, hv => by
    obtain ⟨g, h1, h2, h3, h4⟩ := h.lift_labels hI ht ht' hc' hused (g' := g') (fun x hx => hs (List.mem_cons_of_mem _ hx))
      (fun v ⟨l, hl, e⟩ => hv v ⟨l, List.mem_cons_of_mem _ hl, e⟩)
    obtain ⟨a, ha, ea⟩ := (tetVtx_mem hI ht).1 (hv _ ⟨l', by simp, Or.inl rfl⟩)
    obtain ⟨b, hb, eb⟩ := (tetVtx_mem hI ht).1 (hv _ ⟨l', by simp, Or.inr rfl⟩)
    obtain ⟨l, hl, hab⟩ := label_with a ha b hb
    have he : ∀ v, EndOf src.mesh t l v ↔ EndOf src.mesh t' l' v := by
      intro v
      unfold EndOf
      rw [← ea, ← eb]
      rcases hab with ⟨e1, e2⟩ | ⟨e1, e2⟩
      · rw [e1, e2]
      · rw [e1, e2]; exact or_comm
    obtain ⟨c, hc, hlc⟩ := hused l hl
    refine ⟨l :: g, ?_, ?_, ?_, ?_⟩
    · intro x hx
      rcases List.mem_cons.1 hx with rfl | hx
      · exact hl
      · exact h1 x hx
    · rw [List.map_cons, List.map_cons, h2, (h.label_ends hI ht ht' hc hc' hlc (hs List.mem_cons_self)).2 he]
    · intro x hx
      rcases List.mem_cons.1 hx with rfl | hx
      · exact ⟨l', by simp, he⟩
      · obtain ⟨y, hy, e⟩ := h3 x hx
        exact ⟨y, List.mem_cons_of_mem _ hy, e⟩
    · intro x hx
      rcases List.mem_cons.1 hx with rfl | hx
      · exact ⟨l, by simp, he⟩
      · obtain ⟨y, hy, e⟩ := h4 x hx
        exact ⟨y, List.mem_cons_of_mem _ hy, e⟩

open Classical in
/-- The number of elements given by sets of labels of one cell. -/
theorem Refined.card_labels {kids : List (Option (Vtx (Nat → K))) → (Nat → Bool) → Option (List (List Nat))}
    (h : Refined 3 src kids mark r C R w ev) (hI : Inv (simplexTopo 3) src.mesh) {k t : Nat} (hk : k = 1 ∨ k = 2) (ht : t < src.mesh.count 3)
    {G : List (List Nat)} (hn : G.Nodup) (hG : ∀ g ∈ G, g ∈ labelSets (k + 1) ∧ ∃ c ∈ C t, g ⊆ c) (on : Nat → Prop)
    (hon : ∀ f < r.out.mesh.count k, on f ↔ ∃ g ∈ G, (r.out.mesh.vertsOf k f).Perm (g.map (labelVertex 3 src.mesh w ev t))) :
    ((Finset.range (r.out.mesh.count k)).filter on).card = G.length := by
  have hI' := (h.reached.inv (simplexTopo_wf 3) (simplexTopo_closed 3)).mesh
  have hex : ∀ g ∈ G, ∃ f, f < r.out.mesh.count k ∧ (r.out.mesh.vertsOf k f).Perm (g.map (labelVertex 3 src.mesh w ev t)) := by
    intro g hg
    obtain ⟨hs, c, hc, hgc⟩ := hG g hg
    obtain ⟨i, hi, hv⟩ := h.kid_at ht hc
    obtain ⟨f, hf, hp⟩ := part_exists hI' hk hi (l := g.map (labelVertex 3 src.mesh w ev t))
      (List.Nodup.map_on (fun x hx y hy e => h.label_inj hI ht hc hc (hgc hx) (hgc hy) e) (labelSets_nodup hs))
      (by rw [List.length_map, (mem_labelSets.1 hs).2]) (by
        rw [hv]
        intro x hx
        obtain ⟨l, hl, rfl⟩ := List.mem_map.1 hx
        exact List.mem_map_of_mem (hgc hl))
    exact ⟨f, bndOf_valid hI' hf, hp⟩
  rw [← List.toFinset_card_of_nodup hn]
  symm
  refine Finset.card_bij (fun g hg => (hex g (List.mem_toFinset.1 hg)).choose) ?_ ?_ ?_
  · intro g hg
    obtain ⟨h1, h2⟩ := (hex g (List.mem_toFinset.1 hg)).choose_spec
    rw [Finset.mem_filter, Finset.mem_range]
    exact ⟨h1, (hon _ h1).2 ⟨g, List.mem_toFinset.1 hg, h2⟩⟩
  · intro g hg g' hg' e
    have hg := List.mem_toFinset.1 hg
    have hg' := List.mem_toFinset.1 hg'
    obtain ⟨_, h2⟩ := (hex g hg).choose_spec
    obtain ⟨_, h4⟩ := (hex g' hg').choose_spec
    rw [e] at h2
    have hp := h2.symm.trans h4
    obtain ⟨s1, c, hc, hgc⟩ := hG g hg
    obtain ⟨s2, c', hc', hgc'⟩ := hG g' hg'
    refine labelSets_eq s1 s2 fun l => ⟨fun hl => ?_, fun hl => ?_⟩
    · obtain ⟨l', hl', e⟩ := List.mem_map.1 (hp.mem_iff.1 (List.mem_map_of_mem hl))
      rw [← h.label_inj hI ht hc' hc (hgc' hl') (hgc hl) e]; exact hl'
    · obtain ⟨l', hl', e⟩ := List.mem_map.1 (hp.mem_iff.2 (List.mem_map_of_mem hl))
      rw [← h.label_inj hI ht hc hc' (hgc hl') (hgc' hl) e]; exact hl'
  · intro f hf
    rw [Finset.mem_filter, Finset.mem_range] at hf
    obtain ⟨g, hg, hp⟩ := (hon f hf.1).1 hf.2
    obtain ⟨h1, h2⟩ := (hex g hg).choose_spec
    exact ⟨g, List.mem_toFinset.2 hg, part_same hI' hk h1 hf.1 (h2.trans hp.symm)⟩

end

section
variable {K : Type} [Field K] [LinearOrder K] {src : SegState (Nat → K)} {dist : (Nat → K) → (Nat → K) → K}
  {mark : Nat → Bool} {r : RefSt (Nat → K)} {C : Nat → List (List Nat)} {R : Nat → List (Option (Vtx (Nat → K)))} {w ev : Nat → Nat}

theorem UniGlue.parts {cells : List (List Nat)} (h : UniGlue cells) {k : Nat} (hk : k = 1 ∨ k = 2) {g : List Nat} (hg : g ∈ labelSets (k + 1))
    (hne : labelSpan g ≠ [0, 1, 2, 3]) : (∃ c ∈ cells, g ⊆ c) ↔ labelsMeet g = true := by
  rcases hk with rfl | rfl
  · exact h.edges g hg hne
  · exact h.facets g hg hne

omit [Field K] [LinearOrder K] in
/-- The local numbers of vertices. -/
theorem labelSpan_eq (hI : Inv (simplexTopo 3) src.mesh) {t : Nat} (ht : t < src.mesh.count 3) {g vs : List Nat}
    (hs : vs ⊆ src.mesh.vertsOf 3 t) :
    labelSpan g = (List.range 4).filter (fun a => decide (tetVtx src.mesh t a ∈ vs)) ↔ ∀ v, SpanOf src.mesh t g v ↔ v ∈ vs := by
  constructor
  · intro e v
    have key : ∀ a < 4, SpanOf src.mesh t g (tetVtx src.mesh t a) ↔ tetVtx src.mesh t a ∈ vs := by
      intro a ha
      rw [spanOf_local hI ht ha, e, List.mem_filter, List.mem_range, decide_eq_true_iff]
      exact ⟨fun h => h.2, fun h => ⟨ha, h⟩⟩
    constructor
    · intro h
      obtain ⟨a, ha, rfl⟩ := (tetVtx_mem hI ht).1 (spanOf_mem hI ht h)
      exact (key a ha).1 h
    · intro h
      obtain ⟨a, ha, rfl⟩ := (tetVtx_mem hI ht).1 (hs h)
      exact (key a ha).2 h
  · intro h
    unfold labelSpan
    refine List.filter_congr fun a ha => ?_
    have ha := List.mem_range.1 ha
    rw [Bool.eq_iff_iff, decide_eq_true_iff, ← h, spanOf_local hI ht ha, mem_labelSpan, List.any_eq_true]

omit [Field K] [LinearOrder K] in
theorem local_perm (hI : Inv (simplexTopo 3) src.mesh) {t : Nat} (ht : t < src.mesh.count 3) {vs : List Nat} (hn : vs.Nodup)
    (hs : vs ⊆ src.mesh.vertsOf 3 t) :
    (((List.range 4).filter (fun a => decide (tetVtx src.mesh t a ∈ vs))).map (tetVtx src.mesh t)).Perm vs := by
  refine (List.perm_ext_iff_of_nodup ?_ hn).2 fun v => ?_
  · refine List.Nodup.map_on (fun x hx y hy e => ?_) (List.nodup_range.filter _)
    exact tetVtx_inj hI ht (List.mem_range.1 (List.mem_filter.1 hx).1) (List.mem_range.1 (List.mem_filter.1 hy).1) e
  · rw [List.mem_map]
    constructor
    · rintro ⟨a, ha, rfl⟩
      exact decide_eq_true_iff.1 (List.mem_filter.1 ha).2
    · intro hv
      obtain ⟨a, ha, rfl⟩ := (tetVtx_mem hI ht).1 (hs hv)
      exact ⟨a, List.mem_filter.2 ⟨List.mem_range.2 ha, decide_eq_true hv⟩, rfl⟩

/-- The labels of an edge or facet inside of an edge or facet of the source. -/
theorem Refined.inside_iff (h : Refined 3 src (tetKids dist) mark r C R w ev) (hd : ∀ a b, dist a b = dist b a)
    (hI : Inv (simplexTopo 3) src.mesh) (hm : ∀ e < src.mesh.count 1, mark e = true) {k j t B : Nat} (hk : k = 1 ∨ k = 2) (hj : j = 1 ∨ j = 2)
    (ht : t < src.mesh.count 3) (hB : B < src.mesh.count j) (hs : src.mesh.vertsOf j B ⊆ src.mesh.vertsOf 3 t) {f : Nat}
    (hf : f < r.out.mesh.count k) :
    Inside k src r C w ev f (j, B) ↔
      ∃ g ∈ meeting (k + 1) ((List.range 4).filter (fun a => decide (tetVtx src.mesh t a ∈ src.mesh.vertsOf j B))),
        (r.out.mesh.vertsOf k f).Perm (g.map (labelVertex 3 src.mesh w ev t)) := by
  have hI' := (h.reached.inv (simplexTopo_wf 3) (simplexTopo_closed 3)).mesh
  obtain ⟨hBn, hBl⟩ := part_verts hI (show 1 ≤ j by omega) hB
  have hnotfull : ∀ {t : Nat}, t < src.mesh.count 3 → ∀ {g : List Nat}, (∀ v, SpanOf src.mesh t g v ↔ v ∈ src.mesh.vertsOf j B) →
      labelSpan g ≠ [0, 1, 2, 3] := by
    intro t ht g hg e
    obtain ⟨hvn, hvl, _⟩ := simplex_verts (by omega) hI ht
    have : src.mesh.vertsOf 3 t ⊆ src.mesh.vertsOf j B := by
      intro v hv
      obtain ⟨a, ha, rfl⟩ := (tetVtx_mem hI ht).1 hv
      rw [← hg, spanOf_local hI ht ha, e]
      simp only [List.mem_cons, List.not_mem_nil, or_false]
      omega
    have := (hvn.subperm this).length_le
    omega
  have hG := h.uni_glue hd hI hm ht
  constructor
  · rintro ⟨t', c', g', hL, hspan⟩
    have hG' := h.uni_glue hd hI hm hL.cell
    obtain ⟨g, g1, g2, g3, g4⟩ := h.lift_labels hI ht hL.cell hL.child hG.used hL.sub (fun v hv => hs ((hspan v).1 hv))
    have hgn : g.Nodup := by
      have := hL.verts.nodup_iff.1 (part_verts hI' (show 1 ≤ k by omega) hf).1
      rw [← g2] at this
      exact List.Nodup.of_map _ this
    have hgl : g.length = k + 1 := by
      have := congrArg List.length g2
      rw [List.length_map, List.length_map, hL.length] at this
      exact this
    have hsp := sortLabels_perm hgn g1
    have hlt' : ∀ l ∈ g', l < 10 := fun l hl => (h.label_lt hL.cell hL.child (hL.sub hl)).2
    have hsp' := sortLabels_perm hL.nodup hlt'
    have hmem' := sortLabels_mem hL.nodup hlt'
    rw [hL.length] at hmem'
    have hmeet := (hG'.parts hk hmem' (by
      rw [labelSpan_perm (fun l => mem_sortLabels hlt')]
      exact hnotfull hL.cell hspan)).1 ⟨c', hL.child, fun x hx => hL.sub (hsp'.mem_iff.1 hx)⟩
    refine ⟨sortLabels g, ?_, ?_⟩
    · unfold meeting
      have := sortLabels_mem hgn g1
      rw [hgl] at this
      rw [List.mem_filter, Bool.and_eq_true, decide_eq_true_iff]
      refine ⟨this, ?_, ?_⟩
      · rw [labelSpan_perm (fun l => mem_sortLabels g1), labelSpan_eq hI ht hs]
        intro v
        rw [← hspan]
        constructor
        · rintro ⟨l, hl, e⟩
          obtain ⟨l', hl', e'⟩ := g3 l hl
          exact ⟨l', hl', (e' v).1 e⟩
        · rintro ⟨l, hl, e⟩
          obtain ⟨l', hl', e'⟩ := g4 l hl
          exact ⟨l', hl', (e' v).2 e⟩
      · rw [labelsMeet_iff] at hmeet ⊢
        intro x hx y hy
        obtain ⟨x', hx', ex⟩ := g3 x (hsp.mem_iff.1 hx)
        obtain ⟨y', hy', ey⟩ := g3 y (hsp.mem_iff.1 hy)
        obtain ⟨a, ha, h1, h2⟩ := hmeet x' (hsp'.mem_iff.2 hx') y' (hsp'.mem_iff.2 hy')
        rw [← endOf_local hI hL.cell ha] at h1 h2
        have hv : tetVtx src.mesh t' a ∈ src.mesh.vertsOf 3 t := hs ((hspan _).1 ⟨x', hx', h1⟩)
        obtain ⟨b, hb, eb⟩ := (tetVtx_mem hI ht).1 hv
        rw [← eb] at h1 h2
        exact ⟨b, hb, (endOf_local hI ht hb).1 ((ex _).2 h1), (endOf_local hI ht hb).1 ((ey _).2 h2)⟩
    · refine hL.verts.trans ?_
      rw [← g2]
      exact (hsp.map _).symm
  · rintro ⟨g, hg, hp⟩
    unfold meeting at hg
    rw [List.mem_filter, Bool.and_eq_true, decide_eq_true_iff] at hg
    obtain ⟨g1, g2, g3⟩ := hg
    have hspan := (labelSpan_eq hI ht hs).1 g2
    obtain ⟨c, hc, hgc⟩ := (hG.parts hk g1 (hnotfull ht hspan)).2 g3
    exact ⟨t, c, g, ⟨ht, hc, labelSets_nodup g1, (mem_labelSets.1 g1).2, hgc, hp⟩, hspan⟩

/-- The labels of an edge or facet inside of a cell of the source. -/
theorem Refined.inside_cell (h : Refined 3 src (tetKids dist) mark r C R w ev) (hI : Inv (simplexTopo 3) src.mesh)
    (hone : ∀ t < src.mesh.count 3, ∀ t' < src.mesh.count 3, src.mesh.vertsOf 3 t ⊆ src.mesh.vertsOf 3 t' → t' = t)
    {k t : Nat} (ht : t < src.mesh.count 3) {f : Nat} :
    Inside k src r C w ev f (3, t) ↔
      ∃ g ∈ (labelSets (k + 1)).filter (fun g => decide (labelSpan g = [0, 1, 2, 3]) && together (C t) g),
        (r.out.mesh.vertsOf k f).Perm (g.map (labelVertex 3 src.mesh w ev t)) := by
  have hfull : ∀ g, labelSpan g = [0, 1, 2, 3] ↔ ∀ v, SpanOf src.mesh t g v ↔ v ∈ src.mesh.vertsOf 3 t := by
    intro g
    rw [← labelSpan_eq hI ht (fun _ h => h)]
    have : (List.range 4).filter (fun a => decide (tetVtx src.mesh t a ∈ src.mesh.vertsOf 3 t)) = [0, 1, 2, 3] := by
      rw [List.filter_eq_self.2]
      · rfl
      · intro a ha
        exact decide_eq_true ((tetVtx_mem hI ht).2 ⟨a, List.mem_range.1 ha, rfl⟩)
    rw [this]
  constructor
  · rintro ⟨t', c', g', hL, hspan⟩
    have : t' = t := hone t ht t' hL.cell (fun v hv => spanOf_mem hI hL.cell ((hspan v).2 hv))
    subst this
    have hlt' : ∀ l ∈ g', l < 10 := fun l hl => (h.label_lt hL.cell hL.child (hL.sub hl)).2
    have hsp' := sortLabels_perm hL.nodup hlt'
    have hmem' := sortLabels_mem hL.nodup hlt'
    rw [hL.length] at hmem'
    refine ⟨sortLabels g', List.mem_filter.2 ⟨hmem', ?_⟩, hL.verts.trans (hsp'.map _).symm⟩
    rw [Bool.and_eq_true, decide_eq_true_iff, together_iff]
    refine ⟨?_, c', hL.child, fun x hx => hL.sub (hsp'.mem_iff.1 hx)⟩
    rw [labelSpan_perm (fun l => mem_sortLabels hlt'), hfull]
    exact hspan
  · rintro ⟨g, hg, hp⟩
    rw [List.mem_filter, Bool.and_eq_true, decide_eq_true_iff, together_iff] at hg
    obtain ⟨g1, g2, c, hc, hgc⟩ := hg
    exact ⟨t, c, g, ⟨ht, hc, labelSets_nodup g1, (mem_labelSets.1 g1).2, hgc, hp⟩, (hfull g).1 g2⟩

/-- How many edges (`k = 1`) or facets (`k = 2`) there are inside of an element of dimension `j`. -/
def insideCount (k j : Nat) : Nat := if k = 1 then [0, 2, 3, 1].getD j 0 else [0, 0, 4, 8].getD j 0

open Classical in
theorem Refined.inside_card (h : Refined 3 src (tetKids dist) mark r C R w ev) (hd : ∀ a b, dist a b = dist b a)
    (hI : Inv (simplexTopo 3) src.mesh) (hm : ∀ e < src.mesh.count 1, mark e = true)
    (hone : ∀ t < src.mesh.count 3, ∀ t' < src.mesh.count 3, src.mesh.vertsOf 3 t ⊆ src.mesh.vertsOf 3 t' → t' = t)
    (hpart : ∀ j, j = 1 ∨ j = 2 → ∀ B < src.mesh.count j, ∃ t < src.mesh.count 3, src.mesh.vertsOf j B ⊆ src.mesh.vertsOf 3 t)
    {k j B : Nat} (hk : k = 1 ∨ k = 2) (hj : j = 1 ∨ j = 2 ∨ j = 3) (hB : B < src.mesh.count j) :
    ((Finset.range (r.out.mesh.count k)).filter (fun f => Inside k src r C w ev f (j, B))).card = insideCount k j := by
  have hnod : (labelSets (k + 1)).Nodup := List.nodup_sublistsLen _ List.nodup_range
  obtain hj | rfl : (j = 1 ∨ j = 2) ∨ j = 3 := by omega
  · obtain ⟨t, ht, hs⟩ := hpart j hj B hB
    obtain ⟨hBn, hBl⟩ := part_verts hI (show 1 ≤ j by omega) hB
    have hG := h.uni_glue hd hI hm ht
    have hA := (local_perm hI ht hBn hs).length_eq
    rw [List.length_map, hBl] at hA
    rw [h.card_labels hI hk ht (hnod.filter _) ?_ _ (fun f hf => h.inside_iff hd hI hm hk hj ht hB hs hf)]
    · have hsub : (List.range 4).filter (fun a => decide (tetVtx src.mesh t a ∈ src.mesh.vertsOf j B)) ∈ (List.range 4).sublists :=
        List.mem_sublists.2 List.filter_sublist
      generalize (List.range 4).filter (fun a => decide (tetVtx src.mesh t a ∈ src.mesh.vertsOf j B)) = A at hA hsub
      have hc := meeting_edges A hsub
      change (meeting (k + 1) A).length = _
      rcases hk with rfl | rfl <;> rcases hj with rfl | rfl
      · exact hc.1.1 hA
      · exact hc.1.2 hA
      · exact hc.2.1 hA
      · exact hc.2.2 hA
    · intro g hg
      rw [List.mem_filter, Bool.and_eq_true, decide_eq_true_iff] at hg
      refine ⟨hg.1, (hG.parts hk hg.1 ?_).2 hg.2.2⟩
      intro e
      rw [hg.2.1] at e
      rw [e] at hA
      simp at hA
      omega
  · have hG := h.uni_glue hd hI hm hB
    rw [h.card_labels hI hk hB (hnod.filter _) ?_ _ (fun f _ => h.inside_cell hI hone hB)]
    · rcases hk with rfl | rfl
      · exact hG.inner1
      · exact hG.inner2
    · intro g hg
      rw [List.mem_filter, Bool.and_eq_true, together_iff] at hg
      exact ⟨hg.1, hg.2.2⟩

omit [Field K] [LinearOrder K] in
/-- Each edge and each facet of the refined mesh is inside of an element of the source. -/
theorem Refined.inside_exists {kids : List (Option (Vtx (Nat → K))) → (Nat → Bool) → Option (List (List Nat))}
    (h : Refined 3 src kids mark r C R w ev) (hI : Inv (simplexTopo 3) src.mesh) (hF : FromCells (simplexTopo 3) r.out.mesh)
    {k f : Nat} (hk : k = 1 ∨ k = 2) (hf : f < r.out.mesh.count k) :
    ∃ j B, ((j = 1 ∨ j = 2 ∨ j = 3) ∧ B < src.mesh.count j) ∧ Inside k src r C w ev f (j, B) := by
  obtain ⟨t, c, g, hL⟩ := h.part_labels hF hk hf
  have hlt : ∀ l ∈ g, l < 10 := fun l hl => (h.label_lt hL.cell hL.child (hL.sub hl)).2
  have hmem := sortLabels_mem hL.nodup hlt
  rw [hL.length] at hmem
  have h2 : 2 ≤ (labelSpan g).length := by
    rw [← labelSpan_perm (fun l => mem_sortLabels hlt)]
    rcases hk with rfl | rfl
    · exact span_two _ hmem
    · exact span_three _ hmem
  have hsubl : List.Sublist (labelSpan g) (List.range 4) := List.filter_sublist
  have h4 := hsubl.length_le
  rw [List.length_range] at h4
  have hmap : ∀ v, SpanOf src.mesh t g v ↔ v ∈ (labelSpan g).map (tetVtx src.mesh t) := by
    intro v
    rw [List.mem_map]
    constructor
    · intro hv
      obtain ⟨a, ha, rfl⟩ := (tetVtx_mem hI hL.cell).1 (spanOf_mem hI hL.cell hv)
      exact ⟨a, (spanOf_local hI hL.cell ha).1 hv, rfl⟩
    · rintro ⟨a, ha, rfl⟩
      exact (spanOf_local hI hL.cell (List.mem_range.1 (hsubl.subset ha))).2 ha
  have hnod : ((labelSpan g).map (tetVtx src.mesh t)).Nodup := by
    refine List.Nodup.map_on (fun x hx y hy e => ?_) (hsubl.nodup List.nodup_range)
    exact tetVtx_inj hI hL.cell (List.mem_range.1 (hsubl.subset hx)) (List.mem_range.1 (hsubl.subset hy)) e
  have hsub : (labelSpan g).map (tetVtx src.mesh t) ⊆ src.mesh.vertsOf 3 t := by
    intro v hv
    exact spanOf_mem hI hL.cell ((hmap v).2 hv)
  obtain h5 | h5 : ((labelSpan g).length - 1 = 1 ∨ (labelSpan g).length - 1 = 2) ∨ (labelSpan g).length = 4 := by omega
  · obtain ⟨B, hB, hp⟩ := part_exists hI h5 hL.cell hnod (by rw [List.length_map]; omega) hsub
    refine ⟨(labelSpan g).length - 1, B, ?_, t, c, g, hL, fun v => (hmap v).trans hp.symm.mem_iff⟩
    exact ⟨by omega, bndOf_valid hI hB⟩
  · obtain ⟨_, hvl, _⟩ := simplex_verts (by omega) hI hL.cell
    have hp := perm_of_subset hnod hsub (by rw [List.length_map]; omega)
    refine ⟨3, t, ?_, t, c, g, hL, fun v => (hmap v).trans hp.mem_iff⟩
    exact ⟨by omega, hL.cell⟩

omit [Field K] [LinearOrder K] in
theorem Refined.inside_unique {kids : List (Option (Vtx (Nat → K))) → (Nat → Bool) → Option (List (List Nat))}
    (h : Refined 3 src kids mark r C R w ev) (hI : Inv (simplexTopo 3) src.mesh)
    (hone : ∀ t < src.mesh.count 3, ∀ t' < src.mesh.count 3, src.mesh.vertsOf 3 t ⊆ src.mesh.vertsOf 3 t' → t' = t)
    {k f j j' B B' : Nat} (hj : j = 1 ∨ j = 2 ∨ j = 3) (hj' : j' = 1 ∨ j' = 2 ∨ j' = 3) (hB : B < src.mesh.count j) (hB' : B' < src.mesh.count j')
    (h1 : Inside k src r C w ev f (j, B)) (h2 : Inside k src r C w ev f (j', B')) : j = j' ∧ B = B' := by
  obtain ⟨t, c, g, hL, hs⟩ := h1
  obtain ⟨t', c', g', hL', hs'⟩ := h2
  dsimp only at hs hs'
  obtain ⟨n1, l1⟩ := part_verts hI (show 1 ≤ j by omega) hB
  obtain ⟨n2, l2⟩ := part_verts hI (show 1 ≤ j' by omega) hB'
  have hp : (src.mesh.vertsOf j B).Perm (src.mesh.vertsOf j' B') := by
    refine (List.perm_ext_iff_of_nodup n1 n2).2 fun v => ?_
    rw [← hs, ← hs']
    exact ⟨h.span_eq hI hL hL' v, h.span_eq hI hL' hL v⟩
  have : j = j' := by
    have := hp.length_eq
    omega
  subst this
  obtain hj | rfl : (j = 1 ∨ j = 2) ∨ j = 3 := by omega
  · exact ⟨rfl, part_same hI hj hB hB' hp⟩
  · exact ⟨rfl, hone B' hB' B hB hp.symm.subset⟩


/-- The numbers of edges and facets. -/
theorem Refined.count_parts (h : Refined 3 src (tetKids dist) mark r C R w ev) (hd : ∀ a b, dist a b = dist b a)
    (hI : Inv (simplexTopo 3) src.mesh) (hm : ∀ e < src.mesh.count 1, mark e = true) (hF : FromCells (simplexTopo 3) r.out.mesh)
    (hone : ∀ t < src.mesh.count 3, ∀ t' < src.mesh.count 3, src.mesh.vertsOf 3 t ⊆ src.mesh.vertsOf 3 t' → t' = t)
    (hpart : ∀ j, j = 1 ∨ j = 2 → ∀ B < src.mesh.count j, ∃ t < src.mesh.count 3, src.mesh.vertsOf j B ⊆ src.mesh.vertsOf 3 t)
    {k : Nat} (hk : k = 1 ∨ k = 2) :
    r.out.mesh.count k = insideCount k 1 * src.mesh.count 1 + insideCount k 2 * src.mesh.count 2 + insideCount k 3 * src.mesh.count 3 := by
  classical
  have hsum := card_by_relation (S := Finset.range (r.out.mesh.count k))
    (I := ({1, 2, 3} : Finset Nat).sigma (fun j => Finset.range (src.mesh.count j)))
    (fun f x => Inside k src r C w ev f (x.1, x.2)) ?_ ?_
  · rw [Finset.sum_sigma, Finset.card_range] at hsum
    have : ∀ j ∈ ({1, 2, 3} : Finset Nat), ∑ B ∈ Finset.range (src.mesh.count j),
        ((Finset.range (r.out.mesh.count k)).filter (fun f => Inside k src r C w ev f (j, B))).card = insideCount k j * src.mesh.count j := by
      intro j hj
      have hj : j = 1 ∨ j = 2 ∨ j = 3 := by simpa using hj
      rw [Finset.sum_congr rfl (fun B hB => h.inside_card hd hI hm hone hpart hk hj (Finset.mem_range.1 hB))]
      simp [Nat.mul_comm]
    rw [Finset.sum_congr rfl this] at hsum
    rw [hsum]
    simp [Nat.add_assoc]
  · intro f hf
    obtain ⟨j, B, ⟨hj, hB⟩, hin⟩ := h.inside_exists hI hF hk (Finset.mem_range.1 hf)
    exact ⟨⟨j, B⟩, Finset.mem_sigma.2 ⟨by simpa using hj, Finset.mem_range.2 hB⟩, hin⟩
  · rintro f _ ⟨j, B⟩ hx ⟨j', B'⟩ hy h1 h2
    rw [Finset.mem_sigma, Finset.mem_range] at hx hy
    obtain ⟨e1, e2⟩ := h.inside_unique hI hone (by simpa using hx.1) (by simpa using hy.1) hx.2 hy.2 h1 h2
    subst e1; subst e2; rfl

/-- No two cells of the refined mesh have the same vertices, if no two of the mesh do. -/
theorem Refined.tet_one (h : Refined 3 src (tetKids dist) mark r C R w ev) (hd : ∀ a b, dist a b = dist b a)
    (hI : Inv (simplexTopo 3) src.mesh) (hm : ∀ e < src.mesh.count 1, mark e = true)
    (hone : ∀ t < src.mesh.count 3, ∀ t' < src.mesh.count 3, src.mesh.vertsOf 3 t ⊆ src.mesh.vertsOf 3 t' → t' = t)
    {i j : Nat} (hi : i < r.out.mesh.count 3) (hj : j < r.out.mesh.count 3)
    (hv : (r.out.mesh.vertsOf 3 i).Perm (r.out.mesh.vertsOf 3 j)) : i = j := by
  obtain ⟨t, c, ki, ht, hc, vi⟩ := h.kid_of hi
  obtain ⟨t', c', kj, ht', hc', vj⟩ := h.kid_of hj
  rw [vi, vj] at hv
  have hG := h.uni_glue hd hI hm ht
  have hsh : ∀ l ∈ c, ∃ l' ∈ c', labelVertex 3 src.mesh w ev t' l' = labelVertex 3 src.mesh w ev t l := fun l hl =>
    List.mem_map.1 (hv.mem_iff.1 (List.mem_map.2 ⟨l, hl, rfl⟩))
  have hsub : src.mesh.vertsOf 3 t ⊆ src.mesh.vertsOf 3 t' := by
    intro v hv
    obtain ⟨a, ha, rfl⟩ := (tetVtx_mem hI ht).1 hv
    have : a ∈ labelSpan c := by
      rw [hG.span c hc]
      simp only [List.mem_cons, List.not_mem_nil, or_false]
      omega
    obtain ⟨l, hl, e⟩ := (spanOf_local hI ht ha).2 this
    obtain ⟨l', hl', e'⟩ := hsh l hl
    exact spanOf_mem hI ht' ⟨l', hl', ((h.label_ends hI ht' ht hc' hc hl' hl).1 e' _).2 e⟩
  have := hone t ht t' ht' hsub
  subst this
  have hcc : c ⊆ c' := by
    intro l hl
    obtain ⟨l', hl', e⟩ := hsh l hl
    rw [← h.label_inj hI ht hc' hc hl' hl e]; exact hl'
  have hone1 := hG.one c hc
  have hn : r.kids.Nodup := by
    rw [h.kids_eq]
    refine flatMap_nodup List.nodup_range fun t ht => ?_
    have hG := h.uni_glue hd hI hm (List.mem_range.1 ht)
    rw [List.nodup_iff_count_le_one]
    intro c
    by_cases hc : c ∈ C t
    · rw [← hG.one c hc, List.count_eq_length_filter]
      refine (List.monotone_filter_right _ fun x hx => ?_).length_le
      rw [beq_iff_eq] at hx
      subst hx
      exact decide_eq_true fun _ h => h
    · rw [List.count_eq_zero_of_not_mem hc]; omega
  obtain ⟨x, hx⟩ := List.length_eq_one_iff.1 hone1
  have m1 : c ∈ (C t').filter (fun c' => decide (c ⊆ c')) := List.mem_filter.2 ⟨hc, decide_eq_true fun _ h => h⟩
  have m2 : c' ∈ (C t').filter (fun c' => decide (c ⊆ c')) := List.mem_filter.2 ⟨hc', decide_eq_true hcc⟩
  rw [hx, List.mem_singleton] at m1 m2
  have : c = c' := m1.trans m2.symm
  subst this
  obtain ⟨hi', ei⟩ := List.getElem?_eq_some_iff.1 ki
  obtain ⟨hj', ej⟩ := List.getElem?_eq_some_iff.1 kj
  exact (List.Nodup.getElem_inj_iff hn).1 (ei.trans ej.symm)

/-- Every vertex of the refined mesh is in a cell. -/
theorem Refined.tet_verts (h : Refined 3 src (tetKids dist) mark r C R w ev) (hd : ∀ a b, dist a b = dist b a)
    (hI : Inv (simplexTopo 3) src.mesh) (hm : ∀ e < src.mesh.count 1, mark e = true)
    (hedge : ∀ e < src.mesh.count 1, ∃ t < src.mesh.count 3, e ∈ src.mesh.bndOf 3 t 1)
    {used : List Nat} (hn : used.Nodup) (hused : ∀ v ∈ used, ∃ t < src.mesh.count 3, v ∈ src.mesh.vertsOf 3 t)
    (hlen : r.out.mesh.verts.length = used.length + src.mesh.count 1) {v : Nat} (hv : v < r.out.mesh.verts.length) :
    ∃ i < r.out.mesh.count 3, v ∈ r.out.mesh.vertsOf 3 i := by
  have hI' := (h.reached.inv (simplexTopo_wf 3) (simplexTopo_closed 3)).mesh
  have hlab : ∀ t < src.mesh.count 3, ∀ l < 10, ∃ i < r.out.mesh.count 3, labelVertex 3 src.mesh w ev t l ∈ r.out.mesh.vertsOf 3 i := by
    intro t ht l hl
    obtain ⟨c, hc, hlc⟩ := (h.uni_glue hd hI hm ht).used l hl
    obtain ⟨i, hi, hvi⟩ := h.kid_at ht hc
    exact ⟨i, hi, by rw [hvi]; exact List.mem_map.2 ⟨l, hlc, rfl⟩⟩
  have hw : ∀ v ∈ used, ∃ i < r.out.mesh.count 3, w v ∈ r.out.mesh.vertsOf 3 i := by
    intro v hv
    obtain ⟨t, ht, hvt⟩ := hused v hv
    obtain ⟨a, ha, rfl⟩ := (tetVtx_mem hI ht).1 hvt
    obtain ⟨i, hi, h1⟩ := hlab t ht a (by omega)
    unfold labelVertex at h1
    rw [if_pos (by omega)] at h1
    exact ⟨i, hi, h1⟩
  have he : ∀ e < src.mesh.count 1, ∃ i < r.out.mesh.count 3, ev e ∈ r.out.mesh.vertsOf 3 i := by
    intro e he
    obtain ⟨t, ht, het⟩ := hedge e he
    obtain ⟨p, hp, rfl⟩ := List.getElem_of_mem het
    have hlen := (simplex_edge (by omega) hI ht).1
    have h6 : (edgeIdx (3 + 1)).length = 6 := by decide
    rw [h6] at hlen
    obtain ⟨i, hi, h1⟩ := hlab t ht (4 + p) (by omega)
    unfold labelVertex at h1
    rw [if_neg (by omega), show 4 + p - (3 + 1) = p by omega, List.getD_eq_getElem _ _ hp] at h1
    exact ⟨i, hi, h1⟩
  have hnod : (used.map w ++ (List.range (src.mesh.count 1)).map ev).Nodup := by
    rw [List.nodup_append]
    refine ⟨?_, ?_, ?_⟩
    · refine hn.map_on fun a ha b hb e => ?_
      obtain ⟨t, ht, hat⟩ := hused a ha
      obtain ⟨t', ht', hbt⟩ := hused b hb
      exact h.winj t ht a hat t' ht' b hbt e
    · refine List.nodup_range.map_on fun a ha b hb e => ?_
      have ha := List.mem_range.1 ha
      have hb := List.mem_range.1 hb
      exact h.einj a ha b hb (hm a ha) (hm b hb) e
    · intro x hx y hy e
      obtain ⟨a, ha, rfl⟩ := List.mem_map.1 hx
      obtain ⟨b, hb, rfl⟩ := List.mem_map.1 hy
      have hb := List.mem_range.1 hb
      obtain ⟨t, ht, hat⟩ := hused a ha
      exact h.sep t ht a hat b hb (hm b hb) e
  have hin : ∀ x ∈ used.map w ++ (List.range (src.mesh.count 1)).map ev, ∃ i < r.out.mesh.count 3, x ∈ r.out.mesh.vertsOf 3 i := by
    intro x hx
    rcases List.mem_append.1 hx with hx | hx
    · obtain ⟨a, ha, rfl⟩ := List.mem_map.1 hx
      exact hw a ha
    · obtain ⟨b, hb, rfl⟩ := List.mem_map.1 hx
      exact he b (List.mem_range.1 hb)
  have hsub : used.map w ++ (List.range (src.mesh.count 1)).map ev ⊆ List.range r.out.mesh.verts.length := by
    intro x hx
    obtain ⟨i, hi, hxi⟩ := hin x hx
    exact List.mem_range.2 ((simplex_verts (by omega) hI' hi).2.2 x hxi)
  have hp := perm_of_subset hnod hsub (by simp [hlen])
  exact hin v (hp.mem_iff.2 (List.mem_range.2 hv))

omit [Field K] [LinearOrder K] in
/-- A facet inside of a facet of the source is on it. -/
theorem Refined.inside_facing {kids : List (Option (Vtx (Nat → K))) → (Nat → Bool) → Option (List (List Nat))}
    (h : Refined 3 src kids mark r C R w ev) (hI : Inv (simplexTopo 3) src.mesh) {f F : Nat} (hF : F < src.mesh.count 2)
    (hin : Inside 2 src r C w ev f (2, F)) : Facing src r C w ev f F := by
  obtain ⟨t, c, g, hL, hs⟩ := hin
  dsimp only at hs
  have hsub : src.mesh.vertsOf 2 F ⊆ src.mesh.vertsOf 3 t := fun v hv => spanOf_mem hI hL.cell ((hs v).2 hv)
  obtain ⟨q, hq⟩ := faceOf_used hI hL.cell ((facet_mem hI hL.cell hF).2 hsub)
  obtain ⟨qa, qb, qc, _, _, _⟩ := tetFaces_lt q hq.face
  refine ⟨t, c, g, q, ⟨hL.cell, hL.child, hL.nodup, hL.length, hL.sub, hL.verts⟩, hq, fun l hl => ?_⟩
  have key : ∀ a < 4, tetVtx src.mesh t a ∈ src.mesh.vertsOf 2 F → a = q.1 ∨ a = q.2.1 ∨ a = q.2.2 := by
    intro a ha hv
    have := hq.verts.mem_iff.1 hv
    simp only [List.mem_cons, List.not_mem_nil, or_false] at this
    rcases this with e | e | e
    · exact Or.inl (tetVtx_inj hI hL.cell ha qa e)
    · exact Or.inr (Or.inl (tetVtx_inj hI hL.cell ha qb e))
    · exact Or.inr (Or.inr (tetVtx_inj hI hL.cell ha qc e))
  obtain ⟨a1, a2⟩ := labelEnds_lt l
  exact (onTetFace_ends q hq.face l (h.label_lt hL.cell hL.child (hL.sub hl)).2).2
    ⟨key _ a1 ((hs _).1 ⟨l, hl, Or.inl rfl⟩), key _ a2 ((hs _).1 ⟨l, hl, Or.inr rfl⟩)⟩

omit [Field K] [LinearOrder K] in
/-- A facet inside of a cell is on no facet of the source. -/
theorem Refined.inside_not_facing {kids : List (Option (Vtx (Nat → K))) → (Nat → Bool) → Option (List (List Nat))}
    (h : Refined 3 src kids mark r C R w ev) (hI : Inv (simplexTopo 3) src.mesh) {f F T : Nat} (hT : T < src.mesh.count 3)
    (hin : Inside 2 src r C w ev f (3, T)) : ¬ Facing src r C w ev f F := by
  rintro ⟨t', c', g', q, hL', hq, hon⟩
  obtain ⟨t, c, g, hL, hs⟩ := hin
  dsimp only at hs
  have hLp : PartLabels 2 src r C w ev f t' c' g' := ⟨hL'.cell, hL'.child, hL'.nodup, hL'.length, hL'.sub, hL'.verts⟩
  obtain ⟨hvn, hvl, _⟩ := simplex_verts (by omega) hI hT
  have hsub : src.mesh.vertsOf 3 T ⊆ src.mesh.vertsOf 2 F := by
    intro v hv
    obtain ⟨l, hl, e⟩ := h.span_eq hI hL hLp v ((hs v).2 hv)
    have := (onTetFace_ends q hq.face l (h.label_lt hL'.cell hL'.child (hL'.sub hl)).2).1 (hon l hl)
    rw [hq.verts.mem_iff]
    simp only [List.mem_cons, List.not_mem_nil, or_false]
    rcases e with e | e
    · rw [← e]
      rcases this.1 with e | e | e <;> rw [e] <;> simp [tetVtx]
    · rw [← e]
      rcases this.2 with e | e | e <;> rw [e] <;> simp [tetVtx]
  have h1 := (hvn.subperm hsub).length_le
  have h2 := (facet_nodup hI hq.lt).2
  omega

/-- In place of each facet on the boundary there are four. -/
theorem Refined.boundary_count (h : Refined 3 src (tetKids dist) mark r C R w ev) (hd : ∀ a b, dist a b = dist b a)
    (hI : Inv (simplexTopo 3) src.mesh) (hm : ∀ e < src.mesh.count 1, mark e = true) (hF : FromCells (simplexTopo 3) r.out.mesh)
    (hone : ∀ t < src.mesh.count 3, ∀ t' < src.mesh.count 3, src.mesh.vertsOf 3 t ⊆ src.mesh.vertsOf 3 t' → t' = t)
    (hpart : ∀ j, j = 1 ∨ j = 2 → ∀ B < src.mesh.count j, ∃ t < src.mesh.count 3, src.mesh.vertsOf j B ⊆ src.mesh.vertsOf 3 t) :
    ((Finset.range (r.out.mesh.count 2)).filter (fun f => numCells (simplexTopo 3) r.out.mesh f = 1)).card =
      4 * ((Finset.range (src.mesh.count 2)).filter (fun F => numCells (simplexTopo 3) src.mesh F = 1)).card := by
  classical
  have huse : ∀ f < r.out.mesh.count 2, ∀ F < src.mesh.count 2, Inside 2 src r C w ev f (2, F) →
      numCells (simplexTopo 3) r.out.mesh f = numCells (simplexTopo 3) src.mesh F := fun f hf F hF hin =>
    h.facing_uses hd hI hf (h.inside_facing hI hF hin)
  rw [card_by_relation (I := (Finset.range (src.mesh.count 2)).filter (fun F => numCells (simplexTopo 3) src.mesh F = 1))
    (fun f F => Inside 2 src r C w ev f (2, F)) ?_ ?_]
  · have : ∀ F ∈ (Finset.range (src.mesh.count 2)).filter (fun F => numCells (simplexTopo 3) src.mesh F = 1),
        (((Finset.range (r.out.mesh.count 2)).filter (fun f => numCells (simplexTopo 3) r.out.mesh f = 1)).filter
          (fun f => Inside 2 src r C w ev f (2, F))).card = 4 := by
      intro F hF
      rw [Finset.mem_filter, Finset.mem_range] at hF
      rw [Finset.filter_filter]
      refine Eq.trans (congrArg Finset.card (Finset.filter_congr fun f hf => ?_))
        (h.inside_card hd hI hm hone hpart (Or.inr rfl) (Or.inr (Or.inl rfl)) hF.1)
      exact ⟨fun h => h.2, fun hin => ⟨by rw [huse f (Finset.mem_range.1 hf) F hF.1 hin, hF.2], hin⟩⟩
    rw [Finset.sum_congr rfl this]
    simp [Nat.mul_comm]
  · intro f hf
    rw [Finset.mem_filter, Finset.mem_range] at hf
    obtain ⟨j, B, ⟨hj, hB⟩, hin⟩ := h.inside_exists hI hF (Or.inr rfl) hf.1
    rcases hj with rfl | rfl | rfl
    · have hc := h.inside_card hd hI hm hone hpart (k := 2) (Or.inr rfl) (Or.inl rfl) hB
      have : f ∈ (Finset.range (r.out.mesh.count 2)).filter (fun f => Inside 2 src r C w ev f (1, B)) :=
        Finset.mem_filter.2 ⟨Finset.mem_range.2 hf.1, hin⟩
      rw [Finset.card_eq_zero.1 (hc.trans (by decide))] at this
      simp at this
    · exact ⟨B, Finset.mem_filter.2 ⟨Finset.mem_range.2 hB, by rw [← huse f hf.1 B hB hin]; exact hf.2⟩, hin⟩
    · have hin' := hin
      obtain ⟨t, c, g, hL, hs⟩ := hin
      have := h.inner_uses hd hI hone hf.1 ⟨hL.cell, hL.child, hL.nodup, hL.length, hL.sub, hL.verts⟩
        (fun ⟨F, hFc⟩ => h.inside_not_facing hI hB hin' hFc)
      rw [hf.2] at this
      cases this
  · intro f _ F hF F' hF' h1 h2
    rw [Finset.mem_filter, Finset.mem_range] at hF hF'
    exact (h.inside_unique hI hone (Or.inr (Or.inl rfl)) (Or.inr (Or.inl rfl)) hF.1 hF'.1 h1 h2).2

end

end VG
