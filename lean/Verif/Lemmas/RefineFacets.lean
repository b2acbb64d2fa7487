import Verif.Lemmas.RefineFit
import Verif.Lemmas.TetSlots

/-!
The facets of a refined mesh of tetrahedra.
-/

namespace VG

section
variable {P : Type} {K : Type} [Field K] [LinearOrder K] {src : SegState P} {dist : P → P → K}
  {mark : Nat → Bool} {r : RefSt P} {C : Nat → List (List Nat)} {R : Nat → List (Option (Vtx P))} {w ev : Nat → Nat}

/-- The facet `f` of the refined mesh is given by three labels `g` of the child `c` of the cell `t`. -/
structure FacetLabels (src : SegState P) (r : RefSt P) (C : Nat → List (List Nat)) (w ev : Nat → Nat) (f t : Nat) (c g : List Nat) : Prop where
  cell : t < src.mesh.count 3
  child : c ∈ C t
  nodup : g.Nodup
  length : g.length = 3
  sub : g ⊆ c
  verts : (r.out.mesh.vertsOf 2 f).Perm (g.map (labelVertex 3 src.mesh w ev t))

/-- The facet of a cell with the given local vertices. -/
structure FaceOf (m : Mesh P) (F t : Nat) (q : Nat × Nat × Nat) : Prop where
  cell : t < m.count 3
  face : q ∈ tetFaces
  lt : F < m.count 2
  verts : (m.vertsOf 2 F).Perm [(m.vertsOf 3 t).getD q.1 0, (m.vertsOf 3 t).getD q.2.1 0, (m.vertsOf 3 t).getD q.2.2 0]

/-- The facet `f` of the refined mesh is on the facet `F` of the source. -/
def Facing (src : SegState P) (r : RefSt P) (C : Nat → List (List Nat)) (w ev : Nat → Nat) (f F : Nat) : Prop :=
  ∃ t c g q, FacetLabels src r C w ev f t c g ∧ FaceOf src.mesh F t q ∧ ∀ l ∈ g, onTetFace q.1 q.2.1 q.2.2 l = true

omit [Field K] [LinearOrder K] in
theorem map_subset_lift {f : Nat → Nat} : ∀ {l c : List Nat}, l ⊆ c.map f → ∃ g, g ⊆ c ∧ g.map f = l
  | [], _, _ => ⟨[], by simp, rfl⟩
  | x :: l, c, h => by
    obtain ⟨y, hy, e⟩ := List.mem_map.1 (h (List.mem_cons_self))
    obtain ⟨g, h1, h2⟩ := map_subset_lift (l := l) (c := c) (fun z hz => h (List.mem_cons_of_mem _ hz))
    exact ⟨y :: g, by simp [hy, h1], by rw [List.map_cons, e, h2]⟩

/-- Each facet of a cell of the refined mesh has labels. -/
theorem Refined.facet_labels {kids : List (Option (Vtx P)) → (Nat → Bool) → Option (List (List Nat))}
    (h : Refined 3 src kids mark r C R w ev) {f i : Nat} (hi : i < r.out.mesh.count 3) (hf : f ∈ r.out.mesh.bndOf 3 i 2) :
    ∃ t c g, r.kids[i]? = some (t, c) ∧ FacetLabels src r C w ev f t c g := by
  have hI' := (h.reached.inv (simplexTopo_wf 3) (simplexTopo_closed 3)).mesh
  have hik : i < r.kids.length := by rw [← h.count]; exact hi
  obtain ⟨t, c, hk⟩ : ∃ t c, r.kids[i]? = some (t, c) := ⟨r.kids[i].1, r.kids[i].2, List.getElem?_eq_getElem hik⟩
  have hmem := List.mem_of_getElem? hk
  rw [h.kids_eq] at hmem
  obtain ⟨u, hu, hm⟩ := List.mem_flatMap.1 hmem
  obtain ⟨c', hc', e⟩ := List.mem_map.1 hm
  simp only [Prod.mk.injEq] at e
  obtain ⟨rfl, rfl⟩ := e
  have hs := facet_subset hI' hi hf
  rw [h.verts i u c' hk] at hs
  obtain ⟨g, hg1, hg2⟩ := map_subset_lift hs
  obtain ⟨hn, hl⟩ := facet_nodup hI' (facet_lt hI' hf)
  refine ⟨u, c', g, hk, List.mem_range.1 hu, hc', ?_, ?_, hg1, by rw [hg2]⟩
  · rw [← hg2] at hn
    exact List.Nodup.of_map _ hn
  · rw [← hg2, List.length_map] at hl
    exact hl

/-- Each cell has all its faces as facets. -/
theorem faceOf_exists {m : Mesh P} (hI : Inv (simplexTopo 3) m) {t : Nat} (ht : t < m.count 3) {q : Nat × Nat × Nat} (hq : q ∈ tetFaces) :
    ∃ F, FaceOf m F t q := by
  obtain ⟨hn, hl⟩ := tet_nodup hI ht
  obtain ⟨qa, qb, qc, qab, qac, qbc⟩ := tetFaces_lt q hq
  have hne : ∀ a < 4, ∀ b < 4, a ≠ b → (m.vertsOf 3 t).getD a 0 ≠ (m.vertsOf 3 t).getD b 0 := by
    intro a ha b hb hab e
    rw [List.getD_eq_getElem _ _ (by omega), List.getD_eq_getElem _ _ (by omega)] at e
    exact hab (hn.getElem_inj_iff.1 e)
  obtain ⟨F, hF, hp⟩ := facet_exists hI ht (l := [(m.vertsOf 3 t).getD q.1 0, (m.vertsOf 3 t).getD q.2.1 0, (m.vertsOf 3 t).getD q.2.2 0])
    (by
      simp only [List.nodup_cons, List.mem_cons, List.not_mem_nil, or_false, not_or, not_false_eq_true, List.nodup_nil, and_true]
      exact ⟨⟨hne _ qa _ qb qab, hne _ qa _ qc qac⟩, hne _ qb _ qc qbc⟩) rfl (by
      intro x hx
      simp only [List.mem_cons, List.not_mem_nil, or_false] at hx
      rcases hx with rfl | rfl | rfl <;> exact getD_mem (by omega))
  exact ⟨F, ht, hq, facet_lt hI hF, hp⟩

/-- Each facet of a cell is a face of it. -/
theorem faceOf_used {m : Mesh P} (hI : Inv (simplexTopo 3) m) {t F : Nat} (ht : t < m.count 3) (hF : F ∈ m.bndOf 3 t 2) :
    ∃ q, FaceOf m F t q := by
  obtain ⟨v0, v1, v2, v3, f0, f1, f2, f3, hT⟩ := tetAt_of hI ht
  have hF' := hF
  rw [hT.facets] at hF'
  simp only [List.mem_cons, List.not_mem_nil, or_false] at hF'
  rcases hF' with rfl | rfl | rfl | rfl
  · exact ⟨(0, 1, 2), ht, by decide, facet_lt hI hF, by rw [hT.verts]; exact hT.at0⟩
  · exact ⟨(0, 1, 3), ht, by decide, facet_lt hI hF, by rw [hT.verts]; exact hT.at1⟩
  · exact ⟨(0, 2, 3), ht, by decide, facet_lt hI hF, by rw [hT.verts]; exact hT.at2⟩
  · exact ⟨(1, 2, 3), ht, by decide, facet_lt hI hF, by rw [hT.verts]; exact hT.at3⟩

theorem cellsWith_perm (m : Mesh P) (n : Nat) {g g' : List Nat} (h : g.Perm g') : cellsWith m n g = cellsWith m n g' := by
  unfold cellsWith
  congr 1
  refine List.filter_congr (fun i _ => decide_eq_decide.2 ⟨fun hs => ?_, fun hs => ?_⟩)
  · exact fun x hx => hs (h.mem_iff.2 hx)
  · exact fun x hx => hs (h.mem_iff.1 hx)

theorem numCells_with {m : Mesh P} (hI : Inv (simplexTopo 3) m) {f : Nat} (hf : f < m.count 2) :
    numCells (simplexTopo 3) m f = cellsWith m 3 (m.vertsOf 2 f) := by
  unfold numCells cellsWith
  congr 1
  refine List.filter_congr (fun i hi => decide_eq_decide.2 ?_)
  exact facet_mem hI (List.mem_range.1 hi) hf

/-- A facet on a facet of the source is used as often as that. -/
theorem Refined.facing_uses (h : Refined 3 src (tetKids dist) mark r C R w ev) (hd : ∀ a b, dist a b = dist b a)
    (hI : Inv (simplexTopo 3) src.mesh) {f F : Nat} (hf : f < r.out.mesh.count 2) (hfF : Facing src r C w ev f F) :
    numCells (simplexTopo 3) r.out.mesh f = numCells (simplexTopo 3) src.mesh F := by
  have hI' := (h.reached.inv (simplexTopo_wf 3) (simplexTopo_closed 3)).mesh
  obtain ⟨t, c, g, q, hL, hF, hon⟩ := hfF
  rw [numCells_with hI' hf, numCells_with hI hF.lt, cellsWith_perm _ _ hL.verts, cellsWith_perm _ _ hF.verts]
  exact h.face_count hd hI hL.cell hL.child hL.nodup hL.length hL.sub hF.face hon

theorem Refined.inner_uses (h : Refined 3 src (tetKids dist) mark r C R w ev) (hd : ∀ a b, dist a b = dist b a)
    (hI : Inv (simplexTopo 3) src.mesh)
    (hone : ∀ t < src.mesh.count 3, ∀ t' < src.mesh.count 3, src.mesh.vertsOf 3 t ⊆ src.mesh.vertsOf 3 t' → t' = t)
    {f t : Nat} {c g : List Nat} (hf : f < r.out.mesh.count 2) (hL : FacetLabels src r C w ev f t c g) (hno : ¬ ∃ F, Facing src r C w ev f F) :
    numCells (simplexTopo 3) r.out.mesh f = 2 := by
  have hI' := (h.reached.inv (simplexTopo_wf 3) (simplexTopo_closed 3)).mesh
  rw [numCells_with hI' hf, cellsWith_perm _ _ hL.verts]
  refine h.inner_count hd hI hL.cell (hone t hL.cell) hL.child hL.nodup hL.length hL.sub ?_
  rintro ⟨q, hq, hon⟩
  obtain ⟨F, hF⟩ := faceOf_exists hI hL.cell hq
  exact hno ⟨F, t, c, g, q, hL, hF, hon⟩

theorem Refined.outId_ne {kids : List (Option (Vtx P)) → (Nat → Bool) → Option (List (List Nat))}
    (h : Refined 3 src kids mark r C R w ev) (hI : Inv (simplexTopo 3) src.mesh) {t : Nat} (ht : t < src.mesh.count 3) :
    ∀ a < 4, ∀ b < 4, outId 3 src.mesh w t a = outId 3 src.mesh w t b → a = b := by
  intro a ha b hb e
  obtain ⟨hvn, hvl, _⟩ := simplex_verts (by omega) hI ht
  rw [h.outId_inj hI (by omega) ht ht (by omega) (by omega), List.getD_eq_getElem _ _ (by omega), List.getD_eq_getElem _ _ (by omega)] at e
  exact hvn.getElem_inj_iff.1 e

/-- The names of the labels. -/
def nameSet (src : SegState P) (w : Nat → Nat) (t : Nat) (g : List Nat) : Finset (Int × Int) :=
  g.toFinset.image (labelName (outId 3 src.mesh w t))

theorem Refined.induced {kids : List (Option (Vtx P)) → (Nat → Bool) → Option (List (List Nat))}
    (h : Refined 3 src kids mark r C R w ev) (hI : Inv (simplexTopo 3) src.mesh) {f t : Nat} {c g : List Nat}
    (hL : FacetLabels src r C w ev f t c g) {q : Nat × Nat × Nat} (hq : q ∈ tetFaces)
    (hon : ∀ l ∈ g, onTetFace q.1 q.2.1 q.2.2 l = true) :
    Induced (outId 3 src.mesh w t) (C t) (outId 3 src.mesh w t q.1) (outId 3 src.mesh w t q.2.1) (outId 3 src.mesh w t q.2.2)
      (nameSet src w t g) := by
  have hidi := h.outId_ne hI hL.cell
  have hlt : ∀ l ∈ g, l < 10 := fun l hl => (h.label_lt hL.cell hL.child (hL.sub hl)).2
  refine ⟨?_, fun s hs => ?_, c, hL.child, fun s hs => ?_⟩
  · unfold nameSet
    rw [Finset.card_image_of_injOn, List.toFinset_card_of_nodup hL.nodup, hL.length]
    intro x hx y hy hxy
    exact labelName_injective hidi x (hlt x (by simpa using hx)) y (hlt y (by simpa using hy)) hxy
  · obtain ⟨l, hl, rfl⟩ := Finset.mem_image.1 hs
    have hl := List.mem_toFinset.1 hl
    exact (onTetFace_iff_name hidi hq (hlt l hl)).1 (hon l hl)
  · obtain ⟨l, hl, rfl⟩ := Finset.mem_image.1 hs
    exact ⟨l, hL.sub (List.mem_toFinset.1 hl), rfl⟩

/-- The same facet, seen from two cells, has the same names. -/
theorem Refined.names_eq {kids : List (Option (Vtx P)) → (Nat → Bool) → Option (List (List Nat))}
    (h : Refined 3 src kids mark r C R w ev) (hI : Inv (simplexTopo 3) src.mesh) {f t t' : Nat} {c g c' g' : List Nat}
    (hL : FacetLabels src r C w ev f t c g) (hL' : FacetLabels src r C w ev f t' c' g') : nameSet src w t g = nameSet src w t' g' := by
  have hp := hL.verts.symm.trans hL'.verts
  ext s
  simp only [nameSet, Finset.mem_image, List.mem_toFinset]
  constructor
  · rintro ⟨l, hl, rfl⟩
    obtain ⟨l', hl', e⟩ := List.mem_map.1 (hp.mem_iff.1 (List.mem_map_of_mem hl))
    exact ⟨l', hl', (h.tet_label_iff hI hL'.cell hL.cell hL'.child hL.child (hL'.sub hl') (hL.sub hl)).1 e⟩
  · rintro ⟨l, hl, rfl⟩
    obtain ⟨l', hl', e⟩ := List.mem_map.1 (hp.symm.mem_iff.1 (List.mem_map_of_mem hl))
    exact ⟨l', hl', (h.tet_label_iff hI hL.cell hL'.cell hL.child hL'.child (hL.sub hl') (hL'.sub hl)).1 e⟩

/-- Facets with the same names are the same. -/
theorem Refined.facet_of_names {kids : List (Option (Vtx P)) → (Nat → Bool) → Option (List (List Nat))}
    (h : Refined 3 src kids mark r C R w ev) (hI : Inv (simplexTopo 3) src.mesh) {f f' t t' : Nat} {c g c' g' : List Nat}
    (hf : f < r.out.mesh.count 2) (hf' : f' < r.out.mesh.count 2)
    (hL : FacetLabels src r C w ev f t c g) (hL' : FacetLabels src r C w ev f' t' c' g') (e : nameSet src w t g = nameSet src w t' g') :
    f = f' := by
  have hI' := (h.reached.inv (simplexTopo_wf 3) (simplexTopo_closed 3)).mesh
  refine facet_same hI' hf hf' (perm_of_subset (facet_nodup hI' hf).1 (fun x hx => ?_) ?_)
  · obtain ⟨l, hl, rfl⟩ := List.mem_map.1 (hL.verts.mem_iff.1 hx)
    have : labelName (outId 3 src.mesh w t) l ∈ nameSet src w t' g' := by
      rw [← e]; exact Finset.mem_image_of_mem _ (List.mem_toFinset.2 hl)
    obtain ⟨l', hl', e'⟩ := Finset.mem_image.1 this
    have hl' := List.mem_toFinset.1 hl'
    rw [hL'.verts.mem_iff, ← (h.tet_label_iff hI hL'.cell hL.cell hL'.child hL.child (hL'.sub hl') (hL.sub hl)).2 e']
    exact List.mem_map_of_mem hl'
  · rw [(facet_nodup hI' hf).2, (facet_nodup hI' hf').2]

/-- A facet is on at most one facet of the source. -/
theorem Refined.facing_unique (h : Refined 3 src (tetKids dist) mark r C R w ev) (hd : ∀ a b, dist a b = dist b a)
    (hI : Inv (simplexTopo 3) src.mesh) {f F F' : Nat} (hF : Facing src r C w ev f F) (hF' : Facing src r C w ev f F') : F = F' := by
  obtain ⟨t, c, g, q, hL, hF, hon⟩ := hF
  obtain ⟨t', c', g', q', hL', hF', hon'⟩ := hF'
  have hi := h.induced hI hL hF.face hon
  have hi' := h.induced hI hL' hF'.face hon'
  obtain ⟨qa, qb, qc, qab, qac, qbc⟩ := tetFaces_lt q hF.face
  obtain ⟨qa', qb', qc', _, _, _⟩ := tetFaces_lt q' hF'.face
  obtain ⟨c1, c2, c3⟩ := faceTriangle_covers (((h.tet_children hd hI hL.cell).1 q.1 qa q.2.1 qb q.2.2 qc qab qac qbc _).1 hi)
  rw [h.names_eq hI hL hL'] at c1 c2 c3
  have key : ∀ a < 4, (∃ s ∈ nameSet src w t' g', s.1 = outId 3 src.mesh w t a ∨ s.2 = outId 3 src.mesh w t a) →
      (src.mesh.vertsOf 3 t).getD a 0 ∈ src.mesh.vertsOf 2 F' := by
    rintro a ha ⟨s, hs, e⟩
    have h1 := hi'.2.1 s hs
    have : ∃ b < 4, outId 3 src.mesh w t' b = outId 3 src.mesh w t a ∧ (b = q'.1 ∨ b = q'.2.1 ∨ b = q'.2.2) := by
      rcases e with e | e
      · rw [e] at h1
        rcases h1.1 with h1 | h1 | h1
        · exact ⟨_, qa', h1.symm, by simp⟩
        · exact ⟨_, qb', h1.symm, by simp⟩
        · exact ⟨_, qc', h1.symm, by simp⟩
      · rw [e] at h1
        rcases h1.2 with h1 | h1 | h1
        · exact ⟨_, qa', h1.symm, by simp⟩
        · exact ⟨_, qb', h1.symm, by simp⟩
        · exact ⟨_, qc', h1.symm, by simp⟩
    obtain ⟨b, hb, e1, e2⟩ := this
    rw [h.outId_inj hI (by omega) hL'.cell hL.cell (by omega) (by omega)] at e1
    rw [hF'.verts.mem_iff, ← e1]
    rcases e2 with rfl | rfl | rfl <;> simp
  refine facet_same hI hF.lt hF'.lt (perm_of_subset (facet_nodup hI hF.lt).1 (fun x hx => ?_) ?_)
  · have := hF.verts.mem_iff.1 hx
    simp only [List.mem_cons, List.not_mem_nil, or_false] at this
    rcases this with rfl | rfl | rfl
    · exact key _ qa c1
    · exact key _ qb c2
    · exact key _ qc c3
  · rw [(facet_nodup hI hF.lt).2, (facet_nodup hI hF'.lt).2]

end

end VG
