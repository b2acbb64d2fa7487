import Verif.Lemmas.RefineFacets
import Verif.Lemmas.FaceArea

/-!
The points and areas of the facets of a refined mesh of tetrahedra.
-/

namespace VG

section
variable {K : Type} [Field K] [LinearOrder K] [IsStrictOrderedRing K] {src : SegState (Nat → K)} {dist : (Nat → K) → (Nat → K) → K}
  {mark : Nat → Bool} {r : RefSt (Nat → K)} {C : Nat → List (List Nat)} {R : Nat → List (Option (Vtx (Nat → K)))} {w ev : Nat → Nat}

/-- The point of a vertex of the refined mesh, by its handle. -/
def outPoint (r : RefSt (Nat → K)) (i : Int) : Nat → K := (r.out.mesh.ptOf i.toNat).getD (fun _ => 0)

omit [LinearOrder K] [IsStrictOrderedRing K] in
theorem outPoint_corner (hp : RefinedPts 3 src mark (edgeMid src.mesh) r w ev) (hI : Inv (simplexTopo 3) src.mesh) {t a : Nat}
    (ht : t < src.mesh.count 3) (ha : a < 4) : outPoint r (outId 3 src.mesh w t a) = src.mesh.corner 3 t a := by
  obtain ⟨_, hl, _⟩ := simplex_verts (by omega) hI ht
  unfold outPoint outId Mesh.corner
  rw [Int.toNat_natCast, hp.old t ht _ (getD_mem (by omega))]

theorem label_namePoint (hp : RefinedPts 3 src mark (edgeMid src.mesh) r w ev) (hI : Inv (simplexTopo 3) src.mesh) {t l : Nat}
    (ht : t < src.mesh.count 3) (hl : l < 10) :
    namePoint (outPoint r) (labelName (outId 3 src.mesh w t) l) = midLabel 3 (src.mesh.corner 3 t) l := by
  have c0 := outPoint_corner hp hI ht (a := 0) (by omega)
  have c1 := outPoint_corner hp hI ht (a := 1) (by omega)
  have c2 := outPoint_corner hp hI ht (a := 2) (by omega)
  have c3 := outPoint_corner hp hI ht (a := 3) (by omega)
  have he : edgeIdx (3 + 1) = [[0, 1], [0, 2], [0, 3], [1, 2], [1, 3], [2, 3]] := by decide
  unfold midLabel
  rw [he]
  interval_cases l <;> simp [labelName, namePoint_pt, c0, c1, c2, c3]

omit [LinearOrder K] [IsStrictOrderedRing K] in
theorem Refined.label_point {kids : List (Option (Vtx (Nat → K))) → (Nat → Bool) → Option (List (List Nat))}
    (h : Refined 3 src kids mark r C R w ev) (hp : RefinedPts 3 src mark (edgeMid src.mesh) r w ev)
    (hI : Inv (simplexTopo 3) src.mesh) {t : Nat} (ht : t < src.mesh.count 3) {c : List Nat} (hc : c ∈ C t) {l : Nat} (hl : l ∈ c) :
    r.out.mesh.ptOf (labelVertex 3 src.mesh w ev t l) = some (midLabel 3 (src.mesh.corner 3 t) l) := by
  obtain ⟨_, hvl, hvv⟩ := simplex_verts (by omega) hI ht
  unfold labelVertex
  split
  · rename_i h4
    rw [hp.old t ht _ (getD_mem (by omega)), corner_spec hvv (by omega)]
    unfold midLabel; rw [if_pos h4]
  · rename_i h4
    rcases (h.labels t ht c hc).2.2 l hl with h1 | ⟨_, h2, h3⟩
    · exact absurd h1 h4
    have hlen := (simplex_edge (by omega) hI ht).1
    have hb : l - (3 + 1) < (src.mesh.bndOf 3 t 1).length := by omega
    obtain ⟨a, b, f, e1, e2, e3, e4, e5⟩ := (simplex_edge (by omega) hI ht).2 (l - (3 + 1)) _ (List.getElem?_eq_getElem hb)
    have he := edgeMid_spec (by omega) hI ht (List.getElem?_eq_getElem hb)
    rw [show 3 + 1 + (l - (3 + 1)) = l by omega] at he
    rw [← he]
    rw [List.getD_eq_getElem _ _ hb] at h3 ⊢
    refine hp.mids _ ?_ h3
    simpa [Mesh.count] using (List.getElem?_eq_some_iff.1 e4).1

omit [LinearOrder K] [IsStrictOrderedRing K] in
theorem Refined.facet_points {kids : List (Option (Vtx (Nat → K))) → (Nat → Bool) → Option (List (List Nat))}
    (h : Refined 3 src kids mark r C R w ev) (hp : RefinedPts 3 src mark (edgeMid src.mesh) r w ev)
    (hI : Inv (simplexTopo 3) src.mesh) {f t : Nat} {c g : List Nat} (hL : FacetLabels src r C w ev f t c g) :
    (cellPoints r.out.mesh 2 f).Perm (g.map (midLabel 3 (src.mesh.corner 3 t))) := by
  unfold cellPoints
  refine (hL.verts.filterMap _).trans ?_
  rw [List.filterMap_map]
  have : g.filterMap (r.out.mesh.ptOf ∘ labelVertex 3 src.mesh w ev t) = g.map (midLabel 3 (src.mesh.corner 3 t)) := by
    rw [← List.filterMap_eq_map]
    refine List.filterMap_congr (fun l hl => ?_)
    exact h.label_point hp hI hL.cell hL.child (hL.sub hl)
  rw [this]

omit [LinearOrder K] [IsStrictOrderedRing K] in
theorem faceOf_points {m : Mesh (Nat → K)} (hI : Inv (simplexTopo 3) m) {F t : Nat} {q : Nat × Nat × Nat} (hF : FaceOf m F t q) :
    (cellPoints m 2 F).Perm [m.corner 3 t q.1, m.corner 3 t q.2.1, m.corner 3 t q.2.2] := by
  obtain ⟨_, hvl, hvv⟩ := simplex_verts (by omega) hI hF.cell
  obtain ⟨qa, qb, qc, _⟩ := tetFaces_lt q hF.face
  unfold cellPoints
  refine (hF.verts.filterMap _).trans ?_
  rw [List.filterMap_cons_some (corner_spec hvv (by omega)), List.filterMap_cons_some (corner_spec hvv (by omega)),
    List.filterMap_cons_some (corner_spec hvv (by omega)), List.filterMap_nil]

/-- The points of a facet on a facet of the source. -/
theorem Refined.facing_points {kids : List (Option (Vtx (Nat → K))) → (Nat → Bool) → Option (List (List Nat))}
    (h : Refined 3 src kids mark r C R w ev) (hp : RefinedPts 3 src mark (edgeMid src.mesh) r w ev)
    (hI : Inv (simplexTopo 3) src.mesh) {f F : Nat} (hfF : Facing src r C w ev f F) :
    ∀ x ∈ cellPoints r.out.mesh 2 f, CornerOrMid (cellPoints src.mesh 2 F) x := by
  obtain ⟨t, c, g, q, hL, hF, hon⟩ := hfF
  intro x hx
  obtain ⟨l, hl, rfl⟩ := List.mem_map.1 ((h.facet_points hp hI hL).mem_iff.1 hx)
  have hlt := (h.label_lt hL.cell hL.child (hL.sub hl)).2
  have hends := (onTetFace_ends q hF.face l hlt).1 (hon l hl)
  have hmem : ∀ a, (a = q.1 ∨ a = q.2.1 ∨ a = q.2.2) → src.mesh.corner 3 t a ∈ cellPoints src.mesh 2 F := by
    intro a ha
    rw [(faceOf_points hI hF).mem_iff]
    rcases ha with rfl | rfl | rfl <;> simp
  have he : edgeIdx (3 + 1) = [[0, 1], [0, 2], [0, 3], [1, 2], [1, 3], [2, 3]] := by decide
  have hm : midLabel 3 (src.mesh.corner 3 t) l = fun k => (src.mesh.corner 3 t (labelEnds l).1 k + src.mesh.corner 3 t (labelEnds l).2 k) / 2 := by
    unfold midLabel
    rw [he]
    clear hl hx hends hmem
    interval_cases l <;> simp [labelEnds]
  by_cases h4 : l < 4
  · left
    have : midLabel 3 (src.mesh.corner 3 t) l = src.mesh.corner 3 t (labelEnds l).1 := by
      unfold midLabel
      rw [if_pos h4]
      clear hl hx hends hm hlt
      interval_cases l <;> rfl
    rw [this]
    exact hmem _ hends.1
  · right
    exact ⟨_, hmem _ hends.1, _, hmem _ hends.2, hm⟩

theorem measure_perm {mu : (Nat → Nat → K) → K} (hmu : Unsigned mu) {l l' : List (Nat → K)} (hp : l.Perm l') : triMeasure mu l = triMeasure mu l' := by
  have key : ∀ a b c : Nat → K, triMeasure mu [a, b, c] = triMeasure mu [b, a, c] ∧ triMeasure mu [a, b, c] = triMeasure mu [a, c, b] := by
    intro a b c
    constructor
    · rw [measure_scaled hmu (a' := b) (b' := a) (c' := c) (-1) (fun k l => by unfold area2; ring)]; simp
    · rw [measure_scaled hmu (a' := a) (b' := c) (c' := b) (-1) (fun k l => by unfold area2; ring)]; simp
  by_cases hl : l.length = 3
  · match l, hl with
    | [a, b, c], _ =>
      have hc := List.mem_permutations.2 hp.symm
      simp [List.permutations, List.permutationsAux, List.permutationsAux.rec, List.permutationsAux2] at hc
      have k1 := key a b c
      have k2 := key b a c
      have k3 := key a c b
      have k4 := key b c a
      have k5 := key c a b
      have k6 := key c b a
      rcases hc with rfl | rfl | rfl | rfl | rfl | rfl
      · rfl
      · exact k1.1
      · rw [k1.1, k2.2, k4.1]
      · rw [k1.1, k2.2]
      · rw [k1.2, k3.1]
      · exact k1.2
  · have hl' : l'.length ≠ 3 := by rw [← hp.length_eq]; exact hl
    have : ∀ l : List (Nat → K), l.length ≠ 3 → triMeasure mu l = 0 := by
      intro l hl
      unfold triMeasure
      split
      · simp at hl
      · rfl
    rw [this _ hl, this _ hl']

omit [Field K] [IsStrictOrderedRing K] in
theorem FaceTriangle.perm {mark : Int → Int → Bool} {glen : Int → Int → K} {a b c a' b' c' : Int} {S : Finset (Int × Int)}
    (hp : [a', b', c'].Perm [a, b, c]) : FaceTriangle mark glen a' b' c' S ↔ FaceTriangle mark glen a b c S := by
  have hc := List.mem_permutations.2 hp
  simp [List.permutations, List.permutationsAux, List.permutationsAux.rec, List.permutationsAux2] at hc
  rcases hc with ⟨rfl, rfl, rfl⟩ | ⟨rfl, rfl, rfl⟩ | ⟨rfl, rfl, rfl⟩ | ⟨rfl, rfl, rfl⟩ | ⟨rfl, rfl, rfl⟩ | ⟨rfl, rfl, rfl⟩
  · rfl
  · exact FaceTriangle.comm12
  · rw [FaceTriangle.comm12, FaceTriangle.comm23, FaceTriangle.comm12]
  · rw [FaceTriangle.comm23, FaceTriangle.comm12]
  · rw [FaceTriangle.comm12, FaceTriangle.comm23]
  · exact FaceTriangle.comm23

omit [Field K] [LinearOrder K] [IsStrictOrderedRing K] in
theorem map_lift {α β : Type} {f : α → β} : ∀ {l : List β} {c : List α}, (∀ y ∈ l, ∃ x ∈ c, y = f x) → ∃ g, g ⊆ c ∧ g.map f = l
  | [], _, _ => ⟨[], by simp, rfl⟩
  | y :: l, c, h => by
    obtain ⟨x, hx, e⟩ := h y List.mem_cons_self
    obtain ⟨g, h1, h2⟩ := map_lift (l := l) (c := c) (fun z hz => h z (List.mem_cons_of_mem _ hz))
    exact ⟨x :: g, by simp [hx, h1], by rw [List.map_cons, e, h2]⟩

omit [Field K] [LinearOrder K] [IsStrictOrderedRing K] in
/-- The three names of a facet of the source, from two cells. -/
theorem faceOf_ids {m : Mesh (Nat → K)} {F t t' : Nat} {q q' : Nat × Nat × Nat} (hF : FaceOf m F t q)
    (hF' : FaceOf m F t' q') : [outId 3 m w t' q'.1, outId 3 m w t' q'.2.1, outId 3 m w t' q'.2.2].Perm
      [outId 3 m w t q.1, outId 3 m w t q.2.1, outId 3 m w t q.2.2] := by
  have := (hF'.verts.symm.trans hF.verts).map (fun v => ((w v : Nat) : Int))
  exact this

omit [LinearOrder K] [IsStrictOrderedRing K] in
theorem outLen_symm (m : Mesh (Nat → K)) (hd : ∀ a b, dist a b = dist b a) (x y : Int) : outLen m dist x y = outLen m dist y x := by
  unfold outLen
  cases m.verts[x.toNat]? <;> cases m.verts[y.toNat]? <;> simp [hd]

omit [IsStrictOrderedRing K] in
/-- A facet on the facet `F` is one of the triangles of the face. -/
theorem Refined.facing_triangle (h : Refined 3 src (tetKids dist) mark r C R w ev) (hd : ∀ a b, dist a b = dist b a)
    (hI : Inv (simplexTopo 3) src.mesh) {f F t t' : Nat} {c g : List Nat} {q q' : Nat × Nat × Nat} (hF : FaceOf src.mesh F t q)
    (hL : FacetLabels src r C w ev f t' c g) (hF' : FaceOf src.mesh F t' q') (hon : ∀ l ∈ g, onTetFace q'.1 q'.2.1 q'.2.2 l = true) :
    FaceTriangle (outMark src.mesh mark w) (outLen r.out.mesh dist) (outId 3 src.mesh w t q.1) (outId 3 src.mesh w t q.2.1)
      (outId 3 src.mesh w t q.2.2) (nameSet src w t' g) := by
  obtain ⟨qa, qb, qc, qab, qac, qbc⟩ := tetFaces_lt q' hF'.face
  rw [← FaceTriangle.perm (faceOf_ids hF hF')]
  exact ((h.tet_children hd hI hL.cell).1 q'.1 qa q'.2.1 qb q'.2.2 qc qab qac qbc _).1 (h.induced hI hL hF'.face hon)

omit [IsStrictOrderedRing K] in
/-- Each triangle of a face is a facet. -/
theorem Refined.triangle_facing (h : Refined 3 src (tetKids dist) mark r C R w ev) (hd : ∀ a b, dist a b = dist b a)
    (hI : Inv (simplexTopo 3) src.mesh) {F t : Nat} {q : Nat × Nat × Nat} (hF : FaceOf src.mesh F t q) {l : List (Int × Int)}
    (hn : l.Nodup) (hl : l.length = 3)
    (hT : FaceTriangle (outMark src.mesh mark w) (outLen r.out.mesh dist) (outId 3 src.mesh w t q.1) (outId 3 src.mesh w t q.2.1)
      (outId 3 src.mesh w t q.2.2) l.toFinset) :
    ∃ f c g, f < r.out.mesh.count 2 ∧ FacetLabels src r C w ev f t c g ∧ (∀ x ∈ g, onTetFace q.1 q.2.1 q.2.2 x = true) ∧
      nameSet src w t g = l.toFinset := by
  have hI' := (h.reached.inv (simplexTopo_wf 3) (simplexTopo_closed 3)).mesh
  obtain ⟨qa, qb, qc, qab, qac, qbc⟩ := tetFaces_lt q hF.face
  obtain ⟨_, h2, c, hc, h3⟩ := ((h.tet_children hd hI hF.cell).1 q.1 qa q.2.1 qb q.2.2 qc qab qac qbc _).2 hT
  obtain ⟨g, hg1, hg2⟩ := map_lift (l := l) (c := c) (f := labelName (outId 3 src.mesh w t)) (fun y hy => by
    obtain ⟨x, hx, e⟩ := h3 y (List.mem_toFinset.2 hy)
    exact ⟨x, hx, e.symm⟩)
  have hgn : g.Nodup := by rw [← hg2] at hn; exact List.Nodup.of_map _ hn
  have hgl : g.length = 3 := by rw [← hg2, List.length_map] at hl; exact hl
  obtain ⟨i, hi⟩ : ∃ i, r.kids[i]? = some (t, c) := by
    refine List.getElem?_of_mem ?_
    rw [h.kids_eq]
    exact List.mem_flatMap.2 ⟨t, List.mem_range.2 hF.cell, List.mem_map.2 ⟨c, hc, rfl⟩⟩
  have hic : i < r.out.mesh.count 3 := by rw [h.count]; exact (List.getElem?_eq_some_iff.1 hi).1
  have hlt : ∀ x ∈ g, x < 10 := fun x hx => (h.label_lt hF.cell hc (hg1 hx)).2
  obtain ⟨f, hf, hfv⟩ := facet_exists hI' hic (l := g.map (labelVertex 3 src.mesh w ev t))
    (List.Nodup.map_on (fun x hx y hy e => h.label_inj hI hF.cell hc hc (hg1 hx) (hg1 hy) e) hgn) (by rw [List.length_map]; exact hgl)
    (by rw [h.verts i t c hi]; exact List.map_subset _ hg1)
  have hset : nameSet src w t g = l.toFinset := by
    rw [← hg2]; unfold nameSet; ext s; simp
  refine ⟨f, c, g, facet_lt hI' hf, ⟨hF.cell, hc, hgn, hgl, hg1, hfv⟩, fun x hx => ?_, hset⟩
  refine (onTetFace_iff_name (h.outId_ne hI hF.cell) hF.face (hlt x hx)).2 (h2 _ ?_)
  rw [← hset]
  exact Finset.mem_image_of_mem _ (List.mem_toFinset.2 hx)

/-- The measure of a facet by its names. -/
theorem Refined.facet_measure {kids : List (Option (Vtx (Nat → K))) → (Nat → Bool) → Option (List (List Nat))}
    (h : Refined 3 src kids mark r C R w ev) (hp : RefinedPts 3 src mark (edgeMid src.mesh) r w ev)
    (hI : Inv (simplexTopo 3) src.mesh) {f t : Nat} {c g : List Nat} (hL : FacetLabels src r C w ev f t c g)
    {l : List (Int × Int)} (hn : l.Nodup) (e : nameSet src w t g = l.toFinset) {mu : (Nat → Nat → K) → K} (hmu : Unsigned mu) :
    triMeasure mu (cellPoints r.out.mesh 2 f) = triMeasure mu (l.map (namePoint (outPoint r))) := by
  have hlt : ∀ x ∈ g, x < 10 := fun x hx => (h.label_lt hL.cell hL.child (hL.sub hx)).2
  have hidi := h.outId_ne hI hL.cell
  have hperm : (g.map (labelName (outId 3 src.mesh w t))).Perm l := by
    refine (List.perm_ext_iff_of_nodup (List.Nodup.map_on (fun x hx y hy e => labelName_injective hidi x (hlt x hx) y (hlt y hy) e) hL.nodup) hn).2
      fun s => ?_
    rw [← List.mem_toFinset (l := l), ← e]
    simp [nameSet]
  refine measure_perm hmu ((h.facet_points hp hI hL).trans ?_)
  have : g.map (midLabel 3 (src.mesh.corner 3 t)) = (g.map (labelName (outId 3 src.mesh w t))).map (namePoint (outPoint r)) := by
    rw [List.map_map]
    exact List.map_congr_left (fun x hx => (label_namePoint hp hI hL.cell (hlt x hx)).symm)
  rw [this]
  exact hperm.map _

open Classical in
/-- The facets on a facet of the source have together its area. -/
theorem Refined.facing_area (h : Refined 3 src (tetKids dist) mark r C R w ev) (hd : ∀ a b, dist a b = dist b a)
    (hp : RefinedPts 3 src mark (edgeMid src.mesh) r w ev)
    (hI : Inv (simplexTopo 3) src.mesh) {F t : Nat} {q : Nat × Nat × Nat} (hF : FaceOf src.mesh F t q)
    {mu : (Nat → Nat → K) → K} (hmu : Unsigned mu) :
    (((List.range (r.out.mesh.count 2)).filter (fun f => decide (Facing src r C w ev f F))).map
      (fun f => triMeasure mu (cellPoints r.out.mesh 2 f))).sum = triMeasure mu (cellPoints src.mesh 2 F) := by
  have hidi := h.outId_ne hI hF.cell
  obtain ⟨qa, qb, qc, qab, qac, qbc⟩ := tetFaces_lt q hF.face
  obtain ⟨L, c1, c2, c3, c4⟩ := covers (mark := outMark src.mesh mark w) (glen := outLen r.out.mesh dist)
    (x := outId 3 src.mesh w t q.1) (y := outId 3 src.mesh w t q.2.1) (z := outId 3 src.mesh w t q.2.2)
    (outMark_symm _ _ _) (outLen_symm _ hd) (fun e => qab (hidi _ qa _ qb e)) (fun e => qac (hidi _ qa _ qc e))
    (fun e => qbc (hidi _ qb _ qc e))
  have ex : ∀ f, Facing src r C w ev f F → ∃ l, l ∈ L ∧ ∃ t' c g, FacetLabels src r C w ev f t' c g ∧ nameSet src w t' g = l.toFinset := by
    rintro f ⟨t', c, g, q', hL, hF', hon⟩
    obtain ⟨l, hl, e⟩ := (c1 _).1 (h.facing_triangle hd hI hF hL hF' hon)
    exact ⟨l, hl, t', c, g, hL, e⟩
  let φ : Nat → List (Int × Int) := fun f => if hf : Facing src r C w ev f F then (ex f hf).choose else []
  have hφ : ∀ f, Facing src r C w ev f F → φ f ∈ L ∧ ∃ t' c g, FacetLabels src r C w ev f t' c g ∧ nameSet src w t' g = (φ f).toFinset := by
    intro f hf
    have : φ f = (ex f hf).choose := dif_pos hf
    rw [this]
    exact (ex f hf).choose_spec
  have hLn : L.Nodup := List.Nodup.of_map _ c2
  have hinj : ∀ l ∈ L, ∀ l' ∈ L, l.toFinset = l'.toFinset → l = l' := List.inj_on_of_nodup_map c2
  have hmem : ∀ f, f ∈ (List.range (r.out.mesh.count 2)).filter (fun f => decide (Facing src r C w ev f F)) ↔
      f < r.out.mesh.count 2 ∧ Facing src r C w ev f F := by
    intro f; rw [List.mem_filter, List.mem_range, decide_eq_true_iff]
  have hperm : (((List.range (r.out.mesh.count 2)).filter (fun f => decide (Facing src r C w ev f F))).map φ).Perm L := by
    refine (List.perm_ext_iff_of_nodup (List.Nodup.map_on ?_ (List.nodup_range.filter _)) hLn).2 fun l => ?_
    · intro f hf f' hf' e
      rw [hmem] at hf hf'
      obtain ⟨_, t1, d1, g1, l1, s1⟩ := hφ f hf.2
      obtain ⟨_, t2, d2, g2, l2, s2⟩ := hφ f' hf'.2
      exact h.facet_of_names hI hf.1 hf'.1 l1 l2 (by rw [s1, s2, e])
    · rw [List.mem_map]
      constructor
      · rintro ⟨f, hf, rfl⟩
        rw [hmem] at hf
        exact (hφ f hf.2).1
      · intro hl
        obtain ⟨f, c, g, hfl, hL, hon, e⟩ := h.triangle_facing hd hI hF (c3 l hl).1 (c3 l hl).2 ((c1 _).2 ⟨l, hl, rfl⟩)
        have hfF : Facing src r C w ev f F := ⟨t, c, g, q, hL, hF, hon⟩
        refine ⟨f, (hmem f).2 ⟨hfl, hfF⟩, ?_⟩
        obtain ⟨m1, t1, d1, g1, l1, s1⟩ := hφ f hfF
        exact hinj _ m1 _ hl (by rw [← s1, ← e]; exact h.names_eq hI l1 hL)
  have hsum := (hperm.map (fun l => triMeasure mu (l.map (namePoint (outPoint r))))).sum_eq
  rw [List.map_map, c4 (outPoint r) mu hmu] at hsum
  rw [outPoint_corner hp hI hF.cell qa, outPoint_corner hp hI hF.cell qb, outPoint_corner hp hI hF.cell qc] at hsum
  rw [measure_perm hmu (faceOf_points hI hF), ← hsum]
  refine congrArg List.sum (List.map_congr_left (fun f hf => ?_))
  rw [hmem] at hf
  obtain ⟨m1, t1, d1, g1, l1, s1⟩ := hφ f hf.2
  exact h.facet_measure hp hI l1 (c3 _ m1).1 s1 hmu

end

end VG
