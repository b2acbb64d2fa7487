import Verif.Lemmas.VoronoiSum

/-!
C68 `apply_voronoi` for meshes of triangles in the plane.
-/

namespace VG

/-! ### Boxes and interfaces -/

section General
variable {st : MState (Fin 2 → ℝ)}

/-- The boxes of the vertices have the volume of the mesh: whatever the triangles are, obtuse or not, at the boundary or
not, the volumes added to the boxes of the vertices sum up to the areas of the triangles. -/
theorem C68_total_volume (h : Reached (simplexTopo 2) st) (hnd : NoFlatTriangle st.mesh) (v : VoroSt) :
    ∃ st' v', st.voronoiTriangles geo2 v = some (st', v') ∧ st'.mesh = st.mesh
      ∧ ∑ s ∈ Finset.range st.mesh.verts.length, v'.total .vbox s
        = ∑ s ∈ Finset.range st.mesh.verts.length, v.total .vbox s + ((st.mesh.elems 2).map fun e =>
          planeArea (st.mesh.at0 (e.verts.getD 0 0)) (st.mesh.at0 (e.verts.getD 1 0)) (st.mesh.at0 (e.verts.getD 2 0))).sum := by
  obtain ⟨st', v', h1, h2, _, _, _, h3⟩ := h.loop hnd v
  refine ⟨st', v', h1, h2, ?_⟩
  have hc : st.mesh.count 2 = (st.mesh.elems 2).length := by unfold Mesh.count; rw [if_neg (by omega)]
  have e : (List.range (st.mesh.count 2)).map (areaAt st.mesh) = (st.mesh.elems 2).map fun e =>
      planeArea (st.mesh.at0 (e.verts.getD 0 0)) (st.mesh.at0 (e.verts.getD 1 0)) (st.mesh.at0 (e.verts.getD 2 0)) := by
    rw [hc]
    refine List.ext_getElem (by simp) fun i h1 h2 => ?_
    have hi : i < (st.mesh.elems 2).length := by simpa using h2
    rw [List.getElem_map, List.getElem_map, List.getElem_range, areaAt, vertsOf_tri (List.getElem?_eq_getElem hi)]
  rw [h3, ← sum_range_list _ (areaAt st.mesh), e]

/-- Interface areas: the contributions of all triangles at the edge add up, negative ones included. -/
theorem C68_interface_partial (h : Reached (simplexTopo 2) st) (hnd : NoFlatTriangle st.mesh) (hob : ObtuseInside st.mesh)
    (v : VoroSt) {s a b : Nat} {f : Elem} (hs : (st.mesh.elems 1)[s]? = some f) (hf : f.verts = [a, b]) :
    ∃ st' v', st.voronoiTriangles geo2 v = some (st', v')
      ∧ v'.total .area s
        = v.total .area s + ∑ t ∈ Finset.range (st.mesh.count 2), edgeShare st.mesh.at0 (st.mesh.vertsOf 2 t) a b := by
  obtain ⟨st', v', h1, _, h3, _⟩ := h.loop hnd v
  have hlt : s < st.mesh.count 1 := by
    unfold Mesh.count; rw [if_neg (by omega)]; exact (List.getElem?_eq_some_iff.1 hs).1
  have he : st.mesh.ends s = (a, b) := by simp [Mesh.ends, Mesh.vertsOf, hs, hf]
  refine ⟨st', v', h1, ?_⟩
  rw [(h3 hob .area s (Or.inr hlt)).1]
  simp only [share, he]

/-- Box volumes of vertices and edges. -/
theorem C68_boxes_partial (h : Reached (simplexTopo 2) st) (hnd : NoFlatTriangle st.mesh) (hob : ObtuseInside st.mesh)
    (v : VoroSt) :
    ∃ st' v', st.voronoiTriangles geo2 v = some (st', v')
      ∧ (∀ s, v'.total .vbox s
        = v.total .vbox s + ∑ t ∈ Finset.range (st.mesh.count 2), boxShare st.mesh.at0 (st.mesh.vertsOf 2 t) s)
      ∧ ∀ (s a b : Nat) (f : Elem), (st.mesh.elems 1)[s]? = some f → f.verts = [a, b] →
        v'.total .ebox s - v.total .ebox s
          = eucl (st.mesh.at0 a) (st.mesh.at0 b) * (v'.total .area s - v.total .area s) / 2 := by
  obtain ⟨st', v', h1, _, h3, _⟩ := h.loop hnd v
  refine ⟨st', v', h1, fun s => (h3 hob .vbox s (Or.inl rfl)).1, ?_⟩
  intro s a b f hs hf
  have hlt : s < st.mesh.count 1 := by
    unfold Mesh.count; rw [if_neg (by omega)]; exact (List.getElem?_eq_some_iff.1 hs).1
  have he : st.mesh.ends s = (a, b) := by simp [Mesh.ends, Mesh.vertsOf, hs, hf]
  rw [(h3 hob .ebox s (Or.inr hlt)).1, (h3 hob .area s (Or.inr hlt)).1]
  simp only [share, he]
  rw [← Finset.mul_sum]
  ring

/-- The volumes are what the contributions of the triangles add up to, for vertices and edges always. -/
theorem C68_contributions (h : Reached (simplexTopo 2) st) (hnd : NoFlatTriangle st.mesh) :
    ∃ st' v', st.voronoiTriangles geo2 .fresh = some (st', v')
      ∧ (∀ q s, q ≠ .area → v'.total q s = ((v'.parts q s).map (·.2)).sum)
      ∧ ∀ q s, ((v'.parts q s).map (·.1)).Nodup := by
  obtain ⟨st', v', h1, _, _, h4, h5, _⟩ := h.loop hnd .fresh
  refine ⟨st', v', h1, ?_, fun q s => h5 q s (by simp [VoroSt.fresh])⟩
  intro q s hq
  have := h4 q s hq
  simpa [VoroSt.fresh, partSum] using this

/-- For interfaces too, if obtuse angles face other triangles (see `C68_violated`). -/
theorem C68_interface_contributions_partial (h : Reached (simplexTopo 2) st) (hnd : NoFlatTriangle st.mesh)
    (hob : ObtuseInside st.mesh) :
    ∃ st' v', st.voronoiTriangles geo2 .fresh = some (st', v')
      ∧ ∀ s < st.mesh.count 1, v'.total .area s = ((v'.parts .area s).map (·.2)).sum := by
  obtain ⟨st', v', h1, _, h3, _⟩ := h.loop hnd .fresh
  refine ⟨st', v', h1, fun s hs => ?_⟩
  obtain ⟨a1, a2⟩ := h3 hob .area s (Or.inr hs)
  simp only [VoroSt.fresh, partSum, List.map_nil, List.sum_nil, zero_add] at a1 a2
  rw [a1, a2]

/-- The box of a vertex is made of the triangles over its edges with the interfaces as heights: its volume is the sum of
`|e| * interface(e) / 4` over the edges `e` at the vertex. -/
theorem C68_boxes_from_interfaces_partial (h : Reached (simplexTopo 2) st) (hnd : NoFlatTriangle st.mesh)
    (hob : ObtuseInside st.mesh) :
    ∃ st' v', st.voronoiTriangles geo2 .fresh = some (st', v')
      ∧ ∀ s, v'.total .vbox s
        = ∑ e ∈ Finset.range (st.mesh.count 1), if s ∈ st.mesh.vertsOf 1 e then
            eucl (st.mesh.at0 ((st.mesh.vertsOf 1 e).getD 0 0)) (st.mesh.at0 ((st.mesh.vertsOf 1 e).getD 1 0))
              * v'.total .area e / 4 else 0 := by
  have hI := (h.inv (simplexTopo_wf 2)).inv
  obtain ⟨st', v', h1, _, h3, _⟩ := h.loop hnd .fresh
  refine ⟨st', v', h1, fun s => ?_⟩
  have hfr : ∀ q s, VoroSt.fresh.total q s = 0 := fun _ _ => rfl
  rw [(h3 hob .vbox s (Or.inl rfl)).1, hfr, zero_add,
    Finset.sum_congr rfl fun c hc => share_flux hI (Finset.mem_range.1 hc) s, Finset.sum_comm]
  refine Finset.sum_congr rfl fun e he => ?_
  have hmem : ((st.mesh.ends e).1 = s ∨ (st.mesh.ends e).2 = s) ↔ s ∈ st.mesh.vertsOf 1 e := by
    have hlt : e < (st.mesh.elems 1).length := by
      have := Finset.mem_range.1 he
      unfold Mesh.count at this; rwa [if_neg (by omega)] at this
    have hv : st.mesh.vertsOf 1 e = ((st.mesh.elems 1)[e]).verts := by simp [Mesh.vertsOf, hlt]
    obtain ⟨_, hl, _⟩ := hI.verts 1 _ (List.getElem_mem hlt)
    have hnv : (simplexTopo 2).nv 1 = 2 := by decide
    replace hl := hl.fixed
    rw [hnv] at hl
    unfold Mesh.ends
    rw [hv]
    match hf : ((st.mesh.elems 1)[e]).verts, hl with
    | [x, y], _ => simp [eq_comm]
  rw [(h3 hob .area e (Or.inr (Finset.mem_range.1 he))).1, hfr, zero_add]
  by_cases hh : s ∈ st.mesh.vertsOf 1 e
  · rw [if_pos hh, Finset.sum_congr rfl fun c _ => if_pos (hmem.2 hh), ← Finset.mul_sum]
    unfold Mesh.ends
    ring
  · rw [if_neg hh, Finset.sum_congr rfl fun c _ => if_neg fun h' => hh (hmem.1 h')]
    simp

end General

/-! ### Distance of circumcenters -/

/-- The two circumcenters next to an edge, on opposite sides. -/
theorem circ_distance (A B C D : Fin 2 → ℝ) (hop : tw A B C * tw A B D < 0) :
    eucl (circumTriangle2 A B C) (circumTriangle2 A B D)
      = |eucl A B / 2 * cotAt C A B + eucl A B / 2 * cotAt D A B| := by
  have hC : tw A B C ≠ 0 := by rintro h; rw [h] at hop; simp at hop
  have hD : tw A B D ≠ 0 := by rintro h; rw [h] at hop; simp at hop
  obtain ⟨c0, c1⟩ := circ_mid A B C hC
  obtain ⟨d0, d1⟩ := circ_mid A B D hD
  have e : eucl (circumTriangle2 A B C) (circumTriangle2 A B D)
      = |dp C A B / (2 * tw A B C) - dp D A B / (2 * tw A B D)| * len A B := by
    rw [eucl_len, ← Real.sqrt_sq_eq_abs, len, len, ← Real.sqrt_mul (sq_nonneg _), c0, c1, d0, d1]
    congr 1; ring
  rw [e, eucl_len, cotAt_eq, cotAt_eq, ← mul_add, abs_mul, abs_of_nonneg (by have := len_nonneg A B; linarith : 0 ≤ len A B / 2)]
  have key : |dp C A B / (2 * tw A B C) - dp D A B / (2 * tw A B D)| * 2 = |(dp C A B / |tw A B C| + dp D A B / |tw A B D|)| := by
    rw [← abs_of_pos (show (0 : ℝ) < 2 by norm_num), ← abs_mul]
    rcases lt_or_gt_of_ne hC with hc | hc
    · have hd : 0 < tw A B D := by nlinarith
      rw [abs_of_neg hc, abs_of_pos hd, ← abs_neg]
      congr 1
      rw [abs_of_pos (show (0 : ℝ) < 2 by norm_num)]
      field_simp; ring
    · have hd : tw A B D < 0 := by nlinarith
      rw [abs_of_pos hc, abs_of_neg hd]
      congr 1
      rw [abs_of_pos (show (0 : ℝ) < 2 by norm_num)]
      field_simp; ring
  rw [← key]; ring

/-- If `D` is not inside the circumcircle of `ABC`, the cotangents add up to something not negative. -/
theorem cot_nonneg (A B C D : Fin 2 → ℝ) (hop : tw A B C * tw A B D < 0)
    (hdel : eucl (circumTriangle2 A B C) A ≤ eucl (circumTriangle2 A B C) D) : 0 ≤ cotAt C A B + cotAt D A B := by
  have hC : tw A B C ≠ 0 := by rintro h; rw [h] at hop; simp at hop
  have hD : tw A B D ≠ 0 := by rintro h; rw [h] at hop; simp at hop
  obtain ⟨c0, c1⟩ := circ_mid A B C hC
  have hsq : (circumTriangle2 A B C 0 - A 0) ^ 2 + (circumTriangle2 A B C 1 - A 1) ^ 2
      ≤ (circumTriangle2 A B C 0 - D 0) ^ 2 + (circumTriangle2 A B C 1 - D 1) ^ 2 := by
    unfold eucl at hdel
    rw [Fin.sum_univ_two, Fin.sum_univ_two] at hdel
    exact (Real.sqrt_le_sqrt_iff (by positivity)).1 hdel
  have hpow : 0 ≤ dp D A B - dp C A B / tw A B C * tw A B D := by
    have e2 : dp C A B / (2 * tw A B C) = dp C A B / tw A B C / 2 := by field_simp
    rw [c0, c1, e2] at hsq
    generalize dp C A B / tw A B C = x at hsq ⊢
    unfold dp tw
    nlinarith
  rw [cotAt_eq, cotAt_eq]
  have hDp := abs_pos.2 hD
  have : (dp C A B / |tw A B C| + dp D A B / |tw A B D|) * |tw A B D| = dp D A B - dp C A B / tw A B C * tw A B D := by
    rw [add_mul, div_mul_cancel₀ _ hDp.ne']
    rcases lt_or_gt_of_ne hC with hc | hc
    · have hd : 0 < tw A B D := by nlinarith
      rw [abs_of_neg hc, abs_of_pos hd]; field_simp; ring
    · have hd : tw A B D < 0 := by nlinarith
      rw [abs_of_pos hc, abs_of_neg hd]; field_simp; ring
  exact nonneg_of_mul_nonneg_left (this ▸ hpow) hDp

/-- A point with the same distance from three points not on a line is the circumcenter. -/
theorem circ_unique (A B C O : Fin 2 → ℝ) (hC : tw A B C ≠ 0) (h1 : eucl O A = eucl O B) (h2 : eucl O A = eucl O C) :
    O = circumTriangle2 A B C := by
  have sq : ∀ {X Y Z : Fin 2 → ℝ}, eucl X Y = eucl X Z → (X 0 - Y 0) ^ 2 + (X 1 - Y 1) ^ 2 = (X 0 - Z 0) ^ 2 + (X 1 - Z 1) ^ 2 := by
    intro X Y Z h
    unfold eucl at h
    rw [Fin.sum_univ_two, Fin.sum_univ_two] at h
    exact (Real.sqrt_inj (by positivity) (by positivity)).1 h
  have g1 := sq h1
  have g2 := sq h2
  obtain ⟨c0, c1⟩ := circ_mid A B C hC
  refine fin2_ext ?_ ?_
  · rw [c0]
    refine mul_right_cancel₀ (mul_ne_zero two_ne_zero hC) ?_
    rw [sub_mul, mul_right_comm, div_mul_cancel₀ _ (mul_ne_zero two_ne_zero hC)]
    unfold tw dp
    linear_combination (C 1 - A 1) * g1 - (B 1 - A 1) * g2
  · rw [c1]
    refine mul_right_cancel₀ (mul_ne_zero two_ne_zero hC) ?_
    rw [add_mul, mul_right_comm, div_mul_cancel₀ _ (mul_ne_zero two_ne_zero hC)]
    unfold tw dp
    linear_combination -(C 0 - A 0) * g1 + (B 0 - A 0) * g2

theorem edgeShare_perm {pt : Nat → Fin 2 → ℝ} {vs vs' : List Nat} (h : vs.Perm vs') (a b : Nat) :
    edgeShare pt vs a b = edgeShare pt vs' a b := by
  unfold edgeShare oppositeOf
  by_cases hh : a ∈ vs ∧ b ∈ vs
  · rw [if_pos hh, if_pos ⟨h.subset hh.1, h.subset hh.2⟩]
    exact ((h.filter _).map _).sum_eq
  · rw [if_neg hh, if_neg fun h' => hh ⟨h.symm.subset h'.1, h.symm.subset h'.2⟩]

/-- Delaunay edges: the interface area of an edge `ab` of exactly two triangles `abc` and `abd` on different sides, `d` not
inside the circumcircle of `abc`, is the distance of the circumcenters. -/
theorem C68_delaunay_partial {st : MState (Fin 2 → ℝ)} (h : Reached (simplexTopo 2) st) (hnd : NoFlatTriangle st.mesh)
    (hob : ObtuseInside st.mesh) {s a b c d t1 t2 : Nat} {f f1 f2 : Elem}
    (hs : (st.mesh.elems 1)[s]? = some f) (hf : f.verts = [a, b])
    (ht1 : (st.mesh.elems 2)[t1]? = some f1) (hf1 : f1.verts.Perm [a, b, c])
    (ht2 : (st.mesh.elems 2)[t2]? = some f2) (hf2 : f2.verts.Perm [a, b, d])
    (honly : ∀ (t : Nat) (e : Elem), (st.mesh.elems 2)[t]? = some e → a ∈ e.verts → b ∈ e.verts → t = t1 ∨ t = t2)
    {A B C D O O' : Fin 2 → ℝ} (hA : st.mesh.ptOf a = some A) (hB : st.mesh.ptOf b = some B)
    (hC : st.mesh.ptOf c = some C) (hD : st.mesh.ptOf d = some D)
    (hsides : ((B 0 - A 0) * (C 1 - A 1) - (B 1 - A 1) * (C 0 - A 0))
      * ((B 0 - A 0) * (D 1 - A 1) - (B 1 - A 1) * (D 0 - A 0)) < 0)
    (hO1 : eucl O A = eucl O B) (hO2 : eucl O A = eucl O C) (hO'1 : eucl O' A = eucl O' B) (hO'2 : eucl O' A = eucl O' D)
    (hdel : eucl O A ≤ eucl O D) :
    ∃ st' v', st.voronoiTriangles geo2 .fresh = some (st', v') ∧ v'.total .area s = eucl O O' := by
  obtain ⟨st', v', h1, h2⟩ := C68_interface_partial h hnd hob .fresh hs hf
  refine ⟨st', v', h1, ?_⟩
  have hop : tw A B C * tw A B D < 0 := hsides
  have nC : tw A B C ≠ 0 := by rintro h; rw [h] at hop; simp at hop
  have nD : tw A B D ≠ 0 := by rintro h; rw [h] at hop; simp at hop
  have eO := circ_unique A B C O nC hO1 hO2
  have eO' := circ_unique A B D O' nD hO'1 hO'2
  have at0 : ∀ {x : Nat} {X : Fin 2 → ℝ}, st.mesh.ptOf x = some X → st.mesh.at0 x = X := by
    intro x X hx; simp [Mesh.at0, hx]
  have hcd : c ≠ d := by
    rintro rfl
    rw [hC] at hD
    cases hD
    nlinarith [mul_self_nonneg (tw A B C)]
  have hI := (h.inv (simplexTopo_wf 2)).inv
  have n1 : [a, b, c].Nodup := hf1.nodup_iff.1 (hI.verts 2 f1 (List.mem_of_getElem? ht1)).1
  have n2 : [a, b, d].Nodup := hf2.nodup_iff.1 (hI.verts 2 f2 (List.mem_of_getElem? ht2)).1
  simp only [List.nodup_cons, List.mem_cons, List.not_mem_nil, or_false, not_or, not_false_eq_true, List.nodup_nil,
    and_true] at n1 n2
  have ht : t1 ≠ t2 := by
    rintro rfl
    rw [ht1] at ht2
    cases ht2
    have : c ∈ [a, b, d] := hf2.subset (hf1.symm.subset (by simp))
    simp only [List.mem_cons, List.not_mem_nil, or_false] at this
    rcases this with h | h | h
    · exact n1.1.2 h.symm
    · exact n1.2 h.symm
    · exact hcd h
  have lt : ∀ {t : Nat} {e : Elem}, (st.mesh.elems 2)[t]? = some e → t ∈ Finset.range (st.mesh.count 2) := by
    intro t e he
    rw [Finset.mem_range]; unfold Mesh.count; rw [if_neg (by omega)]; exact (List.getElem?_eq_some_iff.1 he).1
  have hfresh : VoroSt.fresh.total .area s = 0 := rfl
  rw [h2, hfresh, zero_add, Finset.sum_eq_add t1 t2 ht]
  · rw [vertsOf_tri ht1, vertsOf_tri ht2, edgeShare_perm hf1, edgeShare_perm hf2,
      (edgeShare_three st.mesh.at0 n1.1.1 n1.1.2 n1.2).1, (edgeShare_three st.mesh.at0 n2.1.1 n2.1.2 n2.2).1,
      at0 hA, at0 hB, at0 hC, at0 hD, eO, eO', circ_distance A B C D hop, abs_of_nonneg]
    rw [← mul_add]
    refine mul_nonneg (div_nonneg (Real.sqrt_nonneg _) (by norm_num)) (cot_nonneg A B C D hop ?_)
    rw [← eO]; exact hdel
  · intro t htm hne
    obtain ⟨e, he⟩ := lt_elems (Finset.mem_range.1 htm)
    rw [vertsOf_tri he]
    unfold edgeShare oppositeOf
    rw [if_neg]
    · simp
    · rintro ⟨ha, hb⟩
      rcases honly t e he ha hb with h | h
      · exact hne.1 h
      · exact hne.2 h
  · intro hn; exact (hn (lt ht1)).elim
  · intro hn; exact (hn (lt ht2)).elim

/-! ### A mesh with an obtuse triangle inside -/

/-- An obtuse triangle and an acute one below its long edge. -/
noncomputable def kiteOps : List (QOp (Fin 2 → ℝ)) :=
  [.mesh (.vertex none ![0, 0]), .mesh (.vertex none ![4, 0]), .mesh (.vertex none ![2, 1]), .mesh (.vertex none ![2, -5]),
   .mesh (.elem 2 [0, 1, 2]), .coboundary 1 2 0, .mesh (.elem 2 [0, 1, 3])]

/-- The state reached. -/
noncomputable def kite : MState (Fin 2 → ℝ) := (MState.empty.run (simplexTopo 2) kiteOps).getD MState.empty

theorem kite_reached : Reached (simplexTopo 2) kite :=
  ⟨kiteOps, by simp [kiteOps, QOp.meshOps, MOp.Distinct], rfl, by unfold UniqueVids; decide⟩

theorem kite_tris : (kite.mesh.elems 2).map (·.verts) = [[0, 1, 2], [0, 1, 3]] := rfl

theorem kite_points : kite.mesh.at0 0 = ![0, 0] ∧ kite.mesh.at0 1 = ![4, 0] ∧ kite.mesh.at0 2 = ![2, 1]
    ∧ kite.mesh.at0 3 = ![2, -5] := ⟨rfl, rfl, rfl, rfl⟩

theorem kite_flat : NoFlatTriangle kite.mesh := by
  intro e he a b c hv
  have : e.verts ∈ (kite.mesh.elems 2).map (·.verts) := List.mem_map_of_mem he
  rw [kite_tris, hv] at this
  obtain ⟨p0, p1, p2, p3⟩ := kite_points
  simp only [List.mem_cons, List.cons.injEq, and_true, List.not_mem_nil, or_false] at this
  rcases this with ⟨rfl, rfl, rfl⟩ | ⟨rfl, rfl, rfl⟩
  · rw [p0, p1, p2]; unfold planeArea; norm_num
  · rw [p0, p1, p3]; unfold planeArea; norm_num

theorem kite_obtuse : ObtuseInside kite.mesh := by
  intro t e a b c he hp hcot
  have hlt : t < 2 := (List.getElem?_eq_some_iff.1 he).1
  obtain ⟨p0, p1, p2, p3⟩ := kite_points
  have key : ∀ x y z : Nat, [x, y, z].Perm [a, b, c] → (b = x ∨ b = y ∨ b = z) ∧ (c = x ∨ c = y ∨ c = z)
      ∧ (a = x ∨ a = y ∨ a = z) := by
    intro x y z h
    refine ⟨?_, ?_, ?_⟩
    · simpa using h.symm.subset (show b ∈ [a, b, c] by simp)
    · simpa using h.symm.subset (show c ∈ [a, b, c] by simp)
    · simpa using h.symm.subset (show a ∈ [a, b, c] by simp)
  have e0 : (kite.mesh.elems 2)[0]?.map (·.verts) = some [0, 1, 2] := rfl
  have e1 : (kite.mesh.elems 2)[1]?.map (·.verts) = some [0, 1, 3] := rfl
  obtain rfl | rfl : t = 0 ∨ t = 1 := by omega
  · rw [he] at e0
    have hv : e.verts = [0, 1, 2] := by simpa using e0
    rw [hv] at hp
    obtain ⟨hb, hc, ha⟩ := key _ _ _ hp
    have hn : [a, b, c].Nodup := hp.nodup_iff.1 (by decide)
    simp only [List.nodup_cons, List.mem_cons, List.not_mem_nil, or_false, not_or, not_false_eq_true, List.nodup_nil,
      and_true] at hn
    obtain ⟨e', he', hv'⟩ := Option.map_eq_some_iff.1 e1
    refine ⟨1, e', he', by omega, ?_⟩
    rw [hv']
    rcases ha with rfl | rfl | rfl <;> rcases hb with rfl | rfl | rfl <;> rcases hc with rfl | rfl | rfl <;>
      first
      | (exfalso; omega)
      | decide
      | (exfalso; revert hcot; simp only [p0, p1, p2]; unfold cotAt; norm_num)
  · rw [he] at e1
    have hv : e.verts = [0, 1, 3] := by simpa using e1
    rw [hv] at hp
    obtain ⟨hb, hc, ha⟩ := key _ _ _ hp
    have hn : [a, b, c].Nodup := hp.nodup_iff.1 (by decide)
    simp only [List.nodup_cons, List.mem_cons, List.not_mem_nil, or_false, not_or, not_false_eq_true, List.nodup_nil,
      and_true] at hn
    exfalso
    rcases ha with rfl | rfl | rfl <;> rcases hb with rfl | rfl | rfl <;> rcases hc with rfl | rfl | rfl <;>
      first
      | omega
      | (revert hcot; simp only [p0, p1, p3]; unfold cotAt; norm_num)

/-- The hypotheses hold for this mesh, and the interface of the common edge is the distance 3/5 of the circumcenters
(2, -3/2), which is outside its triangle, and (2, -21/10). -/
example : ∃ st' v', kite.voronoiTriangles geo2 .fresh = some (st', v') ∧ v'.total .area 0 = 3 / 5 := by
  obtain ⟨st', v', h1, h2⟩ := C68_delaunay_partial kite_reached kite_flat kite_obtuse (s := 0) (a := 0) (b := 1) (c := 2) (d := 3)
    (t1 := 0) (t2 := 1) rfl rfl rfl (List.Perm.refl _) rfl (List.Perm.refl _)
    (by
      intro t e he _ _
      have hlt : t < 2 := (List.getElem?_eq_some_iff.1 he).1
      omega)
    (O := ![2, -3 / 2]) (O' := ![2, -21 / 10]) rfl rfl rfl rfl (by norm_num)
    (by unfold eucl; simp only [Fin.sum_univ_two]; norm_num)
    (by unfold eucl; simp only [Fin.sum_univ_two]; norm_num)
    (by unfold eucl; simp only [Fin.sum_univ_two]; norm_num)
    (by unfold eucl; simp only [Fin.sum_univ_two]; norm_num)
    (by unfold eucl; refine Real.sqrt_le_sqrt ?_; simp only [Fin.sum_univ_two]; norm_num)
  refine ⟨st', v', h1, ?_⟩
  rw [h2]
  unfold eucl
  rw [Fin.sum_univ_two]
  rw [show (3 / 5 : ℝ) = √((3 / 5) ^ 2) by rw [Real.sqrt_sq (by norm_num)]]
  norm_num

/-! ### An obtuse triangle at the boundary -/

/-- A single obtuse triangle. -/
noncomputable def obtuseOps : List (QOp (Fin 2 → ℝ)) :=
  [.mesh (.vertex none ![0, 0]), .mesh (.vertex none ![4, 0]), .mesh (.vertex none ![2, 1]), .mesh (.elem 2 [0, 1, 2])]

/-- The state reached. -/
noncomputable def obtuse : MState (Fin 2 → ℝ) := (MState.empty.run (simplexTopo 2) obtuseOps).getD MState.empty

theorem obtuse_reached : Reached (simplexTopo 2) obtuse :=
  ⟨obtuseOps, by simp [obtuseOps, QOp.meshOps, MOp.Distinct], rfl, by unfold UniqueVids; decide⟩

theorem obtuse_points : obtuse.mesh.at0 0 = ![0, 0] ∧ obtuse.mesh.at0 1 = ![4, 0] ∧ obtuse.mesh.at0 2 = ![2, 1] :=
  ⟨rfl, rfl, rfl⟩

theorem obtuse_flat : NoFlatTriangle obtuse.mesh := by
  intro e he a b c hv
  have : e.verts ∈ (obtuse.mesh.elems 2).map (·.verts) := List.mem_map_of_mem he
  have ht : (obtuse.mesh.elems 2).map (·.verts) = [[0, 1, 2]] := rfl
  rw [ht, hv] at this
  obtain ⟨p0, p1, p2⟩ := obtuse_points
  simp only [List.mem_cons, List.cons.injEq, and_true, List.not_mem_nil, or_false] at this
  obtain ⟨rfl, rfl, rfl⟩ := this
  rw [p0, p1, p2]; unfold planeArea; norm_num

/-- The statements for a triangle alone in the mesh, its third angle being obtuse. -/
noncomputable def aloneWrites {d : Nat} (G : VoroGeo d) (m : Mesh (Fin d → ℝ)) (o : Fin d → ℝ) : List VoroWrite :=
  [0, 1, 2].flatMap fun e =>
    if 0 ≠ e then voroOutside G m o 0 e 2 (m.at0 0) (m.at0 1) none else voroCrossed G m o e none

theorem alone_eval {d : Nat} (G : VoroGeo d) {st : MState (Fin d → ℝ)} (o : Fin d → ℝ) (hc : st.mesh.count 2 = 1)
    (hv : st.mesh.vertsOf 2 0 = [0, 1, 2]) (hb : st.mesh.bndOf 2 0 1 = [0, 1, 2]) (he : st.mesh.ends 0 = (0, 1))
    (hg : G.circ (st.mesh.at0 0) (st.mesh.at0 1) (st.mesh.at0 2) = o)
    (hx : crossedEdge o (st.mesh.at0 0) (st.mesh.at0 1) (st.mesh.at0 2) = some (0, 2))
    (hfind : (st.coboundary 1 2 0).2.find? (fun t => decide (st.mesh.eid 2 t ≠ st.mesh.eid 2 0)) = none) (v : VoroSt) :
    st.voronoiTriangles G v = some ((st.coboundary 1 2 0).1, (aloneWrites G st.mesh o).foldl VoroSt.write v) := by
  have hcnt : List.range (st.mesh.count 2) = [0] := by rw [hc]; rfl
  unfold MState.voronoiTriangles
  rw [hcnt]
  unfold voroTriangles voroTriangle
  simp only [hv, hb]
  rw [hg, hx]
  simp only [List.getD_cons_zero, List.getD_cons_succ]
  rw [hfind, he]
  simp only [Option.bind_some]
  rfl

/-- No other triangle is found if there is only one. -/
theorem alone_find {d : Nat} {st : MState (Fin d → ℝ)} (h : Reached (simplexTopo 2) st) (hc : st.mesh.count 2 = 1)
    (h0 : 0 < st.mesh.count 1) :
    (st.coboundary 1 2 0).2.find? (fun t => decide (st.mesh.eid 2 t ≠ st.mesh.eid 2 0)) = none := by
  rw [List.find?_eq_none]
  intro t ht
  have := (C13_coboundary_exact (Or.inl ⟨2, rfl⟩) h (k := 1) (d := 2) (by omega) (by show 2 ≤ 2; omega) h0).2 t
  have hlt := onBoundary_lt (by omega) (this.1 ht)
  have : t = 0 := by omega
  rw [this]; simp

/-- The interface area of an edge is not the sum of the contributions of the triangles: the part of the bisector of
(0, 0) (2, 1) outside the triangle, of length 3√5/4, is added to the area though no triangle contributes it.  The edge has
handle 1. -/
theorem C68_violated : ∃ st' v', obtuse.voronoiTriangles geo2 .fresh = some (st', v')
    ∧ v'.total .area 1 = ((v'.parts .area 1).map (·.2)).sum + √(45 / 16) := by
  obtain ⟨p0, p1, p2⟩ := obtuse_points
  have hcirc : circumTriangle2 (obtuse.mesh.at0 0) (obtuse.mesh.at0 1) (obtuse.mesh.at0 2) = ![2, -3 / 2] := by
    rw [p0, p1, p2]; refine fin2_ext ?_ ?_ <;> (unfold circumTriangle2; norm_num)
  have hx : crossedEdge ![2, -3 / 2] (obtuse.mesh.at0 0) (obtuse.mesh.at0 1) (obtuse.mesh.at0 2) = some (0, 2) := by
    rw [← hcirc]
    rcases crossedEdge_spec (obtuse.mesh.at0 0) (obtuse.mesh.at0 1) (obtuse.mesh.at0 2)
      (by rw [p0, p1, p2]; unfold tw; norm_num) with ⟨_, _, _, h⟩ | ⟨h, _⟩ | ⟨_, h⟩ | ⟨_, h⟩
    · rw [p0, p1, p2] at h; unfold dp at h; norm_num at h
    · exact h
    · rw [p0, p1, p2] at h; unfold dp at h; norm_num at h
    · rw [p0, p1, p2] at h; unfold dp at h; norm_num at h
  have heval := alone_eval geo2 ![2, -3 / 2] rfl rfl rfl rfl hcirc hx (alone_find obtuse_reached rfl (by decide)) .fresh
  refine ⟨_, _, heval, ?_⟩
  obtain ⟨w1, w2, _⟩ := writes_plain (aloneWrites geo2 obtuse.mesh ![2, -3 / 2]) .fresh (by
    intro w hw
    obtain ⟨e, _, hw⟩ := List.mem_flatMap.1 hw
    split at hw
    · exact outside_plain w hw
    · exact crossed_plain w hw) .area 1
  unfold partSum at w2
  rw [w1, w2, aloneWrites, three_edges, three_edges]
  have g1 := outside_eval (m := obtuse.mesh) (e := 1) (a := 2) (b := 0) (t := 0) (Or.inr rfl) (by decide) ![2, -3 / 2]
    (obtuse.mesh.at0 0) (obtuse.mesh.at0 1) none .area 1
  have g2 := outside_eval (m := obtuse.mesh) (e := 2) (a := 2) (b := 1) (t := 0) (Or.inr rfl) (by decide) ![2, -3 / 2]
    (obtuse.mesh.at0 0) (obtuse.mesh.at0 1) none .area 1
  rw [if_neg (show ¬ 0 ≠ 0 by decide), if_pos (show 0 ≠ 1 by decide), if_pos (show 0 ≠ 2 by decide), g1.1, g2.1, g1.2, g2.2]
  have hcut : lineIntersection (circumLine (obtuse.mesh.at0 2) (obtuse.mesh.at0 0)) ![2, -3 / 2] (obtuse.mesh.at0 0)
      (obtuse.mesh.at0 1) = ![5 / 4, 0] := by
    rw [p0, p1, p2]
    refine fin2_ext ?_ ?_ <;> (simp only [lineIntersection, co2_0, co2_1, circumLine_i]; norm_num)
  have hlen : len ![5 / 4, 0] ![2, -3 / 2] = √(45 / 16) := by
    unfold len; congr 1; norm_num
  simp [voroCrossed, outsideAmt, hcut, hlen, present, VoroSt.fresh]

/-! ### Surfaces in space -/

/-- The same triangle at height 4. -/
noncomputable def raisedOps : List (QOp (Fin 3 → ℝ)) :=
  [.mesh (.vertex none ![0, 0, 4]), .mesh (.vertex none ![4, 0, 4]), .mesh (.vertex none ![2, 1, 4]), .mesh (.elem 2 [0, 1, 2])]

/-- The state reached. -/
noncomputable def raised : MState (Fin 3 → ℝ) := (MState.empty.run (simplexTopo 2) raisedOps).getD MState.empty

theorem raised_reached : Reached (simplexTopo 2) raised :=
  ⟨raisedOps, by simp [raisedOps, QOp.meshOps, MOp.Distinct], rfl, by unfold UniqueVids; decide⟩

theorem fin3_ext {p q : Fin 3 → ℝ} (h0 : p 0 = q 0) (h1 : p 1 = q 1) (h2 : p 2 = q 2) : p = q := by
  funext i; fin_cases i
  · exact h0
  · exact h1
  · exact h2

theorem vec3_2 (a b c : ℝ) : (![a, b, c] : Fin 3 → ℝ) 2 = c := rfl

theorem co3 (p : Fin 3 → ℝ) : co p 0 = p 0 ∧ co p 1 = p 1 := by constructor <;> simp [co]

/-- `C68_total_volume` fails for surfaces in space: the triangle has area 2, the box of its first vertex alone is larger.
`line_intersection` sets the third coordinate of the intersections to zero. -/
theorem C68_violated_in_space : ∃ st' v', raised.voronoiTriangles geo3 .fresh = some (st', v')
    ∧ spannedTriangle3 (raised.mesh.at0 0) (raised.mesh.at0 1) (raised.mesh.at0 2) = 2 ∧ 2 < v'.total .vbox 0 := by
  have p0 : raised.mesh.at0 0 = ![0, 0, 4] := rfl
  have p1 : raised.mesh.at0 1 = ![4, 0, 4] := rfl
  have p2 : raised.mesh.at0 2 = ![2, 1, 4] := rfl
  have hcirc : circumTriangle3 (raised.mesh.at0 0) (raised.mesh.at0 1) (raised.mesh.at0 2) = ![2, -3 / 2, 4] := by
    rw [p0, p1, p2]
    refine fin3_ext ?_ ?_ ?_ <;>
      (simp only [circumTriangle3, innerProd3, crossProd_zero, crossProd_one, crossProd_two, Pi.sub_apply, vec3_2]; norm_num)
  have hx : crossedEdge ![2, -3 / 2, 4] (raised.mesh.at0 0) (raised.mesh.at0 1) (raised.mesh.at0 2) = some (0, 2) := by
    rw [p0, p1, p2]
    unfold crossedEdge localCoords
    simp only [(co3 _).1, (co3 _).2, Pi.sub_apply]
    norm_num
  have heval := alone_eval geo3 ![2, -3 / 2, 4] rfl rfl rfl rfl hcirc hx (alone_find raised_reached rfl (by decide)) .fresh
  refine ⟨_, _, heval, ?_, ?_⟩
  · rw [p0, p1, p2, spannedTriangle3, signedTriangle3, euclNorm, sumSquares_eq]
    simp only [innerProd3, crossProd_zero, crossProd_one, crossProd_two, Pi.sub_apply, vec3_2]
    have h16 : √(16 : ℝ) = 4 := by
      rw [show (16 : ℝ) = 4 ^ 2 by norm_num, Real.sqrt_sq (by norm_num)]
    norm_num [h16]
  · obtain ⟨w1, _, _⟩ := writes_plain (aloneWrites geo3 raised.mesh ![2, -3 / 2, 4]) .fresh (by
      intro w hw
      obtain ⟨e, _, hw⟩ := List.mem_flatMap.1 hw
      split at hw
      · exact outside_plain w hw
      · exact crossed_plain w hw) .vbox 0
    have hcut : lineIntersection (circumLine (raised.mesh.at0 0) (raised.mesh.at0 2)) ![2, -3 / 2, 4] (raised.mesh.at0 0)
        (raised.mesh.at0 1) = ![5 / 4, 0, 0] := by
      rw [p0, p1, p2]
      refine fin3_ext ?_ ?_ ?_ <;> (simp only [lineIntersection, (co3 _).1, (co3 _).2, circumLine, vec3_2]; norm_num)
    have hsum : ((aloneWrites geo3 raised.mesh ![2, -3 / 2, 4]).map (VoroWrite.addAmt .vbox 0)).sum
        = spannedTriangle3 ![5 / 4, 0, 0] (circumLine (raised.mesh.at0 0) (raised.mesh.at0 2)) (raised.mesh.at0 0) := by
      rw [aloneWrites, three_edges, if_neg (show ¬ 0 ≠ 0 by decide), if_pos (show 0 ≠ 1 by decide), if_pos (show 0 ≠ 2 by decide)]
      have e1 : raised.mesh.ends 1 = (0, 2) := rfl
      have e2 : raised.mesh.ends 2 = (1, 2) := rfl
      simp [voroOutside, voroCrossed, e1, e2, VoroWrite.addAmt, hcut, geo3]
    have hfr : VoroSt.fresh.total .vbox 0 = 0 := rfl
    rw [w1, hsum, hfr, zero_add, p0, p2, spannedTriangle3, signedTriangle3, euclNorm, sumSquares_eq]
    simp only [innerProd3, crossProd_zero, crossProd_one, crossProd_two, Pi.sub_apply, circumLine, vec3_2]
    rw [abs_of_nonneg (by positivity)]
    rw [lt_div_iff₀ (by norm_num)]
    refine Real.lt_sqrt_of_sq_lt ?_
    norm_num

end VG
