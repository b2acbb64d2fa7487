import Verif.Lemmas.VoronoiSurface
import Verif.Props.Voronoi

/-!
C68 `apply_voronoi` for meshes of triangles in space, for triangles without obtuse angles (for obtuse ones see
`C68_violated_in_space`).
-/

namespace VG

section General
variable {st : MState (Fin 3 → ℝ)}

theorem Reached.surfLoop (h : Reached (simplexTopo 2) st) (hnd : NoFlatFace st.mesh) (hob : NoObtuseAngle st.mesh)
    (v : VoroSt) :
    ∃ v', st.voronoiTriangles geo3 v = some (st, v')
        ∧ (∀ q s, (q = .vbox ∨ s < st.mesh.count 1) →
            v'.total q s = v.total q s + ∑ t ∈ Finset.range (st.mesh.count 2), surfShare st.mesh q s t)
        ∧ (∀ q s, v'.total q s - v.total q s = partSum (v'.parts q s) - partSum (v.parts q s))
        ∧ (∀ q s, ((v.parts q s).map (·.1)).Nodup → ((v'.parts q s).map (·.1)).Nodup)
        ∧ ∑ s ∈ Finset.range st.mesh.verts.length, v'.total .vbox s
            = ∑ s ∈ Finset.range st.mesh.verts.length, v.total .vbox s
              + ((List.range (st.mesh.count 2)).map (surfAreaAt st.mesh)).sum := by
  have hI := h.inv (simplexTopo_wf 2)
  obtain ⟨v', h1, h3, h4, h5, h6⟩ := surf_loop hI.inv hnd hob (List.range (st.mesh.count 2))
    (fun c hc => List.mem_range.1 hc) v
  refine ⟨v', h1, ?_, h4, h5, h6⟩
  intro q s hs
  rw [← sum_range_list]; exact h3 q s hs

/-- Interfaces and boxes of a surface: the contributions of the triangles, computed from lengths and angles, add up; the
volumes of the boxes of the vertices add up to the area of the surface. -/
theorem C68_surface_partial (h : Reached (simplexTopo 2) st) (hnd : NoFlatFace st.mesh) (hob : NoObtuseAngle st.mesh)
    (v : VoroSt) :
    ∃ v', st.voronoiTriangles geo3 v = some (st, v')
      ∧ (∀ (s a b : Nat) (f : Elem), (st.mesh.elems 1)[s]? = some f → f.verts = [a, b] →
          v'.total .area s
            = v.total .area s + ∑ t ∈ Finset.range (st.mesh.count 2), surfEdge st.mesh.at0 (st.mesh.vertsOf 2 t) a b
          ∧ v'.total .ebox s - v.total .ebox s
            = eucl (st.mesh.at0 a) (st.mesh.at0 b) * (v'.total .area s - v.total .area s) / 2)
      ∧ (∀ s, v'.total .vbox s
          = v.total .vbox s + ∑ t ∈ Finset.range (st.mesh.count 2), surfBox st.mesh.at0 (st.mesh.vertsOf 2 t) s)
      ∧ ∑ s ∈ Finset.range st.mesh.verts.length, v'.total .vbox s
          = ∑ s ∈ Finset.range st.mesh.verts.length, v.total .vbox s + ((st.mesh.elems 2).map fun e =>
            spaceArea (st.mesh.at0 (e.verts.getD 0 0)) (st.mesh.at0 (e.verts.getD 1 0)) (st.mesh.at0 (e.verts.getD 2 0))).sum := by
  obtain ⟨v', h1, h3, _, _, h6⟩ := h.surfLoop hnd hob v
  refine ⟨v', h1, ?_, fun s => h3 .vbox s (Or.inl rfl), ?_⟩
  · intro s a b f hs hf
    have hlt : s < st.mesh.count 1 := by
      unfold Mesh.count; rw [if_neg (by omega)]; exact (List.getElem?_eq_some_iff.1 hs).1
    have he : st.mesh.ends s = (a, b) := by simp [Mesh.ends, Mesh.vertsOf, hs, hf]
    have g := h3 .area s (Or.inr hlt)
    refine ⟨by rw [g]; simp only [surfShare, he], ?_⟩
    rw [h3 .ebox s (Or.inr hlt), g]
    simp only [surfShare, he]
    rw [← Finset.mul_sum]
    ring
  · have hc : st.mesh.count 2 = (st.mesh.elems 2).length := by unfold Mesh.count; rw [if_neg (by omega)]
    have e : (List.range (st.mesh.count 2)).map (surfAreaAt st.mesh) = (st.mesh.elems 2).map fun e =>
        spaceArea (st.mesh.at0 (e.verts.getD 0 0)) (st.mesh.at0 (e.verts.getD 1 0)) (st.mesh.at0 (e.verts.getD 2 0)) := by
      rw [hc]
      refine List.ext_getElem (by simp) fun i h1 h2 => ?_
      have hi : i < (st.mesh.elems 2).length := by simpa using h2
      rw [List.getElem_map, List.getElem_map, List.getElem_range, surfAreaAt, vertsOf_tri (List.getElem?_eq_getElem hi)]
    rw [h6, e]

/-- What the accessors for the contributions of the triangles hold: every triangle once, and the totals. -/
theorem C68_surface_contributions_partial (h : Reached (simplexTopo 2) st) (hnd : NoFlatFace st.mesh)
    (hob : NoObtuseAngle st.mesh) :
    ∃ v', st.voronoiTriangles geo3 .fresh = some (st, v')
      ∧ (∀ q s, v'.total q s = ((v'.parts q s).map (·.2)).sum) ∧ ∀ q s, ((v'.parts q s).map (·.1)).Nodup := by
  obtain ⟨v', h1, _, h4, h5, _⟩ := h.surfLoop hnd hob .fresh
  refine ⟨v', h1, fun q s => ?_, fun q s => h5 q s (by simp [VoroSt.fresh])⟩
  have := h4 q s
  simpa [VoroSt.fresh, partSum] using this

end General

/-! ### Example -/

/-- Two right triangles with a common edge, one in the plane of the first two coordinates, the other upright. -/
noncomputable def cornerOps : List (QOp (Fin 3 → ℝ)) :=
  [.mesh (.vertex none ![0, 0, 0]), .mesh (.vertex none ![2, 0, 0]), .mesh (.vertex none ![0, 2, 0]),
    .mesh (.vertex none ![0, 0, 2]), .mesh (.elem 2 [0, 1, 2]), .mesh (.elem 2 [0, 1, 3])]

/-- The state reached. -/
noncomputable def corner3 : MState (Fin 3 → ℝ) := (MState.empty.run (simplexTopo 2) cornerOps).getD MState.empty

theorem corner3_reached : Reached (simplexTopo 2) corner3 :=
  ⟨cornerOps, by simp [cornerOps, QOp.meshOps, MOp.Distinct], rfl, by unfold UniqueVids; decide⟩

theorem corner3_points : corner3.mesh.at0 0 = ![0, 0, 0] ∧ corner3.mesh.at0 1 = ![2, 0, 0]
    ∧ corner3.mesh.at0 2 = ![0, 2, 0] ∧ corner3.mesh.at0 3 = ![0, 0, 2] := ⟨rfl, rfl, rfl, rfl⟩

theorem corner3_tris : (corner3.mesh.elems 2).map (·.verts) = [[0, 1, 2], [0, 1, 3]] := rfl

theorem sqrt_four : √(4 : ℝ) = 2 := by
  rw [show (4 : ℝ) = 2 ^ 2 by norm_num, Real.sqrt_sq (by norm_num)]

theorem sqrt_sixteen : √(16 : ℝ) = 4 := by
  rw [show (16 : ℝ) = 4 ^ 2 by norm_num, Real.sqrt_sq (by norm_num)]

theorem corner3_areas : spaceArea ![0, 0, 0] ![2, 0, 0] ![0, 2, 0] = 2 ∧ spaceArea ![0, 0, 0] ![2, 0, 0] ![0, 0, 2] = 2 := by
  constructor <;> unfold spaceArea spaceDot <;> simp only [Fin.sum_univ_three, vec3_2] <;> norm_num [sqrt_sixteen]

theorem corner3_flat : NoFlatFace corner3.mesh := by
  intro e he a b c hv
  have : e.verts ∈ (corner3.mesh.elems 2).map (·.verts) := List.mem_map_of_mem he
  rw [corner3_tris, hv] at this
  obtain ⟨p0, p1, p2, p3⟩ := corner3_points
  simp only [List.mem_cons, List.cons.injEq, and_true, List.not_mem_nil, or_false] at this
  rcases this with ⟨rfl, rfl, rfl⟩ | ⟨rfl, rfl, rfl⟩
  · rw [p0, p1, p2, corner3_areas.1]; norm_num
  · rw [p0, p1, p3, corner3_areas.2]; norm_num

theorem corner3_angles : NoObtuseAngle corner3.mesh := by
  intro e he a b c hp
  have : e.verts ∈ (corner3.mesh.elems 2).map (·.verts) := List.mem_map_of_mem he
  rw [corner3_tris] at this
  obtain ⟨p0, p1, p2, p3⟩ := corner3_points
  have key : ∀ x y z : Nat, [x, y, z].Perm [a, b, c] → (a = x ∨ a = y ∨ a = z) ∧ (b = x ∨ b = y ∨ b = z)
      ∧ (c = x ∨ c = y ∨ c = z) := by
    intro x y z h
    refine ⟨?_, ?_, ?_⟩
    · simpa using h.symm.subset (show a ∈ [a, b, c] by simp)
    · simpa using h.symm.subset (show b ∈ [a, b, c] by simp)
    · simpa using h.symm.subset (show c ∈ [a, b, c] by simp)
  simp only [List.mem_cons, List.not_mem_nil, or_false] at this
  rcases this with hv | hv <;> rw [hv] at hp <;> obtain ⟨ha, hb, hc⟩ := key _ _ _ hp <;>
    rcases ha with rfl | rfl | rfl <;> rcases hb with rfl | rfl | rfl <;> rcases hc with rfl | rfl | rfl <;>
    simp only [p0, p1, p2, p3, spaceDot, Fin.sum_univ_three, vec3_2] <;> norm_num

/-- The hypotheses hold; both triangles contribute 1 to the interface of the common edge, and the boxes have volume 4. -/
example : ∃ v', corner3.voronoiTriangles geo3 .fresh = some (corner3, v') ∧ v'.total .area 0 = 2
    ∧ ∑ s ∈ Finset.range 4, v'.total .vbox s = 4 := by
  obtain ⟨v', h1, h2, _, h4⟩ := C68_surface_partial corner3_reached corner3_flat corner3_angles .fresh
  obtain ⟨p0, p1, p2, p3⟩ := corner3_points
  refine ⟨v', h1, ?_, ?_⟩
  · rw [(h2 0 0 1 _ rfl rfl).1]
    have hc : corner3.mesh.count 2 = 2 := rfl
    have t0 : corner3.mesh.vertsOf 2 0 = [0, 1, 2] := rfl
    have t1 : corner3.mesh.vertsOf 2 1 = [0, 1, 3] := rfl
    have hE : eucl (![0, 0, 0] : Fin 3 → ℝ) ![2, 0, 0] = 2 := by
      unfold eucl; simp only [Fin.sum_univ_three, vec3_2]; norm_num [sqrt_four]
    rw [hc, Finset.sum_range_succ, Finset.sum_range_one, t0, t1, (surfEdge_three _ (by decide) (by decide) (by decide)).1,
      (surfEdge_three _ (by decide) (by decide) (by decide)).1, p0, p1, p2, p3, hE]
    unfold cotSpace
    rw [corner3_areas.1, corner3_areas.2]
    simp only [spaceDot, Fin.sum_univ_three, vec3_2, VoroSt.fresh]
    norm_num
  · have hl : corner3.mesh.verts.length = 4 := rfl
    have hm : ((corner3.mesh.elems 2).map fun e => spaceArea (corner3.mesh.at0 (e.verts.getD 0 0))
        (corner3.mesh.at0 (e.verts.getD 1 0)) (corner3.mesh.at0 (e.verts.getD 2 0)))
        = [spaceArea (corner3.mesh.at0 0) (corner3.mesh.at0 1) (corner3.mesh.at0 2),
          spaceArea (corner3.mesh.at0 0) (corner3.mesh.at0 1) (corner3.mesh.at0 3)] := rfl
    rw [hl, hm, p0, p1, p2, p3, corner3_areas.1, corner3_areas.2] at h4
    rw [h4]
    simp only [VoroSt.fresh, List.sum_cons, List.sum_nil, Finset.sum_const_zero]
    norm_num

end VG
