import Verif.Props.VoronoiHexes

/-!
C71: `apply_voronoi` for hexahedra which need not be parallelepipeds.

Specification.  `hexFacetEdges` lists the edges of the facets of a hexahedron: two corners of a facet whose numbers differ in one binary
digit.  `hexPart p k` is the volume of the part of a hexahedron next to corner `k`, made of a tetrahedron for each facet at the corner and each
edge of it at the corner; its corners are the corner, the middle of the edge, the mean of the corners of the facet, and the mean of
all corners.
-/

namespace VG

/-- The facets of a hexahedron with their edges, as numbers of corners. -/
def hexFacetEdges : List (List Nat × Nat × Nat) :=
  [[0, 1, 2, 3], [0, 1, 4, 5], [0, 2, 4, 6], [1, 3, 5, 7], [2, 3, 6, 7], [4, 5, 6, 7]].flatMap fun F =>
    ((F.flatMap fun i => F.map fun j => (i, j)).filter fun x => decide (x.1 < x.2 ∧ (x.2 ^^^ x.1) ∈ [1, 2, 4])).map fun x => (F, x)

/-- The mean of the corners with these numbers. -/
noncomputable def meanAt (p : Nat → Fin 3 → ℝ) (F : List Nat) : Fin 3 → ℝ := fun i => (F.map fun k => p k i).sum / F.length

/-- The middle of two corners. -/
noncomputable def middle (p : Nat → Fin 3 → ℝ) (i j : Nat) : Fin 3 → ℝ := fun x => (p i x + p j x) / 2

/-- The volume of the part of a hexahedron next to corner `k`. -/
noncomputable def hexPart (p : Nat → Fin 3 → ℝ) (k : Nat) : ℝ :=
  (hexFacetEdges.map fun x => if k = x.2.1 ∨ k = x.2.2 then
    |signedTetrahedron (meanAt p (List.range 8)) (meanAt p x.1) (middle p x.2.1 x.2.2) (p k)| else 0).sum

theorem hexFacetEdges_side : hexFacetEdges = side24.map fun x => (hexFaces.getD x.1 [], x.2.1, x.2.2) := by decide

theorem side24_ne : ∀ x ∈ side24, x.2.1 ≠ x.2.2 := by decide

theorem facetMid_meanAt (m : Mesh (Fin 3 → ℝ)) (vs : List Nat) : ∀ x ∈ side24,
    facetMid m vs x.1 = meanAt (cornerAt m vs) (hexFaces.getD x.1 []) := by
  intro x hx
  have hk : x.1 < 6 := (side24_lt x hx).1
  generalize x.1 = k at hk
  have : k = 0 ∨ k = 1 ∨ k = 2 ∨ k = 3 ∨ k = 4 ∨ k = 5 := by omega
  funext i
  rcases this with rfl | rfl | rfl | rfl | rfl | rfl <;>
  · refine (meanPoint4' _ _ _ _ i).trans ?_
    simp [meanAt, hexFaces, cornerAt]
    ring

theorem middle_circum (p : Nat → Fin 3 → ℝ) (i j : Nat) : middle p i j = circumLine (p i) (p j) := by
  funext x; unfold middle circumLine; ring

section Mesh
variable {st : MState (Fin 3 → ℝ)}

theorem meanOf_meanAt {m : Mesh (Fin 3 → ℝ)} {vs : List Nat} {o : Fin 3 → ℝ}
    (ho : ∀ i, o i = (cornerAt m vs 0 i + cornerAt m vs 1 i + cornerAt m vs 2 i + cornerAt m vs 3 i + cornerAt m vs 4 i
        + cornerAt m vs 5 i + cornerAt m vs 6 i + cornerAt m vs 7 i) / 8) : o = meanAt (cornerAt m vs) (List.range 8) := by
  funext i
  rw [ho, meanAt]
  simp [show List.range 8 = [0, 1, 2, 3, 4, 5, 6, 7] from rfl]
  ring

/-- C71: in a mesh of hexahedra meeting along facets a vertex has of each of its cells the part next to the vertex. -/
theorem C71_boxes (h : Reached (cubeTopo 3) st) (hc : Conforming st.mesh) (v : VoroSt) (s : Nat) :
    (st.mesh.voronoiHexes v).total .vbox s
      = v.total .vbox s + ∑ t ∈ Finset.range (st.mesh.count 3), ((List.range 8).map fun k =>
          if s = (st.mesh.vertsOf 3 t).getD k 0 then hexPart (cornerAt st.mesh (st.mesh.vertsOf 3 t)) k else 0).sum := by
  unfold Mesh.voronoiHexes
  rw [(cells_grow _ _ _ (voroHex_grows st.mesh) _ _).1]
  congr 1
  refine Finset.sum_congr rfl fun t ht => ?_
  obtain ⟨e, he, hem, hv, hl, hn, hlt, ho⟩ := hex_at h (Finset.mem_range.1 ht)
  rw [voroHex_amt h hc he .vbox s (Or.inl rfl), faceSums, hv, meanOf_meanAt ho]
  have hin : ∀ k, (if s = e.verts.getD k 0 then hexPart (cornerAt st.mesh e.verts) k else 0)
      = (side24.map fun x => if k = x.2.1 ∨ k = x.2.2 then (if s = e.verts.getD k 0 then
          |signedTetrahedron (meanAt (cornerAt st.mesh e.verts) (List.range 8)) (facetMid st.mesh e.verts x.1)
            (cornerAt st.mesh e.verts x.2.1) (cornerAt st.mesh e.verts x.2.2)| / 2 else 0) else 0).sum := by
    intro k
    by_cases hk : s = e.verts.getD k 0
    · simp only [if_pos hk]
      unfold hexPart
      rw [hexFacetEdges_side, List.map_map]
      congr 1
      refine List.map_congr_left fun x hx => ?_
      simp only [Function.comp, ← facetMid_meanAt st.mesh e.verts x hx, middle_circum]
      split
      · rename_i hkx
        obtain ⟨b1, b2⟩ := mid_box3 (meanAt (cornerAt st.mesh e.verts) (List.range 8)) (facetMid st.mesh e.verts x.1)
          (cornerAt st.mesh e.verts x.2.1) (cornerAt st.mesh e.verts x.2.2)
        rcases hkx with rfl | rfl
        · exact b1
        · exact b2
      · rfl
    · simp only [if_neg hk, ite_self]
      simp
  simp only [hin]
  rw [sum_range_list, sum_range_map]
  congr 1
  refine List.map_congr_left fun x hx => ?_
  obtain ⟨_, h1, h2⟩ := side24_lt x hx
  have hne := side24_ne x hx
  have hsplit : ∀ k : Nat, ∀ y : ℝ, (if k = x.2.1 ∨ k = x.2.2 then y else 0) = (if x.2.1 = k then y else 0) + (if x.2.2 = k then y else 0) := by
    intro k y
    by_cases k1 : k = x.2.1
    · have k2 : ¬ x.2.2 = k := by omega
      rw [if_pos (Or.inl k1), if_pos k1.symm, if_neg k2, add_zero]
    · by_cases k2 : k = x.2.2
      · rw [if_pos (Or.inr k2), if_neg (Ne.symm k1), if_pos k2.symm, zero_add]
      · rw [if_neg (by omega), if_neg (Ne.symm k1), if_neg (Ne.symm k2), add_zero]
  simp only [hsplit]
  rw [Finset.sum_add_distrib, Finset.sum_ite_eq (Finset.range 8), Finset.sum_ite_eq (Finset.range 8),
    if_pos (Finset.mem_range.2 h1), if_pos (Finset.mem_range.2 h2)]
  rfl

/-- C71: in a mesh of hexahedra meeting along facets the interface of an edge has two triangles of each of its cells, one for each facet of
the cell at the edge; their corners are the middle of the edge, the mean of the corners of the facet, and the mean of the corners of the
cell.  The box of the edge has the two tetrahedra spanned by the edge and these means. -/
theorem C71_interface (h : Reached (cubeTopo 3) st) (hc : Conforming st.mesh) (v : VoroSt)
    {s a b : Nat} {f : Elem} (hs : (st.mesh.elems 1)[s]? = some f) (hf : f.verts = [a, b]) :
    (st.mesh.voronoiHexes v).total .area s
      = v.total .area s + ∑ t ∈ Finset.range (st.mesh.count 3), (hexFacetEdges.map fun x =>
          if (a = (st.mesh.vertsOf 3 t).getD x.2.1 0 ∧ b = (st.mesh.vertsOf 3 t).getD x.2.2 0)
            ∨ (a = (st.mesh.vertsOf 3 t).getD x.2.2 0 ∧ b = (st.mesh.vertsOf 3 t).getD x.2.1 0)
          then spannedTriangle3 (meanAt (cornerAt st.mesh (st.mesh.vertsOf 3 t)) (List.range 8))
            (meanAt (cornerAt st.mesh (st.mesh.vertsOf 3 t)) x.1) (middle (cornerAt st.mesh (st.mesh.vertsOf 3 t)) x.2.1 x.2.2) else 0).sum
    ∧ (st.mesh.voronoiHexes v).total .ebox s
      = v.total .ebox s + ∑ t ∈ Finset.range (st.mesh.count 3), (hexFacetEdges.map fun x =>
          if (a = (st.mesh.vertsOf 3 t).getD x.2.1 0 ∧ b = (st.mesh.vertsOf 3 t).getD x.2.2 0)
            ∨ (a = (st.mesh.vertsOf 3 t).getD x.2.2 0 ∧ b = (st.mesh.vertsOf 3 t).getD x.2.1 0)
          then |signedTetrahedron (meanAt (cornerAt st.mesh (st.mesh.vertsOf 3 t)) (List.range 8))
            (meanAt (cornerAt st.mesh (st.mesh.vertsOf 3 t)) x.1) (cornerAt st.mesh (st.mesh.vertsOf 3 t) x.2.1)
            (cornerAt st.mesh (st.mesh.vertsOf 3 t) x.2.2)| else 0).sum := by
  have hlt : s < st.mesh.count 1 := by
    unfold Mesh.count; rw [if_neg (by omega)]; exact (List.getElem?_eq_some_iff.1 hs).1
  have hE : st.mesh.ends s = (a, b) := by
    unfold Mesh.ends
    rw [show st.mesh.vertsOf 1 s = [a, b] by simp [Mesh.vertsOf, hs, hf]]
    rfl
  unfold Mesh.voronoiHexes
  rw [(cells_grow _ _ _ (voroHex_grows st.mesh) _ _).1, (cells_grow _ _ _ (voroHex_grows st.mesh) _ _).1]
  refine ⟨?_, ?_⟩ <;> congr 1 <;> refine Finset.sum_congr rfl fun t ht => ?_ <;>
    obtain ⟨e, he, hem, hv, hl, hn, hlt8, ho⟩ := hex_at h (Finset.mem_range.1 ht)
  · rw [voroHex_amt h hc he .area s (Or.inr hlt), faceSums, hv, meanOf_meanAt ho, hexFacetEdges_side, List.map_map]
    congr 1
    refine List.map_congr_left fun x hx => ?_
    simp only [Function.comp, ← facetMid_meanAt st.mesh e.verts x hx, middle_circum, sideAmt3, hE, Prod.mk.injEq]
    rfl
  · rw [voroHex_amt h hc he .ebox s (Or.inr hlt), faceSums, hv, meanOf_meanAt ho, hexFacetEdges_side, List.map_map]
    congr 1
    refine List.map_congr_left fun x hx => ?_
    simp only [Function.comp, ← facetMid_meanAt st.mesh e.verts x hx, sideAmt3, hE, Prod.mk.injEq]
    rfl

end Mesh

/-- A pyramid cut off: a square of side 4, and one of side 2 at height 2. -/
noncomputable def cutPyramidOps : List (QOp (Fin 3 → ℝ)) :=
  [.mesh (.vertex none ![0, 0, 0]), .mesh (.vertex none ![4, 0, 0]), .mesh (.vertex none ![0, 4, 0]), .mesh (.vertex none ![4, 4, 0]),
   .mesh (.vertex none ![1, 1, 2]), .mesh (.vertex none ![3, 1, 2]), .mesh (.vertex none ![1, 3, 2]), .mesh (.vertex none ![3, 3, 2]),
   .mesh (.elem 3 [0, 1, 2, 3, 4, 5, 6, 7])]

/-- The state reached. -/
noncomputable def cutPyramid : MState (Fin 3 → ℝ) := (MState.empty.run (cubeTopo 3) cutPyramidOps).getD MState.empty

theorem cutPyramid_reached : Reached (cubeTopo 3) cutPyramid :=
  ⟨cutPyramidOps, by simp [cutPyramidOps, QOp.meshOps, MOp.Distinct], rfl, by unfold UniqueVids; decide +kernel⟩

theorem cutPyramid_conforming : Conforming cutPyramid.mesh := by
  unfold Conforming SameDiagonals
  decide +kernel

set_option linter.unusedSimpArgs false in
/-- The hypotheses are met by a hexahedron which is no parallelepiped: a corner below has 37/12 of the volume 56/3, a corner above 19/12. -/
example : (cutPyramid.mesh.voronoiHexes .fresh).total .vbox 0 = 37 / 12 ∧ (cutPyramid.mesh.voronoiHexes .fresh).total .vbox 7 = 19 / 12 := by
  have hp : ∀ k < 8, cornerAt cutPyramid.mesh [0, 1, 2, 3, 4, 5, 6, 7] k = [![0, 0, 0], ![4, 0, 0], ![0, 4, 0], ![4, 4, 0], ![1, 1, 2],
      ![3, 1, 2], ![1, 3, 2], ![3, 3, 2]].getD k 0 := by
    intro k hk
    have : k = 0 ∨ k = 1 ∨ k = 2 ∨ k = 3 ∨ k = 4 ∨ k = 5 ∨ k = 6 ∨ k = 7 := by omega
    rcases this with rfl | rfl | rfl | rfl | rfl | rfl | rfl | rfl <;> rfl
  have hq : ∀ k < 8, (cutPyramid.mesh.voronoiHexes .fresh).total .vbox k = hexPart (cornerAt cutPyramid.mesh [0, 1, 2, 3, 4, 5, 6, 7]) k := by
    intro k hk
    rw [C71_boxes cutPyramid_reached cutPyramid_conforming, show cutPyramid.mesh.count 3 = 1 from rfl, Finset.sum_range_one,
      show cutPyramid.mesh.vertsOf 3 0 = [0, 1, 2, 3, 4, 5, 6, 7] from rfl]
    have : k = 0 ∨ k = 1 ∨ k = 2 ∨ k = 3 ∨ k = 4 ∨ k = 5 ∨ k = 6 ∨ k = 7 := by omega
    rcases this with rfl | rfl | rfl | rfl | rfl | rfl | rfl | rfl <;>
      simp [show List.range 8 = [0, 1, 2, 3, 4, 5, 6, 7] from rfl, VoroSt.fresh]
  have hq0 := hq 0 (by omega)
  have hq7 := hq 7 (by omega)
  clear hq
  have vec : ∀ (g : Fin 3 → ℝ) (x y z : ℝ), g 0 = x → g 1 = y → g 2 = z → g = ![x, y, z] := by
    intro g x y z h0 h1 h2
    funext i
    fin_cases i
    · exact h0
    · exact h1
    · exact h2
  have e2 : ∀ x y z : ℝ, ![x, y, z] 2 = z := fun _ _ _ => rfl
  have tet : ∀ a b c e : Fin 3 → ℝ, signedTetrahedron a b c e = ((b 0 - a 0) * ((c 1 - a 1) * (e 2 - a 2) - (c 2 - a 2) * (e 1 - a 1))
      + (b 1 - a 1) * ((c 2 - a 2) * (e 0 - a 0) - (c 0 - a 0) * (e 2 - a 2))
      + (b 2 - a 2) * ((c 0 - a 0) * (e 1 - a 1) - (c 1 - a 1) * (e 0 - a 0))) / 6 := by
    intro a b c e
    simp only [signedTetrahedron, innerProd3, crossProd_zero, crossProd_one, crossProd_two, Pi.sub_apply]
  generalize cornerAt cutPyramid.mesh [0, 1, 2, 3, 4, 5, 6, 7] = p at hp hq0 hq7
  have q0 : p 0 = ![0, 0, 0] := hp 0 (by omega)
  have q1 : p 1 = ![4, 0, 0] := hp 1 (by omega)
  have q2 : p 2 = ![0, 4, 0] := hp 2 (by omega)
  have q3 : p 3 = ![4, 4, 0] := hp 3 (by omega)
  have q4 : p 4 = ![1, 1, 2] := hp 4 (by omega)
  have q5 : p 5 = ![3, 1, 2] := hp 5 (by omega)
  have q6 : p 6 = ![1, 3, 2] := hp 6 (by omega)
  have q7 : p 7 = ![3, 3, 2] := hp 7 (by omega)
  have m0 : meanAt p [0, 1, 2, 3, 4, 5, 6, 7] = ![2, 2, 1] := by
    apply vec <;> norm_num [meanAt, q0, q1, q2, q3, q4, q5, q6, q7, e2]
  have m1 : meanAt p [0, 1, 2, 3] = ![2, 2, 0] := by
    apply vec <;> norm_num [meanAt, q0, q1, q2, q3, q4, q5, q6, q7, e2]
  have m2 : meanAt p [0, 1, 4, 5] = ![2, 1 / 2, 1] := by
    apply vec <;> norm_num [meanAt, q0, q1, q2, q3, q4, q5, q6, q7, e2]
  have m3 : meanAt p [0, 2, 4, 6] = ![1 / 2, 2, 1] := by
    apply vec <;> norm_num [meanAt, q0, q1, q2, q3, q4, q5, q6, q7, e2]
  have m4 : meanAt p [1, 3, 5, 7] = ![7 / 2, 2, 1] := by
    apply vec <;> norm_num [meanAt, q0, q1, q2, q3, q4, q5, q6, q7, e2]
  have m5 : meanAt p [2, 3, 6, 7] = ![2, 7 / 2, 1] := by
    apply vec <;> norm_num [meanAt, q0, q1, q2, q3, q4, q5, q6, q7, e2]
  have m6 : meanAt p [4, 5, 6, 7] = ![2, 2, 2] := by
    apply vec <;> norm_num [meanAt, q0, q1, q2, q3, q4, q5, q6, q7, e2]
  have m7 : middle p 0 1 = ![2, 0, 0] := by
    apply vec <;> norm_num [middle, q0, q1, q2, q3, q4, q5, q6, q7, e2]
  have m8 : middle p 0 2 = ![0, 2, 0] := by
    apply vec <;> norm_num [middle, q0, q1, q2, q3, q4, q5, q6, q7, e2]
  have m9 : middle p 0 4 = ![1 / 2, 1 / 2, 1] := by
    apply vec <;> norm_num [middle, q0, q1, q2, q3, q4, q5, q6, q7, e2]
  have m10 : middle p 5 7 = ![3, 2, 2] := by
    apply vec <;> norm_num [middle, q0, q1, q2, q3, q4, q5, q6, q7, e2]
  have m11 : middle p 6 7 = ![2, 3, 2] := by
    apply vec <;> norm_num [middle, q0, q1, q2, q3, q4, q5, q6, q7, e2]
  have m12 : middle p 3 7 = ![7 / 2, 7 / 2, 1] := by
    apply vec <;> norm_num [middle, q0, q1, q2, q3, q4, q5, q6, q7, e2]
  have hsum : ∀ k, hexPart p k = (hexFacetEdges.map fun x => if k = x.2.1 ∨ k = x.2.2 then
      |signedTetrahedron ![2, 2, 1] (meanAt p x.1) (middle p x.2.1 x.2.2) (p k)| else 0).sum := by
    intro k
    unfold hexPart
    rw [show List.range 8 = [0, 1, 2, 3, 4, 5, 6, 7] from rfl, m0]
  constructor
  · rw [hq0, hsum, hexFacetEdges_side]
    simp [side24, hexFaces, m0, m1, m2, m3, m4, m5, m6, m7, m8, m9, m10, m11, m12, q0, tet]
    norm_num
  · rw [hq7, hsum, hexFacetEdges_side]
    simp [side24, hexFaces, m0, m1, m2, m3, m4, m5, m6, m7, m8, m9, m10, m11, m12, q7, tet]
    norm_num

end VG
