import Verif.Props.Normals
import Verif.Props.VoronoiHexes

/-!
C106 for hexahedra: the normal vectors of the boundary facets of a mesh of parallelepipeds, turned away from their cells.
-/

namespace VG

variable {m : Mesh (Fin 3 → ℝ)}

/-- The normal vector of the quadrilateral `s`, turned away from the hexahedron `c` with the help of the centroids. -/
noncomputable def outwardQuad (m : Mesh (Fin 3 → ℝ)) (s c : Nat) : Fin 3 → ℝ :=
  if 0 < ∑ i, m.quadNormal s i * (m.centroidOf 3 c i - m.centroidOf 2 s i) then -m.quadNormal s else m.quadNormal s

/-- All hexahedra are parallelepipeds and not flat, and two hexahedra at a facet are on different sides of it. -/
structure NoOverlapBoxes (m : Mesh (Fin 3 → ℝ)) : Prop where
  para : Parallelepipeds m
  solid : ∀ e ∈ m.elems 3, determinant3 (cornerAt m e.verts 1 - cornerAt m e.verts 0)
    (cornerAt m e.verts 2 - cornerAt m e.verts 0) (cornerAt m e.verts 4 - cornerAt m e.verts 0) ≠ 0
  sides : ∀ s c c' x y z w p p', UsedBy (cubeTopo 3) m s c → UsedBy (cubeTopo 3) m s c' → c ≠ c' →
    m.vertsOf 2 s = [x, y, z, w] → p ∈ m.vertsOf 3 c → p ∉ m.vertsOf 2 s → p' ∈ m.vertsOf 3 c' → p' ∉ m.vertsOf 2 s →
    offPlane m x y z (m.at0 p) * offPlane m x y z (m.at0 p') < 0

/-- `volume(hexahedron)` as a function of the list of the corners. -/
noncomputable def cornersHex (l : List (Fin 3 → ℝ)) : ℝ := volumeHex fun i => l.getD i 0

namespace NormalsHex

/-- The facet `s` with corners `a`, `b`, `x`, `y` of the parallelepiped `c`; `w` leads to the opposite facet. -/
structure FaceOf (m : Mesh (Fin 3 → ℝ)) (s c a b x y a' b' x' y' : Nat) (w : Fin 3 → ℝ) : Prop where
  facet : (m.vertsOf 2 s).Perm [a, b, x, y]
  cell : (m.vertsOf 3 c).Perm [a, b, x, y, a', b', x', y']
  fourth : ∀ i, m.at0 y i = m.at0 b i + m.at0 x i - m.at0 a i
  a1 : ∀ i, m.at0 a' i = m.at0 a i + w i
  b1 : ∀ i, m.at0 b' i = m.at0 b i + w i
  x1 : ∀ i, m.at0 x' i = m.at0 x i + w i
  y1 : ∀ i, m.at0 y' i = m.at0 y i + w i
  nodup : (m.vertsOf 3 c).Nodup
  fine : s < m.count 2 ∧ c < m.count 3
  solid : determinant3 (m.at0 b - m.at0 a) (m.at0 x - m.at0 a) w ≠ 0

theorem points_eq {T : Topo} (hI : Inv T m) {k t : Nat} (hk : k ≠ 0) (ht : t < m.count k) :
    m.pointsOf k t = (m.vertsOf k t).map m.at0 := by
  obtain ⟨e, he⟩ := elem_of_lt hk ht
  have hv := (hI.verts k e (List.mem_of_getElem? he)).2.2
  unfold Mesh.pointsOf
  rw [vertsOf_elem he]
  have : ∀ l : List Nat, (∀ v ∈ l, v < m.verts.length) → l.filterMap m.ptOf = l.map m.at0 := by
    intro l hl
    induction l with
    | nil => rfl
    | cons a l ih =>
      have ha := hl a (by simp)
      rw [List.filterMap_cons, List.map_cons, ih fun v hv => hl v (by simp [hv])]
      unfold Mesh.at0 Mesh.ptOf
      rw [List.getElem?_eq_getElem ha]
      rfl
  exact this _ hv

theorem four {x0 x1 x2 x3 a b c d : Nat} (h : [x0, x1, x2, x3].Perm [a, b, c, d]) :
    (x0 = a ∧ [x1, x2, x3].Perm [b, c, d]) ∨ (x0 = b ∧ [x1, x2, x3].Perm [a, c, d])
    ∨ (x0 = c ∧ [x1, x2, x3].Perm [a, b, d]) ∨ (x0 = d ∧ [x1, x2, x3].Perm [a, b, c]) := by
  have hx : x0 ∈ [a, b, c, d] := h.subset (by simp)
  simp only [List.mem_cons, List.not_mem_nil, or_false] at hx
  rcases hx with rfl | rfl | rfl | rfl
  · exact Or.inl ⟨rfl, (List.perm_cons _).1 h⟩
  · exact Or.inr (Or.inl ⟨rfl, (List.perm_cons _).1 (h.trans (List.Perm.swap _ _ _))⟩)
  · exact Or.inr (Or.inr (Or.inl ⟨rfl, (List.perm_cons _).1 (h.trans
      (((List.Perm.swap _ _ _).cons _).trans (List.Perm.swap _ _ _)))⟩))
  · exact Or.inr (Or.inr (Or.inr ⟨rfl, (List.perm_cons _).1 (h.trans
      (List.perm_append_comm (l₁ := [a, b, c]) (l₂ := [x0])))⟩))

/-- Any three corners of a parallelogram give the same normal vector, up to the sign. -/
theorem normal_face {x0 x1 x2 x3 a b x y : Nat} (h : [x0, x1, x2, x3].Perm [a, b, x, y])
    (hy : ∀ i, m.at0 y i = m.at0 b i + m.at0 x i - m.at0 a i) :
    ∃ τ : ℝ, (τ = 1 ∨ τ = -1)
      ∧ (∀ i, crossProd (m.at0 x1 - m.at0 x0) (m.at0 x2 - m.at0 x0) i
          = τ * crossProd (m.at0 b - m.at0 a) (m.at0 x - m.at0 a) i)
      ∧ ∑ i, crossProd (m.at0 b - m.at0 a) (m.at0 x - m.at0 a) i * (m.at0 x0 i - m.at0 a i) = 0 := by
  have y0 := hy 0
  have y1 := hy 1
  have y2 := hy 2
  have plus : ∀ {x0 x1 x2 : Nat}, (∀ i, crossProd (m.at0 x1 - m.at0 x0) (m.at0 x2 - m.at0 x0) i
      = crossProd (m.at0 b - m.at0 a) (m.at0 x - m.at0 a) i) ∨ (∀ i, crossProd (m.at0 x1 - m.at0 x0) (m.at0 x2 - m.at0 x0) i
      = -crossProd (m.at0 b - m.at0 a) (m.at0 x - m.at0 a) i) →
      ∑ i, crossProd (m.at0 b - m.at0 a) (m.at0 x - m.at0 a) i * (m.at0 x0 i - m.at0 a i) = 0 →
      ∃ τ : ℝ, (τ = 1 ∨ τ = -1)
      ∧ (∀ i, crossProd (m.at0 x1 - m.at0 x0) (m.at0 x2 - m.at0 x0) i
          = τ * crossProd (m.at0 b - m.at0 a) (m.at0 x - m.at0 a) i)
      ∧ ∑ i, crossProd (m.at0 b - m.at0 a) (m.at0 x - m.at0 a) i * (m.at0 x0 i - m.at0 a i) = 0 := by
    rintro x0 x1 x2 (h | h) h'
    · exact ⟨1, Or.inl rfl, fun i => by rw [h i, one_mul], h'⟩
    · exact ⟨-1, Or.inr rfl, fun i => by rw [h i, neg_one_mul], h'⟩
  apply plus
  · rcases four h with ⟨rfl, g⟩ | ⟨rfl, g⟩ | ⟨rfl, g⟩ | ⟨rfl, g⟩ <;> rcases perm3 g with e | e | e | e | e | e <;> cases e <;>
    first
    | (left; intro i; induction i using fin3_cases <;>
        (simp only [crossProd_zero, crossProd_one, crossProd_two, Pi.sub_apply, y0, y1, y2]; first | done | ring1))
    | (right; intro i; induction i using fin3_cases <;>
        (simp only [crossProd_zero, crossProd_one, crossProd_two, Pi.sub_apply, y0, y1, y2]; first | done | ring1))
  · rcases four h with ⟨rfl, _⟩ | ⟨rfl, _⟩ | ⟨rfl, _⟩ | ⟨rfl, _⟩ <;>
      simp only [Fin.sum_univ_three, crossProd_zero, crossProd_one, crossProd_two, Pi.sub_apply, y0, y1, y2] <;> ring

theorem facet_list {T : Topo} (hI : Inv T m) (hT : T.poly = false ∧ T.nv 2 = 4) {s : Nat} (hs : s < m.count 2) :
    ∃ x0 x1 x2 x3, m.vertsOf 2 s = [x0, x1, x2, x3] := by
  obtain ⟨e, he⟩ := elem_of_lt (by omega) hs
  have hl := ((hI.verts 2 e (List.mem_of_getElem? he)).2.1).fixed hT.1
  rw [hT.2] at hl
  rw [vertsOf_elem he]
  match e.verts, hl with
  | [x0, x1, x2, x3], _ => exact ⟨x0, x1, x2, x3, rfl⟩

/-- What the normal vector of a facet is, and how it lies to the cell. -/
theorem face_normal {T : Topo} (hI : Inv T m) (hT : T.poly = false ∧ T.nv 2 = 4) {s c a b x y a' b' x' y' : Nat}
    {w : Fin 3 → ℝ} (h : FaceOf m s c a b x y a' b' x' y' w) :
    ∃ x0 x1 x2 x3, ∃ τ : ℝ, m.vertsOf 2 s = [x0, x1, x2, x3] ∧ (τ = 1 ∨ τ = -1)
      ∧ (∀ i, m.quadNormal s i = τ * crossProd (m.at0 b - m.at0 a) (m.at0 x - m.at0 a) i)
      ∧ ∑ i, crossProd (m.at0 b - m.at0 a) (m.at0 x - m.at0 a) i * (m.at0 x0 i - m.at0 a i) = 0
      ∧ ∑ i, m.quadNormal s i * (m.centroidOf 3 c i - m.centroidOf 2 s i)
        = τ * determinant3 (m.at0 b - m.at0 a) (m.at0 x - m.at0 a) w / 2
      ∧ ∀ p ∈ m.vertsOf 3 c, p ∉ m.vertsOf 2 s → offPlane m x0 x1 x2 (m.at0 p)
        = τ * determinant3 (m.at0 b - m.at0 a) (m.at0 x - m.at0 a) w := by
  obtain ⟨hs, hc⟩ := h.fine
  obtain ⟨x0, x1, x2, x3, hv⟩ := facet_list hI hT hs
  have hf := h.facet
  rw [hv] at hf
  obtain ⟨τ, hτ, h1, h2⟩ := normal_face hf h.fourth
  have hn : ∀ i, m.quadNormal s i = τ * crossProd (m.at0 b - m.at0 a) (m.at0 x - m.at0 a) i := by
    intro i
    rw [← h1 i]
    unfold Mesh.quadNormal normalQuad normalTriangle
    rw [hv]
    rfl
  refine ⟨x0, x1, x2, x3, τ, hv, hτ, hn, h2, ?_, fun p hp hps => ?_⟩
  · have c2 : ∀ i, m.centroidOf 2 s i = (m.at0 b i + m.at0 x i) / 2 := by
      intro i
      unfold Mesh.centroidOf
      rw [C47_centroid_mean, points_eq hI (by omega) hs, List.map_map, (h.facet.map _).sum_eq, List.length_map,
        h.facet.length_eq]
      simp [h.fourth]
      ring
    have c3 : ∀ i, m.centroidOf 3 c i = (m.at0 b i + m.at0 x i + w i) / 2 := by
      intro i
      unfold Mesh.centroidOf
      rw [C47_centroid_mean, points_eq hI (by omega) hc, List.map_map, (h.cell.map _).sum_eq, List.length_map,
        h.cell.length_eq]
      simp [h.fourth, h.a1, h.b1, h.x1, h.y1]
      ring
    simp only [hn, c2, c3, Fin.sum_univ_three]
    unfold determinant3
    simp only [crossProd_zero, crossProd_one, crossProd_two, Pi.sub_apply]
    ring
  · have hp' : p = a' ∨ p = b' ∨ p = x' ∨ p = y' := by
      have q := h.cell.mem_iff.1 hp
      have r : p ∉ [a, b, x, y] := fun k => hps (h.facet.mem_iff.2 k)
      simp only [List.mem_cons, List.not_mem_nil, or_false] at q r
      omega
    have hoff : offPlane m x0 x1 x2 (m.at0 p) = ∑ i, crossProd (m.at0 x1 - m.at0 x0) (m.at0 x2 - m.at0 x0) i
        * (m.at0 p i - m.at0 x0 i) := by
      unfold offPlane determinant3
      simp only [Fin.sum_univ_three, crossProd_zero, crossProd_one, crossProd_two, Pi.sub_apply]
      ring
    have hsum : offPlane m x0 x1 x2 (m.at0 p) = τ * ∑ i, crossProd (m.at0 b - m.at0 a) (m.at0 x - m.at0 a) i
        * (m.at0 p i - m.at0 a i) := by
      rw [hoff, Finset.mul_sum]
      have : ∑ i, τ * (crossProd (m.at0 b - m.at0 a) (m.at0 x - m.at0 a) i * (m.at0 p i - m.at0 a i))
          = ∑ i, τ * (crossProd (m.at0 b - m.at0 a) (m.at0 x - m.at0 a) i * (m.at0 p i - m.at0 x0 i))
            + τ * ∑ i, crossProd (m.at0 b - m.at0 a) (m.at0 x - m.at0 a) i * (m.at0 x0 i - m.at0 a i) := by
        rw [Finset.mul_sum, ← Finset.sum_add_distrib]
        exact Finset.sum_congr rfl fun i _ => by ring
      rw [this, h2, mul_zero, add_zero]
      exact Finset.sum_congr rfl fun i _ => by rw [h1 i]; ring
    rw [hsum]
    congr 1
    unfold determinant3
    rcases hp' with rfl | rfl | rfl | rfl <;>
      simp only [Fin.sum_univ_three, crossProd_zero, crossProd_one, crossProd_two, Pi.sub_apply, h.a1, h.b1, h.x1, h.y1,
        h.fourth] <;> ring

/-- What a facet contributes. -/
theorem face_out {T : Topo} (hI : Inv T m) (hT : T.poly = false ∧ T.nv 2 = 4) {s c a b x y a' b' x' y' : Nat}
    {w : Fin 3 → ℝ} (h : FaceOf m s c a b x y a' b' x' y' w) :
    (∀ i, outwardQuad m s c i = -(sg (determinant3 (m.at0 b - m.at0 a) (m.at0 x - m.at0 a) w)
        * crossProd (m.at0 b - m.at0 a) (m.at0 x - m.at0 a) i))
    ∧ ∑ i, outwardQuad m s c i * m.at0 ((m.vertsOf 2 s).getD 0 0) i
      = -(sg (determinant3 (m.at0 b - m.at0 a) (m.at0 x - m.at0 a) w)
        * ∑ i, crossProd (m.at0 b - m.at0 a) (m.at0 x - m.at0 a) i * m.at0 a i) := by
  obtain ⟨x0, x1, x2, x3, τ, hv, hτ, hn, h2, hk, _⟩ := face_normal hI hT h
  have hs := h.solid
  have e : ∀ i, outwardQuad m s c i = -(sg (determinant3 (m.at0 b - m.at0 a) (m.at0 x - m.at0 a) w)
        * crossProd (m.at0 b - m.at0 a) (m.at0 x - m.at0 a) i) := by
    intro i
    unfold outwardQuad sg
    rw [hk]
    rcases lt_or_gt_of_ne hs with hlt | hgt
    · rcases hτ with rfl | rfl
      · rw [if_neg (by linarith), if_neg (by linarith), hn]; ring
      · rw [if_pos (by linarith), if_neg (by linarith), Pi.neg_apply, hn]
    · rcases hτ with rfl | rfl
      · rw [if_pos (by linarith), if_pos hgt, Pi.neg_apply, hn]
      · rw [if_neg (by linarith), if_pos hgt, hn, neg_one_mul, one_mul]
  refine ⟨e, ?_⟩
  simp only [e]
  rw [hv]
  simp only [List.getD_cons_zero]
  rw [Fin.sum_univ_three] at h2 ⊢
  rw [Fin.sum_univ_three]
  linear_combination -(sg (determinant3 (m.at0 b - m.at0 a) (m.at0 x - m.at0 a) w)) * h2

/-- The facets of a hexahedron. -/
theorem hex_faces (hI : Inv (cubeTopo 3) m) (hm : NoOverlapBoxes m) {c : Nat} (hc : c < m.count 3) :
    ∃ v0 v1 v2 v3 v4 v5 v6 v7 f0 f1 f2 f3 f4 f5, ∃ u v w : Fin 3 → ℝ, m.vertsOf 3 c = [v0, v1, v2, v3, v4, v5, v6, v7]
      ∧ m.bndOf 3 c 2 = [f0, f1, f2, f3, f4, f5]
      ∧ u = m.at0 v1 - m.at0 v0 ∧ v = m.at0 v2 - m.at0 v0 ∧ w = m.at0 v4 - m.at0 v0
      ∧ determinant3 u v w ≠ 0
      ∧ Parallelepiped (fun i => m.at0 ([v0, v1, v2, v3, v4, v5, v6, v7].getD i 0))
      ∧ FaceOf m f0 c v0 v1 v2 v3 v4 v5 v6 v7 w ∧ FaceOf m f1 c v0 v1 v4 v5 v2 v3 v6 v7 v
      ∧ FaceOf m f2 c v0 v2 v4 v6 v1 v3 v5 v7 u ∧ FaceOf m f3 c v1 v3 v5 v7 v0 v2 v4 v6 (-u)
      ∧ FaceOf m f4 c v2 v3 v6 v7 v0 v1 v4 v5 (-v) ∧ FaceOf m f5 c v4 v5 v6 v7 v0 v1 v2 v3 (-w) := by
  obtain ⟨e, he⟩ := elem_of_lt (by omega) hc
  have hem := List.mem_of_getElem? he
  obtain ⟨hn, hl, hlt⟩ := hI.verts 3 e hem
  have hl8 : e.verts.length = 8 := hl.fixed
  obtain ⟨refs, h1, h2⟩ := (hI.bnd 3 e hem).lookup (k := 2) (idxs := hexFaces) ((cubeTopo_wf 3).once 3 _)
    (by rw [hl.fixed]; decide)
  have hbs : m.bndOf 3 c 2 = refs.map (·.1) := by
    unfold Mesh.bndOf; rw [he]; simp only [show (2 : Nat) ≠ 0 by decide, if_false]; unfold Elem.bndSlots; rw [h1]
  have hpar := hm.para e hem
  have hsol := hm.solid e hem
  have hvs := vertsOf_elem he
  have ref : ∀ {l r}, RefOK m 2 l r → (m.vertsOf 2 r.1).Perm l ∧ r.1 < m.count 2 := by
    rintro l r ⟨f, hf, hp, _⟩
    rw [vertsOf_elem hf]
    refine ⟨hp, ?_⟩
    unfold Mesh.count; rw [if_neg (by omega)]; exact (List.getElem?_eq_some_iff.1 hf).1
  have order : ∀ (l : List Nat), l.Perm [0, 1, 2, 3, 4, 5, 6, 7] → (m.vertsOf 3 c).Perm (pick e.verts l) := by
    intro l hp
    rw [hvs]
    have : e.verts = pick e.verts [0, 1, 2, 3, 4, 5, 6, 7] := by
      match e.verts, hl8 with
      | [v0, v1, v2, v3, v4, v5, v6, v7], _ => rfl
    exact (List.Perm.of_eq this).trans (hp.symm.map _)
  have o0 := order [0, 1, 2, 3, 4, 5, 6, 7] (by decide)
  have o1 := order [0, 1, 4, 5, 2, 3, 6, 7] (by decide)
  have o2 := order [0, 2, 4, 6, 1, 3, 5, 7] (by decide)
  have o3 := order [1, 3, 5, 7, 0, 2, 4, 6] (by decide)
  have o4 := order [2, 3, 6, 7, 0, 1, 4, 5] (by decide)
  have o5 := order [4, 5, 6, 7, 0, 1, 2, 3] (by decide)
  unfold hexFaces at h2
  rcases h2 with _ | ⟨r0, _ | ⟨r1, _ | ⟨r2, _ | ⟨r3, _ | ⟨r4, _ | ⟨r5, _ | _⟩⟩⟩⟩⟩⟩
  obtain ⟨r0, l0⟩ := ref r0
  obtain ⟨r1, l1⟩ := ref r1
  obtain ⟨r2, l2⟩ := ref r2
  obtain ⟨r3, l3⟩ := ref r3
  obtain ⟨r4, l4⟩ := ref r4
  obtain ⟨r5, l5⟩ := ref r5
  match hv : e.verts, hl8 with
  | [v0, v1, v2, v3, v4, v5, v6, v7], _ =>
    rw [hv] at o0 o1 o2 o3 o4 o5 r0 r1 r2 r3 r4 r5 hpar hsol hvs hn
    have p3 : ∀ i, m.at0 v3 i = m.at0 v1 i + m.at0 v2 i - m.at0 v0 i := fun i => (hpar i).1
    have p5 : ∀ i, m.at0 v5 i = m.at0 v1 i + m.at0 v4 i - m.at0 v0 i := fun i => (hpar i).2.1
    have p6 : ∀ i, m.at0 v6 i = m.at0 v2 i + m.at0 v4 i - m.at0 v0 i := fun i => (hpar i).2.2.1
    have p7 : ∀ i, m.at0 v7 i = m.at0 v1 i + m.at0 v2 i + m.at0 v4 i - 2 * m.at0 v0 i := fun i => (hpar i).2.2.2
    change determinant3 (m.at0 v1 - m.at0 v0) (m.at0 v2 - m.at0 v0) (m.at0 v4 - m.at0 v0) ≠ 0 at hsol
    have hnd : (m.vertsOf 3 c).Nodup := by rw [hvs]; exact hn
    refine ⟨v0, v1, v2, v3, v4, v5, v6, v7, _, _, _, _, _, _, m.at0 v1 - m.at0 v0, m.at0 v2 - m.at0 v0, m.at0 v4 - m.at0 v0,
      hvs, hbs, rfl, rfl, rfl, hsol, hpar, ?_, ?_, ?_, ?_, ?_, ?_⟩
    · exact ⟨r0, o0, p3, fun i => by simp, fun i => by simp [p5]; ring, fun i => by simp [p6]; ring,
        fun i => by simp [p3, p7]; ring, hnd, ⟨l0, hc⟩, hsol⟩
    · refine ⟨r1, o1, p5, fun i => by simp, fun i => by simp [p3]; ring, fun i => by simp [p6]; ring,
        fun i => by simp [p5, p7]; ring, hnd, ⟨l1, hc⟩, fun hz => hsol ?_⟩
      unfold determinant3 at hz ⊢; linear_combination -hz
    · refine ⟨r2, o2, p6, fun i => by simp, fun i => by simp [p3]; ring, fun i => by simp [p5]; ring,
        fun i => by simp [p6, p7]; ring, hnd, ⟨l2, hc⟩, fun hz => hsol ?_⟩
      unfold determinant3 at hz ⊢; linear_combination hz
    · refine ⟨r3, o3, fun i => by simp [p3, p5, p7]; ring, fun i => by simp, fun i => by simp [p3],
        fun i => by simp [p5], fun i => by simp [p6, p7]; ring, hnd, ⟨l3, hc⟩, fun hz => hsol ?_⟩
      unfold determinant3 at hz ⊢
      simp only [Pi.sub_apply, Pi.neg_apply, p3, p5] at hz ⊢
      linear_combination -hz
    · refine ⟨r4, o4, fun i => by simp [p3, p6, p7]; ring, fun i => by simp, fun i => by simp [p3],
        fun i => by simp [p6], fun i => by simp [p5, p7]; ring, hnd, ⟨l4, hc⟩, fun hz => hsol ?_⟩
      unfold determinant3 at hz ⊢
      simp only [Pi.sub_apply, Pi.neg_apply, p3, p6] at hz ⊢
      linear_combination hz
    · refine ⟨r5, o5, fun i => by simp [p5, p6, p7]; ring, fun i => by simp, fun i => by simp [p5],
        fun i => by simp [p6], fun i => by simp [p3, p7]; ring, hnd, ⟨l5, hc⟩, fun hz => hsol ?_⟩
      unfold determinant3 at hz ⊢
      simp only [Pi.sub_apply, Pi.neg_apply, p5, p6] at hz ⊢
      linear_combination -hz

/-- The six facets of a parallelepiped. -/
theorem hex_cell (hI : Inv (cubeTopo 3) m) (hm : NoOverlapBoxes m) {c : Nat} (hc : c < m.count 3) :
    (∀ i, ((m.bndOf 3 c 2).map fun s => outwardQuad m s c i).sum = 0)
    ∧ ((m.bndOf 3 c 2).map fun s => ∑ i, outwardQuad m s c i * m.at0 ((m.vertsOf 2 s).getD 0 0) i).sum
      = 3 * cornersHex (m.pointsOf 3 c) := by
  obtain ⟨v0, v1, v2, v3, v4, v5, v6, v7, f0, f1, f2, f3, f4, f5, u, v, w, hv, hb, hu, hv', hw, hs, hpar, F0, F1, F2, F3,
    F4, F5⟩ := hex_faces hI hm hc
  have hT : (cubeTopo 3).poly = false ∧ (cubeTopo 3).nv 2 = 4 := by decide
  obtain ⟨a0, b0⟩ := face_out hI hT F0
  obtain ⟨a1, b1⟩ := face_out hI hT F1
  obtain ⟨a2, b2⟩ := face_out hI hT F2
  obtain ⟨a3, b3⟩ := face_out hI hT F3
  obtain ⟨a4, b4⟩ := face_out hI hT F4
  obtain ⟨a5, b5⟩ := face_out hI hT F5
  have p3 : m.at0 v3 = m.at0 v0 + u + v := by
    funext i; have : m.at0 v3 i = m.at0 v1 i + m.at0 v2 i - m.at0 v0 i := (hpar i).1
    rw [this, hu, hv']; simp; ring
  have p5 : m.at0 v5 = m.at0 v0 + u + w := by
    funext i; have : m.at0 v5 i = m.at0 v1 i + m.at0 v4 i - m.at0 v0 i := (hpar i).2.1
    rw [this, hu, hw]; simp; ring
  have p6 : m.at0 v6 = m.at0 v0 + v + w := by
    funext i; have : m.at0 v6 i = m.at0 v2 i + m.at0 v4 i - m.at0 v0 i := (hpar i).2.2.1
    rw [this, hv', hw]; simp; ring
  have p7 : m.at0 v7 = m.at0 v0 + u + v + w := by
    funext i; have : m.at0 v7 i = m.at0 v1 i + m.at0 v2 i + m.at0 v4 i - 2 * m.at0 v0 i := (hpar i).2.2.2
    rw [this, hu, hv', hw]; simp; ring
  have p1 : m.at0 v1 = m.at0 v0 + u := by rw [hu]; simp
  have p2 : m.at0 v2 = m.at0 v0 + v := by rw [hv']; simp
  have p4 : m.at0 v4 = m.at0 v0 + w := by rw [hw]; simp
  have hvol : cornersHex (m.pointsOf 3 c) = |determinant3 u v w| := by
    rw [points_eq hI (by omega) hc, hv]
    unfold cornersHex
    exact (C46_parallelepiped_partial (m.at0 v0) u v w _ rfl p1 p2 p3 p4 p5 p6 p7).1
  rw [hvol, hb, ← sg_self hs]
  simp only [List.map_cons, List.map_nil, List.sum_cons, List.sum_nil, add_zero]
  rw [b0, b1, b2, b3, b4, b5]
  simp only [a0, a1, a2, a3, a4, a5]
  have e1 : m.at0 v1 - m.at0 v0 = u := hu.symm
  have e2 : m.at0 v2 - m.at0 v0 = v := hv'.symm
  have e4 : m.at0 v4 - m.at0 v0 = w := hw.symm
  have e31 : m.at0 v3 - m.at0 v1 = v := by rw [p3, p1]; abel
  have e51 : m.at0 v5 - m.at0 v1 = w := by rw [p5, p1]; abel
  have e32 : m.at0 v3 - m.at0 v2 = u := by rw [p3, p2]; abel
  have e62 : m.at0 v6 - m.at0 v2 = w := by rw [p6, p2]; abel
  have e54 : m.at0 v5 - m.at0 v4 = u := by rw [p5, p4]; abel
  have e64 : m.at0 v6 - m.at0 v4 = v := by rw [p6, p4]; abel
  rw [e1, e2, e4, e31, e51, e32, e62, e54, e64, p1, p2, p4]
  have d1 : determinant3 u w v = -determinant3 u v w := by unfold determinant3; ring
  have d2 : determinant3 v w u = determinant3 u v w := by unfold determinant3; ring
  have d3 : determinant3 v w (-u) = -determinant3 u v w := by unfold determinant3; simp only [Pi.neg_apply]; ring
  have d4 : determinant3 u w (-v) = determinant3 u v w := by unfold determinant3; simp only [Pi.neg_apply]; ring
  have d5 : determinant3 u v (-w) = -determinant3 u v w := by unfold determinant3; simp only [Pi.neg_apply]; ring
  rw [d1, d2, d3, d4, d5, sg_neg hs]
  generalize hσ : sg (determinant3 u v w) = σ
  constructor
  · intro i
    ring
  · unfold determinant3
    simp only [Fin.sum_univ_three, crossProd_zero, crossProd_one, crossProd_two, Pi.add_apply]
    ring

/-- A facet of a cell. -/
theorem used_face (hI : Inv (cubeTopo 3) m) (hm : NoOverlapBoxes m) {s c : Nat} (h : UsedBy (cubeTopo 3) m s c) :
    ∃ a b x y a' b' x' y' w, FaceOf m s c a b x y a' b' x' y' w := by
  have hs : s ∈ m.bndOf 3 c 2 := (mem_bndOf_iff (cubeTopo_wf 3) hI (le_refl _)).2 h
  have hc : c < m.count 3 := onBoundary_lt (by decide) h
  obtain ⟨v0, v1, v2, v3, v4, v5, v6, v7, f0, f1, f2, f3, f4, f5, u, v, w, _, hb, _, _, _, _, _, F0, F1, F2, F3, F4, F5⟩ :=
    hex_faces hI hm hc
  rw [hb] at hs
  simp only [List.mem_cons, List.not_mem_nil, or_false] at hs
  rcases hs with rfl | rfl | rfl | rfl | rfl | rfl
  · exact ⟨_, _, _, _, _, _, _, _, _, F0⟩
  · exact ⟨_, _, _, _, _, _, _, _, _, F1⟩
  · exact ⟨_, _, _, _, _, _, _, _, _, F2⟩
  · exact ⟨_, _, _, _, _, _, _, _, _, F3⟩
  · exact ⟨_, _, _, _, _, _, _, _, _, F4⟩
  · exact ⟨_, _, _, _, _, _, _, _, _, F5⟩

/-- On which side of a facet a cell is, and what that means for the normal vector. -/
theorem used_side (hI : Inv (cubeTopo 3) m) (hm : NoOverlapBoxes m) {s c : Nat} (h : UsedBy (cubeTopo 3) m s c) :
    ∃ x y z w p, m.vertsOf 2 s = [x, y, z, w] ∧ p ∈ m.vertsOf 3 c ∧ p ∉ m.vertsOf 2 s
      ∧ (∀ p ∈ m.vertsOf 3 c, p ∉ m.vertsOf 2 s → ∑ i, m.quadNormal s i * (m.centroidOf 3 c i - m.centroidOf 2 s i)
          = offPlane m x y z (m.at0 p) / 2 ∧ offPlane m x y z (m.at0 p) ≠ 0) := by
  obtain ⟨a, b, x, y, a', b', x', y', w, F⟩ := used_face hI hm h
  obtain ⟨x0, x1, x2, x3, τ, hv, hτ, _, _, hk, hp⟩ := face_normal hI (by decide) F
  have hnd := F.cell.nodup_iff.1 F.nodup
  refine ⟨x0, x1, x2, x3, a', hv, F.cell.mem_iff.2 (by simp), fun hx => ?_, fun p h1 h2 => ?_⟩
  · have := F.facet.mem_iff.1 hx
    simp only [List.nodup_cons, List.mem_cons, List.not_mem_nil, or_false, not_or] at this hnd
    obtain ⟨⟨_, _, _, n1, _⟩, ⟨_, _, n2, _⟩, ⟨_, n3, _⟩, ⟨n4, _⟩, _⟩ := hnd
    rcases this with h | h | h | h
    · exact n1 h.symm
    · exact n2 h.symm
    · exact n3 h.symm
    · exact n4 h.symm
  · have := hp p h1 h2
    refine ⟨by rw [hk, this], ?_⟩
    rw [this]
    have hs := F.solid
    rcases hτ with rfl | rfl
    · rwa [one_mul]
    · rw [neg_one_mul]; exact neg_ne_zero.2 hs

theorem side_product (hI : Inv (cubeTopo 3) m) (hm : NoOverlapBoxes m) {s c c' : Nat}
    (h : UsedBy (cubeTopo 3) m s c) (h' : UsedBy (cubeTopo 3) m s c') (hne : c ≠ c') :
    (∑ i, m.quadNormal s i * (m.centroidOf 3 c i - m.centroidOf 2 s i))
      * (∑ i, m.quadNormal s i * (m.centroidOf 3 c' i - m.centroidOf 2 s i)) < 0 := by
  obtain ⟨x, y, z, w, p, hv, h1, h2, h3⟩ := used_side hI hm h
  obtain ⟨_, _, _, _, p', hv', h1', h2', h3'⟩ := used_side hI hm h'
  rw [hv] at hv'
  cases hv'
  rw [(h3 p h1 h2).1, (h3' p' h1' h2').1]
  have := hm.sides s c c' x y z w p p' h h' hne hv h1 h2 h1' h2'
  linarith

theorem cancel (hI : Inv (cubeTopo 3) m) (hm : NoOverlapBoxes m) {s c c' : Nat}
    (h : UsedBy (cubeTopo 3) m s c) (h' : UsedBy (cubeTopo 3) m s c') (hne : c ≠ c') (i : Fin 3) :
    outwardQuad m s c i + outwardQuad m s c' i = 0 := by
  have := side_product hI hm h h' hne
  unfold outwardQuad
  rcases mul_neg_iff.1 this with ⟨k1, k2⟩ | ⟨k1, k2⟩
  · rw [if_pos k1, if_neg (not_lt.2 k2.le)]; simp
  · rw [if_neg (not_lt.2 k1.le), if_pos k2]; simp

end NormalsHex

open NormalsHex

/-- If hexahedra at a facet are on different sides of it, there are at most two. -/
theorem NoOverlapBoxes.two (hI : Inv (cubeTopo 3) m) (hn : NoOverlapBoxes m) {t a b c : Nat}
    (ha : UsedBy (cubeTopo 3) m t a) (hb : UsedBy (cubeTopo 3) m t b) (hc : UsedBy (cubeTopo 3) m t c) :
    a = b ∨ a = c ∨ b = c := by
  by_contra hne
  push Not at hne
  obtain ⟨h1, h2, h3⟩ := hne
  have k1 := side_product hI hn ha hb h1
  have k2 := side_product hI hn ha hc h2
  have k3 := side_product hI hn hb hc h3
  have no : ∀ x y z : ℝ, x * y < 0 → x * z < 0 → y * z < 0 → False := by
    intro x y z k1 k2 k3
    have k4 := mul_pos_of_neg_of_neg k1 k2
    have k5 := mul_nonneg (mul_self_nonneg x) (neg_nonneg.2 k3.le)
    have k6 : x * y * (x * z) = -(x * x * -(y * z)) := by ring
    linarith
  exact no _ _ _ k1 k2 k3

/-- The normal vector of a facet of a parallelepiped is orthogonal to the lines through corners of the facet and points
away from the other corners of the cell. -/
theorem C106_outward_box (hI : Inv (cubeTopo 3) m) (hm : NoOverlapBoxes m) {s c p q r : Nat}
    (hu : UsedBy (cubeTopo 3) m s c) (hp : p ∈ m.vertsOf 2 s) (hq : q ∈ m.vertsOf 2 s) (hr : r ∈ m.vertsOf 3 c)
    (hr' : r ∉ m.vertsOf 2 s) :
    ∑ i, outwardQuad m s c i * (m.at0 q i - m.at0 p i) = 0 ∧ ∑ i, outwardQuad m s c i * (m.at0 r i - m.at0 p i) < 0 := by
  obtain ⟨a, b, x, y, a', b', x', y', w, F⟩ := used_face hI hm hu
  obtain ⟨e, _⟩ := face_out hI (by decide) F
  have inp : ∀ {p}, p ∈ m.vertsOf 2 s →
      ∑ i, crossProd (m.at0 b - m.at0 a) (m.at0 x - m.at0 a) i * (m.at0 p i - m.at0 a i) = 0 := by
    intro p hp
    have := F.facet.mem_iff.1 hp
    simp only [List.mem_cons, List.not_mem_nil, or_false] at this
    rcases this with rfl | rfl | rfl | rfl <;>
      simp only [Fin.sum_univ_three, crossProd_zero, crossProd_one, crossProd_two, Pi.sub_apply, F.fourth] <;> ring
  have off : ∑ i, crossProd (m.at0 b - m.at0 a) (m.at0 x - m.at0 a) i * (m.at0 r i - m.at0 a i)
      = determinant3 (m.at0 b - m.at0 a) (m.at0 x - m.at0 a) w := by
    have q := F.cell.mem_iff.1 hr
    have r' : r ∉ [a, b, x, y] := fun k => hr' (F.facet.mem_iff.2 k)
    simp only [List.mem_cons, List.not_mem_nil, or_false, not_or] at q r'
    obtain ⟨n1, n2, n3, n4⟩ := r'
    simp only [n1, n2, n3, n4, false_or] at q
    unfold determinant3
    rcases q with rfl | rfl | rfl | rfl <;>
      simp only [Fin.sum_univ_three, crossProd_zero, crossProd_one, crossProd_two, Pi.sub_apply, F.a1, F.b1, F.x1, F.y1,
        F.fourth] <;> ring
  have kp := inp hp
  have kq := inp hq
  have ks := sg_self F.solid
  have kpos := abs_pos.2 F.solid
  simp only [e]
  rw [Fin.sum_univ_three] at kp kq off ⊢
  rw [Fin.sum_univ_three]
  generalize determinant3 (m.at0 b - m.at0 a) (m.at0 x - m.at0 a) w = D at *
  constructor
  · linear_combination -(sg D) * kq + sg D * kp
  · have : -(sg D * crossProd (m.at0 b - m.at0 a) (m.at0 x - m.at0 a) 0) * (m.at0 r 0 - m.at0 p 0)
        + -(sg D * crossProd (m.at0 b - m.at0 a) (m.at0 x - m.at0 a) 1) * (m.at0 r 1 - m.at0 p 1)
        + -(sg D * crossProd (m.at0 b - m.at0 a) (m.at0 x - m.at0 a) 2) * (m.at0 r 2 - m.at0 p 2) = -|D| := by
      linear_combination -(sg D) * off + sg D * kp - ks
    linarith

/-- In a mesh of parallelepipeds that are not flat and do not overlap, the normal vectors of the boundary facets, turned
away from their cells, have the sum zero, and their inner products with points of the facets sum up to three times
`volume(mesh)`. -/
theorem C106_mesh_box {st : MState (Fin 3 → ℝ)} (h : Reached (cubeTopo 3) st)
    (hno : NoOverlapBoxes st.mesh) (cell : Nat → Nat)
    (hcell : ∀ s < st.mesh.count 2, (st.isBoundary (cubeTopo 3) 2 s).2 = true →
      UsedBy (cubeTopo 3) st.mesh s (cell s)) :
    (∀ i, ∑ s ∈ Finset.range (st.mesh.count 2), (if (st.isBoundary (cubeTopo 3) 2 s).2 = true then
        outwardQuad st.mesh s (cell s) i else 0) = 0)
    ∧ ∑ s ∈ Finset.range (st.mesh.count 2), (if (st.isBoundary (cubeTopo 3) 2 s).2 = true then
        ∑ i, outwardQuad st.mesh s (cell s) i * st.mesh.at0 ((st.mesh.vertsOf 2 s).getD 0 0) i else 0)
      = 3 * st.mesh.volumeOf cornersHex 3 := by
  have hT : LibTopo (cubeTopo 3) := Or.inr (Or.inl ⟨3, rfl⟩)
  have hI := (h.inv hT.wf).inv
  have hman : ∀ s a b c, UsedBy (cubeTopo 3) st.mesh s a → UsedBy (cubeTopo 3) st.mesh s b →
      UsedBy (cubeTopo 3) st.mesh s c → a = b ∨ a = c ∨ b = c := fun _ _ _ _ ha hb hc => hno.two hI ha hb hc
  constructor
  · intro i
    have key := boundary_cells hT (by decide) h hman (fun s c => outwardQuad st.mesh s c i)
      (fun s c c' h1 h2 h3 => NormalsHex.cancel hI hno h1 h2 h3 i) cell hcell
    refine key.trans (Finset.sum_eq_zero fun c hc => ?_)
    exact (hex_cell hI hno (Finset.mem_range.1 hc)).1 i
  · have key := boundary_cells hT (by decide) h hman
      (fun s c => ∑ i, outwardQuad st.mesh s c i * st.mesh.at0 ((st.mesh.vertsOf 2 s).getD 0 0) i)
      (fun s c c' h1 h2 h3 => by
        rw [← Finset.sum_add_distrib]
        refine Finset.sum_eq_zero fun i _ => ?_
        rw [← add_mul, NormalsHex.cancel hI hno h1 h2 h3 i, zero_mul]) cell hcell
    refine key.trans ?_
    have e : ∀ c ∈ Finset.range (st.mesh.count 3), ((st.mesh.bndOf 3 c 2).map fun s =>
        ∑ i, outwardQuad st.mesh s c i * st.mesh.at0 ((st.mesh.vertsOf 2 s).getD 0 0) i).sum
        = 3 * cornersHex (st.mesh.pointsOf 3 c) := fun c hc =>
      (hex_cell hI hno (Finset.mem_range.1 hc)).2
    refine (Finset.sum_congr rfl e).trans ?_
    rw [← Finset.mul_sum, Mesh.volumeOf, foldl_add_map, zero_add, sum_range_list]

/-- A case for `C106_mesh_box`: two boxes with eleven facets, one of them inside. -/
example : Reached (cubeTopo 3) bricks ∧ NoOverlapBoxes bricks.mesh ∧ bricks.mesh.count 3 = 2 ∧ bricks.mesh.count 2 = 11 ∧
    (bricks.isBoundary (cubeTopo 3) 2 5).2 = false ∧
    ∃ cell : Nat → Nat, ∀ s < bricks.mesh.count 2, (bricks.isBoundary (cubeTopo 3) 2 s).2 = true →
      UsedBy (cubeTopo 3) bricks.mesh s (cell s) := by
  have hI := (bricks_reached.inv (cubeTopo_wf 3)).inv
  have mem : ∀ {s c}, UsedBy (cubeTopo 3) bricks.mesh s c → s ∈ bricks.mesh.bndOf 3 c 2 := fun h =>
    (mem_bndOf_iff (cubeTopo_wf 3) hI (le_refl _)).2 h
  have v2 : ∀ a b c : ℝ, (![a, b, c] : Fin 3 → ℝ) 2 = c := fun _ _ _ => rfl
  refine ⟨bricks_reached, ⟨bricks_para, fun e he => ?_, fun s c c' x y z w p p' h h' hne hv hp pn hp' pn' => ?_⟩, rfl, rfl,
    by decide +kernel, fun s => if s < 6 then 0 else 1, fun s hs _ => (mem_bndOf_iff (cubeTopo_wf 3) hI (le_refl _)).1 ?_⟩
  · rcases bricks_corners e he with h | h <;> obtain ⟨h0, h1, h2, h3, h4, h5, h6, h7⟩ := h <;>
      rw [h0, h1, h2, h4] <;> unfold determinant3 <;> norm_num [v2]
  · have hc : c < 2 := onBoundary_lt (by decide) h
    have hc' : c' < 2 := onBoundary_lt (by decide) h'
    have h0 : ∀ c < bricks.mesh.count 3, ∀ t ∈ bricks.mesh.bndOf 3 c 2, ∀ c' < bricks.mesh.count 3,
        t ∈ bricks.mesh.bndOf 3 c' 2 → c ≠ c' → t = 5 := by
      decide +kernel
    obtain rfl := h0 c hc s (mem h) c' hc' (mem h') hne
    have hv0 : bricks.mesh.vertsOf 2 5 = [4, 5, 6, 7] := rfl
    rw [hv0] at hv pn pn'
    cases hv
    have p0 : bricks.mesh.at0 0 = ![0, 0, 0] := rfl
    have p1 : bricks.mesh.at0 1 = ![2, 0, 0] := rfl
    have p2 : bricks.mesh.at0 2 = ![0, 4, 0] := rfl
    have p3 : bricks.mesh.at0 3 = ![2, 4, 0] := rfl
    have p4 : bricks.mesh.at0 4 = ![0, 0, 1] := rfl
    have p5 : bricks.mesh.at0 5 = ![2, 0, 1] := rfl
    have p6 : bricks.mesh.at0 6 = ![0, 4, 1] := rfl
    have p8 : bricks.mesh.at0 8 = ![0, 0, 4] := rfl
    have p9 : bricks.mesh.at0 9 = ![2, 0, 4] := rfl
    have p10 : bricks.mesh.at0 10 = ![0, 4, 4] := rfl
    have p11 : bricks.mesh.at0 11 = ![2, 4, 4] := rfl
    have w0 : ∀ {p}, p ∈ bricks.mesh.vertsOf 3 0 → p ∉ [4, 5, 6, 7] → offPlane bricks.mesh 4 5 6 (bricks.mesh.at0 p) = -8 := by
      intro p h n
      have : p ∈ [0, 1, 2, 3, 4, 5, 6, 7] := h
      simp only [List.mem_cons, List.not_mem_nil, or_false, not_or] at this n
      obtain rfl | rfl | rfl | rfl : p = 0 ∨ p = 1 ∨ p = 2 ∨ p = 3 := by omega
      all_goals
        unfold offPlane determinant3
        simp only [p0, p1, p2, p3, p4, p5, p6]
        norm_num [v2]
    have w1 : ∀ {p}, p ∈ bricks.mesh.vertsOf 3 1 → p ∉ [4, 5, 6, 7] → offPlane bricks.mesh 4 5 6 (bricks.mesh.at0 p) = 24 := by
      intro p h n
      have : p ∈ [4, 5, 6, 7, 8, 9, 10, 11] := h
      simp only [List.mem_cons, List.not_mem_nil, or_false, not_or] at this n
      obtain rfl | rfl | rfl | rfl : p = 8 ∨ p = 9 ∨ p = 10 ∨ p = 11 := by omega
      all_goals
        unfold offPlane determinant3
        simp only [p4, p5, p6, p8, p9, p10, p11]
        norm_num [v2]
    obtain ⟨rfl, rfl⟩ | ⟨rfl, rfl⟩ : (c = 0 ∧ c' = 1) ∨ (c = 1 ∧ c' = 0) := by omega
    · rw [w0 hp pn, w1 hp' pn']; norm_num
    · rw [w1 hp pn, w0 hp' pn']; norm_num
  · have : ∀ s < bricks.mesh.count 2, s ∈ bricks.mesh.bndOf 3 (if s < 6 then 0 else 1) 2 := by decide +kernel
    exact this s hs

end VG
