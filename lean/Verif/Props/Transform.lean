import Verif.Model.Transform
import Verif.Props.Volumes
import Mathlib.Algebra.BigOperators.Group.Finset.Sigma
import Mathlib.Algebra.BigOperators.Ring.Finset
import Mathlib.Tactic.FieldSimp

/-!
C47: centroids and transformations of a mesh.
-/

namespace VG

/-! ### What a transformation does to a mesh -/

section Mesh
variable {P : Type}

/-- Only the points change, and each vertex gets the image of its point. -/
theorem C47_transform (f : P → P) (m : Mesh P) :
    (m.transform f).elems = m.elems ∧ (m.transform f).verts.map (·.id) = m.verts.map (·.id)
    ∧ (∀ v, (m.transform f).ptOf v = (m.ptOf v).map f)
    ∧ ∀ n s, (m.transform f).pointsOf n s = (m.pointsOf n s).map f := by
  have hp : ∀ v, (m.transform f).ptOf v = (m.ptOf v).map f := by
    intro v
    simp [Mesh.ptOf, Mesh.transform, Function.comp_def]
  refine ⟨rfl, by simp [Mesh.transform, Function.comp_def], hp, fun n s => ?_⟩
  have : (m.transform f).vertsOf n s = m.vertsOf n s := rfl
  rw [Mesh.pointsOf, this, Mesh.pointsOf, List.map_filterMap]
  congr 1
  funext v
  exact hp v

theorem transform_transform (f g : P → P) (m : Mesh P) : (m.transform f).transform g = m.transform (g ∘ f) := by
  simp [Mesh.transform, Function.comp_def]

theorem transform_id (f : P → P) (h : ∀ p, f p = p) (m : Mesh P) : m.transform f = m := by
  simp [Mesh.transform, h]

end Mesh

section Field
variable {K : Type} [Field K] {d : Nat}

/-- `scale` moves each point to the center plus the factor times the difference. -/
theorem scalePoint_eq (f : K) (c p : Fin d → K) : scalePoint f c p = c + f • (p - c) := by
  funext i; simp only [scalePoint, Pi.add_apply, Pi.smul_apply, Pi.sub_apply, smul_eq_mul]; ring

theorem affinePoint_eq (M : Nat → K) (t p : Fin d → K) (i : Fin d) :
    affinePoint M t p i = (∑ j : Fin d, M (i * d + j) * p j) + t i := by
  rw [affinePoint]
  have : ∀ (l : List (Fin d)) (a : K), l.foldl (fun acc col => acc + p col * M (i * d + col)) a
      = a + (l.map fun j : Fin d => M (i * d + j) * p j).sum := by
    intro l
    induction l with
    | nil => intro a; simp
    | cons j l ih => intro a; rw [List.foldl_cons, ih, List.map_cons, List.sum_cons]; ring
  rw [this, ← finRange_sum, add_comm]

theorem foldl_points (vs : List (Fin d → K)) (a : Fin d → K) (i : Fin d) :
    (vs.foldl (fun p v => p + v) a) i = a i + (vs.map fun v => v i).sum := by
  induction vs generalizing a with
  | nil => simp
  | cons v vs ih => rw [List.foldl_cons, ih, Pi.add_apply, List.map_cons, List.sum_cons]; ring

/-- The centroid of an element is the mean of its vertices. -/
theorem C47_centroid_mean (vs : List (Fin d → K)) (i : Fin d) :
    centroid vs i = (vs.map fun v => v i).sum / vs.length := by
  rw [centroid, foldl_points]; simp [div_eq_mul_inv]

/-- Scaling a mesh by `f` and then by `1 / f` with the same center gives the original mesh. -/
theorem C47_scale_back (f : K) (hf : f ≠ 0) (c : Fin d → K) (m : Mesh (Fin d → K)) :
    (m.scale f c).scale (1 / f) c = m := by
  rw [Mesh.scale, Mesh.scale, transform_transform]
  refine transform_id _ (fun p => ?_) m
  funext i
  simp only [Function.comp, scalePoint]
  field_simp
  ring

/-- The same about the origin, and scalings compose. -/
theorem C47_scale_origin (f g : K) (m : Mesh (Fin d → K)) :
    (m.scaleOrigin f).scaleOrigin g = m.scaleOrigin (g * f) ∧ (f ≠ 0 → (m.scaleOrigin f).scaleOrigin (1 / f) = m) := by
  refine ⟨?_, fun hf => C47_scale_back f hf 0 m⟩
  rw [Mesh.scaleOrigin, Mesh.scaleOrigin, Mesh.scaleOrigin, Mesh.scale, Mesh.scale, transform_transform, Mesh.scale]
  congr 1
  funext p i
  simp only [Function.comp, scalePoint, Pi.zero_apply]
  ring

/-- An affine map followed by the one with the inverse matrix and the matching translation gives the original mesh. -/
theorem C47_affine_back (M N : Nat → K) (t : Fin d → K)
    (h : ∀ i k : Fin d, ∑ j : Fin d, N (i * d + j) * M (j * d + k) = if i = k then 1 else 0) (m : Mesh (Fin d → K)) :
    (m.affine M t).affine N (fun i => -∑ j : Fin d, N (i * d + j) * t j) = m := by
  rw [Mesh.affine, Mesh.affine, transform_transform]
  refine transform_id _ (fun p => ?_) m
  funext i
  simp only [Function.comp]
  rw [affinePoint_eq]
  have h1 : ∑ j : Fin d, N (i * d + j) * affinePoint M t p j
      = (∑ j : Fin d, ∑ k : Fin d, N (i * d + j) * M (j * d + k) * p k) + ∑ j : Fin d, N (i * d + j) * t j := by
    rw [← Finset.sum_add_distrib]
    refine Finset.sum_congr rfl fun j _ => ?_
    rw [affinePoint_eq, mul_add, Finset.mul_sum]
    congr 1
    exact Finset.sum_congr rfl fun k _ => by ring
  rw [h1, Finset.sum_comm]
  simp only [← Finset.sum_mul, h]
  simp

/-- An affine map of the mesh maps the centroid of each element that has vertices. -/
theorem C47_centroid_affine [CharZero K] (M : Nat → K) (t : Fin d → K) (m : Mesh (Fin d → K)) (n s : Nat)
    (hne : m.pointsOf n s ≠ []) :
    (m.affine M t).centroidOf n s = affinePoint M t (m.centroidOf n s) := by
  rw [Mesh.centroidOf, Mesh.affine, (C47_transform _ m).2.2.2, Mesh.centroidOf]
  generalize m.pointsOf n s = vs at hne
  have hl : (vs.length : K) ≠ 0 := by
    rw [Nat.cast_ne_zero]; intro h; exact hne (List.length_eq_zero_iff.1 h)
  funext i
  rw [C47_centroid_mean, affinePoint_eq, List.length_map]
  have hs : ((vs.map (affinePoint M t)).map fun v => v i).sum
      = (∑ j : Fin d, M (i * d + j) * (vs.map fun v => v j).sum) + vs.length * t i := by
    clear hne hl
    induction vs with
    | nil => simp
    | cons v vs ih =>
      simp only [List.map_cons, List.sum_cons, List.length_cons]
      rw [ih, affinePoint_eq]
      simp only [mul_add, Finset.sum_add_distrib]
      push_cast
      ring
  rw [hs, add_div, mul_div_cancel_left₀ _ hl, div_eq_mul_inv, Finset.sum_mul]
  congr 1
  exact Finset.sum_congr rfl fun j _ => by rw [C47_centroid_mean]; ring

/-- Scaling the mesh maps the centroid of each element that has vertices. -/
theorem C47_centroid_scale [CharZero K] (f : K) (c : Fin d → K) (m : Mesh (Fin d → K)) (n s : Nat)
    (hne : m.pointsOf n s ≠ []) : (m.scale f c).centroidOf n s = scalePoint f c (m.centroidOf n s) := by
  rw [Mesh.centroidOf, Mesh.scale, (C47_transform _ m).2.2.2, Mesh.centroidOf]
  generalize m.pointsOf n s = vs at hne
  have hl : (vs.length : K) ≠ 0 := by
    rw [Nat.cast_ne_zero]; intro h; exact hne (List.length_eq_zero_iff.1 h)
  funext i
  have hs : ((vs.map (scalePoint f c)).map fun v => v i).sum
      = f * (vs.map fun v => v i).sum + vs.length * (c i - f * c i) := by
    clear hne hl
    induction vs with
    | nil => simp
    | cons v vs ih =>
      simp only [List.map_cons, List.sum_cons, List.length_cons]
      rw [ih]
      simp only [scalePoint]
      push_cast
      ring
  rw [C47_centroid_mean, List.length_map, hs, add_div, mul_div_cancel_left₀ _ hl, scalePoint, C47_centroid_mean]
  ring

end Field

/-! ### Volumes -/

section Volume
variable {K : Type} [Field K] [LinearOrder K] [IsStrictOrderedRing K]

/-- Determinants of row major matrices. -/
def matDet2 (M : Nat → K) : K := M 0 * M 3 - M 1 * M 2

/-- See `matDet2`. -/
def matDet3 (M : Nat → K) : K :=
  M 0 * (M 4 * M 8 - M 5 * M 7) - M 1 * (M 3 * M 8 - M 5 * M 6) + M 2 * (M 3 * M 7 - M 4 * M 6)

omit [LinearOrder K] [IsStrictOrderedRing K] in
theorem affine2 (M : Nat → K) (t p : Fin 2 → K) :
    affinePoint M t p 0 = M 0 * p 0 + M 1 * p 1 + t 0 ∧ affinePoint M t p 1 = M 2 * p 0 + M 3 * p 1 + t 1 := by
  constructor <;> rw [affinePoint_eq] <;> simp [Fin.sum_univ_two]

omit [LinearOrder K] [IsStrictOrderedRing K] in
theorem affine3 (M : Nat → K) (t p : Fin 3 → K) :
    affinePoint M t p 0 = M 0 * p 0 + M 1 * p 1 + M 2 * p 2 + t 0
    ∧ affinePoint M t p 1 = M 3 * p 0 + M 4 * p 1 + M 5 * p 2 + t 1
    ∧ affinePoint M t p 2 = M 6 * p 0 + M 7 * p 1 + M 8 * p 2 + t 2 := by
  refine ⟨?_, ?_, ?_⟩ <;> rw [affinePoint_eq] <;> simp [Fin.sum_univ_three]

omit [LinearOrder K] [IsStrictOrderedRing K] in
theorem signedTriangle_affine (M : Nat → K) (t a b c : Fin 2 → K) :
    signedTriangle (affinePoint M t a) (affinePoint M t b) (affinePoint M t c) = matDet2 M * signedTriangle a b c := by
  simp only [signedTriangle, (affine2 M t _).1, (affine2 M t _).2, matDet2]
  ring

omit [LinearOrder K] [IsStrictOrderedRing K] in
theorem signedTetrahedron_affine (M : Nat → K) (t a b c e : Fin 3 → K) :
    signedTetrahedron (affinePoint M t a) (affinePoint M t b) (affinePoint M t c) (affinePoint M t e)
      = matDet3 M * signedTetrahedron a b c e := by
  simp only [signedTetrahedron, innerProd3, crossProd_zero, crossProd_one, crossProd_two, Pi.sub_apply,
    (affine3 M t _).1, (affine3 M t _).2.1, (affine3 M t _).2.2, matDet3]
  ring

omit [LinearOrder K] [IsStrictOrderedRing K] in
theorem fanLoop_affine (M : Nat → K) (t o : Fin 2 → K) (l : List (Fin 2 → K)) (acc : K) :
    fanLoop signedTriangle (affinePoint M t o) (matDet2 M * acc) (l.map (affinePoint M t))
      = matDet2 M * fanLoop signedTriangle o acc l := by
  induction l generalizing acc with
  | nil => simp [fanLoop]
  | cons p l ih =>
    cases l with
    | nil => simp [fanLoop]
    | cons q l =>
      have := ih (acc + signedTriangle o p q)
      simp only [List.map_cons] at this ⊢
      rw [fanLoop, signedTriangle_affine, ← mul_add, this, fanLoop]

/-- Affine maps multiply the volumes of all planar elements in the plane and of all solid elements in space by the
absolute value of the determinant. -/
theorem C47_volume (M : Nat → K) (t2 : Fin 2 → K) (t3 : Fin 3 → K) :
    (∀ a b c, spannedTriangle (affinePoint M t2 a) (affinePoint M t2 b) (affinePoint M t2 c)
      = |matDet2 M| * spannedTriangle a b c)
    ∧ (∀ p : Nat → Fin 2 → K, volumeQuad (fun i => affinePoint M t2 (p i)) = |matDet2 M| * volumeQuad p)
    ∧ (∀ l : List (Fin 2 → K), ∀ o o', volumePolygon signedTriangle o (l.map (affinePoint M t2))
      = |matDet2 M| * volumePolygon signedTriangle o' l)
    ∧ (∀ a b c e, spannedTetrahedron (affinePoint M t3 a) (affinePoint M t3 b) (affinePoint M t3 c) (affinePoint M t3 e)
      = |matDet3 M| * spannedTetrahedron a b c e)
    ∧ ∀ p : Nat → Fin 3 → K, volumeHex (fun i => affinePoint M t3 (p i)) = |matDet3 M| * volumeHex p := by
  have h1 : ∀ a b c, spannedTriangle (affinePoint M t2 a) (affinePoint M t2 b) (affinePoint M t2 c)
      = |matDet2 M| * spannedTriangle a b c := by
    intro a b c
    rw [spannedTriangle, signedTriangle_affine, abs_mul, spannedTriangle]
  have h2 : ∀ a b c e, spannedTetrahedron (affinePoint M t3 a) (affinePoint M t3 b) (affinePoint M t3 c)
      (affinePoint M t3 e) = |matDet3 M| * spannedTetrahedron a b c e := by
    intro a b c e
    rw [spannedTetrahedron, signedTetrahedron_affine, abs_mul, spannedTetrahedron]
  refine ⟨h1, fun p => ?_, fun l o o' => ?_, h2, fun p => ?_⟩
  · simp only [volumeQuad, h1]; ring
  · rw [C56_shoelace, ← C56_shoelace (affinePoint M t2 o'), C56_shoelace o', ← C56_shoelace o']
    cases l with
    | nil => simp [volumePolygon]
    | cons a l =>
      have hf := fanLoop_affine M t2 o' (a :: l) 0
      have hl : ((a :: l).map (affinePoint M t2)).getLastD (affinePoint M t2 a)
          = affinePoint M t2 ((a :: l).getLastD a) := by
        have : ∀ (b : Fin 2 → K) (l : List (Fin 2 → K)),
            (l.map (affinePoint M t2)).getLastD (affinePoint M t2 b) = affinePoint M t2 (l.getLastD b) := by
          intro b l
          induction l generalizing b with
          | nil => rfl
          | cons c l ih => rw [List.map_cons, List.getLastD_cons, List.getLastD_cons, ih]
        exact this a (a :: l)
      simp only [List.map_cons, mul_zero] at hf hl ⊢
      simp only [volumePolygon, List.length_cons, List.length_map]
      split
      · simp
      · rw [hf, hl, signedTriangle_affine, ← mul_add, abs_mul]
  · simp only [volumeHex, h2]; ring

/-- Scaling by `f` multiplies areas by `f²` and volumes by `|f|³`. -/
theorem C47_volume_scale (f : K) (c2 : Fin 2 → K) (c3 : Fin 3 → K) :
    (∀ a b c, spannedTriangle (scalePoint f c2 a) (scalePoint f c2 b) (scalePoint f c2 c) = f ^ 2 * spannedTriangle a b c)
    ∧ ∀ a b c e, spannedTetrahedron (scalePoint f c3 a) (scalePoint f c3 b) (scalePoint f c3 c) (scalePoint f c3 e)
      = |f| ^ 3 * spannedTetrahedron a b c e := by
  refine ⟨fun a b c => ?_, fun a b c e => ?_⟩
  · rw [spannedTriangle, spannedTriangle, ← abs_of_nonneg (sq_nonneg f), ← abs_mul]
    congr 1
    simp only [signedTriangle, scalePoint]; ring
  · rw [spannedTetrahedron, spannedTetrahedron, ← abs_pow, ← abs_mul]
    congr 1
    simp only [signedTetrahedron, innerProd3, crossProd_zero, crossProd_one, crossProd_two, Pi.sub_apply, scalePoint]
    ring

end Volume

/-! ### The centroid of a mesh -/

section CentroidMesh
variable {K : Type} [Field K] {d : Nat}

theorem centroidMesh_fold (vol : List (Fin d → K) → K) (m : Mesh (Fin d → K)) (n : Nat) (l : List Nat) :
    ∀ a : (Fin d → K) × K, ∀ i, (l.foldl
      (fun acc t => (acc.1 + vol (m.pointsOf n t) • m.centroidOf n t, acc.2 + vol (m.pointsOf n t))) a).1 i
      = a.1 i + (l.map fun t => vol (m.pointsOf n t) * m.centroidOf n t i).sum
    ∧ (l.foldl (fun acc t => (acc.1 + vol (m.pointsOf n t) • m.centroidOf n t, acc.2 + vol (m.pointsOf n t))) a).2
      = a.2 + (l.map fun t => vol (m.pointsOf n t)).sum := by
  induction l with
  | nil => intro a i; simp
  | cons t l ih =>
    intro a i
    rw [List.foldl_cons]
    obtain ⟨h1, h2⟩ := ih (a.1 + vol (m.pointsOf n t) • m.centroidOf n t, a.2 + vol (m.pointsOf n t)) i
    rw [h1, h2]
    simp only [Pi.add_apply, Pi.smul_apply, smul_eq_mul, List.map_cons, List.sum_cons]
    exact ⟨by ring, by ring⟩

/-- The centroid of a mesh is the mean of the centroids of its cells weighted by their volumes. -/
theorem C47_centroid_mesh (vol : List (Fin d → K) → K) (m : Mesh (Fin d → K)) (n : Nat) (i : Fin d) :
    m.centroidMesh vol n i
      = ((List.range (m.count n)).map fun t => vol (m.pointsOf n t) * m.centroidOf n t i).sum
        / ((List.range (m.count n)).map fun t => vol (m.pointsOf n t)).sum := by
  obtain ⟨h1, h2⟩ := centroidMesh_fold vol m n (List.range (m.count n)) (0, 0) i
  simp only [Mesh.centroidMesh]
  rw [h1, h2]
  simp

/-- If an affine map multiplies the volumes of all cells by a nonzero number, as in `C47_volume`, it maps the centroid
of a mesh of nonzero volume. -/
theorem C47_centroid_mesh_affine [CharZero K] (vol : List (Fin d → K) → K) (m : Mesh (Fin d → K)) (n : Nat)
    (M : Nat → K) (t : Fin d → K) (D : K) (hD : D ≠ 0)
    (hvol : ∀ s < m.count n, vol ((m.pointsOf n s).map (affinePoint M t)) = D * vol (m.pointsOf n s))
    (hne : ∀ s < m.count n, m.pointsOf n s ≠ [])
    (hv : ((List.range (m.count n)).map fun s => vol (m.pointsOf n s)).sum ≠ 0) :
    (m.affine M t).centroidMesh vol n = affinePoint M t (m.centroidMesh vol n) := by
  have hc : (m.affine M t).count n = m.count n := by simp [Mesh.count, Mesh.affine, Mesh.transform]
  have hp : ∀ s, (m.affine M t).pointsOf n s = (m.pointsOf n s).map (affinePoint M t) := (C47_transform _ m).2.2.2 n
  funext i
  rw [C47_centroid_mesh, hc, affinePoint_eq]
  have key : ∀ l : List Nat, (∀ s ∈ l, s < m.count n) →
      (l.map fun s => vol ((m.affine M t).pointsOf n s) * (m.affine M t).centroidOf n s i).sum
        = D * ((∑ j : Fin d, M (i * d + j) * (l.map fun s => vol (m.pointsOf n s) * m.centroidOf n s j).sum)
          + t i * (l.map fun s => vol (m.pointsOf n s)).sum)
      ∧ (l.map fun s => vol ((m.affine M t).pointsOf n s)).sum = D * (l.map fun s => vol (m.pointsOf n s)).sum := by
    intro l
    induction l with
    | nil => intro _; simp
    | cons s l ih =>
      intro hl
      obtain ⟨h1, h2⟩ := ih fun s' hs' => hl s' (List.mem_cons_of_mem _ hs')
      have hs := hl s (by simp)
      simp only [List.map_cons, List.sum_cons]
      rw [h1, h2, hp, hvol s hs, C47_centroid_affine M t m n s (hne s hs), affinePoint_eq]
      refine ⟨?_, by ring⟩
      simp only [mul_add, Finset.sum_add_distrib, Finset.mul_sum]
      have : ∑ j : Fin d, D * (M (i * d + j) * (vol (m.pointsOf n s) * m.centroidOf n s j))
          = ∑ j : Fin d, D * vol (m.pointsOf n s) * (M (i * d + j) * m.centroidOf n s j) :=
        Finset.sum_congr rfl fun j _ => by ring
      rw [this]
      ring
  obtain ⟨h1, h2⟩ := key (List.range (m.count n)) fun s hs => List.mem_range.1 hs
  rw [h1, h2, mul_div_mul_left _ _ hD, add_div, mul_div_cancel_right₀ _ hv, div_eq_mul_inv, Finset.sum_mul]
  congr 1
  exact Finset.sum_congr rfl fun j _ => by rw [C47_centroid_mesh]; ring

end CentroidMesh

/-- Two triangles with the points of a unit square. -/
def squareMesh : Mesh (Fin 2 → Rat) :=
  (Mesh.empty.run (simplexTopo 2) [.vertex none ![0, 0], .vertex none ![1, 0], .vertex none ![0, 1], .vertex none ![1, 1],
    .elem 2 [0, 1, 2], .elem 2 [1, 3, 2]]).getD Mesh.empty

/-- Area of a triangle given by the list of its points. -/
def triVol (l : List (Fin 2 → Rat)) : Rat := spannedTriangle (l.getD 0 0) (l.getD 1 0) (l.getD 2 0)

/-- The hypotheses of `C47_centroid_mesh_affine` hold for a mesh of two triangles and a shear with stretching. -/
example : let M : Nat → Rat := fun i => [2, 1, 0, 3].getD i 0
    (∀ s < squareMesh.count 2, triVol ((squareMesh.pointsOf 2 s).map (affinePoint M ![5, 7]))
      = |matDet2 M| * triVol (squareMesh.pointsOf 2 s))
    ∧ |matDet2 M| ≠ 0 ∧ (∀ s < squareMesh.count 2, squareMesh.pointsOf 2 s ≠ [])
    ∧ ((List.range (squareMesh.count 2)).map fun s => triVol (squareMesh.pointsOf 2 s)).sum ≠ 0
    ∧ squareMesh.centroidMesh triVol 2 0 = 1 / 2 := by decide +kernel

/-- The hypothesis of `C47_affine_back` holds for this matrix and its inverse. -/
example : ∀ i k : Fin 2, ∑ j : Fin 2, ([1 / 2, -1 / 6, 0, 1 / 3] : List Rat).getD (i * 2 + j) 0
    * ([2, 1, 0, 3] : List Rat).getD (j * 2 + k) 0 = if i = k then 1 else 0 := by decide +kernel

end VG
