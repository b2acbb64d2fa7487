import Verif.Props.Inclusion
import Verif.Model.GeometryReal
import Mathlib.Data.List.Rotate
import Mathlib.Algebra.BigOperators.Group.List.Basic

/-!
C45, C46, C56: volumes of triangles, quadrilaterals, hexahedra and polygons.
-/

namespace VG

/-! ### C56: polygons in the plane -/

section Polygon
variable {K : Type} [Field K] [LinearOrder K] [IsStrictOrderedRing K]

/-- The signed area by the shoelace formula: half the sum of `x_i y_(i+1) - x_(i+1) y_i` over all corners, the first
one following the last one. -/
def shoelace (l : List (Fin 2 → K)) : K :=
  ((l.zip (l.rotate 1)).map fun e => e.1 0 * e.2 1 - e.2 0 * e.1 1).sum / 2

/-- Sum of `x_i y_(i+1) - x_(i+1) y_i` along an open path. -/
def pathSum : List (Fin 2 → K) → K
  | p :: q :: l => (p 0 * q 1 - q 0 * p 1) + pathSum (q :: l)
  | _ => 0

omit [LinearOrder K] [IsStrictOrderedRing K] in
theorem zip_sum (a b : Fin 2 → K) (l : List (Fin 2 → K)) :
    (((a :: l).zip (l ++ [b])).map fun e => e.1 0 * e.2 1 - e.2 0 * e.1 1).sum
      = pathSum (a :: l) + (((a :: l).getLastD b) 0 * b 1 - b 0 * ((a :: l).getLastD b) 1) := by
  induction l generalizing a with
  | nil => simp [pathSum]
  | cons c l ih =>
    rw [List.cons_append, List.zip_cons_cons, List.map_cons, List.sum_cons, ih c]
    simp only [pathSum, List.getLastD_cons]
    cases l <;> simp <;> ring

omit [LinearOrder K] [IsStrictOrderedRing K] in
theorem shoelace_cons (a : Fin 2 → K) (l : List (Fin 2 → K)) :
    shoelace (a :: l) = (pathSum (a :: l) + (((a :: l).getLastD a) 0 * a 1 - a 0 * ((a :: l).getLastD a) 1)) / 2 := by
  rw [shoelace, show (a :: l).rotate 1 = l ++ [a] by simp, zip_sum]

omit [LinearOrder K] [IsStrictOrderedRing K] in
theorem fanLoop_eq (o : Fin 2 → K) (acc : K) (a : Fin 2 → K) (l : List (Fin 2 → K)) :
    fanLoop signedTriangle o acc (a :: l) = acc + (pathSum (a :: l)
      + ((o 0 * a 1 - a 0 * o 1) - (o 0 * ((a :: l).getLastD a) 1 - ((a :: l).getLastD a) 0 * o 1))) / 2 := by
  induction l generalizing a acc with
  | nil => simp [fanLoop, pathSum]
  | cons c l ih =>
    rw [fanLoop, ih]
    have e : (a :: c :: l).getLastD a = (c :: l).getLastD c := by
      rw [List.getLastD_cons, List.getLastD_cons, List.getLastD_cons]
    rw [e]
    simp only [pathSum, signedTriangle]
    ring

/-- The volume of a polygon in the plane is the absolute value of the shoelace formula.  This holds for any point as
`origin`, so it does not matter that the code takes the point stored in the first vertex and not the accessor's. -/
theorem C56_shoelace (origin : Fin 2 → K) (l : List (Fin 2 → K)) :
    volumePolygon signedTriangle origin l = |shoelace l| := by
  cases l with
  | nil => simp [volumePolygon, shoelace]
  | cons a l =>
    simp only [volumePolygon]
    split
    · rename_i h
      cases l with
      | nil => simp [shoelace]
      | cons b l =>
        cases l with
        | nil => rw [shoelace_cons]; simp [pathSum]
        | cons c l => simp only [List.length_cons] at h; omega
    · rw [shoelace_cons, fanLoop_eq]
      congr 1
      simp only [signedTriangle]
      ring

omit [LinearOrder K] [IsStrictOrderedRing K] in
theorem shoelace_rotate_one (l : List (Fin 2 → K)) : shoelace (l.rotate 1) = shoelace l := by
  cases l with
  | nil => simp
  | cons a l =>
    cases l with
    | nil => simp
    | cons b l =>
      have e1 : (a :: b :: l).rotate 1 = b :: (l ++ [a]) := by simp
      have e2 : (b :: (l ++ [a])).rotate 1 = (l ++ [a]) ++ [b] := by simp
      rw [shoelace, shoelace, e1, e2, List.append_assoc]
      have e3 : (b :: (l ++ [a])).zip (l ++ ([a] ++ [b])) = (b :: l).zip (l ++ [a]) ++ [(a, b)] := by
        rw [← List.cons_append, ← List.append_assoc, List.zip_append (by simp)]; rfl
      rw [e3, List.zip_cons_cons, List.map_append, List.sum_append, List.map_cons, List.sum_cons]
      simp
      ring

omit [LinearOrder K] [IsStrictOrderedRing K] in
theorem pathSum_append (l : List (Fin 2 → K)) (p : Fin 2 → K) :
    ∀ a, pathSum (a :: l ++ [p]) = pathSum (a :: l)
      + (((a :: l).getLastD a) 0 * p 1 - p 0 * ((a :: l).getLastD a) 1) := by
  induction l with
  | nil => intro a; simp [pathSum]
  | cons c l ih =>
    intro a
    have := ih c
    rw [List.cons_append] at this ⊢
    simp only [List.cons_append] at this ⊢
    rw [pathSum, this, pathSum]
    have e : (a :: c :: l).getLastD a = (c :: l).getLastD c := by
      rw [List.getLastD_cons, List.getLastD_cons, List.getLastD_cons]
    rw [e]; ring

omit [LinearOrder K] [IsStrictOrderedRing K] in
theorem pathSum_reverse (l : List (Fin 2 → K)) : pathSum l.reverse = -pathSum l := by
  induction l with
  | nil => simp [pathSum]
  | cons a l ih =>
    cases l with
    | nil => simp [pathSum]
    | cons b l =>
      rw [List.reverse_cons, pathSum]
      obtain ⟨c, m, hm⟩ : ∃ c m, (b :: l).reverse = c :: m := by
        cases h : (b :: l).reverse with
        | nil => simp at h
        | cons c m => exact ⟨c, m, rfl⟩
      rw [hm, pathSum_append, ← hm, ih]
      have : (b :: l).reverse.getLastD c = b := by simp
      rw [this]; ring

omit [LinearOrder K] [IsStrictOrderedRing K] in
theorem shoelace_reverse (l : List (Fin 2 → K)) : shoelace l.reverse = -shoelace l := by
  cases l with
  | nil => simp [shoelace]
  | cons a l =>
    obtain ⟨c, m, hm⟩ : ∃ c m, (a :: l).reverse = c :: m := by
      cases h : (a :: l).reverse with
      | nil => simp at h
      | cons c m => exact ⟨c, m, rfl⟩
    rw [hm, shoelace_cons, ← hm, pathSum_reverse, shoelace_cons]
    have h1 : (a :: l).reverse.getLastD c = a := by simp
    have h2 : (a :: l).getLastD a = c := by
      have : a :: l = (c :: m).reverse := by rw [← hm, List.reverse_reverse]
      rw [this]; simp
    rw [h1, h2]; ring

omit [LinearOrder K] [IsStrictOrderedRing K] in
theorem pathSum_translate (v : Fin 2 → K) (l : List (Fin 2 → K)) :
    ∀ a, pathSum ((a :: l).map (v + ·)) = pathSum (a :: l)
      + (v 0 * (((a :: l).getLastD a) 1 - a 1) - v 1 * (((a :: l).getLastD a) 0 - a 0)) := by
  induction l with
  | nil => intro a; simp [pathSum]
  | cons c l ih =>
    intro a
    have := ih c
    simp only [List.map_cons] at this ⊢
    rw [pathSum, this, pathSum]
    have e : (a :: c :: l).getLastD a = (c :: l).getLastD c := by
      rw [List.getLastD_cons, List.getLastD_cons, List.getLastD_cons]
    rw [e]
    simp only [Pi.add_apply]
    ring

omit [LinearOrder K] [IsStrictOrderedRing K] in
theorem getLastD_map_translate (v : Fin 2 → K) (l : List (Fin 2 → K)) (a b : Fin 2 → K) :
    ((a :: l).map (v + ·)).getLastD (v + b) = v + (a :: l).getLastD b := by
  induction l generalizing a with
  | nil => simp
  | cons c l ih => simpa [List.getLastD_cons] using ih c

omit [LinearOrder K] [IsStrictOrderedRing K] in
theorem shoelace_translate (v : Fin 2 → K) (l : List (Fin 2 → K)) : shoelace (l.map (v + ·)) = shoelace l := by
  cases l with
  | nil => simp
  | cons a l =>
    have h := getLastD_map_translate v l a a
    have hp := pathSum_translate v l a
    rw [List.map_cons] at h hp ⊢
    rw [shoelace_cons, hp, h, shoelace_cons]
    simp only [Pi.add_apply]
    ring

/-- The volume does not depend on the vertex the list starts with, the direction, the position, or the origin used. -/
theorem C56_invariant (origin origin' v : Fin 2 → K) (n : Nat) (l : List (Fin 2 → K)) :
    volumePolygon signedTriangle origin (l.rotate n) = volumePolygon signedTriangle origin' l
    ∧ volumePolygon signedTriangle origin l.reverse = volumePolygon signedTriangle origin' l
    ∧ volumePolygon signedTriangle origin (l.map (v + ·)) = volumePolygon signedTriangle origin' l := by
  simp only [C56_shoelace]
  refine ⟨?_, ?_, ?_⟩
  · congr 1
    induction n generalizing l with
    | zero => simp
    | succ n ih => rw [← List.rotate_rotate, shoelace_rotate_one, ih]
  · rw [shoelace_reverse, abs_neg]
  · rw [shoelace_translate]

/-- An L-shaped polygon of area 3. -/
example : volumePolygon signedTriangle (![5, 5] : Fin 2 → Rat)
    [![0, 0], ![2, 0], ![2, 1], ![1, 1], ![1, 2], ![0, 2]] = 3 := by decide +kernel

end Polygon

/-! ### C45: triangles and quadrilaterals -/

section Quad
variable {K : Type} [Field K] [LinearOrder K] [IsStrictOrderedRing K]

/-- The area of a triangle in the plane: half the absolute determinant of two edges, hence invariant under
translation and exchange of corners; it grows with the square of a scaling. -/
theorem C45_triangle (A B C v : Fin 2 → K) (f : K) :
    spannedTriangle A B C = |(B 0 - A 0) * (C 1 - A 1) - (C 0 - A 0) * (B 1 - A 1)| / 2
    ∧ spannedTriangle (v + A) (v + B) (v + C) = spannedTriangle A B C
    ∧ spannedTriangle B A C = spannedTriangle A B C ∧ spannedTriangle A C B = spannedTriangle A B C
    ∧ spannedTriangle (f • A) (f • B) (f • C) = f ^ 2 * spannedTriangle A B C := by
  have h2 : (0 : K) < 2 := by norm_num
  refine ⟨?_, ?_, ?_, ?_, ?_⟩
  · rw [spannedTriangle, signedTriangle, abs_div, abs_of_pos h2]
    congr 2; ring
  · simp only [spannedTriangle, signedTriangle, Pi.add_apply]; congr 1; ring
  · rw [spannedTriangle, spannedTriangle, ← abs_neg]; congr 1; simp only [signedTriangle]; ring
  · rw [spannedTriangle, spannedTriangle, ← abs_neg]; congr 1; simp only [signedTriangle]; ring
  · rw [spannedTriangle, spannedTriangle, ← abs_of_nonneg (sq_nonneg f), ← abs_mul]
    congr 1
    simp only [signedTriangle, Pi.smul_apply, smul_eq_mul]; ring

/-- The corners 0, 1, 3, 2 in this order go around a convex quadrilateral: the four triangles cut off by the
diagonals have the same orientation.  This is the numbering of the library, in which the edges of the quadrilateral
are (0,1), (0,2), (1,3), (2,3) (C07). -/
def ConvexLexQuad (p : Nat → Fin 2 → K) : Prop :=
  0 < signedTriangle (p 0) (p 1) (p 3) ∧ 0 < signedTriangle (p 0) (p 3) (p 2)
  ∧ 0 < signedTriangle (p 0) (p 1) (p 2) ∧ 0 < signedTriangle (p 1) (p 3) (p 2)

/-- The library's formula assumes the corners in cyclic order; in the library's own numbering it is wrong.  For the
convex quadrilateral with corners (0,0), (1,0), (0,1), (2,2) it gives 5/2 instead of 2. -/
theorem C45_violated :
    let p : Nat → Fin 2 → Rat := fun i => ([![0, 0], ![1, 0], ![0, 1], ![2, 2]] : List (Fin 2 → Rat)).getD i 0
    ConvexLexQuad p ∧ |shoelace [p 0, p 1, p 3, p 2]| = 2
    ∧ spannedTriangle (p 0) (p 1) (p 3) + spannedTriangle (p 0) (p 3) (p 2) = 2
    ∧ spannedTriangle (p 0) (p 1) (p 2) + spannedTriangle (p 1) (p 3) (p 2) = 2
    ∧ volumeQuad p = 5 / 2 := by
  refine ⟨?_, ?_, ?_, ?_, ?_⟩
  · refine ⟨?_, ?_, ?_, ?_⟩ <;> decide +kernel
  all_goals decide +kernel

/-- The result is right if the edge from corner 0 to corner 1 is parallel to the one from corner 2 to corner 3, in
particular for parallelograms. -/
theorem C45_trapezoid_partial (p : Nat → Fin 2 → K) (hc : ConvexLexQuad p)
    (hp : (p 1 0 - p 0 0) * (p 3 1 - p 2 1) - (p 1 1 - p 0 1) * (p 3 0 - p 2 0) = 0) :
    volumeQuad p = spannedTriangle (p 0) (p 1) (p 3) + spannedTriangle (p 0) (p 3) (p 2)
    ∧ volumeQuad p = |shoelace [p 0, p 1, p 3, p 2]| := by
  obtain ⟨h1, h2, h3, h4⟩ := hc
  have e : spannedTriangle (p 1) (p 2) (p 3) = spannedTriangle (p 0) (p 3) (p 2) := by
    rw [spannedTriangle, spannedTriangle, ← abs_neg]
    congr 1
    simp only [signedTriangle]
    linear_combination (1 / 2 : K) * hp
  refine ⟨by rw [volumeQuad, e], ?_⟩
  rw [volumeQuad, e, spannedTriangle, spannedTriangle, abs_of_pos h1, abs_of_pos h2]
  have hs : shoelace [p 0, p 1, p 3, p 2] = signedTriangle (p 0) (p 1) (p 3) + signedTriangle (p 0) (p 3) (p 2) := by
    rw [shoelace_cons]
    simp only [pathSum, signedTriangle, List.getLastD_cons, List.getLastD_nil]
    ring
  rw [hs, abs_of_pos (add_pos h1 h2)]

/-- The result is right for convex quadrilaterals with the corners in cyclic order. -/
theorem C45_cyclic_partial (p : Nat → Fin 2 → K)
    (h1 : 0 ≤ signedTriangle (p 0) (p 1) (p 3)) (h2 : 0 ≤ signedTriangle (p 1) (p 2) (p 3)) :
    volumeQuad p = |shoelace [p 0, p 1, p 2, p 3]| := by
  have hs : shoelace [p 0, p 1, p 2, p 3] = signedTriangle (p 0) (p 1) (p 3) + signedTriangle (p 1) (p 2) (p 3) := by
    rw [shoelace_cons]
    simp only [pathSum, signedTriangle, List.getLastD_cons, List.getLastD_nil]
    ring
  rw [hs, abs_of_nonneg (add_nonneg h1 h2), volumeQuad, spannedTriangle, spannedTriangle, abs_of_nonneg h1,
    abs_of_nonneg h2]

/-- A trapezoid in the library's numbering. -/
example : let p : Nat → Fin 2 → Rat := fun i => ([![0, 0], ![3, 0], ![1, 1], ![2, 1]] : List (Fin 2 → Rat)).getD i 0
    ConvexLexQuad p ∧ (p 1 0 - p 0 0) * (p 3 1 - p 2 1) - (p 1 1 - p 0 1) * (p 3 0 - p 2 0) = 0
    ∧ volumeQuad p = 2 := by
  refine ⟨⟨?_, ?_, ?_, ?_⟩, ?_, ?_⟩ <;> decide +kernel

end Quad

/-- Triangles in space: half the length of the cross product of two edges, so that the square of the area is a quarter
of the Gram determinant; invariant under translation and exchange of corners, and it grows with the square of a
scaling. -/
theorem C45_triangle_space (A B C v : Fin 3 → ℝ) (f : ℝ) :
    0 ≤ spannedTriangle3 A B C
    ∧ 4 * spannedTriangle3 A B C ^ 2
        = (∑ i, (B i - A i) ^ 2) * (∑ i, (C i - A i) ^ 2) - (∑ i, (B i - A i) * (C i - A i)) ^ 2
    ∧ spannedTriangle3 (v + A) (v + B) (v + C) = spannedTriangle3 A B C
    ∧ spannedTriangle3 B A C = spannedTriangle3 A B C ∧ spannedTriangle3 A C B = spannedTriangle3 A B C
    ∧ spannedTriangle3 (f • A) (f • B) (f • C) = f ^ 2 * spannedTriangle3 A B C := by
  have key : ∀ A B C : Fin 3 → ℝ, spannedTriangle3 A B C
      = √((∑ i, (B i - A i) ^ 2) * (∑ i, (C i - A i) ^ 2) - (∑ i, (B i - A i) * (C i - A i)) ^ 2) / 2 := by
    intro A B C
    rw [spannedTriangle3, signedTriangle3, euclNorm, sumSquares_eq, abs_of_nonneg (by positivity)]
    congr 2
    simp only [innerProd3, crossProd_zero, crossProd_one, crossProd_two, Pi.sub_apply, Fin.sum_univ_three]
    ring
  have nonneg : ∀ A B C : Fin 3 → ℝ,
      0 ≤ (∑ i, (B i - A i) ^ 2) * (∑ i, (C i - A i) ^ 2) - (∑ i, (B i - A i) * (C i - A i)) ^ 2 := by
    intro A B C
    have : (∑ i, (B i - A i) ^ 2) * (∑ i, (C i - A i) ^ 2) - (∑ i, (B i - A i) * (C i - A i)) ^ 2
        = innerProd (crossProd (B - A) (C - A)) (crossProd (B - A) (C - A)) := by
      simp only [innerProd3, crossProd_zero, crossProd_one, crossProd_two, Pi.sub_apply, Fin.sum_univ_three]
      ring
    rw [this]; exact innerProd_self_nonneg _
  refine ⟨abs_nonneg _, ?_, ?_, ?_, ?_, ?_⟩
  · rw [key, div_pow, Real.sq_sqrt (nonneg A B C)]; ring
  · rw [key, key]; simp only [Pi.add_apply, add_sub_add_left_eq_sub]
  · rw [key, key]; congr 2; simp only [Fin.sum_univ_three]; ring
  · rw [key, key]; congr 2; simp only [Fin.sum_univ_three]; ring
  · rw [key, key]
    have : (∑ i, ((f • B) i - (f • A) i) ^ 2) * (∑ i, ((f • C) i - (f • A) i) ^ 2)
          - (∑ i, ((f • B) i - (f • A) i) * ((f • C) i - (f • A) i)) ^ 2
        = (f ^ 2) ^ 2 * ((∑ i, (B i - A i) ^ 2) * (∑ i, (C i - A i) ^ 2) - (∑ i, (B i - A i) * (C i - A i)) ^ 2) := by
      simp only [Pi.smul_apply, smul_eq_mul, Fin.sum_univ_three]; ring
    rw [this, Real.sqrt_mul (sq_nonneg _), Real.sqrt_sq (sq_nonneg f)]
    ring

/-! ### C46: hexahedra -/

section Hex
variable {K : Type} [Field K] [LinearOrder K] [IsStrictOrderedRing K]

/-- Contribution of a quadrilateral facet with corners `a b c d` in cyclic order, seen from outside counterclockwise,
to six times the volume of a polyhedron (divergence theorem, the facet cut along the diagonal from `a` to `c`). -/
def facetFlux (a b c d : Fin 3 → K) : K := determinant3 a b c + determinant3 a c d

/-- The signed volume of a hexahedron with planar facets in the numbering of the library: corner `i` corresponds to the
corner of the unit cube with the binary digits of `i` as coordinates. -/
def hexVolume (p : Nat → Fin 3 → K) : K :=
  (facetFlux (p 0) (p 2) (p 3) (p 1) + facetFlux (p 4) (p 5) (p 7) (p 6)
    + facetFlux (p 0) (p 1) (p 5) (p 4) + facetFlux (p 2) (p 6) (p 7) (p 3)
    + facetFlux (p 0) (p 4) (p 6) (p 2) + facetFlux (p 1) (p 3) (p 7) (p 5)) / 6

/-- All facets are planar. -/
def PlanarFacets (p : Nat → Fin 3 → K) : Prop :=
  signedTetrahedron (p 0) (p 1) (p 2) (p 3) = 0 ∧ signedTetrahedron (p 4) (p 5) (p 6) (p 7) = 0
  ∧ signedTetrahedron (p 0) (p 1) (p 4) (p 5) = 0 ∧ signedTetrahedron (p 2) (p 3) (p 6) (p 7) = 0
  ∧ signedTetrahedron (p 0) (p 2) (p 4) (p 6) = 0 ∧ signedTetrahedron (p 1) (p 3) (p 5) (p 7) = 0

/-- Prism of height one over the quadrilateral (0,0), (1,0), (0,1), (2,2), numbered as the library does. -/
def badPrism : Nat → Fin 3 → Rat := fun i =>
  ([![0, 0, 0], ![1, 0, 0], ![0, 1, 0], ![2, 2, 0], ![0, 0, 1], ![1, 0, 1], ![0, 1, 1], ![2, 2, 1]]
    : List (Fin 3 → Rat)).getD i 0

/-- The formula assumes the corners of the lower and the upper facet in cyclic order.  In the library's numbering the
volume of the prism of height 1 over the quadrilateral of area 2 of `C45_violated` is computed as 5/2. -/
theorem C46_violated : PlanarFacets badPrism ∧ hexVolume badPrism = 2 ∧ volumeHex badPrism = 5 / 2 := by
  refine ⟨⟨?_, ?_, ?_, ?_, ?_, ?_⟩, ?_, ?_⟩ <;> decide +kernel

/-- The result is right for all parallelepipeds. -/
theorem C46_parallelepiped_partial (o u v w : Fin 3 → K) (p : Nat → Fin 3 → K)
    (h0 : p 0 = o) (h1 : p 1 = o + u) (h2 : p 2 = o + v) (h3 : p 3 = o + u + v) (h4 : p 4 = o + w)
    (h5 : p 5 = o + u + w) (h6 : p 6 = o + v + w) (h7 : p 7 = o + u + v + w) :
    volumeHex p = |determinant3 u v w| ∧ volumeHex p = |hexVolume p| := by
  have tet : ∀ a b c d : Fin 3 → K, ∀ s : K, (s = 1 ∨ s = -1) → signedTetrahedron a b c d = s * determinant3 u v w / 6 →
      spannedTetrahedron a b c d = |determinant3 u v w| / 6 := by
    intro a b c d s hs h
    rw [spannedTetrahedron, h, abs_div, abs_mul]
    have h6 : |(6 : K)| = 6 := abs_of_pos (by norm_num)
    rcases hs with rfl | rfl <;> simp [abs_of_pos]
  have hv : volumeHex p = |determinant3 u v w| := by
    rw [volumeHex, h0, h1, h2, h3, h4, h5, h6, h7]
    rw [tet _ _ _ _ 1 (Or.inl rfl) (by simp [signedTetrahedron, innerProd3, determinant3]; ring),
      tet _ _ _ _ 1 (Or.inl rfl) (by simp [signedTetrahedron, innerProd3, determinant3]; ring),
      tet _ _ _ _ 1 (Or.inl rfl) (by simp [signedTetrahedron, innerProd3, determinant3]; ring),
      tet _ _ _ _ (-1) (Or.inr rfl) (by simp [signedTetrahedron, innerProd3, determinant3]; ring),
      tet _ _ _ _ (-1) (Or.inr rfl) (by simp [signedTetrahedron, innerProd3, determinant3]; ring),
      tet _ _ _ _ (-1) (Or.inr rfl) (by simp [signedTetrahedron, innerProd3, determinant3]; ring)]
    ring
  refine ⟨hv, ?_⟩
  rw [hv]
  congr 1
  simp only [hexVolume, facetFlux, determinant3, h0, h1, h2, h3, h4, h5, h6, h7, Pi.add_apply]
  ring

/-- The result is right if the corners of the lower and the upper facet are given in cyclic order (as in VTK files),
the facets are planar and the six tetrahedra have the same orientation, which holds if the hexahedron is convex. -/
theorem C46_cyclic_partial (p : Nat → Fin 3 → K)
    (hpl : PlanarFacets fun i => p ([0, 1, 3, 2, 4, 5, 7, 6].getD i 0))
    (h1 : 0 ≤ signedTetrahedron (p 0) (p 1) (p 3) (p 4)) (h2 : 0 ≤ signedTetrahedron (p 4) (p 1) (p 3) (p 7))
    (h3 : 0 ≤ signedTetrahedron (p 4) (p 1) (p 7) (p 5)) (h4 : 0 ≤ signedTetrahedron (p 1) (p 2) (p 3) (p 7))
    (h5 : 0 ≤ signedTetrahedron (p 1) (p 2) (p 7) (p 5)) (h6 : 0 ≤ signedTetrahedron (p 5) (p 2) (p 7) (p 6)) :
    volumeHex p = hexVolume fun i => p ([0, 1, 3, 2, 4, 5, 7, 6].getD i 0) := by
  rw [volumeHex]
  simp only [spannedTetrahedron]
  rw [abs_of_nonneg h1, abs_of_nonneg h2, abs_of_nonneg h3, abs_of_nonneg h4, abs_of_nonneg h5, abs_of_nonneg h6]
  obtain ⟨f1, f2, f3, f4, f5, f6⟩ := hpl
  simp only [List.getD_cons_zero, List.getD_cons_succ] at f1 f2 f3 f4 f5 f6
  simp only [hexVolume, List.getD_cons_zero, List.getD_cons_succ]
  simp only [signedTetrahedron, innerProd3, crossProd_zero, crossProd_one, crossProd_two, Pi.sub_apply, facetFlux,
    determinant3] at *
  linear_combination f1 - f2 - f3 + f4 + f5 - f6

/-- The frustum of a pyramid with bases of areas 4 and 1, height 3 and volume 7. -/
def frustum : Nat → Fin 3 → Rat := fun i =>
  ([![0, 0, 0], ![2, 0, 0], ![2, 2, 0], ![0, 2, 0], ![0, 0, 3], ![1, 0, 3], ![1, 1, 3], ![0, 1, 3]]
    : List (Fin 3 → Rat)).getD i 0

example : (PlanarFacets fun i => frustum ([0, 1, 3, 2, 4, 5, 7, 6].getD i 0)) ∧ volumeHex frustum = 7
    ∧ 0 ≤ signedTetrahedron (frustum 0) (frustum 1) (frustum 3) (frustum 4)
    ∧ 0 ≤ signedTetrahedron (frustum 4) (frustum 1) (frustum 3) (frustum 7)
    ∧ 0 ≤ signedTetrahedron (frustum 4) (frustum 1) (frustum 7) (frustum 5)
    ∧ 0 ≤ signedTetrahedron (frustum 1) (frustum 2) (frustum 3) (frustum 7)
    ∧ 0 ≤ signedTetrahedron (frustum 1) (frustum 2) (frustum 7) (frustum 5)
    ∧ 0 ≤ signedTetrahedron (frustum 5) (frustum 2) (frustum 7) (frustum 6) := by
  refine ⟨⟨?_, ?_, ?_, ?_, ?_, ?_⟩, ?_, ?_, ?_, ?_, ?_, ?_, ?_⟩ <;> decide +kernel

end Hex

/-! ### C61: polygons in space -/

/-- The point with coordinates `c` in the plane through `o` spanned by `u` and `w`. -/
def inPlane (o u w : Fin 3 → ℝ) (c : Fin 2 → ℝ) : Fin 3 → ℝ := o + c 0 • u + c 1 • w

/-- In space `signed_spanned_volume` of a triangle is a length, so triangles of a fan that should be subtracted are
added.  An L-shaped polygon of area 3 in the plane z = 0 gets the area 4 if its vertices are listed starting with
(2,0), and 3 if they are listed starting with (0,0). -/
theorem C61_violated :
    let emb := inPlane 0 ![1, 0, 0] ![0, 1, 0]
    let l : List (Fin 2 → ℝ) := [![2, 0], ![2, 1], ![1, 1], ![1, 2], ![0, 2], ![0, 0]]
    let l' : List (Fin 2 → ℝ) := [![0, 0], ![2, 0], ![2, 1], ![1, 1], ![1, 2], ![0, 2]]
    l' ~r l ∧ |shoelace l| = 3 ∧ volumePolygon signedTriangle3 (emb ![2, 0]) (l.map emb) = 4
    ∧ volumePolygon signedTriangle3 (emb ![0, 0]) (l'.map emb) = 3 := by
  intro emb l l'
  have tri : ∀ a b c : Fin 2 → ℝ, signedTriangle3 (emb a) (emb b) (emb c) = |signedTriangle a b c| := by
    intro a b c
    have : sumSquares (crossProd (emb b - emb a) (emb c - emb a)) = (2 * signedTriangle a b c) ^ 2 := by
      rw [sumSquares_eq]
      simp [innerProd3, emb, inPlane, signedTriangle]
      ring
    rw [signedTriangle3, euclNorm, this, Real.sqrt_sq_eq_abs, abs_mul, abs_of_pos (by norm_num : (0 : ℝ) < 2)]
    ring
  refine ⟨⟨1, rfl⟩, ?_, ?_, ?_⟩
  · rw [shoelace_cons]
    norm_num [pathSum, List.getLastD_cons]
  · norm_num [volumePolygon, fanLoop, l, tri, signedTriangle]
  · norm_num [volumePolygon, fanLoop, l', tri, signedTriangle]

theorem tri_inPlane (o u w : Fin 3 → ℝ) (hu : ∑ i, u i ^ 2 = 1) (hw : ∑ i, w i ^ 2 = 1) (huw : ∑ i, u i * w i = 0)
    (a b c : Fin 2 → ℝ) :
    signedTriangle3 (inPlane o u w a) (inPlane o u w b) (inPlane o u w c) = |signedTriangle a b c| := by
  simp only [Fin.sum_univ_three] at hu hw huw
  have : sumSquares (crossProd (inPlane o u w b - inPlane o u w a) (inPlane o u w c - inPlane o u w a))
      = (2 * signedTriangle a b c) ^ 2 := by
    have h1 : sumSquares (crossProd (inPlane o u w b - inPlane o u w a) (inPlane o u w c - inPlane o u w a))
        = (2 * signedTriangle a b c) ^ 2 * ((u 0 ^ 2 + u 1 ^ 2 + u 2 ^ 2) * (w 0 ^ 2 + w 1 ^ 2 + w 2 ^ 2)
          - (u 0 * w 0 + u 1 * w 1 + u 2 * w 2) ^ 2) := by
      rw [sumSquares_eq]
      simp only [innerProd3, crossProd_zero, crossProd_one, crossProd_two, Pi.sub_apply, inPlane, signedTriangle,
        Pi.add_apply, Pi.smul_apply, smul_eq_mul]
      ring
    rw [h1, hu, hw, huw]; ring
  rw [signedTriangle3, euclNorm, this, Real.sqrt_sq_eq_abs, abs_mul, abs_of_pos (by norm_num : (0 : ℝ) < 2)]
  ring

theorem fanLoop_inPlane (o u w : Fin 3 → ℝ) (hu : ∑ i, u i ^ 2 = 1) (hw : ∑ i, w i ^ 2 = 1)
    (huw : ∑ i, u i * w i = 0) (a : Fin 2 → ℝ) (l : List (Fin 2 → ℝ)) (acc : ℝ)
    (h : l.IsChain (fun p q => 0 ≤ signedTriangle a p q)) :
    fanLoop signedTriangle3 (inPlane o u w a) acc (l.map (inPlane o u w)) = fanLoop signedTriangle a acc l := by
  induction l generalizing acc with
  | nil => simp [fanLoop]
  | cons p l ih =>
    cases l with
    | nil => simp [fanLoop]
    | cons q l =>
      rw [List.isChain_cons_cons] at h
      have := ih (acc + signedTriangle a p q) h.2
      simp only [List.map_cons] at this ⊢
      rw [fanLoop, tri_inPlane o u w hu hw huw, abs_of_nonneg h.1, this, fanLoop]

/-- For a polygon in any plane in space the volume is its area if the triangles of the fan at the first vertex have the
same orientation, in particular for convex polygons. -/
theorem C61_star_partial (o u w : Fin 3 → ℝ) (hu : ∑ i, u i ^ 2 = 1) (hw : ∑ i, w i ^ 2 = 1)
    (huw : ∑ i, u i * w i = 0) (a : Fin 2 → ℝ) (l : List (Fin 2 → ℝ))
    (h : (a :: l).IsChain (fun p q => 0 ≤ signedTriangle a p q)) :
    volumePolygon signedTriangle3 (inPlane o u w a) ((a :: l).map (inPlane o u w)) = |shoelace (a :: l)| := by
  rw [← C56_shoelace a]
  have hf := fanLoop_inPlane o u w hu hw huw a (a :: l) 0 h
  have hl : ((a :: l).map (inPlane o u w)).getLastD (inPlane o u w a) = inPlane o u w ((a :: l).getLastD a) := by
    have : ∀ (b : Fin 2 → ℝ) (l : List (Fin 2 → ℝ)),
        (l.map (inPlane o u w)).getLastD (inPlane o u w b) = inPlane o u w (l.getLastD b) := by
      intro b l
      induction l generalizing b with
      | nil => rfl
      | cons c l ih => rw [List.map_cons, List.getLastD_cons, List.getLastD_cons, ih]
    exact this a (a :: l)
  simp only [List.map_cons] at hf hl ⊢
  simp only [volumePolygon, List.length_cons, List.length_map]
  split
  · rfl
  · rw [hf, hl, tri_inPlane o u w hu hw huw]
    have : signedTriangle a ((a :: l).getLastD a) a = 0 := by simp only [signedTriangle]; ring
    rw [this]; simp

/-- A square in the plane `x = 1`. -/
example : ∑ i, (![0, 1, 0] : Fin 3 → ℝ) i ^ 2 = 1 ∧ ∑ i, (![0, 0, 1] : Fin 3 → ℝ) i ^ 2 = 1
    ∧ ∑ i, (![0, 1, 0] : Fin 3 → ℝ) i * (![0, 0, 1] : Fin 3 → ℝ) i = 0
    ∧ List.IsChain (fun p q => 0 ≤ signedTriangle (![0, 0] : Fin 2 → ℝ) p q) [![0, 0], ![1, 0], ![1, 1], ![0, 1]] := by
  refine ⟨?_, ?_, ?_, ?_⟩
  · simp [Fin.sum_univ_three]
  · simp [Fin.sum_univ_three]
  · simp [Fin.sum_univ_three]
  · simp [signedTriangle]

end VG
