import Mathlib.Algebra.BigOperators.Fin
import Mathlib.Algebra.Order.Field.Basic
import Mathlib.Data.Fin.VecNotation
import Mathlib.Algebra.Order.Group.Abs

/-!
Points in Cartesian coordinates and the vector operations of the library.  Coordinates are exact elements of a
field (`double` in the code), so round-off is not modelled.  The conversions between coordinate systems are in
`Verif.Model.Coordinates`.
-/

namespace VG

section Field
variable {K : Type} [Field K] {d : Nat}

/-- `inner_prod`.  algorithm/inner_prod.hpp:35-82 (the code has the cases of one, two and three dimensions). -/
def innerProd (a b : Fin d → K) : K := ∑ i, a i * b i

/-- `cross_prod` in three dimensions.  algorithm/cross_prod.hpp:58-69. -/
def crossProd (a b : Fin 3 → K) : Fin 3 → K :=
  ![a 1 * b 2 - a 2 * b 1, a 2 * b 0 - a 0 * b 2, a 0 * b 1 - a 1 * b 0]

/-- `determinant` of one column.  algorithm/geometry.hpp:135-139. -/
def determinant1 (a : Fin 1 → K) : K := a 0

/-- `determinant` of two columns.  algorithm/geometry.hpp:146-150. -/
def determinant2 (a b : Fin 2 → K) : K := a 0 * b 1 - a 1 * b 0

/-- `determinant` of three columns.  algorithm/geometry.hpp:158-162. -/
def determinant3 (a b c : Fin 3 → K) : K :=
  a 0 * b 1 * c 2 + b 0 * c 1 * a 2 + c 0 * a 1 * b 2 - a 2 * b 1 * c 0 - b 2 * c 1 * a 0 - c 2 * a 1 * b 0

/-- `normal_vector` of a line in two dimensions.  algorithm/geometry.hpp:47-65. -/
def normalLine (p0 p1 : Fin 2 → K) : Fin 2 → K :=
  let line := p1 - p0
  ![-(line 1), line 0]

/-- `normal_vector` of a triangle in three dimensions; a quadrilateral uses its first three vertices.
algorithm/geometry.hpp:67-96. -/
def normalTriangle (p0 p1 p2 : Fin 3 → K) : Fin 3 → K := crossProd (p1 - p0) (p2 - p0)

/-- `signed_spanned_volume` of a triangle in two dimensions.  algorithm/spanned_volume.hpp:66-74. -/
def signedTriangle (A B C : Fin 2 → K) : K :=
  (A 0 * (B 1 - C 1) + B 0 * (C 1 - A 1) + C 0 * (A 1 - B 1)) / 2

/-- `signed_spanned_volume` of a tetrahedron in three dimensions.  algorithm/spanned_volume.hpp:106-116. -/
def signedTetrahedron (p1 p2 p3 p4 : Fin 3 → K) : K :=
  innerProd (p2 - p1) (crossProd (p3 - p1) (p4 - p1)) / 6

/-- `centroid`: all element types but the vertex use the loop for the triangle.
algorithm/centroid.hpp:37-59. -/
def centroid (vs : List (Fin d → K)) : Fin d → K :=
  fun i => (vs.foldl (fun p v => p + v) (0 : Fin d → K)) i * (1 / (vs.length : K))

/-- `scale_functor::operator()`.  algorithm/geometric_transform.hpp:71-77. -/
def scalePoint (factor : K) (center p : Fin d → K) : Fin d → K := fun i => (p i - center i) * factor + center i

/-- `affine_transform_functor::operator()`; the matrix is in row major layout.
algorithm/geometric_transform.hpp:127-137. -/
def affinePoint (matrix : Nat → K) (translation p : Fin d → K) : Fin d → K :=
  fun row => (List.finRange d).foldl (fun acc col => acc + p col * matrix (row * d + col)) (translation row)

/-- `circumcenter` of a line.  algorithm/circumcenter.hpp:57-71. -/
def circumLine (A B : Fin d → K) : Fin d → K := fun i => (A i + B i) * (1 / 2)

/-- `circumcenter` of a triangle in two dimensions.  algorithm/circumcenter.hpp:84-113. -/
def circumTriangle2 (A B C : Fin 2 → K) : Fin 2 → K :=
  let D := 2 * (A 0 * (B 1 - C 1) + B 0 * (C 1 - A 1) + C 0 * (A 1 - B 1))
  ![((A 1 * A 1 + A 0 * A 0) * (B 1 - C 1) + (B 1 * B 1 + B 0 * B 0) * (C 1 - A 1)
      + (C 1 * C 1 + C 0 * C 0) * (A 1 - B 1)) / D,
    ((A 1 * A 1 + A 0 * A 0) * (C 0 - B 0) + (B 1 * B 1 + B 0 * B 0) * (A 0 - C 0)
      + (C 1 * C 1 + C 0 * C 0) * (B 0 - A 0)) / D]

/-- `circumcenter` of a triangle in three dimensions.  algorithm/circumcenter.hpp:150-171. -/
def circumTriangle3 (A B C : Fin 3 → K) : Fin 3 → K :=
  let denominator := 2 * innerProd (crossProd (A - B) (B - C)) (crossProd (A - B) (B - C))
  let alpha := innerProd (B - C) (B - C) * innerProd (A - B) (A - C)
  let beta := innerProd (A - C) (A - C) * innerProd (B - A) (B - C)
  let gamma := innerProd (A - B) (A - B) * innerProd (C - A) (C - B)
  fun i => A i * (alpha / denominator) + B i * (beta / denominator) + C i * (gamma / denominator)

end Field

section Ordered
variable {K : Type} [Field K] [LinearOrder K] {d : Nat}

/-- `circumcenter` of a tetrahedron; `none`: the exception.  The code compares `|A (B x C)|` with `1e-10` times the
norm of `B x C`; here the squares are compared.  algorithm/circumcenter.hpp:207-240. -/
def circumTetrahedron (O p1 p2 p3 : Fin 3 → K) : Option (Fin 3 → K) :=
  let A := p1 - O
  let B := p2 - O
  let C := p3 - O
  let det := innerProd A (crossProd B C)
  if det * det < (1 / 10000000000) * (1 / 10000000000) * innerProd (crossProd B C) (crossProd B C) then none
  else some fun i =>
    (crossProd A B i * innerProd C C + crossProd C A i * innerProd B B + crossProd B C i * innerProd A A)
      * (1 / (det * 2)) + O i

/-- `spanned_volume` of a triangle in two dimensions.  algorithm/spanned_volume.hpp:280-286. -/
def spannedTriangle (A B C : Fin 2 → K) : K := |signedTriangle A B C|

/-- `spanned_volume` of a tetrahedron in three dimensions.  algorithm/spanned_volume.hpp:289-298. -/
def spannedTetrahedron (A B C D : Fin 3 → K) : K := |signedTetrahedron A B C D|

/-- `volume` of a quadrilateral in two dimensions.  algorithm/volume.hpp:83-96. -/
def volumeQuad (p : Nat → Fin 2 → K) : K := spannedTriangle (p 0) (p 1) (p 3) + spannedTriangle (p 1) (p 2) (p 3)

/-- `volume` of a hexahedron.  algorithm/volume.hpp:147-170. -/
def volumeHex (p : Nat → Fin 3 → K) : K :=
  spannedTetrahedron (p 0) (p 1) (p 3) (p 4)
    + spannedTetrahedron (p 4) (p 1) (p 3) (p 7)
    + spannedTetrahedron (p 4) (p 1) (p 7) (p 5)
    + spannedTetrahedron (p 1) (p 2) (p 3) (p 7)
    + spannedTetrahedron (p 1) (p 2) (p 7) (p 5)
    + spannedTetrahedron (p 5) (p 2) (p 7) (p 6)

/-- The loop over consecutive vertices in `volume` of a polygon.  algorithm/volume.hpp:119-120. -/
def fanLoop (signed : (Fin d → K) → (Fin d → K) → (Fin d → K) → K) (origin : Fin d → K) : K → List (Fin d → K) → K
  | acc, p :: q :: l => fanLoop signed origin (acc + signed origin p q) (q :: l)
  | acc, _ => acc

/-- `volume` of a polygon for a function `signed_spanned_volume` of triangles; `origin` is the point stored in the
first vertex, `l` are the points the accessor gives for the vertices.  algorithm/volume.hpp:99-127. -/
def volumePolygon (signed : (Fin d → K) → (Fin d → K) → (Fin d → K) → K) (origin : Fin d → K)
    (l : List (Fin d → K)) : K :=
  match l with
  | first :: _ =>
    if l.length < 3 then 0
    else
      let vol := fanLoop signed origin 0 l
      |vol + signed origin (l.getLastD first) first|
  | [] => 0

/-- `is_inside` for a triangle in any dimension; `eps` is the absolute tolerance.
algorithm/inclusion.hpp:31-62. -/
def insideTriangle (eps : K) (a b c p : Fin d → K) : Bool :=
  let v0 := c - a
  let v1 := b - a
  let v2 := p - a
  let dot00 := innerProd v0 v0
  let dot01 := innerProd v0 v1
  let dot02 := innerProd v0 v2
  let dot11 := innerProd v1 v1
  let dot12 := innerProd v1 v2
  let denom := 1 / (dot00 * dot11 - dot01 * dot01)
  let u := (dot11 * dot02 - dot01 * dot12) * denom
  let v := (dot00 * dot12 - dot01 * dot02) * denom
  decide (u ≥ -eps) && decide (v ≥ -eps) && decide (u + v ≤ 1 + 2 * eps)

/-- `is_inside` for a tetrahedron.  algorithm/inclusion.hpp:65-90. -/
def insideTetrahedron (eps : K) (a b c d p : Fin 3 → K) : Bool :=
  let denom := 1 / spannedTetrahedron a b c d
  let A := spannedTetrahedron p b c d * denom
  let B := spannedTetrahedron a p c d * denom
  let C := spannedTetrahedron a b p d * denom
  let D := spannedTetrahedron a b c p * denom
  decide (A ≥ -eps) && decide (B ≥ -eps) && decide (C ≥ -eps) && decide (D ≥ -eps)
    && decide (A + B + C + D ≤ 1 + 2 * eps)

/-- `norm_1`.  algorithm/norm.hpp:45-57. -/
def norm1 (p : Fin d → K) : K := (List.finRange d).foldl (fun r i => r + |p i|) 0

/-- The sum under the root of `norm_2`.  algorithm/norm.hpp:59-71. -/
def sumSquares (p : Fin d → K) : K := (List.finRange d).foldl (fun r i => r + p i * p i) 0

/-- `norm_inf`.  algorithm/norm.hpp:73-88. -/
def normInf (p : Fin d → K) : K := (List.finRange d).foldl (fun r i => if |p i| > r then |p i| else r) 0

/-- `bounding_box` of a range of points; `top` is `std::numeric_limits<NumericType>::max()`.
algorithm/geometry.hpp:170-193; the loop over the vertices of a mesh is the same (200-227); point.hpp:692-710. -/
def boundingBox (top : K) (pts : List (Fin d → K)) : (Fin d → K) × (Fin d → K) :=
  pts.foldl (fun bb p => (fun i => min (bb.1 i) (p i), fun i => max (bb.2 i) (p i))) (fun _ => top, fun _ => -top)

/-- `point_less` from coordinate `i` on, `n` coordinates left.  point.hpp:740-747. -/
def pointLessFrom (p1 p2 : Nat → K) : Nat → Nat → Bool
  | _, 0 => false
  | i, n + 1 => if p1 i < p2 i then true else if p1 i > p2 i then false else pointLessFrom p1 p2 (i + 1) n

/-- `point_less` for points with `d` coordinates.  point.hpp:735-749. -/
def pointLess (d : Nat) (p1 p2 : Nat → K) : Bool := pointLessFrom p1 p2 0 d

/-- `is_equal` with a number as configuration.  algorithm/detail/numeric.hpp:42-86: the absolute difference is
compared with the relative tolerance of the *first* argument, `max(eps * first, |eps|)`. -/
def numIsEqual (eps first second : K) : Bool := decide (|first - second| < max (eps * first) |eps|)

end Ordered

end VG
