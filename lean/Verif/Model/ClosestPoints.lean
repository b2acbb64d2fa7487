import Verif.Model.Transform

/-!
`closest_points` of points, line segments, triangles, quadrilaterals, tetrahedra and hexahedra
(algorithm/closest_points.hpp).

The code compares `norm_2` of differences; the model compares the squares, which decides the same.  A division by zero,
which gives `nan` coordinates in the code, is the outcome `none`.  The warnings printed for thin triangles and
tetrahedra are not modelled.
-/

namespace VG

variable {K : Type} [Field K] [LinearOrder K] {d : Nat}

/-- The square of `norm_2(pair.first - pair.second)`.  algorithm/closest_points.hpp:48-49, algorithm/norm.hpp:73-83. -/
def pairDist (pr : (Fin d → K) × (Fin d → K)) : K := sumSquares (pr.1 - pr.2)

/-- `point_pair_with_shortest_distance` of two pairs.  algorithm/closest_points.hpp:41-52. -/
def shortest2 (p q : (Fin d → K) × (Fin d → K)) : (Fin d → K) × (Fin d → K) :=
  if pairDist p ≤ pairDist q then p else q

/-- `point_pair_with_shortest_distance` of three pairs.  algorithm/closest_points.hpp:54-77. -/
def shortest3 (p q r : (Fin d → K) × (Fin d → K)) : (Fin d → K) × (Fin d → K) :=
  if pairDist p ≤ pairDist q ∧ pairDist p ≤ pairDist r then p
  else if pairDist q ≤ pairDist p ∧ pairDist q ≤ pairDist r then q
  else r

/-- `point_pair_with_shortest_distance` of four pairs.  algorithm/closest_points.hpp:80-95. -/
def shortest4 (p q r s : (Fin d → K) × (Fin d → K)) : (Fin d → K) × (Fin d → K) :=
  shortest2 (shortest2 p q) (shortest2 r s)

/-- `point_pair_with_shortest_distance` of six pairs.  algorithm/closest_points.hpp:116-135. -/
def shortest6 (p q r s t u : (Fin d → K) × (Fin d → K)) : (Fin d → K) × (Fin d → K) :=
  shortest2 (shortest3 p q r) (shortest3 s t u)

/-- `closest_points_point_line`.  algorithm/closest_points.hpp:195-213. -/
def closestPointLine (p a b : Fin d → K) : Option ((Fin d → K) × (Fin d → K)) :=
  if innerProd (b - a) (b - a) = 0 then none
  else
    let t := innerProd (p - a) (b - a) / innerProd (b - a) (b - a)
    let t := max 0 (min 1 t)
    some (p, a + t • (b - a))

/-- The four pairs of an end point of a segment and the other segment, the shortest of them.
algorithm/closest_points.hpp:294-297, 316-319. -/
def closestLineEnds (v0 v1 w0 w1 : Fin d → K) : Option ((Fin d → K) × (Fin d → K)) :=
  (closestPointLine w0 v0 v1).bind fun p1 =>
  (closestPointLine w1 v0 v1).bind fun p2 =>
  (closestPointLine v0 w0 w1).bind fun p3 =>
  (closestPointLine v1 w0 w1).bind fun p4 =>
  some (shortest4 p1 p2 p3 p4)

/-- `closest_points_line_line`.  algorithm/closest_points.hpp:269-326. -/
def closestLineLine (v0 v1 w0 w1 : Fin d → K) : Option ((Fin d → K) × (Fin d → K)) :=
  let dirV := v1 - v0
  let dirW := w1 - w0
  let vv := innerProd dirV dirV
  let vw := innerProd dirV dirW
  let ww := innerProd dirW dirW
  let den := vv * ww - vw * vw
  if den < 1 / 1000000 * vv * ww then closestLineEnds v0 v1 w0 w1
  else if den = 0 then none
  else
    let dist := v0 - w0
    let vd := innerProd dirV dist
    let wd := innerProd dirW dist
    let s := (vw * wd - ww * vd) / den
    let t := (vv * wd - vw * vd) / den
    if s < 0 ∨ s > 1 ∨ t < 0 ∨ t > 1 then closestLineEnds v0 v1 w0 w1
    else some (v0 + s • dirV, w0 + t • dirW)

/-- `closest_points_point_triangle`.  algorithm/closest_points.hpp:388-451. -/
def closestPointTriangle (p v0 v1 v2 : Fin d → K) : Option ((Fin d → K) × (Fin d → K)) :=
  let u0 := v1 - v0
  let u1 := v2 - v0
  let u := p - v0
  let a := innerProd u0 u0
  let b := innerProd u0 u1
  let d := innerProd u1 u1
  let uu0 := innerProd u u0
  let uu1 := innerProd u u1
  let den := a * d - b * b
  if den = 0 then none
  else
    let s := (d * uu0 - b * uu1) / den
    let t := (-b * uu0 + a * uu1) / den
    let p' := v0 + s • u0 + t • u1
    if (s < 0 ∨ s > 1) ∨ (t < 0 ∨ t > 1) ∨ s + t > 1 then
      (closestPointLine p' v0 v1).bind fun p1 =>
      (closestPointLine p' v0 v2).bind fun p2 =>
      (closestPointLine p' v1 v2).bind fun p3 =>
      some (shortest3 (p, p1.2) (p, p2.2) (p, p3.2))
    else some (p, p')

/-- `closest_points_impl` of a point and a quadrilateral.  algorithm/closest_points.hpp:495-511. -/
def closestPointQuad (p v0 v1 v2 v3 : Fin d → K) : Option ((Fin d → K) × (Fin d → K)) :=
  (closestPointTriangle p v0 v1 v2).bind fun p1 =>
  (closestPointTriangle p v1 v3 v2).bind fun p2 =>
  some (shortest2 p1 p2)

/-- `closest_points_point_tetrahedron`.  algorithm/closest_points.hpp:530-612. -/
def closestPointTetrahedron (p v0 v1 v2 v3 : Fin d → K) : Option ((Fin d → K) × (Fin d → K)) :=
  let u0 := v1 - v0
  let u1 := v2 - v0
  let u2 := v3 - v0
  let u := p - v0
  let a00 := innerProd u0 u0
  let a01 := innerProd u1 u0
  let a02 := innerProd u2 u0
  let a10 := a01
  let a11 := innerProd u1 u1
  let a12 := innerProd u2 u1
  let a20 := a02
  let a21 := a12
  let a22 := innerProd u2 u2
  let uu0 := innerProd u u0
  let uu1 := innerProd u u1
  let uu2 := innerProd u u2
  let det := a00 * a11 * a22 + a01 * a12 * a20 + a02 * a10 * a21
    - a20 * a11 * a02 - a21 * a12 * a00 - a22 * a10 * a01
  if det = 0 then none
  else
    let r := (uu0 * a11 * a22 + a01 * a12 * uu2 + a02 * uu1 * a21
      - uu2 * a11 * a02 - a21 * a12 * uu0 - a22 * uu1 * a01) / det
    let s := (a00 * uu1 * a22 + uu0 * a12 * a20 + a02 * a10 * uu2
      - a20 * uu1 * a02 - uu2 * a12 * a00 - a22 * a10 * uu0) / det
    let t := (a00 * a11 * uu2 + a01 * uu1 * a20 + uu0 * a10 * a21
      - a20 * a11 * uu0 - a21 * uu1 * a00 - uu2 * a10 * a01) / det
    let p' := v0 + r • u0 + s • u1 + t • u2
    if (r < 0 ∨ r > 1) ∨ (s < 0 ∨ s > 1) ∨ (t < 0 ∨ t > 1) ∨ r + s + t > 1 then
      (closestPointTriangle p' v0 v1 v2).bind fun p1 =>
      (closestPointTriangle p' v0 v1 v3).bind fun p2 =>
      (closestPointTriangle p' v0 v2 v3).bind fun p3 =>
      (closestPointTriangle p' v1 v2 v3).bind fun p4 =>
      some (shortest4 (p, p1.2) (p, p2.2) (p, p3.2) (p, p4.2))
    else some (p, p')

/-- `closest_points_impl` of a point and a hexahedron.  algorithm/closest_points.hpp:645-683. -/
def closestPointHex (p v0 v1 v2 v3 v4 v5 v6 v7 : Fin d → K) : Option ((Fin d → K) × (Fin d → K)) :=
  (closestPointTetrahedron p v0 v1 v3 v7).bind fun p1 =>
  (closestPointTetrahedron p v0 v1 v7 v5).bind fun p2 =>
  (closestPointTetrahedron p v0 v2 v6 v7).bind fun p3 =>
  (closestPointTetrahedron p v0 v3 v2 v7).bind fun p4 =>
  (closestPointTetrahedron p v0 v5 v7 v4).bind fun p5 =>
  (closestPointTetrahedron p v0 v6 v4 v7).bind fun p6 =>
  some (shortest6 p1 p2 p3 p4 p5 p6)

/-- A pair replaces the pair held if its distance is smaller.  `none` is the state before the first facet, where the
code holds a default constructed pair and the largest `double`.  algorithm/closest_points.hpp:763-764, 774-780. -/
def closerPair (best : Option ((Fin d → K) × (Fin d → K))) (pr : (Fin d → K) × (Fin d → K)) :
    Option ((Fin d → K) × (Fin d → K)) :=
  match best with
  | none => some pr
  | some b => if pairDist pr < pairDist b then some pr else some b

/-- `closest_points_on_boundary_point_to_any`: the loop over the facets of a mesh; `near` is `closest_points_impl` of
the point and a facet.  A facet without a result (a division by zero) is passed over.
algorithm/closest_points.hpp:749-784. -/
def MState.closestOnBoundary (T : Topo) (near : List (Fin d → K) → Option ((Fin d → K) × (Fin d → K)))
    (st : MState (Fin d → K)) : MState (Fin d → K) × Option ((Fin d → K) × (Fin d → K)) :=
  (List.range (st.mesh.count (T.cellDim - 1))).foldl
    (fun acc s =>
      let q := acc.1.isBoundary T (T.cellDim - 1) s
      (q.1, if q.2 then ((near (q.1.mesh.pointsOf (T.cellDim - 1) s)).map (closerPair acc.2)).getD acc.2 else acc.2))
    (st, none)

end VG
