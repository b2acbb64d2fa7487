import Mathlib.Data.List.Basic

/-!
Model of the reference topologies: which local vertex indices make up the boundary elements of
simplices, quadrilaterals, hexahedra and polygons, in the order the generators create them.
-/

namespace VG

/-- `detail::n_over_k<n,k>::value`.  topology/simplex.hpp:30-52. -/
def nOverK : Nat → Nat → Nat
  | _, 0 => 1
  | 0, _ + 1 => 0
  | n + 1, k + 1 => nOverK n k + nOverK n (k + 1)

/-- `boundary_elements<simplex_tag<n>, simplex_tag<k> >::num`.  topology/simplex.hpp:77-83. -/
def simplexNum (n k : Nat) : Nat := nOverK (n + 1) (k + 1)

/-- Local vertex indices of the edges of a simplex with `m` vertices, in creation order: the
double loop `i`, `j = i+1 ..`.  topology/simplex.hpp:90-109. -/
def edgeIdx (m : Nat) : List (List Nat) :=
  (List.range m).flatMap fun i => (List.range' (i + 1) (m - (i + 1))).map fun j => [i, j]

/-- Local vertex indices of the triangles of a simplex with `m` vertices, in creation order: the
triple loop `i < j < k`.  topology/simplex.hpp:112-132. -/
def triIdx (m : Nat) : List (List Nat) :=
  (List.range m).flatMap fun i =>
    (List.range' (i + 1) (m - (i + 1))).flatMap fun j =>
      (List.range' (j + 1) (m - (j + 1))).map fun k => [i, j, k]

/-- Edges of a quadrilateral.  topology/quadrilateral.hpp:69-92. -/
def quadEdges : List (List Nat) := [[0, 1], [0, 2], [1, 3], [2, 3]]

/-- Edges of a hexahedron.  topology/hexahedron.hpp:80-137. -/
def hexEdges : List (List Nat) :=
  [[0, 1], [0, 2], [0, 4], [1, 3], [1, 5], [2, 3], [2, 5], [3, 7], [4, 5], [4, 6], [5, 7], [6, 7]]

/-- Facets of a hexahedron.  topology/hexahedron.hpp:158-203. -/
def hexFaces : List (List Nat) :=
  [[0, 1, 2, 3], [0, 1, 4, 5], [0, 2, 4, 6], [1, 3, 5, 7], [2, 3, 6, 7], [4, 5, 6, 7]]

/-- Edges of a polygon with `m` vertices.  topology/polygon.hpp:55-78.  For `m = 0` the loop bound
`size()-1` wraps around and vertices that do not exist are accessed: `none` stands for this
undefined behaviour. -/
def polygonEdges (m : Nat) : Option (List (List Nat)) :=
  if m = 0 then none
  else some ((List.range (m - 1)).map (fun i => [i, i + 1]) ++ [[m - 1, 0]])

end VG
