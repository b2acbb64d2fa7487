import Verif.Model.Geometry
import Verif.Model.Copy
import Verif.Model.Queries

/-!
Transformations of all points of a mesh.
-/

namespace VG

variable {P : Type}

/-- `geometric_transform` with the default accessor: each vertex gets the transformed point.
algorithm/geometric_transform.hpp:31-42, 48-53. -/
def Mesh.transform (f : P → P) (m : Mesh P) : Mesh P :=
  { m with verts := m.verts.map fun v => { v with pt := f v.pt } }

variable {K : Type} [Field K] {d : Nat}

/-- `scale(mesh, factor, scaling_center)`.  algorithm/geometric_transform.hpp:85-96. -/
def Mesh.scale (factor : K) (center : Fin d → K) (m : Mesh (Fin d → K)) : Mesh (Fin d → K) :=
  m.transform (scalePoint factor center)

/-- `scale(mesh, factor)`: the center is the origin.  algorithm/geometric_transform.hpp:66, 98-106. -/
def Mesh.scaleOrigin (factor : K) (m : Mesh (Fin d → K)) : Mesh (Fin d → K) := m.scale factor 0

/-- `affine_transform(mesh, matrix, translation)`.  algorithm/geometric_transform.hpp:148-155. -/
def Mesh.affine (matrix : Nat → K) (translation : Fin d → K) (m : Mesh (Fin d → K)) : Mesh (Fin d → K) :=
  m.transform (affinePoint matrix translation)

/-- The points of the vertices of an element, in the order of its vertices.  accessor.hpp (default point accessor). -/
def Mesh.pointsOf (m : Mesh P) (n s : Nat) : List P := (m.vertsOf n s).filterMap m.ptOf

/-- `centroid(element)`.  algorithm/centroid.hpp:37-59, 61-90. -/
def Mesh.centroidOf (m : Mesh (Fin d → K)) (n s : Nat) : Fin d → K := centroid (m.pointsOf n s)

/-- `volume(mesh)`, `volume<tag>(mesh)`: the loop over the elements of dimension `n`; `vol` is `volume` of one element
as a function of the points of its vertices.  algorithm/volume.hpp:173-191, 213-231. -/
def Mesh.volumeOf {P : Type} (vol : List P → K) (m : Mesh P) (n : Nat) : K :=
  (List.range (m.count n)).foldl (fun acc t => acc + vol (m.pointsOf n t)) 0

/-- `surface(mesh)`: the loop over the facets; each `is_boundary` may recompute the boundary flags of the mesh.
algorithm/surface.hpp:33-53. -/
def MState.surface {P : Type} (T : Topo) (vol : List P → K) (st : MState P) : MState P × K :=
  (List.range (st.mesh.count (T.cellDim - 1))).foldl
    (fun acc s =>
      let q := acc.1.isBoundary T (T.cellDim - 1) s
      (q.1, if q.2 then acc.2 + vol (q.1.mesh.pointsOf (T.cellDim - 1) s) else acc.2)) (st, 0)

/-- `centroid(mesh)`: centroids of the cells weighted by their volumes.  algorithm/centroid.hpp:121-146. -/
def Mesh.centroidMesh (vol : List (Fin d → K) → K) (m : Mesh (Fin d → K)) (n : Nat) : Fin d → K :=
  let r := (List.range (m.count n)).foldl
    (fun acc t => (acc.1 + vol (m.pointsOf n t) • m.centroidOf n t, acc.2 + vol (m.pointsOf n t)))
    ((0 : Fin d → K), (0 : K))
  fun i => r.1 i / r.2

end VG
