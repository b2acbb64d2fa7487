import Verif.Model.Transform
import Verif.Model.ViewQueries

/-!
The surface of a single cell, and the volume and surface of a segment.  algorithm/surface.hpp:33-53, 61-90, 112-119, algorithm/volume.hpp:173-191, 223-231.
-/

namespace VG

/-- `surface(element)` for the cell `t`: the loop over its facets; `vol` is `volume` of a facet as a function of the points of its vertices.
algorithm/surface.hpp:61-90. -/
def Mesh.surfaceOf {P K : Type} [Add K] [Zero K] (T : Topo) (vol : List P → K) (m : Mesh P) (t : Nat) : K :=
  (m.bndOf T.cellDim t (T.cellDim - 1)).foldl (fun acc s => acc + vol (m.pointsOf (T.cellDim - 1) s)) 0

/-- `surface(segment)`: the loop over the facets of the view; each `is_boundary` may recompute the boundary flags of the view.
algorithm/surface.hpp:33-53, 112-119. -/
def VC.surface {P K : Type} [Add K] [Zero K] (T : Topo) (vol : List P → K) (m : Mesh P) (v : VC) : VC × K :=
  (v.content (T.cellDim - 1)).foldl
    (fun acc s =>
      let q := acc.1.isBoundary T m (T.cellDim - 1) s
      (q.1, if q.2 then acc.2 + vol (m.pointsOf (T.cellDim - 1) s) else acc.2)) (v, 0)

/-- `volume(segment)`: the loop over the cells of the view.  algorithm/volume.hpp:173-191, 223-231. -/
def VC.volume {P K : Type} [Add K] [Zero K] (T : Topo) (vol : List P → K) (m : Mesh P) (v : VC) : K :=
  (v.content T.cellDim).foldl (fun acc t => acc + vol (m.pointsOf T.cellDim t)) 0

end VG
