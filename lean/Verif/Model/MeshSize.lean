import Verif.Model.GeometryReal
import Verif.Model.Mesh

/-! Size of a mesh. -/

namespace VG

variable {d : Nat}

/-- `mesh_size`: `norm_2(bb.second - bb.first)` for the bounding box of the vertices; `top` is
`std::numeric_limits<NumericType>::max()`.  algorithm/geometry.hpp:200-227, 229-242. -/
noncomputable def Mesh.meshSize (top : ℝ) (m : Mesh (Fin d → ℝ)) : ℝ :=
  let bb := boundingBox top (m.verts.map (·.pt))
  euclNorm (bb.2 - bb.1)

end VG
