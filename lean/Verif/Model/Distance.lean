import Verif.Model.ClosestPoints
import Verif.Model.GeometryReal

/-! Distances (algorithm/distance.hpp), over the reals. -/

namespace VG

variable {d : Nat}

/-- `distance` of two points, `distance_impl(p1, p2)`.  algorithm/distance.hpp:42-49, 233-241. -/
noncomputable def pointDistance (p q : Fin d → ℝ) : ℝ := euclNorm (p - q)

/-- `distance` of two things for which `closest_points` gives the pair, and `boundary_distance` of two things for which
`closest_points_on_boundary` gives it; `none` is a division by zero there.
algorithm/distance.hpp:50-55, 101-115, 174-188. -/
noncomputable def pairDistance (pr : Option ((Fin d → ℝ) × (Fin d → ℝ))) : Option ℝ :=
  pr.map fun pr => pointDistance pr.1 pr.2

end VG
