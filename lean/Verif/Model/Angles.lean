import Verif.Model.GeometryReal
import Verif.Model.Coordinates

/-! Angles between vectors, solid angles and angles between planes (algorithm/angle.hpp), over the reals.  Round-off,
for which the first two branches of `angle` are meant, is not modelled. -/

namespace VG

variable {d : Nat}

/-- `angle(v0, v1)`; `none` stands for the division of zero by zero, where the code returns not-a-number.
algorithm/angle.hpp:28-40. -/
noncomputable def vecAngle (v0 v1 : Fin d → ℝ) : Option ℝ :=
  let numerator := innerProd v0 v1
  let denominator := euclNorm v0 * euclNorm v1
  if numerator > denominator then some 0
  else if numerator < -denominator then some (Real.arccos (-1))
  else if denominator = 0 then none
  else some (Real.arccos (numerator / denominator))

/-- `angle(p0, p1, origin)`.  algorithm/angle.hpp:43-50. -/
noncomputable def angleAt (p0 p1 origin : Fin d → ℝ) : Option ℝ := vecAngle (p0 - origin) (p1 - origin)

/-- `solid_angle(a, b, c)`.  algorithm/angle.hpp:54-69. -/
noncomputable def solidAngle (a b c : Fin 3 → ℝ) : ℝ :=
  let determinant := a 0 * b 1 * c 2 + b 0 * c 1 * a 2 + c 0 * a 1 * b 2 - a 2 * b 1 * c 0 - b 2 * c 1 * a 0 - c 2 * a 1 * b 0
  let al := euclNorm a
  let bl := euclNorm b
  let cl := euclNorm c
  let div := al * bl * cl + innerProd a b * cl + innerProd a c * bl + innerProd b c * al
  let at' := atan2 determinant div
  |2 * at'|

/-- `solid_angle(p0, p1, p2, origin)`.  algorithm/angle.hpp:72-80. -/
noncomputable def solidAngleAt (p0 p1 p2 origin : Fin 3 → ℝ) : ℝ := solidAngle (p0 - origin) (p1 - origin) (p2 - origin)

/-- `dihedral_angle`.  algorithm/angle.hpp:84-92. -/
noncomputable def dihedralAngle (p0 p1 p2 q0 q1 q2 : Fin 3 → ℝ) : Option ℝ :=
  vecAngle (crossProd (p1 - p0) (p2 - p0)) (crossProd (q1 - q0) (q2 - q0))

end VG
