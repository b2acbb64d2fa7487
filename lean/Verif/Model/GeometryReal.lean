import Verif.Model.Geometry
import Mathlib.Analysis.Real.Sqrt

/-! The parts of the geometry that take square roots, over the reals. -/

namespace VG

variable {d : Nat}

/-- `norm_2`, which is also `norm` without a tag.  algorithm/norm.hpp:59-71, 124-148. -/
noncomputable def euclNorm (p : Fin d → ℝ) : ℝ := √(sumSquares p)

/-- `signed_spanned_volume` of a line in two and three dimensions.  algorithm/spanned_volume.hpp:58-64, 85-92. -/
noncomputable def signedLine (p1 p2 : Fin d → ℝ) : ℝ := √(∑ i, (p2 i - p1 i) * (p2 i - p1 i))

/-- `signed_spanned_volume` of a triangle in three dimensions.  algorithm/spanned_volume.hpp:94-104. -/
noncomputable def signedTriangle3 (p1 p2 p3 : Fin 3 → ℝ) : ℝ := euclNorm (crossProd (p2 - p1) (p3 - p1)) / 2

/-- `spanned_volume` of a triangle in three dimensions.  algorithm/spanned_volume.hpp:280-286. -/
noncomputable def spannedTriangle3 (p1 p2 p3 : Fin 3 → ℝ) : ℝ := |signedTriangle3 p1 p2 p3|

/-- `volume` of a quadrilateral in three dimensions.  algorithm/volume.hpp:83-96. -/
noncomputable def volumeQuad3 (p : Nat → Fin 3 → ℝ) : ℝ :=
  spannedTriangle3 (p 0) (p 1) (p 3) + spannedTriangle3 (p 1) (p 2) (p 3)

/-- `volume` of a line.  algorithm/volume.hpp:47-66. -/
noncomputable def volumeLine (p0 p1 : Fin d → ℝ) : ℝ := euclNorm (p0 - p1)

end VG
