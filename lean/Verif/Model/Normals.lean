import Verif.Model.Voronoi
import Verif.Model.VoronoiCells

/-!
Normal vectors of the elements of a mesh.
-/

namespace VG

/-- `normal_vector(line)` in two dimensions, for an edge of a mesh: the two vertices of the edge in the stored order.
algorithm/geometry.hpp:47-65, 98-126. -/
noncomputable def Mesh.lineNormal (m : Mesh (Fin 2 → ℝ)) (s : Nat) : Fin 2 → ℝ :=
  normalLine (m.at0 (m.ends s).1) (m.at0 (m.ends s).2)

/-- `normal_vector(quadrilateral)` in three dimensions: the code of the triangle; the fourth corner is not looked at.
algorithm/geometry.hpp:86-96. -/
def normalQuad {K : Type} [Field K] (p : Nat → Fin 3 → K) : Fin 3 → K := normalTriangle (p 0) (p 1) (p 2)

/-- `normal_vector(quadrilateral)` for a quadrilateral of a mesh: the vertices in the stored order.
algorithm/geometry.hpp:69-82, 86-96, 98-126. -/
noncomputable def Mesh.quadNormal (m : Mesh (Fin 3 → ℝ)) (s : Nat) : Fin 3 → ℝ :=
  normalQuad fun i => m.at0 ((m.vertsOf 2 s).getD i 0)

end VG
