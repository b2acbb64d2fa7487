import Verif.Model.Mphtxt
import Verif.Model.Normals
import Verif.Props.MphtxtSpec

/-!
Specification for C106: normal vectors of the facets of cells.
-/

namespace VG

/-- The normal vector of the triangle `s`, turned away from the tetrahedron `c` with the help of the centroids. -/
noncomputable def outward (m : Mesh (Fin 3 → ℝ)) (s c : Nat) : Fin 3 → ℝ :=
  if 0 < ∑ i, m.triNormal s i * (m.centroidOf 3 c i - m.centroidOf 2 s i) then -m.triNormal s else m.triNormal s

/-- Volume of a tetrahedron given by its corners. -/
noncomputable def cornersVolume : List (Fin 3 → ℝ) → ℝ
  | [a, b, c, d] => spannedTetrahedron a b c d
  | _ => 0

/-- The normal vector of the edge `s`, turned away from the triangle `c` with the help of the centroids. -/
noncomputable def outwardLine (m : Mesh (Fin 2 → ℝ)) (s c : Nat) : Fin 2 → ℝ :=
  if 0 < ∑ i, m.lineNormal s i * (m.centroidOf 2 c i - m.centroidOf 1 s i) then -m.lineNormal s else m.lineNormal s

/-- Area of a triangle given by its corners. -/
noncomputable def cornersArea : List (Fin 2 → ℝ) → ℝ
  | [a, b, c] => spannedTriangle a b c
  | _ => 0

/-- Positive on the left of the line from `A` to `B`. -/
def leftOf (A B C : Fin 2 → ℝ) : ℝ := (B 0 - A 0) * (C 1 - A 1) - (B 1 - A 1) * (C 0 - A 0)

/-- No triangle is flat, and two triangles at an edge are on different sides of it. -/
structure NoFold (m : Mesh (Fin 2 → ℝ)) : Prop where
  solid : ∀ c a b p, c < m.count 2 → m.vertsOf 2 c = [a, b, p] → leftOf (m.at0 a) (m.at0 b) (m.at0 p) ≠ 0
  sides : ∀ t c c' a b p p', UsedBy (simplexTopo 2) m t c → UsedBy (simplexTopo 2) m t c' → c ≠ c' →
    m.ends t = (a, b) → (m.vertsOf 2 c).Perm [a, b, p] → (m.vertsOf 2 c').Perm [a, b, p'] →
    leftOf (m.at0 a) (m.at0 b) (m.at0 p) * leftOf (m.at0 a) (m.at0 b) (m.at0 p') < 0

end VG
