import Verif.Model.Voronoi
import Verif.Props.VoronoiSpec

/-!
Specification for C68, `apply_voronoi` for meshes of triangles in space.
-/

namespace VG

/-- Inner product of the two edges leaving `A`. -/
def spaceDot (A B C : Fin 3 → ℝ) : ℝ := ∑ i, (B i - A i) * (C i - A i)

/-- Area of a triangle in space. -/
noncomputable def spaceArea (A B C : Fin 3 → ℝ) : ℝ :=
  √((∑ i, (B i - A i) ^ 2) * (∑ i, (C i - A i) ^ 2) - spaceDot A B C ^ 2) / 2

/-- Cotangent of the angle at `C` in the triangle `ABC`. -/
noncomputable def cotSpace (C A B : Fin 3 → ℝ) : ℝ := spaceDot C A B / (2 * spaceArea A B C)

/-- Length of the part of the perpendicular bisector of `ab` in the triangle. -/
noncomputable def surfEdge (pt : Nat → Fin 3 → ℝ) (vs : List Nat) (a b : Nat) : ℝ :=
  ((oppositeOf vs a b).map fun w => eucl (pt a) (pt b) / 2 * cotSpace (pt w) (pt a) (pt b)).sum

/-- Area of the part of the Voronoi box of `a` in the triangle. -/
noncomputable def surfBox (pt : Nat → Fin 3 → ℝ) (vs : List Nat) (a : Nat) : ℝ :=
  ((vs.filter fun b => decide (b ≠ a)).map fun b => eucl (pt a) (pt b) / 4 * surfEdge pt vs a b).sum

/-- No triangle is degenerate. -/
def NoFlatFace (m : Mesh (Fin 3 → ℝ)) : Prop :=
  ∀ e ∈ m.elems 2, ∀ a b c, e.verts = [a, b, c] → spaceArea (m.at0 a) (m.at0 b) (m.at0 c) ≠ 0

/-- No angle is obtuse. -/
def NoObtuseAngle (m : Mesh (Fin 3 → ℝ)) : Prop :=
  ∀ e ∈ m.elems 2, ∀ a b c, e.verts.Perm [a, b, c] → 0 ≤ spaceDot (m.at0 a) (m.at0 b) (m.at0 c)

end VG
