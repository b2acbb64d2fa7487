import Verif.Model.Voronoi
import Verif.Props.Distance

/-!
Specification for C68, `apply_voronoi` for meshes of triangles in the plane.

The specification uses cotangents: in a triangle `ABC` with circumcenter `O` and `M` the middle of `AB`, the segment `MO`
has length `|AB| cot C / 2`, negative if `O` lies on the other side of `AB`.
-/

namespace VG

/-- Cotangent of the angle at `C` in the triangle `ABC`. -/
noncomputable def cotAt (C A B : Fin 2 → ℝ) : ℝ :=
  ((A 0 - C 0) * (B 0 - C 0) + (A 1 - C 1) * (B 1 - C 1))
    / |(A 0 - C 0) * (B 1 - C 1) - (A 1 - C 1) * (B 0 - C 0)|

/-- Area of a triangle. -/
noncomputable def planeArea (A B C : Fin 2 → ℝ) : ℝ :=
  |(B 0 - A 0) * (C 1 - A 1) - (B 1 - A 1) * (C 0 - A 0)| / 2

/-- The vertices opposite the edge `ab` in the triangle with vertices `vs`. -/
def oppositeOf (vs : List Nat) (a b : Nat) : List Nat :=
  if a ∈ vs ∧ b ∈ vs then vs.filter fun w => decide (w ≠ a ∧ w ≠ b) else []

/-- Length of the part of the perpendicular bisector of `ab` belonging to the triangle. -/
noncomputable def edgeShare (pt : Nat → Fin 2 → ℝ) (vs : List Nat) (a b : Nat) : ℝ :=
  ((oppositeOf vs a b).map fun w => eucl (pt a) (pt b) / 2 * cotAt (pt w) (pt a) (pt b)).sum

/-- Area of the part of the Voronoi box of `a` belonging to the triangle: for each edge leaving `a` a triangle over the
half edge, with the part of the bisector as height. -/
noncomputable def boxShare (pt : Nat → Fin 2 → ℝ) (vs : List Nat) (a : Nat) : ℝ :=
  ((vs.filter fun b => decide (b ≠ a)).map fun b => eucl (pt a) (pt b) / 4 * edgeShare pt vs a b).sum

/-- No triangle is degenerate. -/
def NoFlatTriangle (m : Mesh (Fin 2 → ℝ)) : Prop :=
  ∀ e ∈ m.elems 2, ∀ a b c, e.verts = [a, b, c] → planeArea (m.at0 a) (m.at0 b) (m.at0 c) ≠ 0

/-- Every obtuse angle faces another triangle: if the angle at `a` is obtuse, the opposite edge belongs to another
triangle, that is, is not on the boundary. -/
def ObtuseInside (m : Mesh (Fin 2 → ℝ)) : Prop :=
  ∀ (t : Nat) (e : Elem) (a b c : Nat), (m.elems 2)[t]? = some e → e.verts.Perm [a, b, c] → cotAt (m.at0 a) (m.at0 b) (m.at0 c) < 0 →
    ∃ (t' : Nat) (e' : Elem), (m.elems 2)[t']? = some e' ∧ t' ≠ t ∧ b ∈ e'.verts ∧ c ∈ e'.verts

end VG
