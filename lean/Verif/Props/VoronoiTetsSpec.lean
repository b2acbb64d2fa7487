import Verif.Props.Circumcenter
import Verif.Model.VoronoiCells

/-!
Specification for C72: what is asked of a mesh of tetrahedra so that Voronoi boxes fill the mesh, in terms of the vertices
of the cells only.
-/

namespace VG

variable (m : Mesh (Fin 3 → ℝ))

/-- The cell `c` contains the edge `a b`. -/
def Around (a b c : Nat) : Prop := c < m.count 3 ∧ a ∈ m.vertsOf 3 c ∧ b ∈ m.vertsOf 3 c ∧ a ≠ b

/-- `o` has the same distance from all vertices of the cell. -/
def CenterOf (c : Nat) (o : Fin 3 → ℝ) : Prop :=
  ∀ v ∈ m.vertsOf 3 c, ∀ v' ∈ m.vertsOf 3 c, sqDist o (m.at0 v) = sqDist o (m.at0 v')

/-- `a b w` is a triangle on the boundary, `p` the fourth vertex of the only cell with it. -/
def Outer (c a b w p : Nat) : Prop :=
  c < m.count 3 ∧ (m.vertsOf 3 c).Perm [a, b, w, p]
    ∧ ∀ c' < m.count 3, c' ≠ c → ¬ (a ∈ m.vertsOf 3 c' ∧ b ∈ m.vertsOf 3 c' ∧ w ∈ m.vertsOf 3 c')

/-- On which side of the plane `a b w` the point `x` is, and how far, times twice the area of the triangle. -/
noncomputable def offPlane (a b w : Nat) (x : Fin 3 → ℝ) : ℝ :=
  determinant3 (m.at0 b - m.at0 a) (m.at0 w - m.at0 a) (x - m.at0 a)

/-- `z` is the circumcenter of the triangle `a b w`. -/
def TriCenterOf (a b w : Nat) (z : Fin 3 → ℝ) : Prop :=
  sqDist z (m.at0 a) = sqDist z (m.at0 b) ∧ sqDist z (m.at0 a) = sqDist z (m.at0 w) ∧ offPlane m a b w z = 0

/-- `x` is twice the area of the part of the interface of `a b` in the cell `c`, times the length of the edge.  This part is the
quadrilateral of the middle of the edge, the circumcenter of a facet at the edge, that of the cell and that of the other facet
at the edge; it is counted as positive if it goes around the edge in the same direction as the facets. -/
def Piece (c a b : Nat) (x : ℝ) : Prop :=
  ∃ (w p : Nat) (o z z' : Fin 3 → ℝ), (m.vertsOf 3 c).Perm [a, b, w, p] ∧ CenterOf m c o ∧ TriCenterOf m a b w z
    ∧ TriCenterOf m a b p z'
    ∧ x * |offPlane m a b w (m.at0 p)| = offPlane m a b w (m.at0 p)
        * (determinant3 (m.at0 b - m.at0 a) (z - circumLine (m.at0 a) (m.at0 b)) (o - circumLine (m.at0 a) (m.at0 b))
          + determinant3 (m.at0 b - m.at0 a) (o - circumLine (m.at0 a) (m.at0 b)) (z' - circumLine (m.at0 a) (m.at0 b)))

/-- In no cell the second vertex is nearer than `1e-10` to the plane through the others. -/
def Tall : Prop :=
  ∀ e ∈ m.elems 3, ∀ a b w p, e.verts = [a, b, w, p] →
    (1 / 10000000000) ^ 2 * (∑ i, crossProd (m.at0 w - m.at0 a) (m.at0 p - m.at0 a) i ^ 2) ≤ offPlane m a b w (m.at0 p) ^ 2

/-- Each triangle belongs to one or two cells. -/
def FacetsUsed : Prop :=
  ∀ f ∈ m.elems 2, ((m.elems 3).filter fun c => decide (f.verts ⊆ c.verts)).length = 1
    ∨ ((m.elems 3).filter fun c => decide (f.verts ⊆ c.verts)).length = 2

/-- Each edge belongs to a triangle. -/
def EdgesUsed : Prop := ∀ e ∈ m.elems 1, ∃ f ∈ m.elems 2, e.verts ⊆ f.verts

/-- No cell is flat. -/
def Solid : Prop :=
  ∀ c < m.count 3, ∀ a b w p, (m.vertsOf 3 c).Perm [a, b, w, p] → offPlane m a b w (m.at0 p) ≠ 0

/-- What the cell `c` has of the interface of `a b` at its facet `a b w`, with circumcenters `O` and a point `q` of the interface:
the triangle of `q`, the circumcenter and the middle between this and the circumcenter of the other cell there, or if there is no
other cell, the two triangles of `q` and the circumcenter of the facet with the circumcenter of the cell and the middle of the
edge. -/
def FacetShare (O : Nat → Fin 3 → ℝ) (q : Fin 3 → ℝ) (c a b w : Nat) (x : ℝ) : Prop :=
  (∃ c' < m.count 3, c' ≠ c ∧ a ∈ m.vertsOf 3 c' ∧ b ∈ m.vertsOf 3 c' ∧ w ∈ m.vertsOf 3 c'
    ∧ x = spannedTriangle3 q (O c) (fun i => (O c i + O c' i) / 2))
  ∨ ((∀ c' < m.count 3, c' ≠ c → ¬ (a ∈ m.vertsOf 3 c' ∧ b ∈ m.vertsOf 3 c' ∧ w ∈ m.vertsOf 3 c'))
    ∧ ∃ z, TriCenterOf m a b w z
      ∧ x = spannedTriangle3 q (O c) z + spannedTriangle3 q (circumLine (m.at0 a) (m.at0 b)) z)

/-- What is recorded for the cell `c`. -/
def recorded (l : List (Nat × ℝ)) (c : Nat) : ℝ := ((l.filter fun x => decide (x.1 = c)).map (·.2)).sum

/-- A Delaunay mesh that conforms to its boundary, which is convex at each of its edges. -/
structure Delaunay : Prop where
  /-- no cell is flat -/
  solid : Solid m
  /-- two cells with a common triangle are on different sides of it -/
  apart : ∀ c c' a b w p p', c < m.count 3 → c' < m.count 3 → c ≠ c' → (m.vertsOf 3 c).Perm [a, b, w, p] →
    (m.vertsOf 3 c').Perm [a, b, w, p'] → offPlane m a b w (m.at0 p) * offPlane m a b w (m.at0 p') < 0
  /-- no vertex of a cell at the edge `a b` is inside the sphere of another one there -/
  empty : ∀ a b c c', Around m a b c → Around m a b c' → ∀ o, CenterOf m c o → ∀ s ∈ m.vertsOf 3 c',
    sqDist o (m.at0 a) ≤ sqDist o (m.at0 s)
  /-- no vertex of a cell at an edge `a b` on the boundary is inside the sphere with this diameter -/
  edges : ∀ c a b w p, Outer m c a b w p → ∀ c', Around m a b c' → ∀ s ∈ m.vertsOf 3 c',
    sqDist (circumLine (m.at0 a) (m.at0 b)) (m.at0 a) ≤ sqDist (circumLine (m.at0 a) (m.at0 b)) (m.at0 s)
  /-- no vertex of a cell at an edge on the boundary is behind the boundary there -/
  hull : ∀ c a b w p, Outer m c a b w p → ∀ c', Around m a b c' → ∀ s ∈ m.vertsOf 3 c',
    0 ≤ offPlane m a b w (m.at0 p) * offPlane m a b w (m.at0 s)
  /-- no circumcenter of a cell at an edge on the boundary is behind the boundary there -/
  inside : ∀ c a b w p, Outer m c a b w p → ∀ c', Around m a b c' → ∀ o, CenterOf m c' o →
    0 ≤ offPlane m a b w (m.at0 p) * offPlane m a b w o

end VG
