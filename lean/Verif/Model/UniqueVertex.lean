import Verif.Model.Mesh
import Mathlib.Order.Defs.LinearOrder

/-!
Model of `make_unique_vertex`.
-/

namespace VG

variable {P K : Type}

/-- `make_unique_vertex(mesh, p, tolerance)`: the first vertex closer than the tolerance, or a new
vertex.  `dist p q` stands for `norm_2(p - q)`.  mesh/element_creation.hpp:199-219.
Simplified: coordinates are exact, there is no floating-point rounding. -/
def Mesh.makeUniqueVertex [LinearOrder K] [Zero K] (dist : P → P → K) (m : Mesh P) (p : P) (tol : K) :
    Mesh P × Nat :=
  match (if 0 < tol then m.verts.findIdx? (fun v => decide (dist p v.pt < tol)) else none) with
  | some s => (m, s)
  | none => (m.makeVertex none p, m.verts.length)

/-- `make_unique_vertex(mesh, p)`: the tolerance is the norm of `p` divided by a million; `scale`
stands for that division.  mesh/element_creation.hpp:222-228. -/
def Mesh.makeUniqueVertexDefault [LinearOrder K] [Zero K] (dist : P → P → K) (norm : P → K)
    (scale : K → K) (m : Mesh P) (p : P) : Mesh P × Nat :=
  m.makeUniqueVertex dist p (scale (norm p))

end VG
