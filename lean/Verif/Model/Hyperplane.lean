import Verif.Model.RefineMarks
import Verif.Model.UniqueVertex
import Mathlib.Algebra.BigOperators.Group.Finset.Basic
import Mathlib.Data.Fintype.Basic
import Mathlib.Algebra.Field.Defs

/-!
Edges cut by a hyperplane: `mark_edges_for_hyperplane_refine`.  algorithm/refine.hpp:375-412.
Coordinates are exact.
-/

namespace VG

variable {K : Type} [Field K] [LinearOrder K] {d : Nat}

/-- `inner_prod(hyperplane_normal, point - hyperplane_point)`.  algorithm/refine.hpp:387-388;
algorithm/inner_prod.hpp. -/
def hyperDist (h n p : Fin d → K) : K := ∑ i, n i * (p i - h i)

/-- `relative_tolerance` of a number used as configuration, with the length of the edge.
algorithm/detail/numeric.hpp:56-69. -/
def relTol (eps base : K) : K := max (eps * base) (max eps (-eps))

/-- Whether an edge is marked.  algorithm/refine.hpp:387-395. -/
def hyperCuts (h n : Fin d → K) (tol : K) (p0 p1 : Fin d → K) : Bool :=
  let d0 := hyperDist h n p0
  let d1 := hyperDist h n p1
  let q := if d0 > d1 then (d1, d0) else (d0, d1)
  decide (q.1 < -tol ∧ q.2 > tol)

/-- `new_pt`.  algorithm/refine.hpp:399-405. -/
def hyperPoint (h n p0 p1 : Fin d → K) : Fin d → K :=
  let qd := hyperDist h n p0
  let pd := hyperDist h n p1
  fun i => p1 i - (pd / (pd - qd)) * (p1 i - p0 i)

/-- Output mesh, marks of the edges, vertices assigned to edges (`none`: default constructed handle).
algorithm/refine.hpp:372-383. -/
structure HyperSt (K : Type) (d : Nat) where
  dst : Mesh (Fin d → K)
  mark : Nat → Bool
  vtx : Nat → Option Nat

/-- The loop body for edge `e` with the end points `ends e`.  algorithm/refine.hpp:385-411. -/
def hyperEdge (norm : (Fin d → K) → K) (scale : K → K) (eps : K) (h n : Fin d → K)
    (ends : Nat → (Fin d → K) × (Fin d → K)) (st : HyperSt K d) (e : Nat) : HyperSt K d :=
  let p0 := (ends e).1
  let p1 := (ends e).2
  let tol := relTol eps (norm (fun i => p1 i - p0 i))
  if hyperCuts h n tol p0 p1 then
    let q := st.dst.makeUniqueVertexDefault (fun a b => norm (fun i => a i - b i)) norm scale (hyperPoint h n p0 p1)
    ⟨q.1, setMark st.mark e, fun x => if x = e then some q.2 else st.vtx x⟩
  else
    { st with mark := fun x => if x = e then false else st.mark x }

/-- `mark_edges_for_hyperplane_refine`; `order` is the order in which the edges are visited.
algorithm/refine.hpp:384-411. -/
def hyperMark (norm : (Fin d → K) → K) (scale : K → K) (eps : K) (h n : Fin d → K)
    (ends : Nat → (Fin d → K) × (Fin d → K)) (st : HyperSt K d) (order : List Nat) : HyperSt K d :=
  order.foldl (hyperEdge norm scale eps h n ends) st

end VG
