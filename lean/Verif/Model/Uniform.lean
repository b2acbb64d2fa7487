import Verif.Model.RefineMesh
import Verif.Model.RefineMarks
import Verif.Model.Ranges

/-!
Uniform refinement: all edges are marked, then `refine`.  algorithm/refine.hpp:358-370, 573-670, 909-1025.
-/

namespace VG

/-- `mark_all_edge_refinement`: the lines of the mesh in the order of iteration.  algorithm/refine.hpp:358-370. -/
def markEdges (m : Nat → Bool) (order : List Nat) : Nat → Bool := order.foldl setMark m

/-- `cell_refine_uniformly` into an empty mesh: the flags are in an empty container, in which no edge is marked.  `kids` stands
for `element_refinement<CellTag>::apply`.  With no segments in `src` this is the variant without segmentations; for segments see
`uniformRefineSeg`.  algorithm/refine.hpp:573-670, 148-185. -/
def uniformRefine {K : Type} [Add K] [Div K] [OfNat K 2] [Zero K] (T : Topo) (src : SegState (Nat → K))
    (kids : List (Option (Vtx (Nat → K))) → (Nat → Bool) → Option (List (List Nat))) : Option (RefSt (Nat → K)) :=
  refineMesh T src kids (markEdges (fun _ => false) (src.mesh.range T 1)) (edgeMid src.mesh) (src.mesh.range T 1)

/-- `cell_refine_uniformly` with segmentations: undefined if a cell has no record.  algorithm/refine.hpp:905-1025, 189-229. -/
def uniformRefineSeg {K : Type} [Add K] [Div K] [OfNat K 2] [Zero K] (T : Topo) (src : SegState (Nat → K))
    (kids : List (Option (Vtx (Nat → K))) → (Nat → Bool) → Option (List (List Nat))) : Option (RefSt (Nat → K)) :=
  refineSegMesh T src kids (markEdges (fun _ => false) (src.mesh.range T 1)) (edgeMid src.mesh) (src.mesh.range T 1)

/-- `cell_refine_uniformly` used `k` times, each time from the last mesh into a new one.  This loop is that of a user; there is no such
function in the code.  algorithm/refine.hpp:657-670. -/
def uniformTimes {K : Type} [Add K] [Div K] [OfNat K 2] [Zero K] (T : Topo)
    (kids : List (Option (Vtx (Nat → K))) → (Nat → Bool) → Option (List (List Nat))) : Nat → SegState (Nat → K) → Option (SegState (Nat → K))
  | 0, src => some src
  | k + 1, src => (uniformRefine T src kids).bind (fun r => uniformTimes T kids k r.out)

end VG
