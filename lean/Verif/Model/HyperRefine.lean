import Verif.Model.Hyperplane
import Verif.Model.RefineMesh

/-!
`hyperplane_refine` of a whole mesh.  algorithm/refine.hpp:672-705, 1029-1063.
-/

namespace VG

variable {K : Type} [Field K] [LinearOrder K] {d : Nat}

/-- `viennagrid::point(viennagrid::vertices(*lit)[0])` and `[1]`.  algorithm/refine.hpp:387-388, 399-400.
Every stored line has two vertices; the second case does not occur. -/
def edgeEnds (m : Mesh (Fin d → K)) (e : Nat) : (Fin d → K) × (Fin d → K) :=
  match (m.vertsOf 1 e).map m.ptOf with
  | [some a, some b] => (a, b)
  | _ => (fun _ => 0, fun _ => 0)

/-- `hyperplane_refine` into an empty output mesh: the edges are marked and given vertices, then `simple_refine`.
`order` is the order in which the lines are visited, `kids` stands for `element_refinement<CellTag>::apply`.
The segments of all cells can be asked for (see `hyperRefineSeg`); with a source in which no cell is in a segment this
is the variant without segmentations.  algorithm/refine.hpp:681-705, 1038-1063. -/
def hyperRefine (T : Topo) (src : SegState (Fin d → K))
    (kids : List (Option (Vtx (Fin d → K))) → (Nat → Bool) → Option (List (List Nat)))
    (norm : (Fin d → K) → K) (scale : K → K) (eps : K) (h n : Fin d → K) (order : List Nat) : Option (RefSt (Fin d → K)) :=
  let s := hyperMark norm scale eps h n (edgeEnds src.mesh) ⟨Mesh.empty, fun _ => false, fun _ => none⟩ order
  simpleRefine T src kids s.mark s.vtx ⟨{ (SegState.empty : SegState (Fin d → K)) with mesh := s.dst }, [], []⟩
    (List.range (src.mesh.count T.cellDim))

/-- The variant with segmentations: `segment_ids(segmentation_in, cell)` is asked for each cell, which is undefined
for a cell without record.  algorithm/refine.hpp:94-138, 1038-1063. -/
def hyperRefineSeg (T : Topo) (src : SegState (Fin d → K))
    (kids : List (Option (Vtx (Fin d → K))) → (Nat → Bool) → Option (List (List Nat)))
    (norm : (Fin d → K) → K) (scale : K → K) (eps : K) (h n : Fin d → K) (order : List Nat) : Option (RefSt (Fin d → K)) :=
  if (List.range (src.mesh.count T.cellDim)).all (src.recorded T.cellDim) then
    hyperRefine T src kids norm scale eps h n order
  else none

end VG
