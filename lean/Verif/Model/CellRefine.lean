import Verif.Model.Uniform

/-!
Refinement of marked cells: all edges of marked cells are marked, then `refine`.  algorithm/refine.hpp:321-355, 500-568, 818-902.
-/

namespace VG

/-- `cell_refinement_to_edge_refinement` on flags that are all false: the cells of the mesh, each with its flag and its edges.
algorithm/refine.hpp:321-355, 523-529. -/
def edgeFlags {P : Type} (T : Topo) (m : Mesh P) (flag : Nat → Bool) : Nat → Bool :=
  cellMarks ((List.range (m.count T.cellDim)).map fun t => (flag t, m.bndOf T.cellDim t 1)) fun _ => false

/-- `cell_refine` (`element_refine` for the cells) into an empty mesh; `flag` is the accessor with the flags of the cells, `kids` stands for
`element_refinement<CellTag>::apply`.  With no segments in `src` this is the variant without segmentations.
algorithm/refine.hpp:508-568, 148-185. -/
def cellRefine {K : Type} [Add K] [Div K] [OfNat K 2] [Zero K] (T : Topo) (src : SegState (Nat → K))
    (kids : List (Option (Vtx (Nat → K))) → (Nat → Bool) → Option (List (List Nat))) (flag : Nat → Bool) : Option (RefSt (Nat → K)) :=
  refineMesh T src kids (edgeFlags T src.mesh flag) (edgeMid src.mesh) (src.mesh.range T 1)

/-- `cell_refine` with segmentations: undefined if a cell has no record.  algorithm/refine.hpp:829-902, 189-229. -/
def cellRefineSeg {K : Type} [Add K] [Div K] [OfNat K 2] [Zero K] (T : Topo) (src : SegState (Nat → K))
    (kids : List (Option (Vtx (Nat → K))) → (Nat → Bool) → Option (List (List Nat))) (flag : Nat → Bool) : Option (RefSt (Nat → K)) :=
  refineSegMesh T src kids (edgeFlags T src.mesh flag) (edgeMid src.mesh) (src.mesh.range T 1)

end VG
