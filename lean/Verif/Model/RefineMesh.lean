import Verif.Model.Segments
import Verif.Model.Copy
import Verif.Model.RefineTri
import Verif.Model.RefineTet

/-!
Refinement of a whole mesh with segmentation.  algorithm/refine.hpp:44-229.
-/

namespace VG

variable {P : Type}

/-- Output mesh and segmentation, and the map from vertex ids of the input to handles of the output.
`kids` has no counterpart in the code: it lists for each cell made the cell it comes from and its
vertices as labels of that cell (`0 ..` for its vertices, then its edges).  algorithm/refine.hpp:92-138, 190-229. -/
structure RefSt (P : Type) where
  out : SegState P
  map : List (Int × Nat)
  kids : List (Nat × List Nat)

/-- `vertex_copy_map_(vertex)` with tolerance 0.  mesh/mesh_operations.hpp:59-70. -/
def refVertex (src : Mesh P) (c : RefSt P) (v : Nat) : Option (RefSt P × Nat) :=
  match c.map.find? (fun e => e.1 == src.vid v) with
  | some e => some (c, e.2)
  | none =>
    (src.ptOf v).map (fun p =>
      ({ c with out := { c.out with mesh := c.out.mesh.makeVertex none p },
                map := (src.vid v, c.out.mesh.verts.length) :: c.map }, c.out.mesh.verts.length))

/-- The vertices of a cell, at the start of each of the `apply` functions.
algorithm/detail/refine_tri.hpp:70-75; algorithm/detail/refine_tet.hpp:136-143. -/
def refVerts (src : Mesh P) : RefSt P → List Nat → Option (RefSt P × List Nat)
  | c, [] => some (c, [])
  | c, v :: vs => (refVertex src c v).bind (fun q => (refVerts src q.1 vs).map (fun r => (r.1, q.2 :: r.2)))

/-- The handle for a label: a vertex of the cell, or the vertex assigned to an edge; `none` for a handle
never assigned.  algorithm/detail/refine_tri.hpp:101-334; algorithm/detail/refine_tet.hpp:124-2053. -/
def refLabel (vs : List Nat) (es : List (Option Nat)) (l : Nat) : Option Nat :=
  if l < vs.length then vs[l]? else es[l - vs.length]?.join

/-- One child: `make_element`, then `add` to the segments of the parent.
algorithm/refine.hpp:130-136; mesh/segmentation.hpp:1992-2018. -/
def refChild (T : Topo) (gs : List Nat) (t : Nat) (vs : List Nat) (es : List (Option Nat)) (c : RefSt P)
    (labels : List Nat) : Option (RefSt P) :=
  (labels.mapM (refLabel vs es)).bind (fun handles =>
    ((c.out.step T (.mesh (.elem T.cellDim handles))).bind (fun o =>
      o.run T (gs.map (fun g => .add g T.cellDim (c.out.mesh.makeElem T T.cellDim handles).slot)))).map (fun o =>
        { c with out := o, kids := c.kids ++ [(t, labels)] }))

/-- The children one after the other.  algorithm/refine.hpp:126-136. -/
def refChildren (T : Topo) (gs : List Nat) (t : Nat) (vs : List Nat) (es : List (Option Nat)) :
    RefSt P → List (List Nat) → Option (RefSt P)
  | c, [] => some c
  | c, ls :: rest => (refChild T gs t vs es c ls).bind (fun c' => refChildren T gs t vs es c' rest)

/-- One cell of the input.  `kids` stands for `element_refinement<CellTag>::apply`; it is given the
vertices of the cell and of its edges as they are in the output mesh, by labels, and the marks of the edges of the cell.  `mark` and
`ev` are the two accessors for edges.  algorithm/refine.hpp:114-137. -/
def refCell (T : Topo) (src : SegState P) (kids : List (Option (Vtx P)) → (Nat → Bool) → Option (List (List Nat)))
    (mark : Nat → Bool) (ev : Nat → Option Nat) (c : RefSt P) (t : Nat) : Option (RefSt P) :=
  (refVerts src.mesh c (src.mesh.vertsOf T.cellDim t)).bind (fun q =>
    (kids (q.2.map (fun s => q.1.out.mesh.verts[s]?) ++
        (src.mesh.bndOf T.cellDim t 1).map (fun e => (ev e).bind (fun s => q.1.out.mesh.verts[s]?))) (fun i => mark ((src.mesh.bndOf T.cellDim t 1).getD i 0))).bind (fun cells =>
      refChildren T (src.segmentIds T.cellDim t) t q.2 ((src.mesh.bndOf T.cellDim t 1).map ev) q.1 cells))

/-- `simple_refine` over a list of cells.  algorithm/refine.hpp:92-138; the variant without segmentation
(49-78) is the case in which no cell is in a segment. -/
def simpleRefine (T : Topo) (src : SegState P) (kids : List (Option (Vtx P)) → (Nat → Bool) → Option (List (List Nat)))
    (mark : Nat → Bool) (ev : Nat → Option Nat) : RefSt P → List Nat → Option (RefSt P)
  | c, [] => some c
  | c, t :: ts => (refCell T src kids mark ev c t).bind (fun c' => simpleRefine T src kids mark ev c' ts)

/-- Step 1 of `refine_impl`: a new vertex for each marked edge.  `mid e` stands for the centroid of the
edge, `order` is the order of iteration.  algorithm/refine.hpp:213-223. -/
def refEdges (mark : Nat → Bool) (mid : Nat → P) : Mesh P × (Nat → Option Nat) → List Nat → Mesh P × (Nat → Option Nat)
  | s, [] => s
  | s, e :: es =>
    refEdges mark mid
      (if mark e then (s.1.makeVertex none (mid e), fun x => if x = e then some s.1.verts.length else s.2 x) else s) es

/-- `refine_impl` into an empty output mesh, if the segments of all cells can be asked for (see `refineSegMesh`).
algorithm/refine.hpp:189-229.  With a source in which no cell is in a segment this is also the variant without
segmentations (algorithm/refine.hpp:148-185). -/
def refineMesh (T : Topo) (src : SegState P) (kids : List (Option (Vtx P)) → (Nat → Bool) → Option (List (List Nat)))
    (mark : Nat → Bool) (mid : Nat → P) (order : List Nat) : Option (RefSt P) :=
  let s := refEdges mark mid (Mesh.empty, fun _ => none) order
  simpleRefine T src kids mark s.2 ⟨{ (SegState.empty : SegState P) with mesh := s.1 }, [], []⟩ (List.range (src.mesh.count T.cellDim))

/-- `refine_impl` with segmentations, into an empty output mesh: `segment_ids(segmentation_in, cell)` is asked for each
cell, which is undefined for a cell without record (`SegState.queryIds`).  algorithm/refine.hpp:120, 135, 189-229. -/
def refineSegMesh (T : Topo) (src : SegState P) (kids : List (Option (Vtx P)) → (Nat → Bool) → Option (List (List Nat)))
    (mark : Nat → Bool) (mid : Nat → P) (order : List Nat) : Option (RefSt P) :=
  if (List.range (src.mesh.count T.cellDim)).all (src.recorded T.cellDim) then refineMesh T src kids mark mid order else none

/-- Distance of two vertices of the output mesh given by labels, taken from their points.
algorithm/detail/refine_tet.hpp:37-83. -/
def vtxDist {K : Type} [Zero K] (dist : P → P → K) (vs : List (Option (Vtx P))) (a b : Nat) : K :=
  match vs[a]?.join, vs[b]?.join with
  | some x, some y => dist x.pt y.pt
  | _, _ => 0

/-- `element_refinement<triangle_tag>::apply`.  algorithm/detail/refine_tri.hpp:349-377. -/
def triKids {K : Type} [Zero K] [LT K] [DecidableLT K] (dist : P → P → K) (vs : List (Option (Vtx P))) (m : Nat → Bool) :
    Option (List (List Nat)) := refineTri (vtxDist dist vs) m

/-- `element_refinement<tetrahedron_tag>::apply`.  algorithm/detail/refine_tet.hpp:2070-2101. -/
def tetKids {K : Type} [Zero K] [LT K] [LE K] [DecidableLT K] [DecidableLE K] (dist : P → P → K)
    (vs : List (Option (Vtx P))) (m : Nat → Bool) : Option (List (List Nat)) :=
  refineTet (vtxDist dist vs) (vtxDist dist vs) (fun a => (vs[a]?.join.map (·.id)).getD 0) m

/-- `viennagrid::centroid(edge)`.  algorithm/centroid.hpp:37-60, 93-100.  Points are given by their coordinates. -/
def edgeMid {K : Type} [Add K] [Div K] [OfNat K 2] [Zero K] (m : Mesh (Nat → K)) (e : Nat) : Nat → K :=
  match (m.vertsOf 1 e).map m.ptOf with
  | [some a, some b] => fun k => (a k + b k) / 2
  | _ => fun _ => 0

end VG
