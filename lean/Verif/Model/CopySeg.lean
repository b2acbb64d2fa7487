import Verif.Model.Copy
import Verif.Model.SegNames
import Verif.Model.ViewQueries
import Verif.Model.Iterators

/-!
Model of the operations that copy a mesh together with its segments: `copy` with segmentations,
assignment of a `segmented_mesh`, and `extract_boundary` with segmentations.
-/

namespace VG

variable {P N : Type}

/-- Why a call gives no result: an exception, or undefined behaviour.  Not in the code. -/
inductive Fail where
  | thrown
  | undefined
deriving DecidableEq, Repr

/-- A mesh with a segmentation: the elements of the segments and the registry of segments.
mesh/segmented_mesh.hpp:41-76, mesh/segmentation.hpp:541-551, 940-950.  The segment number `g` of the
elements is the segment with id `g` of the registry. -/
structure SegMesh (P N : Type) where
  st : SegState P
  reg : Reg N

/-- An empty mesh with an empty segmentation.  mesh/segmented_mesh.hpp:48. -/
def SegMesh.empty : SegMesh P N := ⟨SegState.empty, Reg.empty⟩

/-- `dst_mesh.clear(); dst_segmentation.clear();`: the view of all elements of the segmentation and its
name map are not cleared.  mesh/mesh_operations.hpp:143-144, mesh/mesh.hpp:297-300,
mesh/segmentation.hpp:915-921. -/
def SegMesh.cleared (s : SegMesh P N) : SegMesh P N :=
  ⟨{ s.st.clearAll with mesh := Mesh.empty }, s.reg.clear⟩

/-- State of a copy: destination, and the map from vertex ids of the source to vertex handles.
mesh/mesh_operations.hpp:94-95, 139-146. -/
structure CopySegSt (P N : Type) where
  out : SegMesh P N
  map : List (Int × Nat)

variable [DecidableEq N]

/-- `add(segmentation, ids_begin, ids_end, handle)`: `add(segmentation[id], handle)` for each id.
mesh/segmentation.hpp:1994-2018. -/
def addToSegs (nm : Int → N) (T : Topo) (d t : Nat) : SegMesh P N → List Nat → Except Fail (SegMesh P N)
  | s, [] => .ok s
  | s, g :: gs =>
    match s.reg.getMakeId nm (g : Int) with
    | (r, .ok _) => addToSegs nm T d t ⟨s.st.addElem T g d t, r⟩ gs
    | (_, .throws) => .error .thrown
    | (_, .undefined) => .error .undefined

/-- One cell: `copy_element`, then `add` to the segments of the cell, which is undefined for a cell without record.
mesh/mesh_operations.hpp:77-90, 158-163; `queryIds`. -/
def copySegCell (nm : Int → N) (T : Topo) (src : SegMesh P N) (c : CopySegSt P N) (t : Nat) :
    Except Fail (CopySegSt P N) :=
  match copyVerts src.st.mesh ⟨c.out.st.mesh, c.map⟩ (src.st.mesh.vertsOf T.cellDim t) with
  | none => .error .undefined
  | some q =>
    match q.1.dst.step T (.elem T.cellDim q.2) with
    | none => .error .undefined
    | some m =>
      match src.st.queryIds T.cellDim t with
      | none => .error .undefined
      | some gs =>
        match addToSegs nm T T.cellDim (q.1.dst.makeElem T T.cellDim q.2).slot
            ⟨{ c.out.st with mesh := m }, c.out.reg⟩ gs with
        | .ok o => .ok ⟨o, q.1.map⟩
        | .error e => .error e

/-- The cells one after the other.  mesh/mesh_operations.hpp:156-164. -/
def copySegCells (nm : Int → N) (T : Topo) (src : SegMesh P N) : CopySegSt P N → List Nat → Except Fail (CopySegSt P N)
  | c, [] => .ok c
  | c, t :: ts =>
    match copySegCell nm T src c t with
    | .ok c' => copySegCells nm T src c' ts
    | .error e => .error e

/-- `copy(src_mesh, src_segmentation, dst_mesh, dst_segmentation, functor)`.
mesh/mesh_operations.hpp:138-165.  Assignment of a `segmented_mesh` is the case in which the functor
accepts every cell (mesh/segmented_mesh.hpp:50-60). -/
def copySeg (nm : Int → N) (T : Topo) (src : SegMesh P N) (sel : Nat → Bool) (dst : SegMesh P N) :
    Except Fail (SegMesh P N) :=
  (copySegCells nm T src ⟨dst.cleared, []⟩ ((List.range (src.st.mesh.count T.cellDim)).filter sel)).map (·.out)

/-- The same call with the same object as source and destination, as in `s = s` for a `segmented_mesh`: the source is
read after it was cleared.  mesh/segmented_mesh.hpp:56-60, mesh/mesh_operations.hpp:143-144, 154-164. -/
def copySegSelf (nm : Int → N) (T : Topo) (s : SegMesh P N) (sel : Nat → Bool) : Except Fail (SegMesh P N) :=
  (copySegCells nm T s.cleared ⟨s.cleared, []⟩ ((List.range (s.cleared.st.mesh.count T.cellDim)).filter sel)).map (·.out)

/-! `extract_boundary` with segmentations -/

/-- State: hull mesh and segmentation, vertex map, map from facet ids to hull cells.
algorithm/extract_boundary.hpp:111-112. -/
structure HullSt (P N : Type) where
  out : SegMesh P N
  map : List (Int × Nat)
  cells : List (Int × Nat)

/-- One facet on the boundary of segment `g`: the hull cell made before is added to the hull segment, or
a new one is made in it.  algorithm/extract_boundary.hpp:127-145. -/
def hullFacet (T T' : Topo) (src : Mesh P) (g : Nat) (c : HullSt P N) (f : Nat) : Option (HullSt P N) :=
  match c.cells.find? (fun e => e.1 == src.eid (T.cellDim - 1) f) with
  | some e => some { c with out := { c.out with st := c.out.st.addElem T' g T'.cellDim e.2 } }
  | none =>
    (copyVerts src ⟨c.out.st.mesh, c.map⟩ (src.vertsOf (T.cellDim - 1) f)).bind fun q =>
      (({ c.out.st with mesh := q.1.dst } : SegState P).makeIn T' g (.elem T'.cellDim q.2)).map fun st =>
        ⟨{ c.out with st := st }, q.1.map,
          (src.eid (T.cellDim - 1) f, (q.1.dst.makeElem T' T'.cellDim q.2).slot) :: c.cells⟩

/-- The facets of one segment.  algorithm/extract_boundary.hpp:123-146. -/
def hullFacets (T T' : Topo) (src : Mesh P) (g : Nat) : HullSt P N → List Nat → Option (HullSt P N)
  | c, [] => some c
  | c, f :: fs => (hullFacet T T' src g c f).bind fun c' => hullFacets T T' src g c' fs

/-- The segments one after the other, in the order `gs` of the segmentation.  `collectFacets` asks
`is_boundary(volume_segment, facet)` for each facet of the segment.  Simplified: it is asked for all
facets of a segment before they are copied; in the code both happen in the same loop.
algorithm/extract_boundary.hpp:114-148. -/
def hullSegs (nm : Int → N) (T T' : Topo) (src : IState P) : HullSt P N → List Nat → Except Fail (HullSt P N)
  | c, [] => .ok c
  | c, g :: gs =>
    match c.out.reg.getMakeId nm (g : Int) with
    | (r, .ok _) =>
      match hullFacets T T' src.mesh g { c with out := { c.out with reg := r } }
          (collectFacets T src.mesh (src.seg g) ((src.seg g).content (T.cellDim - 1))).2 with
      | some c' => hullSegs nm T T' src c' gs
      | none => .error .undefined
    | (_, .throws) => .error .thrown
    | (_, .undefined) => .error .undefined

/-- `extract_boundary(volume_mesh, volume_segmentation, hull_mesh, hull_segmentation)` with facets as hull
elements, for a segmentation with at least one segment.  Left out: with no segment the variant without
segmentation is called (`extractBoundary`).  algorithm/extract_boundary.hpp:83-149. -/
def extractBoundarySeg (nm : Int → N) (T T' : Topo) (src : IState P) (gs : List Nat) (hull : SegMesh P N) :
    Except Fail (SegMesh P N) :=
  (hullSegs nm T T' src ⟨hull.cleared, [], []⟩ gs).map (·.out)

/-! `copy_segmentation` -/

/-- The loop over the elements of one dimension of the destination: the element with the same id is looked up in the
source (`end()` is dereferenced if there is none), and the destination element is added to the segments with its segment
ids, which is undefined for an element without record.  mesh/segmentation.hpp:2226-2255; `queryIds`. -/
def copySegsOf {Q : Type} (nm : Int → N) (T : Topo) (src : SegState P) (d : Nat) :
    SegMesh Q N → List Nat → Except Fail (SegMesh Q N)
  | s, [] => .ok s
  | s, t :: ts =>
    match src.mesh.findById d (s.st.mesh.eid d t) with
    | none => .error .undefined
    | some u =>
      match src.queryIds d u with
      | none => .error .undefined
      | some gs =>
        match addToSegs nm T d t s gs with
        | .error e => .error e
        | .ok s' => copySegsOf nm T src d s' ts

/-- `copy_segmentation(src_mesh, src_segmentation, dst_mesh, dst_segmentation)`; `dims` are the dimensions of the element
types in their order.  The registry of the source is not read.  mesh/segmentation.hpp:2273-2285, mesh/mesh.hpp:1225-1307. -/
def copySegmentation {Q : Type} (nm : Int → N) (T : Topo) (src : SegState P) :
    List Nat → SegMesh Q N → Except Fail (SegMesh Q N)
  | [], s => .ok s
  | d :: ds, s =>
    match copySegsOf nm T src d s (List.range (s.st.mesh.count d)) with
    | .error e => .error e
    | .ok s' => copySegmentation nm T src ds s'

end VG
