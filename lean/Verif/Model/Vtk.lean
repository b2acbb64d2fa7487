import Verif.Model.Copy
import Verif.Model.Netgen

/-!
`vtk_writer` and `vtk_reader` (io/vtk_writer.hpp, io/vtk_reader.hpp, io/vtk_common.hpp).

A file is modelled by its contents: number of points and cells, the numbers in the arrays, and the attributes of the
data arrays.  The text around them (tags, attributes, line breaks) is not modelled here; tags are in `XmlTag`.
A number that is written with a limited number of digits and read again becomes `txt x`.
-/

namespace VG

variable {C : Type}

/-- Cell types which can be written.  io/vtk_common.hpp:45-85. -/
inductive VtkTag where
  | line
  | triangle
  | tetrahedron
  | quadrilateral
  | hexahedron
deriving DecidableEq

/-- The mesh configuration with these cells.  config/default_configs.hpp. -/
def VtkTag.topo : VtkTag → Topo
  | .line => simplexTopo 1
  | .triangle => simplexTopo 2
  | .tetrahedron => simplexTopo 3
  | .quadrilateral => cubeTopo 2
  | .hexahedron => cubeTopo 3

/-- `ELEMENT_TAG_TO_VTK_TYPE`.  io/vtk_common.hpp:45-85. -/
def VtkTag.type : VtkTag → Nat
  | .line => 3
  | .triangle => 5
  | .tetrahedron => 10
  | .quadrilateral => 9
  | .hexahedron => 12

/-- `vtk_to_viennagrid_orientations`.  io/vtk_common.hpp:91-95, 107-121, 134-150. -/
def VtkTag.toVienna : VtkTag → Nat → Nat
  | .quadrilateral, 2 => 3
  | .quadrilateral, 3 => 2
  | .hexahedron, 2 => 3
  | .hexahedron, 3 => 2
  | .hexahedron, 6 => 7
  | .hexahedron, 7 => 6
  | _, j => j

/-- `viennagrid_to_vtk_orientations`.  io/vtk_common.hpp:101-105, 123-131, 152-160. -/
def VtkTag.toVtk (tag : VtkTag) (j : Nat) : Nat := tag.toVienna j

/-- `std::map::insert`: an existing entry is kept.  The entries are in the order of the keys.
Used in io/vtk_writer.hpp:191-193. -/
def mapPut {β : Type} (k : Int) (v : β) : List (Int × β) → List (Int × β)
  | [] => [(k, v)]
  | x :: l => if k < x.1 then (k, v) :: x :: l else if k = x.1 then x :: l else x :: mapPut k v l

/-- `map[k] = v`: an existing entry is replaced.  Used in io/vtk_writer.hpp:228-231, io/vtk_reader.hpp:97-112. -/
def mapSet {β : Type} (k : Int) (v : β) : List (Int × β) → List (Int × β)
  | [] => [(k, v)]
  | x :: l => if k < x.1 then (k, v) :: x :: l else if k = x.1 then (k, v) :: l else x :: mapSet k v l

/-- A data array of a file: name, the attribute NumberOfComponents if there is one, the numbers.
io/vtk_writer.hpp:333-377, io/vtk_reader.hpp:109-112. -/
structure DataArray (C : Type) where
  name : String
  comps : Option Nat
  values : List C

/-- The contents of a .vtu file.  io/vtk_writer.hpp:236-323, 503-577. -/
structure VtuFile (C : Type) where
  numPoints : Nat
  numCells : Nat
  points : List (List C)
  pointData : List (DataArray C)
  conn : List Int
  offsets : List Nat
  types : List Nat
  cellData : List (DataArray C)

/-- A quantity given to the writer for vertices or cells, by handle.  io/vtk_writer.hpp:39-65. -/
inductive Quantity (C : Type) where
  | scalar (f : Nat → C)
  | vector (f : Nat → C × C × C)

/-! ### Writer -/

/-- `preparePoints`: the vertices of the cells, by id.  io/vtk_writer.hpp:171-213. -/
def usedVertices (T : Topo) (m : Mesh (List C)) (cells : List Nat) : List (Int × Nat) :=
  cells.foldl (fun acc c => (m.vertsOf T.cellDim c).foldl (fun acc v => mapPut (m.vid v) v acc) acc) []

/-- `prepareCells`: the cells, by id.  io/vtk_writer.hpp:215-233. -/
def usedCells (T : Topo) (m : Mesh (List C)) (cells : List Nat) : List (Int × Nat) :=
  cells.foldl (fun acc c => mapSet (m.eid T.cellDim c) c acc) []

/-- `current_vertex_to_index_map[handle]`: the position of the vertex, -1 (the default id) if it is missing.
io/vtk_writer.hpp:208-210, 287. -/
def vtkIndex (used : List (Int × Nat)) (v : Nat) : Int :=
  match used.findIdx? (fun x => x.2 == v) with
  | some i => i
  | none => -1

/-- The connectivity of one cell.  io/vtk_writer.hpp:276-295. -/
def vtkConn (tag : VtkTag) (used : List (Int × Nat)) (vs : List Nat) : List Int :=
  (List.range vs.length).map (fun i => (vs.map (vtkIndex used)).getD (tag.toVtk i) (-1))

/-- The numbers of a quantity.  io/vtk_writer.hpp:39-65, 333-377. -/
def Quantity.write (txt : C → C) (q : Quantity C) (hs : List Nat) : List C :=
  match q with
  | .scalar f => hs.map fun h => txt (f h)
  | .vector f => hs.flatMap fun h => [txt (f h).1, txt (f h).2.1, txt (f h).2.2]

/-- Number of components of a quantity.  io/vtk_writer.hpp:45, 55. -/
def Quantity.comps : Quantity C → Nat
  | .scalar _ => 1
  | .vector _ => 3

/-- One .vtu file for the given cells, in the order of iteration.  io/vtk_writer.hpp:236-323, 398-451, 503-577.
`pd` and `cd` are the quantities on vertices and cells, in the order they are written. -/
def writeVtu (tag : VtkTag) (txt : C → C) (zero : C) (m : Mesh (List C)) (cells : List Nat)
    (pd cd : List (String × Quantity C)) : VtuFile C :=
  let used := usedVertices tag.topo m cells
  let ucells := usedCells tag.topo m cells
  { numPoints := used.length
    numCells := cells.length
    points := used.map fun x =>
      ((m.ptOf x.2).getD []).map txt ++ List.replicate (3 - ((m.ptOf x.2).getD []).length) zero
    pointData := pd.map fun q => ⟨q.1, some q.2.comps, q.2.write txt (used.map (·.2))⟩
    conn := ucells.flatMap fun c => vtkConn tag used (m.vertsOf tag.topo.cellDim c.2)
    offsets := (List.range cells.length).map fun k => (k + 1) * tag.topo.nv tag.topo.cellDim
    types := List.replicate cells.length tag.type
    cellData := cd.map fun q => ⟨q.1, some q.2.comps, q.2.write txt (ucells.map (·.2))⟩ }

/-- `writer(mesh, segmentation, filename)`: one file for each segment, or for the whole mesh if there are less than two
segments.  io/vtk_writer.hpp:459-580.  `gs` are the ids of the segments, in the order of iteration, which is the order of ids. -/
def writeVtk (tag : VtkTag) (txt : C → C) (zero : C) (st : SegState (List C)) (gs : List Nat)
    (pd cd : Nat → List (String × Quantity C)) : List (Nat × VtuFile C) :=
  if gs.length ≤ 1 then
    [(0, writeVtu tag txt zero st.mesh (List.range (st.mesh.count tag.topo.cellDim)) (pd 0) (cd 0))]
  else gs.map fun g => (g, writeVtu tag txt zero st.mesh (st.view g tag.topo.cellDim) (pd g) (cd g))

/-! ### Reader -/

/-- The order in which the files of a .pvd file are read: a map from the part to the file.
io/vtk_reader.hpp:805, 854, 869. -/
def sortFiles (files : List (Nat × VtuFile C)) : List (Int × VtuFile C) :=
  files.foldl (fun acc f => mapSet (f.1 : Int) f.2 acc) []

/-- `readNodeCoordinates`: the points of all files without repetition, and for the points of this file their positions.
io/vtk_reader.hpp:233-262.  Points with less coordinates than the file has are cut, others filled up with zeros. -/
def readPoints [DecidableEq C] (zero : C) (dim : Nat) : List (List C) → List (List C) → List (List C) × List Nat
  | globals, [] => (globals, [])
  | globals, p :: ps =>
    let q := (List.range dim).map fun j => p.getD j zero
    if q ∈ globals then
      let r := readPoints zero dim globals ps
      (r.1, globals.idxOf q :: r.2)
    else
      let r := readPoints zero dim (globals ++ [q]) ps
      (r.1, globals.length :: r.2)

/-- The points of all files.  io/vtk_reader.hpp:733-742, 869-875.  Files with less points than announced are not
modelled. -/
def readAllPoints [DecidableEq C] (zero : C) (dim : Nat) : List (List C) → List (Int × VtuFile C) →
    List (List C) × List (List Nat)
  | globals, [] => (globals, [])
  | globals, f :: fs =>
    let p := readPoints zero dim globals (f.2.points.take f.2.numPoints)
    let q := readAllPoints zero dim p.1 fs
    (q.1, p.2 :: q.2)

/-- `setupVertices`.  io/vtk_reader.hpp:396-400. -/
def setupVertices (m : Mesh (List C)) : Nat → List (List C) → Mesh (List C)
  | _, [] => m
  | i, p :: ps => setupVertices (m.makeVertex (some (i : Int)) p) (i + 1) ps

/-- The vertices of a cell with `n` vertices which begins at `off`; `none` if an index is out of range, or if the number
of vertices is not the one of the cell type.  io/vtk_reader.hpp:443-457. -/
def vtkCell (tag : VtkTag) (conn : List Int) (l2g : List Nat) (off n : Nat) : Option (List Nat) :=
  if n = tag.topo.nv tag.topo.cellDim then
    (List.range n).mapM fun j =>
      (conn[tag.toVienna j + off]?).bind fun x => if 0 ≤ x then l2g[x.toNat]? else none
  else none

/-- What the reader keeps while making cells: mesh and segmentation, the cells by the ids of their vertices in the order
of the file (the key is not sorted, element/element_key.hpp:45), and the handles of the cells of this file. -/
structure VtkState (C : Type) where
  st : SegState (List C)
  cells : List (List Int × Nat)
  handles : List Nat

/-- Adding the vertices of a cell to the segment.  io/vtk_reader.hpp:454. -/
def addVertices (T : Topo) (g : Nat) (st : SegState (List C)) : List Nat → Option (SegState (List C))
  | [] => some st
  | v :: vs => (st.step T (.add g 0 v)).bind fun st' => addVertices T g st' vs

/-- One cell.  io/vtk_reader.hpp:447-473. -/
def VtkState.makeCell (T : Topo) (g : Nat) (s : VtkState C) (vs : List Nat) : Option (VtkState C) :=
  (addVertices T g s.st vs).bind fun st1 =>
    let key := vs.map st1.mesh.vid
    match s.cells.find? (fun c => c.1 == key) with
    | some c => (st1.step T (.add g T.cellDim c.2)).map fun st2 => ⟨st2, s.cells, s.handles ++ [c.2]⟩
    | none =>
      let h := st1.mesh.count T.cellDim
      (st1.step T (.make g (.elem T.cellDim vs))).map fun st2 => ⟨st2, s.cells ++ [(key, h)], s.handles ++ [h]⟩

/-- `setupCells`: the loop over the cells of a file, `prev` is the offset of the cell before.
io/vtk_reader.hpp:403-475. -/
def setupCells (tag : VtkTag) (g : Nat) (conn : List Int) (l2g : List Nat) : Nat → Nat → List Nat → VtkState C →
    Option (VtkState C)
  | 0, _, _, s => some s
  | _ + 1, _, [], _ => none
  | n + 1, prev, o :: offsets, s =>
    (vtkCell tag conn l2g prev (o - prev)).bind fun vs =>
      (s.makeCell tag.topo g vs).bind fun s' => setupCells tag g conn l2g n o offsets s'

/-- The cells of all files; gives for each file the handles of its cells.  io/vtk_reader.hpp:930-934. -/
def setupAllCells (tag : VtkTag) : List (Int × VtuFile C) → List (List Nat) → VtkState C →
    Option (VtkState C × List (List Nat))
  | [], _, s => some (s, [])
  | _ :: _, [], _ => none
  | f :: fs, l :: ls, s =>
    (setupCells tag f.1.toNat f.2.conn l f.2.numCells 0 f.2.offsets { s with handles := [] }).bind fun s' =>
      (setupAllCells tag fs ls s').map fun r => (r.1, s'.handles :: r.2)

/-- What is known after reading: mesh and segmentation, and for each file its segment, the vertices of its points and
the handles of its cells.  io/vtk_reader.hpp:97-112. -/
structure VtkResult (C : Type) where
  st : SegState (List C)
  files : List (Int × VtuFile C)
  points : List (List Nat)
  cells : List (List Nat)

/-- `reader(mesh, segmentation, filename)` for an empty mesh, without the data.  io/vtk_reader.hpp:892-937.
`none`: undefined behaviour or a failing assertion. -/
def readVtk [DecidableEq C] (tag : VtkTag) (zero : C) (dim : Nat) (files : List (Nat × VtuFile C)) :
    Option (VtkResult C) :=
  let fs := sortFiles files
  let p := readAllPoints zero dim [] fs
  (setupAllCells tag fs p.2
    ⟨{ (SegState.empty : SegState (List C)) with mesh := setupVertices Mesh.empty 0 p.1 }, [], []⟩).map
    fun r => ⟨r.1.st, fs, p.2, r.2⟩

/-! ### Data -/

/-- `readPointCellData`: the scalar and the vector arrays; `comps` is the variable `components`, which keeps its value
if an array does not say how many components it has.  io/vtk_reader.hpp:346-391. -/
def readArrays : Nat → List (DataArray C) → Except ReadFail (List (String × List C) × List (String × List C))
  | _, [] => .ok ([], [])
  | comps, a :: as =>
    let comps := a.comps.getD comps
    if comps = 1 then
      (readArrays comps as).map fun r => ((a.name, a.values) :: r.1, r.2)
    else if comps = 3 then
      (readArrays comps as).map fun r => (r.1, (a.name, a.values) :: r.2)
    else .error .throws

/-- How a quantity was registered at the reader: for all segments, for this segment, or not at all.
io/vtk_reader.hpp:490-510, 588-606. -/
inductive Registered where
  | all
  | segment
  | none
deriving DecidableEq

/-- Values of a quantity by handle.  io/vtk_reader.hpp:84-90. -/
abbrev FieldOf (α : Type) := Nat → Option α

/-- The loop over scalar values, `hs` are the elements of the file; undefined if there are more values than elements.
io/vtk_reader.hpp:492-525, 590-620. -/
def attachScalar (hs : List Nat) : Nat → List C → FieldOf C → Option (FieldOf C)
  | _, [], f => some f
  | i, x :: xs, f =>
    (hs[i]?).bind fun h => attachScalar hs (i + 1) xs (fun k => if k = h then some x else f k)

/-- The loop over vector values from `i` on, `n` steps.  io/vtk_reader.hpp:532-541, 545-554, 563-574. -/
def attachVectorLoop (hs : List Nat) (values : List C) : Nat → Nat → FieldOf (C × C × C) → Option (FieldOf (C × C × C))
  | 0, _, f => some f
  | n + 1, i, f =>
    match hs[i]?, values[3 * i]?, values[3 * i + 1]?, values[3 * i + 2]? with
    | some h, some x, some y, some z =>
      attachVectorLoop hs values n (i + 1) (fun k => if k = h then some (x, y, z) else f k)
    | _, _, _, _ => none

/-- Vector values: the loop for quantities registered for a segment runs over all numbers.
io/vtk_reader.hpp:527-577, 622-668.  The assertion on the number of elements of the segment (562, 655) is left out. -/
def attachVector (reg : Registered) (hs : List Nat) (values : List C) (f : FieldOf (C × C × C)) :
    Option (FieldOf (C × C × C)) :=
  attachVectorLoop hs values (if reg = .segment then values.length else values.length / 3) 0 f

end VG
