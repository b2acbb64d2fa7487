import Verif.Model.ElementKey
import Verif.Model.Topology
import Verif.Model.IdGen

/-!
Model of a mesh: containers per dimension, creation of elements together with their boundary
elements, and orientation of shared boundary elements.
-/

namespace VG

/-- A mesh configuration: dimension of the cells, number of vertices of the elements of each
dimension, and for the elements of each dimension the layers of boundary elements, in creation
order, with the local vertex indices of each boundary element.
config/element_config.hpp:285-305 (layers are ordered by increasing dimension),
topology/*.hpp (tables).  Vertices (dimension 0) are not a layer: they are stored directly.
The layers depend on the number of vertices, which is not fixed for polygons (`poly`). -/
structure Topo where
  cellDim : Nat
  nv : Nat → Nat
  layers : Nat → Nat → List (Nat × List (List Nat))
  poly : Bool := false

/-- Numbers of vertices with which an element of dimension `d` can be created: for polygons at least 3, see
`polygonEdges`; the code does not check them.  topology/polygon.hpp:25-84, topology/*.hpp (`boundary_elements`). -/
def Topo.Arity (T : Topo) (d n : Nat) : Prop := n = T.nv d ∨ (T.poly = true ∧ d = T.cellDim ∧ 3 ≤ n)

/-- `Arity` can be computed.  Not in the code. -/
instance (T : Topo) (d n : Nat) : Decidable (T.Arity d n) := by unfold Topo.Arity; infer_instance

/-- Simplex meshes (line, triangle, tetrahedron).  topology/simplex.hpp:77-132. -/
def simplexTopo (n : Nat) : Topo where
  cellDim := n
  nv d := d + 1
  layers d _ := (if 2 ≤ d then [(1, edgeIdx (d + 1))] else []) ++
    (if 3 ≤ d then [(2, triIdx (d + 1))] else [])

/-- Quadrilateral and hexahedral meshes.  topology/quadrilateral.hpp:62-92,
topology/hexahedron.hpp:80-203. -/
def cubeTopo (n : Nat) : Topo where
  cellDim := n
  nv d := 2 ^ d
  layers d _ := if d = 2 then [(1, quadEdges)] else if d = 3 then [(1, hexEdges), (2, hexFaces)]
    else []

/-- Meshes of polygons.  topology/polygon.hpp:25-84. -/
def polyTopo : Topo where
  cellDim := 2
  nv d := d + 1
  layers d n := if d = 2 then [(1, (polygonEdges n).getD [])] else []
  poly := true

/-- The thin variant of a configuration, for example `thin_tetrahedral_3d_mesh`: cells and vertices only, no other
boundary elements.  config/mesh_config.hpp:184-228 (`thin_topology_config`), config/default_configs.hpp:186-225, 395-410. -/
def thinTopo (T : Topo) : Topo := { T with layers := fun _ _ => [] }

/-- Reference of an element to one of its boundary elements: handle and orientation permutation.
element/element.hpp:66-170 (`elements_`, `orientations_`).  A handle is the position of the element
in the order of creation (it stands for the pointer, which stays valid for `std::deque::push_back`
and `std::map::insert`). -/
abbrev BndRef := Nat × List Nat

/-- An element other than a vertex.  element/element.hpp:500-620. -/
structure Elem where
  id : Nat
  verts : List Nat
  bnd : List (Nat × List BndRef)
deriving DecidableEq, Repr

/-- A vertex: id and point (appendix).  element/element.hpp, config/element_config.hpp. -/
structure Vtx (P : Type) where
  id : Int
  pt : P
deriving DecidableEq, Repr

/-- A mesh.  mesh/mesh.hpp:233-330: container collection, change counter, id generator.
`elems d` lists the elements of dimension `d ≥ 1` in the order of creation (for intermediate
dimensions the code iterates a `std::map` in key order; only positions are used as handles here).
`log` is a record of all calls of `handle_insert` (dimension, handle), storage/inserter.hpp:128;
it has no counterpart in the mesh and is used to model segments. -/
structure Mesh (P : Type) where
  verts : List (Vtx P)
  vgen : Int
  elems : Nat → List Elem
  nextId : Nat → Nat
  counter : Nat
  log : List (Nat × Nat)

variable {P : Type}

/-- The empty mesh.  mesh/mesh.hpp:240-263; storage/id_generator.hpp:96-117 (first id 0). -/
def Mesh.empty : Mesh P where
  verts := []
  vgen := 0
  elems _ := []
  nextId _ := 0
  counter := 0
  log := []

/-- Id of the vertex with a handle.  storage/id.hpp. -/
def Mesh.vid (m : Mesh P) (s : Nat) : Int := (m.verts.map (·.id)).getD s (-1)

/-- Key of a vertex list in a mesh.  element/element_key.hpp:47-60. -/
def Mesh.key (m : Mesh P) (vs : List Nat) : List Int := elementKey (vs.map m.vid)

/-- Lookup by key in an intermediate dimension.  storage/hidden_key_map.hpp:140-160, 200-214. -/
def Mesh.findSlot (m : Mesh P) (d : Nat) (vs : List Nat) : Option Nat :=
  (m.elems d).findIdx? (fun e => m.key e.verts == m.key vs)

/-- Local indices to vertex handles.
topology/simplex.hpp:77-132, topology/quadrilateral.hpp:62-92, topology/hexahedron.hpp:80-203. -/
def pick (vs : List Nat) (idx : List Nat) : List Nat := idx.map (fun i => vs.getD i 0)

/-- Orientation of an already stored boundary element relative to the vertex order `vs` asked for:
for each stored vertex `i` the first `j` with `vs[j]` the same vertex gets `perm[j] = i`.
element/element.hpp:118-150, element/element_orientation.hpp:84.  The array starts with zeros
(storage/static_array.hpp:45-49). -/
def orientLoop (vs : List Nat) : Nat → List Nat → List Nat → List Nat
  | _, [], perm => perm
  | i, v :: stored, perm =>
    match vs.findIdx? (· == v) with
    | some j => orientLoop vs (i + 1) stored (perm.set j i)
    | none => orientLoop vs (i + 1) stored perm

/-- See `orientLoop`.  element/element.hpp:118-150. -/
def orient (stored vs : List Nat) : List Nat :=
  orientLoop vs 0 stored (List.replicate vs.length 0)

/-- Result of an insertion: handle and whether a new element was created.
storage/inserter.hpp:108-135. -/
structure InsRes (P : Type) where
  mesh : Mesh P
  slot : Nat
  new : Bool

/-- Vertices of the element with handle `s`.  element/element.hpp:105-110. -/
def Mesh.vertsOf (m : Mesh P) (d s : Nat) : List Nat :=
  ((m.elems d).map (·.verts)).getD s []

/-- Creation of the boundary elements of one layer: `boundary_element_generator`
(topology/*.hpp) and `set_boundary_element` (element/element.hpp:113-151). -/
def genFaces (ins : Nat → Mesh P → List Nat → InsRes P) (vs : List Nat) (k : Nat) :
    List (List Nat) → Mesh P → Mesh P × List BndRef
  | [], m => (m, [])
  | idx :: rest, m =>
    let face := pick vs idx
    let r := ins k m face
    let perm := if r.new then List.range face.length else orient (r.mesh.vertsOf k r.slot) face
    let q := genFaces ins vs k rest r.mesh
    (q.1, (r.slot, perm) :: q.2)

/-- Creation of the boundary elements of all layers.  element/element.hpp:73-78. -/
def genLayers (ins : Nat → Mesh P → List Nat → InsRes P) (vs : List Nat) :
    List (Nat × List (List Nat)) → Mesh P → Mesh P × List (Nat × List BndRef)
  | [], m => (m, [])
  | (k, idxs) :: rest, m =>
    let p := genFaces ins vs k idxs m
    let q := genLayers ins vs rest p.1
    (q.1, (k, p.2) :: q.2)

/-- Appending a finished element.  storage/container.hpp:422-436, storage/inserter.hpp:108-135. -/
def Mesh.push (m : Mesh P) (d : Nat) (vs : List Nat) (bnd : List (Nat × List BndRef)) : Mesh P :=
  { m with
    elems := fun k => if k = d then m.elems d ++ [⟨m.nextId d, vs, bnd⟩] else m.elems k
    nextId := fun k => if k = d then m.nextId d + 1 else m.nextId k
    counter := m.counter + 1
    log := m.log ++ [(d, (m.elems d).length)] }

/-- The change counter is incremented and `handle_insert` called when the element exists.
storage/inserter.hpp:121-128. -/
def Mesh.touch (m : Mesh P) (d s : Nat) : Mesh P :=
  { m with counter := m.counter + 1, log := m.log ++ [(d, s)] }

/-- Insertion of an element of dimension `d` with vertices `vs` and generated id:
`physical_insert<true,true>`, storage/inserter.hpp:108-135, `insert_callback`,
element/element.hpp:575-582.  Cells are always appended (storage/container.hpp:422-436), elements of
intermediate dimension are looked up by key first (storage/hidden_key_map.hpp:200-214).
The first argument bounds the recursion depth; `d` is enough since layers have smaller dimension.
Simplified: the element is appended after its boundary elements were created instead of before;
those are in containers of other dimensions. -/
def insertN (T : Topo) : Nat → Nat → Mesh P → List Nat → InsRes P
  | fuel, d, m, vs =>
    match (if d = T.cellDim then none else m.findSlot d vs) with
    | some s => ⟨m.touch d s, s, false⟩
    | none =>
      match fuel with
      | 0 => ⟨m.push d vs [], (m.elems d).length, true⟩
      | f + 1 =>
        let q := genLayers (insertN T f) vs (T.layers d vs.length) m
        ⟨q.1.push d vs q.2, (m.elems d).length, true⟩

/-- `make_element` for dimension `d ≥ 1`.  mesh/element_creation.hpp:28-67. -/
def Mesh.makeElem (T : Topo) (m : Mesh P) (d : Nat) (vs : List Nat) : InsRes P := insertN T d d m vs

/-- `make_vertex`, with a generated id or with an id given by the caller.
mesh/element_creation.hpp:163-196, storage/inserter.hpp:24-48, storage/id_generator.hpp:102-138. -/
def Mesh.makeVertex (m : Mesh P) (id : Option Int) (p : P) : Mesh P :=
  { m with
    verts := m.verts ++ [⟨id.getD m.vgen, p⟩]
    vgen := match id with
      | none => m.vgen + 1
      | some x => setMaxId m.vgen x
    counter := m.counter + 1
    log := m.log ++ [(0, m.verts.length)] }

/-- Operations creating elements.  mesh/element_creation.hpp:28-196. -/
inductive MOp (P : Type) where
  | vertex (id : Option Int) (p : P)
  | elem (d : Nat) (vs : List Nat)

/-- One operation; `none` when the operation has undefined behaviour: a vertex handle that does not
exist, a wrong number of vertices, or a dimension the mesh does not have.  mesh/element_creation.hpp:28-196. -/
def Mesh.step (T : Topo) (m : Mesh P) : MOp P → Option (Mesh P)
  | .vertex id p => some (m.makeVertex id p)
  | .elem d vs =>
    if 1 ≤ d ∧ d ≤ T.cellDim ∧ T.Arity d vs.length ∧ ∀ v ∈ vs, v < m.verts.length then
      some (m.makeElem T d vs).mesh
    else none

/-- A history of operations.  Not in the code. -/
def Mesh.run (T : Topo) : Mesh P → List (MOp P) → Option (Mesh P)
  | m, [] => some m
  | m, op :: ops => (m.step T op).bind (fun m' => Mesh.run T m' ops)

/-- `local_vertex(host, boundary, i)`: the permutation of the first reference with that handle,
then the vertex of the stored element.  mesh/mesh.hpp:915-947, element/element.hpp:159-168.
`none` stands for the failed assertion or an index out of range. -/
def Mesh.localVertex (m : Mesh P) (host : Elem) (k s i : Nat) : Option Nat :=
  match host.bnd.find? (fun l => l.1 == k) with
  | none => none
  | some l =>
    match l.2.find? (fun r => r.1 == s) with
    | none => none
    | some r => (r.2[i]?).bind (fun j => (m.vertsOf k s)[j]?)

/-- Handles of the boundary elements of dimension `k` of an element, `elements<k>(e)`.
mesh/mesh.hpp:850-905, element/element.hpp:105-110. -/
def Elem.bndSlots (e : Elem) (k : Nat) : List Nat :=
  match e.bnd.find? (fun l => l.1 == k) with
  | none => []
  | some l => l.2.map (·.1)

end VG
