import Verif.Model.Queries

/-!
Model of the copy constructor and the assignment operator of a mesh.  Here handles carry the mesh
object they point into, because right after the containers are copied the handles of the new
elements still point to elements of the old mesh.
-/

namespace VG

variable {P : Type}

/-- A handle: the mesh object and the position in it (it stands for a pointer).
storage/handle.hpp:120-150. -/
abbrev HRef := Nat × Nat

/-- An element whose boundary references are handles with their mesh object.
element/element.hpp:66-170. -/
structure HElem where
  id : Nat
  verts : List HRef
  bnd : List (Nat × List (HRef × List Nat))
deriving DecidableEq, Repr

/-- The storage of a mesh object, see `Mesh`.  mesh/mesh.hpp:233-330. -/
structure HMesh (P : Type) where
  verts : List (Vtx P)
  vgen : Int
  elems : Nat → List HElem
  nextId : Nat → Nat
  counter : Nat
  log : List (Nat × Nat)

/-- An element of a mesh `o` all of whose references are into `o`.  Not in the code. -/
def Elem.tag (o : Nat) (e : Elem) : HElem :=
  ⟨e.id, e.verts.map (fun s => (o, s)), e.bnd.map (fun b => (b.1, b.2.map (fun r => ((o, r.1), r.2))))⟩

/-- A mesh stored in object `o` all of whose references are into `o`.  Not in the code. -/
def Mesh.tag (o : Nat) (m : Mesh P) : HMesh P :=
  ⟨m.verts, m.vgen, fun d => (m.elems d).map (Elem.tag o), m.nextId, m.counter, m.log⟩

/-- `find` by id in the container of dimension `k`: position of the first element with that id.
mesh/mesh.hpp:1391-1399, storage/container.hpp:49-62. -/
def HMesh.find (m : HMesh P) (k : Nat) (i : Int) : Option Nat :=
  if k = 0 then m.verts.findIdx? (fun v => v.id == i)
  else (m.elems k).findIdx? (fun e => (e.id : Int) == i)

/-- Id of the element a handle of dimension `k` into this mesh points to.  mesh/mesh.hpp:1648-1651. -/
def HMesh.idAt (m : HMesh P) (k : Nat) (r : HRef) : Option Int :=
  if k = 0 then (m.verts[r.2]?).map (·.id) else ((m.elems k)[r.2]?).map (fun e => (e.id : Int))

/-- Apply a partial function to all entries; no result if it is undefined somewhere.  Not in the code. -/
def mapO {α β : Type} (f : α → Option β) : List α → Option (List β)
  | [] => some []
  | a :: l => (f a).bind fun b => (mapO f l).map (b :: ·)

/-- `dit.handle() = find(mesh, sit->id()).handle()`: the new handle is into the new mesh `o`, at the
first element with the id of the element the source handle points to.  If no such element exists
the code dereferences `end()`: no result.  mesh/mesh.hpp:1648-1651. -/
def fixRef (src dst : HMesh P) (o k : Nat) (r : HRef) : Option HRef :=
  (src.idAt k r).bind fun i => (dst.find k i).map fun s => (o, s)

/-- `copy_element_setters` for all boundary element types of one element.  The source handles are
read from the source element and written to the element at the same position in the copy; their
orientations are kept.  mesh/mesh.hpp:1625-1658, 1692-1711.  The test that both elements have the
same id (1697-1701) always succeeds, the containers being equal. -/
def fixElem (src dst : HMesh P) (o : Nat) (e : HElem) : Option HElem :=
  (mapO (fixRef src dst o 0) e.verts).bind fun vs =>
  (mapO (fun b => (mapO (fun r => (fixRef src dst o b.1 r.1).map fun s => (s, r.2)) b.2).map
    fun rs => (b.1, rs)) e.bnd).map fun bs => ⟨e.id, vs, bs⟩

/-- `fix_handles`.  mesh/mesh.hpp:1660-1742.  `dims` are the dimensions of the element types.
Ids and positions do not change while handles are fixed, so the order does not matter. -/
def fixHandles (dims : List Nat) (src dst : HMesh P) (o : Nat) : Option (HMesh P) :=
  if dims.all (fun d => (mapO (fixElem src dst o) (src.elems d)).isSome) then
    some { dst with elems := fun d =>
      if d ∈ dims then (mapO (fixElem src dst o) (src.elems d)).getD [] else dst.elems d }
  else none

/-- Copy constructor and assignment: the containers, the inserter with its id generators and the
change counter are copied, the counter is incremented, and handles are fixed.
mesh/mesh.hpp:265-271, 278-292. -/
def HMesh.copy (dims : List Nat) (src : HMesh P) (o : Nat) : Option (HMesh P) :=
  fixHandles dims src { src with counter := src.counter + 1 } o

end VG
