import Verif.Model.Queries

/-!
Model of the erasure of elements from a mesh.  Erasing moves elements between storage cells, so
storage is explicit here: a container is a list of nodes with an address each, and boundary
references are addresses.
-/

namespace VG

variable {P : Type}

/-- A storage cell of a container with the element in it.  `addr` stands for the pointer which is
the handle; `key` is the key under which a `std::map` stores the node
(storage/hidden_key_map.hpp:103-170; unused for containers of vertices and cells); `id` and `bnd`
belong to the element: its id and the addresses of its boundary elements per dimension (dimension 0
are its vertices).  element/element.hpp:66-170, 500-620. -/
structure ENode where
  addr : Nat
  key : List Int
  id : Int
  bnd : Nat → List Nat

/-- The containers of a mesh.  mesh/mesh.hpp:233-330. -/
structure EMesh where
  nodes : Nat → List ENode

/-- The storage of a mesh built by creations: an element is at the address given by its position,
intermediate dimensions are stored under the key of the vertices.
storage/container.hpp:397-445, storage/hidden_key_map.hpp:140-214. -/
def Mesh.store (m : Mesh P) : EMesh where
  nodes d := (List.range (m.count d)).map fun s =>
    ⟨s, m.key (m.bndOf d s 0), m.eid d s, fun k => if d = 0 then [] else m.bndOf d s k⟩

/-- The node with the greatest key, `--end()` of a `std::map`.
mesh/element_deletion.hpp:116 with storage/hidden_key_map.hpp:103-170. -/
def lastByKey : List ENode → Option ENode
  | [] => none
  | n :: l => match lastByKey l with
    | none => some n
    | some b => if keyLt n.key b.key then some b else some n

/-- `--elements.end()`: for `std::deque` (vertices and cells) the last node, for the key map of
intermediate dimensions the node with the greatest key.  mesh/element_deletion.hpp:116. -/
def backNode (cellDim d : Nat) (l : List ENode) : Option ENode :=
  if d = 0 ∨ d = cellDim then l.getLast? else lastByKey l

/-- Replacing one handle by another among references of dimension `d`.
mesh/element_deletion.hpp:36-69. -/
def ENode.switch (d old new : Nat) (x : ENode) : ENode :=
  { x with bnd := fun j => if j = d then (x.bnd d).map (fun a => if a = old then new else a) else x.bnd j }

/-- Erasure of the element with an id: it is searched by id, its value is swapped with the value of
the last node, references to the last node are redirected to its node, and the last node is erased.
When the id is not found the code works on `end()`: no result.  mesh/element_deletion.hpp:113-130.
`std::swap` exchanges id and boundary references, not the key under which a map stores the node. -/
def EMesh.eraseId (cellDim d : Nat) (M : EMesh) (i : Int) : Option EMesh :=
  ((M.nodes d).find? (fun n => n.id == i)).bind fun n =>
  (backNode cellDim d (M.nodes d)).map fun b =>
    if n.addr = b.addr then
      ⟨fun k => if k = d then (M.nodes d).filter (fun x => x.addr != b.addr) else M.nodes k⟩
    else
      ⟨fun k =>
        if k = d then ((M.nodes d).map (fun x =>
          if x.addr = n.addr then { x with id := b.id, bnd := b.bnd } else x)).filter
            (fun x => x.addr != b.addr)
        else if d < k then (M.nodes k).map (ENode.switch d b.addr n.addr)
        else M.nodes k⟩

/-- Erasure of the marked elements of one dimension; the ids were collected before.
mesh/element_deletion.hpp:104-131. -/
def EMesh.eraseIds (cellDim d : Nat) : EMesh → List Int → Option EMesh
  | M, [] => some M
  | M, i :: is => (M.eraseId cellDim d i).bind (fun M' => M'.eraseIds cellDim d is)

/-- `erase_elements(mesh, view)`: dimensions from the highest to the lowest.  The marked elements
are given by their ids; the handles in the view stay valid until their dimension is processed, as
only that container changes.  mesh/element_deletion.hpp:144-157. -/
def EMesh.eraseLayers (cellDim : Nat) (marked : Nat → List Int) : Nat → EMesh → Option EMesh
  | 0, M => M.eraseIds cellDim 0 (marked 0)
  | d + 1, M => (M.eraseIds cellDim (d + 1) (marked (d + 1))).bind
      (fun M' => M'.eraseLayers cellDim marked d)

/-- `erase_elements(mesh, view)`, see `EMesh.eraseLayers`.  mesh/element_deletion.hpp:144-157. -/
def EMesh.eraseElements (cellDim : Nat) (M : EMesh) (marked : Nat → List Int) : Option EMesh :=
  M.eraseLayers cellDim marked cellDim

/-- `mark_erase_elements`: the element itself and its coboundary elements of all dimensions, each
handle once.  mesh/element_deletion.hpp:196-203, mesh/mesh_operations.hpp:167-224.  The coboundary
is taken from the boundary references, as `createCob` does. -/
def EMesh.mark (M : EMesh) (d : Nat) (e : ENode) (marked : Nat → List Int) : Nat → List Int := fun k =>
  if k = d then (if e.id ∈ marked d then marked d else marked d ++ [e.id])
  else (((M.nodes k).filter (fun x => decide (e.addr ∈ x.bnd d))).map (·.id)).foldl
    (fun l i => if i ∈ l then l else l ++ [i]) (marked k)

/-- Marking several elements.  mesh/element_deletion.hpp:196-203 for each. -/
def EMesh.markAll (M : EMesh) : List (Nat × ENode) → (Nat → List Int) → (Nat → List Int)
  | [], marked => marked
  | e :: es, marked => M.markAll es (M.mark e.1 e.2 marked)

/-- `erase_element(mesh, element)`.  mesh/element_deletion.hpp:213-220. -/
def EMesh.eraseElement (cellDim : Nat) (M : EMesh) (d : Nat) (e : ENode) : Option EMesh :=
  M.eraseElements cellDim (M.mark d e (fun _ => []))

/-- Lookup of an element of intermediate dimension by the ids of its vertices: the map is searched
by the keys under which its nodes are stored.  storage/hidden_key_map.hpp:140-160, 200-214. -/
def EMesh.lookup (M : EMesh) (d : Nat) (key : List Int) : Option ENode :=
  (M.nodes d).find? (fun n => n.key == key)

/-- Reading through handles: the ids of the elements a view of dimension `d` lists.  A view stores
handles, which are pointers, and its iterators dereference them (storage/view.hpp:68-133, 226-227,
storage/handle.hpp:225-240).  Reading through a pointer to a cell which is not there any more is
undefined: no result. -/
def EMesh.readView (M : EMesh) (d : Nat) (view : List Nat) : Option (List Int) :=
  view.mapM (fun a => ((M.nodes d).find? (fun n => n.addr == a)).map (·.id))

/-- Ids of the vertices of an element.  element/element.hpp:66-170. -/
def EMesh.vertexIds (M : EMesh) (n : ENode) : List Int :=
  (n.bnd 0).map (fun a => (((M.nodes 0).find? (fun v => v.addr == a)).map (·.id)).getD (-1))

end VG
