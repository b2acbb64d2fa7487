import Verif.Model.MeshConfig

/-!
Handles of the three kinds (pointers, iterators, ids) to elements in the containers a configuration can choose for them.
storage/handle.hpp, storage/container.hpp, storage/hidden_key_map.hpp, storage/id.hpp.

Addresses are numbers, never used twice; `NULL` is 0.  What insertion does to pointers and iterators is that of the C++ standard: `vector`
moves its elements if its capacity is used up, `deque::push_back` invalidates all iterators but no pointers, lists, sets and maps keep both.
-/

namespace VG

/-- Containers of elements; `tree` stands for sets and hidden key maps.  storage/container.hpp:561-592,
storage/hidden_key_map.hpp:97-126. -/
inductive Store where
  | vector
  | deque
  | list
  | tree
deriving DecidableEq, Repr

/-- Kinds of handles; `no_handle_tag` is left out.  storage/handle.hpp:47-63. -/
inductive HandleKind where
  | pointer
  | iterator
  | id
deriving DecidableEq, Repr

/-- An element in a container: its address, its id, the key by which a set or map orders it, and when it was put in (the number
of elements before it).  The last is not in the code; it says which element this is.  storage/id.hpp:168-183,
storage/hidden_key_map.hpp:147-151. -/
structure CSlot where
  addr : Nat
  eid : Int
  key : Nat
  num : Nat
deriving DecidableEq, Repr

/-- A container: its elements in the order of iteration, the next unused address, a number that changes when iterators
become invalid, and the capacity of a vector.  storage/container.hpp:483-525. -/
structure Cont where
  slots : List CSlot
  next : Nat
  epoch : Nat
  cap : Nat
deriving DecidableEq, Repr

/-- A new container.  storage/container.hpp:483-525. -/
def Cont.empty : Cont := ⟨[], 1, 0, 0⟩

/-- A handle: a pointer, an iterator (with the number of the container when it was made; `none` is the end), or an id.
storage/handle.hpp:37-63. -/
inductive CHandle where
  | ptr (a : Nat)
  | iter (e : Nat) (a : Option Nat)
  | id (i : Int)
deriving DecidableEq, Repr

/-- May an iterator made at `e` still be used?  Iterators of lists, sets and maps are never invalidated by insertions.
storage/handle.hpp:53-57 (the type), the rule is that of the C++ standard. -/
def Cont.usable (s : Store) (c : Cont) (e : Nat) : Bool :=
  match s with
  | .list => true
  | .tree => true
  | .vector => e == c.epoch
  | .deque => e == c.epoch

/-- `dereference_handle`: which element it is; `none` is undefined behaviour (a pointer or iterator to nothing, the end).  For ids,
the first element with that id.  storage/handle.hpp:224-281. -/
def Cont.deref (s : Store) (c : Cont) : CHandle → Option Nat
  | .ptr a => (c.slots.find? (fun x => x.addr == a)).map CSlot.num
  | .iter _ none => none
  | .iter e (some a) => if c.usable s e then (c.slots.find? (fun x => x.addr == a)).map CSlot.num else none
  | .id i => (c.slots.find? (fun x => x.eid == i)).map CSlot.num

/-- `handle(container, element)`; for iterators the elements are searched for the address.  storage/handle.hpp:286-336. -/
def Cont.handleOf (k : HandleKind) (c : Cont) (x : CSlot) : CHandle :=
  match k with
  | .pointer => .ptr x.addr
  | .iterator => .iter c.epoch ((c.slots.find? (fun y => y.addr == x.addr)).map CSlot.addr)
  | .id => .id x.eid

/-- `set_handle_invalid`.  storage/handle.hpp:171-198; storage/id.hpp:42. -/
def Cont.invalidHandle (k : HandleKind) (c : Cont) : CHandle :=
  match k with
  | .pointer => .ptr 0
  | .iterator => .iter c.epoch none
  | .id => .id (-1)

/-- `is_handle_invalid`; iterators are compared by what they refer to.  storage/handle.hpp:203-217. -/
def Cont.isInvalid (c : Cont) : CHandle → Bool
  | .ptr a => (CHandle.ptr a) == c.invalidHandle .pointer
  | .iter _ a => a.isNone
  | .id i => (CHandle.id i) == c.invalidHandle .id

/-- The place of a new element in a set or map: before the first one with a greater key.  storage/hidden_key_map.hpp:147-151. -/
def placeByKey (x : CSlot) : List CSlot → List CSlot
  | [] => [x]
  | y :: l => if x.key < y.key then x :: y :: l else y :: placeByKey x l

/-- The elements of a vector at new addresses.  storage/container.hpp:434 (`push_back` of a full vector). -/
def moveAll (a : Nat) : List CSlot → List CSlot
  | [] => []
  | x :: l => { x with addr := a } :: moveAll (a + 1) l

/-- `insert`: the container, the handle of the element, and whether it is new.  Vectors, deques and lists append; sets and maps
return the element with the same key if there is one.  `grow` gives the new capacity of a full vector.
storage/container.hpp:432-436, 474-478; storage/hidden_key_map.hpp:147-151, 210-214. -/
def Cont.insert (s : Store) (k : HandleKind) (grow : Nat → Nat) (c : Cont) (i : Int) (key : Nat) : Cont × CHandle × Bool :=
  let x : CSlot := ⟨c.next, i, key, c.slots.length⟩
  match s with
  | .vector =>
    if c.slots.length < c.cap then
      let c' : Cont := ⟨c.slots ++ [x], c.next + 1, c.epoch, c.cap⟩
      (c', c'.handleOf k x, true)
    else
      let y : CSlot := { x with addr := c.next + c.slots.length }
      let c' : Cont := ⟨moveAll c.next c.slots ++ [y], c.next + c.slots.length + 1, c.epoch + 1, max (grow c.cap) (c.slots.length + 1)⟩
      (c', c'.handleOf k y, true)
  | .deque =>
    let c' : Cont := ⟨c.slots ++ [x], c.next + 1, c.epoch + 1, c.cap⟩
    (c', c'.handleOf k x, true)
  | .list =>
    let c' : Cont := ⟨c.slots ++ [x], c.next + 1, c.epoch, c.cap⟩
    (c', c'.handleOf k x, true)
  | .tree =>
    match c.slots.find? (fun y => y.key == key) with
    | some y => (c, c.handleOf k y, false)
    | none =>
      let c' : Cont := ⟨placeByKey x c.slots, c.next + 1, c.epoch, c.cap⟩
      (c', c'.handleOf k x, true)

/-- Insertions one after the other, with ids and keys.  storage/inserter.hpp:101-134 calls `insert` for each element. -/
def Cont.inserts (s : Store) (grow : Nat → Nat) : Cont → List (Int × Nat) → Cont
  | c, [] => c
  | c, (i, key) :: l => Cont.inserts s grow (c.insert s .pointer grow i key).1 l

/-- The container of a type of elements: `vs` and `cs` are the arguments `VertexContainerTagT` and `CellContainerTagT` of the
configuration, by default `std_deque_tag`.  config/mesh_config.hpp:69-92, 165-180. -/
def storeOf (vs cs : Store) : ContainerTag → Store
  | .vertices => vs
  | .cells => cs
  | .keyMap => .tree
  | .deque => .deque

end VG
