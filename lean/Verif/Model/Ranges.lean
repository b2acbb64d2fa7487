import Verif.Model.Segments

/-!
Model of ranges of elements: the order in which elements are visited, access by position, and views of the elements
with a property.
-/

namespace VG

variable {P : Type}

/-- Insertion of a node into a `std::map`: in front of the first node with a greater key.
storage/hidden_key_map.hpp:163-167. -/
def keyInsert (key : Nat → List Int) (s : Nat) : List Nat → List Nat
  | [] => [s]
  | t :: l => if keyLt (key s) (key t) then s :: t :: l else t :: keyInsert key s l

/-- `elements<Tag>(mesh)`: the handles in the order of iteration.  Vertices and cells are in a `std::deque`, in the order of
their creation; elements of other dimensions are in a `std::map`, ordered by their keys.  They were inserted in
the order of their creation.  storage/range.hpp:57-75, storage/hidden_key_map.hpp:145-149,
config/mesh_config.hpp:68-92. -/
def Mesh.range (T : Topo) (m : Mesh P) (d : Nat) : List Nat :=
  if d = 0 ∨ d = T.cellDim then List.range (m.count d)
  else (List.range (m.count d)).foldl (fun l s => keyInsert (fun t => m.key (m.vertsOf d t)) s l) []

/-- `elements<Tag>(mesh).size()`.  storage/range.hpp:109. -/
def Mesh.rangeSize (m : Mesh P) (d : Nat) : Nat := m.count d

/-- `elements<Tag>(mesh)[i]` and `handle_at(i)`: the iterator is moved `i` times; behind the end this is undefined.
storage/range.hpp:101-104, 121-124. -/
def Mesh.rangeAt (T : Topo) (m : Mesh P) (d i : Nat) : Option Nat := (m.range T d)[i]?

/-- The loop of `element_view`: handles of the elements for which the functor is true, one after the other.
element/element_view.hpp:79-83, 106-110. -/
def viewLoop (f : Nat → Bool) : List Nat → List Nat → List Nat
  | [], acc => acc
  | s :: l, acc => viewLoop f l (if f s then acc ++ [s] else acc)

/-- `element_view<Tag>(mesh, f)`; the functor is given the element.  element/element_view.hpp:66-113. -/
def Mesh.elementView (T : Topo) (m : Mesh P) (d : Nat) (f : Nat → Bool) : List Nat := viewLoop f (m.range T d) []

/-- `element_view<Tag>(segment, f)`: the range of a segment is its view.  element/element_view.hpp:66-113. -/
def SegState.elementView (st : SegState P) (g d : Nat) (f : Nat → Bool) : List Nat := viewLoop f (st.view g d) []

end VG
