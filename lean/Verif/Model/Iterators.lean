import Verif.Model.Queries

/-!
Iterators, lookups, and the loop of `distance(line, segment)`.
-/

namespace VG

/-- An iterator: a position in a range; the end has the position `length`.
storage/container.hpp:70-350, storage/view.hpp:68-470. -/
abbrev It := Nat

/-- Dereferencing; `none` is undefined behaviour (the end iterator).
storage/container.hpp:70-350, storage/view.hpp:68-470. -/
def deref {α : Type} (l : List α) (it : It) : Option α := l[it]?

/-- Post-increment of the iterators of containers and views: the base is advanced and the iterator
itself is returned.  First component: returned iterator, second: iterator afterwards.
storage/container.hpp:98, 128, 162, 198, 236, 267, 302, 339; storage/view.hpp:92, 126, 159, 193, 356,
390, 423, 457. -/
def postInc (it : It) : It × It :=
  let it := it + 1
  (it, it)

/-- Post-increment of the iterators of `static_array`.  storage/static_array.hpp:87, 162. -/
def postIncStatic (it : It) : It × It :=
  let tmp := it
  let it := it + 1
  (tmp, it)

/-- Post-decrement of the iterators of containers and views.  storage/container.hpp:101, 131, 165,
201, 239, 270, 305, 342; storage/view.hpp:95, 129, 162, 196, 359, 393, 426, 460. -/
def postDec (it : It) : It × It :=
  let it := it - 1
  (it, it)

/-- Outcome of a computation in C++.  Not in the code. -/
inductive Outcome (α : Type) where
  | value (a : α)
  | undefined
deriving DecidableEq, Repr

/-- The loop `for (; lit != end; ++lit) if (current < min) min = current`.
algorithm/distance.hpp:260-265. -/
def minLoop {D : Type} [LT D] [DecidableRel (α := D) (· < ·)] : D → List D → D
  | m, [] => m
  | m, d :: ds => minLoop (if d < m then d else m) ds

/-- `distance(line, segment)` given the distances of `line` to the lines of the segment in the order
of iteration; `none` stands for the value -1.  algorithm/distance.hpp:245-268.  Generic in the type of
distances and in the post-increment used, which is that of the views (storage/view.hpp:126). -/
def lineSegmentDistance {D : Type} [LT D] [DecidableRel (α := D) (· < ·)] (inc : It → It × It)
    (ds : List D) : Outcome (Option D) :=
  if ds.isEmpty then .value none
  else
    let p := inc 0
    match deref ds p.1 with
    | none => .undefined
    | some d => .value (some (minLoop d (ds.drop p.2)))

/-- `find(mesh, id)`: `std::find_if` by id over the container; `none` is `end()`.
storage/container.hpp:49-62, mesh/mesh.hpp:1398-1424. -/
def Mesh.findById {P : Type} (m : Mesh P) (k : Nat) (id : Int) : Option Nat :=
  (m.idsOf k).findIdx? (fun x => x == id)

/-- `find_by_handle`: linear search for an iterator with that handle.  mesh/mesh.hpp:1434-1477. -/
def Mesh.findByHandle {P : Type} (m : Mesh P) (k : Nat) (h : Nat) : Option Nat :=
  (List.range (m.count k)).findIdx? (fun x => x == h)

end VG
