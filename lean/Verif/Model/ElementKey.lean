import Mathlib.Data.List.Sort

/-!
Model of `element_key`, the key under which elements of intermediate dimension are stored.
-/

namespace VG

/-- Key of an element: its vertex ids sorted.  element/element_key.hpp:42-60 (`std::sort`).
Simplified: ids are unbounded integers; `std::sort` is an insertion sort (the result for
integers is the same). -/
def elementKey (ids : List Int) : List Int := ids.insertionSort (· ≤ ·)

/-- Key built from a vector of ids: the ids are taken as they are, not sorted.
element/element_key.hpp:45 (`explicit element_key(std::vector<id_type> const &)`), used by
io/vtk_reader.hpp (`setupCells`). -/
def elementKeyOfVector (ids : List Int) : List Int := ids

/-- The comparison loop.  element/element_key.hpp:72-79. -/
def keyLoopLt : List Int → List Int → Bool
  | a :: as, b :: bs => if a > b then false else if a < b then true else keyLoopLt as bs
  | _, _ => false

/-- `element_key::operator<`.  element/element_key.hpp:67-80. -/
def keyLt (k₁ k₂ : List Int) : Bool :=
  if k₁.length ≠ k₂.length then decide (k₁.length < k₂.length) else keyLoopLt k₁ k₂

end VG
