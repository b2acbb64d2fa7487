import Verif.Model.Queries

/-!
`quantity_transfer` (algorithm/quantity_transfer.hpp).

The data on the destination elements is a map from handles to values, which the setter updates.  The accessor gets the
dimension and the handle of an element.
-/

namespace VG

variable {P V : Type}

/-- The setter stores the value for the element.  Simplified: a total map instead of the storage of an accessor.
algorithm/quantity_transfer.hpp:100, 143. -/
def setValue (field : Nat → V) (t : Nat) (v : V) : Nat → V := fun x => if x = t then v else field x

/-- `values_for_destination_cells[t].push_back(v)`.  algorithm/quantity_transfer.hpp:71, 90.  Simplified: the entries of
the `std::map` are kept in the order of creation, not in the order of the addresses of the elements. -/
def pushValue (values : List (Nat × List V)) (t : Nat) (v : V) : List (Nat × List V) :=
  match values with
  | [] => [(t, [v])]
  | e :: es => if e.1 = t then (t, e.2 ++ [v]) :: es else e :: pushValue es t v

/-- From the elements of dimension `k` in the range to those of dimension `j < k` on their boundary.
algorithm/quantity_transfer.hpp:52-103. -/
def transferDown (m : Mesh P) (k j : Nat) (range : List Nat) (acc : Nat → Nat → V) (avg : List V → V)
    (fs fd : Nat → Bool) (field : Nat → V) : Nat → V :=
  let values : List (Nat × List V) := range.foldl (fun values s =>
    if fs s then
      (m.bndOf k s j).foldl (fun values t => if fd t then pushValue values t (acc k s) else values) values
    else values) []
  values.foldl (fun field e => setValue field e.1 (avg e.2)) field

/-- To the elements of dimension `k` in the range from those of dimension `j < k` on their boundary.  The accessor is
called for the destination element.  algorithm/quantity_transfer.hpp:105-146. -/
def transferUp (m : Mesh P) (j k : Nat) (range : List Nat) (acc : Nat → Nat → V) (avg : List V → V)
    (fs fd : Nat → Bool) (field : Nat → V) : Nat → V :=
  range.foldl (fun field t =>
    if fd t then
      let values := (m.bndOf k t j).foldl (fun values s => if fs s then values ++ [acc k t] else values) []
      setValue field t (avg values)
    else field) field

end VG
