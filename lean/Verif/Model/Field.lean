import Mathlib.Data.List.GetD

/-!
Model of accessors and fields: values attached to elements, kept in a container which is indexed by
the id of the element (dense containers) or a map from ids to values.
-/

namespace VG

variable {V : Type}

/-- An operation on an accessor or field `f` and an element `e` with id `i`:
`f(e) = v`, reading `f(e)` of a non-const `f`, reading `f(e)` of a const `f`, `f.find(e)`,
`f.at(e)` of a const `f`, `f.at(e) = v`.  accessor.hpp:196-261, 325-385, 679-751, 815-880. -/
inductive FOp (V : Type)
  | set (i : Int) (v : V)
  | get (i : Int)
  | cget (i : Int)
  | find (i : Int)
  | at (i : Int)
  | setAt (i : Int) (v : V)

/-- What an operation gives: a value, nothing (assignments), a null pointer (`find`), the exception
`std::out_of_range`, or undefined behaviour (access outside the container, or a failed assertion).
accessor.hpp:196-261, 325-385. -/
inductive FRes (V : Type)
  | val (v : V)
  | done
  | null
  | throws
  | undef
deriving DecidableEq

/-- A dense container with its field: `zero` is the value of a default constructed entry, which
`resize` appends; `dflt` is the default value of the field, `none` for an accessor, which has no
default.  accessor.hpp:196-261 (accessor), 679-751 (field). -/
structure DenseField (V : Type) where
  data : List V
  zero : V
  dflt : Option V

/-- `resize(n)` for a greater size.  accessor.hpp:233, 717. -/
def DenseField.grow (f : DenseField V) (n : Nat) : DenseField V :=
  { f with data := f.data ++ List.replicate (n - f.data.length) f.zero }

/-- One operation on a dense accessor or field.  The comparison with the size is in the id's signed
type, so a negative id (an element never stored in a mesh) passes it and indexes outside of the
container.  Sizes are unbounded here.
accessor.hpp:218-255 (accessor), 701-745 (field). -/
def DenseField.step (f : DenseField V) : FOp V → DenseField V × FRes V
  | .set i v => if i < 0 then (f, .undef) else
      let g := if (f.data.length : Int) ≤ i then f.grow (i.toNat + 1) else f
      ({ g with data := g.data.set i.toNat v }, .done)
  | .get i => if i < 0 then (f, .undef) else
      let g := if (f.data.length : Int) ≤ i then f.grow (i.toNat + 1) else f
      match g.data[i.toNat]? with
      | some v => (g, .val v)
      | none => (g, .undef)
  | .cget i => if i < 0 then (f, .undef) else
      match f.data[i.toNat]? with
      | some v => (f, .val v)
      | none => match f.dflt with
        | some v => (f, .val v)
        | none => (f, .undef)
  | .find i => if i < 0 then (f, .undef) else
      match f.data[i.toNat]? with
      | some v => (f, .val v)
      | none => (f, .null)
  | .at i => if i < 0 then (f, .undef) else
      match f.data[i.toNat]? with
      | some v => (f, .val v)
      | none => (f, .throws)
  | .setAt i v => if i < 0 then (f, .undef) else
      if (f.data.length : Int) ≤ i then (f, .throws)
      else ({ f with data := f.data.set i.toNat v }, .done)

/-- A `std::map` from ids to values with its field or accessor.
accessor.hpp:325-385 (accessor), 815-880 (field). -/
structure MapField (V : Type) where
  data : List (Int × V)
  zero : V
  dflt : Option V

/-- `std::map::find`.  Used in accessor.hpp:345-380. -/
def MapField.lookup (f : MapField V) (i : Int) : Option V :=
  (f.data.find? (fun p => p.1 == i)).map (·.2)

/-- Insertion of a default constructed value when `operator[]` does not find the key.  Used in accessor.hpp:345-380. -/
def MapField.ensure (f : MapField V) (i : Int) : MapField V :=
  if (f.lookup i).isSome then f else { f with data := f.data ++ [(i, f.zero)] }

/-- Assignment to the value of a key which is present.  Used in accessor.hpp:345-380. -/
def MapField.put (f : MapField V) (i : Int) (v : V) : MapField V :=
  { f with data := f.data.map (fun p => if p.1 = i then (i, v) else p) }

/-- One operation on a map accessor or field; note that `at` of a non-const object inserts.
accessor.hpp:345-380 (accessor), 838-875 (field). -/
def MapField.step (f : MapField V) : FOp V → MapField V × FRes V
  | .set i v => ((f.ensure i).put i v, .done)
  | .get i => match (f.ensure i).lookup i with
      | some v => (f.ensure i, .val v)
      | none => (f.ensure i, .undef)
  | .cget i => match f.lookup i with
      | some v => (f, .val v)
      | none => match f.dflt with
        | some v => (f, .val v)
        | none => (f, .undef)
  | .find i => match f.lookup i with
      | some v => (f, .val v)
      | none => (f, .null)
  | .at i => match f.lookup i with
      | some v => (f, .val v)
      | none => (f, .throws)
  | .setAt i v => ((f.ensure i).put i v, .done)

/-- A sequence of operations; only the container is kept.  Not in the code. -/
def DenseField.run (f : DenseField V) (ops : List (FOp V)) : DenseField V := ops.foldl (fun g o => (g.step o).1) f

/-- A sequence of operations; only the container is kept.  Not in the code. -/
def MapField.run (f : MapField V) (ops : List (FOp V)) : MapField V := ops.foldl (fun g o => (g.step o).1) f

end VG
