import Verif.Model.Iterators
import Verif.Model.Netgen

/-!
`mesh_serializer` (io/serialization.hpp).

An archive is the list of the values written to it.  Reading a value from it gives the next value; at the end of the
archive Boost throws.  That a text archive gives the same numbers back is trusted.  The constructor that takes a mesh
(line 193) and `load(MeshT &)` (line 197) do not compile when they are used; the model is what `save` and `load` do for
a serializer whose pointer refers to a mesh.
-/

namespace VG

variable {C : Type}

/-- A value in an archive: a number of vertices or cells, a coordinate, the id of a vertex.
io/serialization.hpp:99, 105, 115, 127. -/
inductive ArItem (C : Type) where
  | size (n : Nat)
  | coord (c : C)
  | id (i : Int)
  deriving DecidableEq

/-- `save`.  io/serialization.hpp:88-131.  Simplified: an id is converted to `std::size_t` and back when it is read,
which gives the id again. -/
def archiveOf {g : Nat} (T : Topo) (m : Mesh (Fin g → C)) : List (ArItem C) :=
  .size m.verts.length :: m.verts.flatMap (fun v => (List.ofFn v.pt).map .coord) ++
  .size (m.elems T.cellDim).length :: (m.elems T.cellDim).flatMap (fun e => e.verts.map fun v => .id (m.vid v))

/-- `save` for a serializer that may have no mesh.  io/serialization.hpp:88-131. -/
def serSave {g : Nat} (T : Topo) : Option (Mesh (Fin g → C)) → Except ReadFail (List (ArItem C))
  | none => .error .throws
  | some m => .ok (archiveOf T m)

/-- `ar & size`.  io/serialization.hpp:146, 164.  A coordinate or an id read as a size is not modelled. -/
def arSize : List (ArItem C) → Except ReadFail (Nat × List (ArItem C))
  | [] => .error .throws
  | .size n :: a => .ok (n, a)
  | _ :: _ => .error .unmodelled

/-- The loop over the coordinates.  io/serialization.hpp:150-152. -/
def arPoint : (g : Nat) → List (ArItem C) → Except ReadFail ((Fin g → C) × List (ArItem C))
  | 0, a => .ok (Fin.elim0, a)
  | _ + 1, [] => .error .throws
  | g + 1, .coord c :: a =>
    match arPoint g a with
    | .error e => .error e
    | .ok (p, a) => .ok (Fin.cons c p, a)
  | _ + 1, _ :: _ => .error .unmodelled

/-- The loop over the vertices.  io/serialization.hpp:148-155. -/
def arVertices {g : Nat} : Nat → Mesh (Fin g → C) → List (ArItem C) →
    Except ReadFail (Mesh (Fin g → C) × List (ArItem C))
  | 0, m, a => .ok (m, a)
  | n + 1, m, a =>
    match arPoint g a with
    | .error e => .error e
    | .ok (p, a) => arVertices n (m.makeVertex none p) a

/-- The loop over the vertices of a cell, giving their handles.  io/serialization.hpp:170-175.  The handle of the end
iterator for an id that does not occur is undefined. -/
def arCorners {g : Nat} (m : Mesh (Fin g → C)) : Nat → List (ArItem C) → Except ReadFail (List Nat × List (ArItem C))
  | 0, a => .ok ([], a)
  | _ + 1, [] => .error .throws
  | n + 1, .id i :: a =>
    match m.findById 0 i with
    | none => .error .undefined
    | some v =>
      match arCorners m n a with
      | .error e => .error e
      | .ok (vs, a) => .ok (v :: vs, a)
  | _ + 1, _ :: _ => .error .unmodelled

/-- The loop over the cells.  io/serialization.hpp:165-178. -/
def arCells {g : Nat} (T : Topo) : Nat → Mesh (Fin g → C) → List (ArItem C) → Except ReadFail (Mesh (Fin g → C))
  | 0, m, _ => .ok m
  | n + 1, m, a =>
    match arCorners m (T.nv T.cellDim) a with
    | .error e => .error e
    | .ok (vs, a) => arCells T n (m.makeElem T T.cellDim vs).mesh a

/-- `load` for a serializer that may have no mesh.  io/serialization.hpp:135-180. -/
def serLoad {g : Nat} (T : Topo) (a : List (ArItem C)) : Option (Mesh (Fin g → C)) → Except ReadFail (Mesh (Fin g → C))
  | none => .error .throws
  | some m =>
    match arSize a with
    | .error e => .error e
    | .ok (n, a) =>
      match arVertices n m a with
      | .error e => .error e
      | .ok (m, a) =>
        match arSize a with
        | .error e => .error e
        | .ok (k, a) => arCells T k m a

end VG
