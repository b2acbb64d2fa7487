import Verif.Model.Vtk
import Verif.Model.OpenDx

/-!
The quantities registered at `vtk_writer` and `vtk_reader`: which are written to which file, and where the values read
from the files are put.
-/

namespace VG

variable {C : Type}

/-- A call of `add_scalar_data_on_vertices`, `add_vector_data_on_vertices`, `add_scalar_data_on_cells` or
`add_vector_data_on_cells`: on cells or on vertices, for all segments or for one, the name and the quantity.
io/vtk_writer.hpp:615-677. -/
structure VtkReg (C : Type) where
  cells : Bool
  seg : Option Nat
  name : String
  q : Quantity C

/-- The containers of a writer, `std::map`s from names: for vertices and cells, for all segments and for single ones.
io/vtk_writer.hpp:687-697. -/
structure VtkWriter (C : Type) where
  scalars : Bool → Option Nat → List (String × (Nat → C))
  vectors : Bool → Option Nat → List (String × (Nat → C × C × C))

/-- A new writer, and a writer after `clear`.  io/vtk_writer.hpp:127-159. -/
def VtkWriter.new : VtkWriter C := ⟨fun _ _ => [], fun _ _ => []⟩

/-- A quantity is registered; one with the same name in the same container is replaced.
io/vtk_writer.hpp:587-598, 615-677. -/
def VtkWriter.add (w : VtkWriter C) (r : VtkReg C) : VtkWriter C :=
  match r.q with
  | .scalar f => { w with scalars := fun c g =>
      if c = r.cells ∧ g = r.seg then namePut r.name f (w.scalars c g) else w.scalars c g }
  | .vector f => { w with vectors := fun c g =>
      if c = r.cells ∧ g = r.seg then namePut r.name f (w.vectors c g) else w.vectors c g }

/-- The quantities registered for all segments, in the order they are written.  io/vtk_writer.hpp:422-432, 435-445. -/
def VtkWriter.forAll (w : VtkWriter C) (cells : Bool) : List (String × Quantity C) :=
  (w.scalars cells none).map (fun x => (x.1, .scalar x.2)) ++ (w.vectors cells none).map (fun x => (x.1, .vector x.2))

/-- The quantities written to the file of a segment, in the order they are written.
io/vtk_writer.hpp:530-550, 554-571. -/
def VtkWriter.forSegment (w : VtkWriter C) (cells : Bool) (g : Nat) : List (String × Quantity C) :=
  w.forAll cells ++ ((w.scalars cells (some g)).map (fun x => (x.1, .scalar x.2)) ++
    (w.vectors cells (some g)).map (fun x => (x.1, .vector x.2)))

/-- `writer(mesh, segmentation, filename)`: the files and the writer afterwards.  With less than two segments the mesh is
written without the quantities of segments.  io/vtk_writer.hpp:398-451, 459-580.  All files can be opened
(`VtkWriter.tryCall` otherwise). -/
def VtkWriter.call (w : VtkWriter C) (tag : VtkTag) (txt : C → C) (zero : C) (st : SegState (List C)) (gs : List Nat) :
    List (Nat × VtuFile C) × VtkWriter C :=
  (if gs.length ≤ 1 then writeVtk tag txt zero st gs (fun _ => w.forAll false) (fun _ => w.forAll true)
    else writeVtk tag txt zero st gs (w.forSegment false) (w.forSegment true), .new)

/-- Where the values of a quantity go: to the accessor registered for all segments under the name, to the accessor
registered for the segment, or to the container of the reader from which `vertex_scalar_field` and the like are made.
io/vtk_reader.hpp:488-525, 586-620, 1044-1123, 1131-1197.
Elements without a value read as zero or lie behind the end of the container of the reader; both are `none`. -/
inductive Dest where
  | all (name : String)
  | segment (g : Nat) (name : String)
  | own (g : Nat) (name : String)
deriving DecidableEq

/-- The destination of a quantity found in the file of segment `g`; `R` says which names are registered, for all segments
and for single ones.  io/vtk_reader.hpp:489-512, 530-556, 587-607, 624-649. -/
def destOf (R : Option Nat → String → Bool) (g : Nat) (name : String) : Dest :=
  if R none name then .all name else if R (some g) name then .segment g name else .own g name

/-- The way the quantity with this destination was registered.  io/vtk_reader.hpp:489-512, 530-556. -/
def Dest.registered : Dest → Registered
  | .all _ => .all
  | .segment _ _ => .segment
  | .own _ _ => .none

/-- The content of the destinations after one of them was changed.  io/vtk_reader.hpp:492-525. -/
def putAt {α : Type} (s : Dest → FieldOf α) (d : Dest) (f : FieldOf α) : Dest → FieldOf α :=
  fun d' => if d' = d then f else s d'

/-- The scalar arrays of a file, one after the other; `hs` are the elements of the file.
io/vtk_reader.hpp:673-676, 684-687, 486-525, 584-620. -/
def putScalars (R : Option Nat → String → Bool) (g : Nat) (hs : List Nat) :
    List (String × List C) → (Dest → FieldOf C) → Option (Dest → FieldOf C)
  | [], s => some s
  | x :: l, s => (attachScalar hs 0 x.2 (s (destOf R g x.1))).bind fun f => putScalars R g hs l (putAt s (destOf R g x.1) f)

/-- The vector arrays of a file.  io/vtk_reader.hpp:678-681, 689-692, 527-577, 622-668. -/
def putVectors (R : Option Nat → String → Bool) (g : Nat) (hs : List Nat) :
    List (String × List C) → (Dest → FieldOf (C × C × C)) → Option (Dest → FieldOf (C × C × C))
  | [], s => some s
  | x :: l, s => (attachVector (destOf R g x.1).registered hs x.2 (s (destOf R g x.1))).bind
      fun f => putVectors R g hs l (putAt s (destOf R g x.1) f)

/-- The values on vertices, or on cells.  io/vtk_reader.hpp:1209-1226. -/
structure Values (C : Type) where
  scalars : Dest → FieldOf C
  vectors : Dest → FieldOf (C × C × C)

/-- The arrays of one file on vertices, or on cells; `R` says which names are registered, for scalar (`false`) and vector
quantities.  io/vtk_reader.hpp:346-391, 671-694.  An array with another number of components (`none` here) throws while the
file is read, see `readArrays`. -/
def putArrays (R : Bool → Option Nat → String → Bool) (g : Nat) (hs : List Nat) (arrays : List (DataArray C))
    (D : Values C) : Option (Values C) :=
  match readArrays 1 arrays with
  | .ok (sc, ve) => (putScalars (R false) g hs sc D.scalars).bind fun s =>
      (putVectors (R true) g hs ve D.vectors).map fun v => ⟨s, v⟩
  | .error _ => none

/-- `setupData` for all files; the elements of each file are given.  io/vtk_reader.hpp:930-934, 671-694.  Made for the data
on vertices and on cells separately, which do not influence each other. -/
def setupData (R : Bool → Option Nat → String → Bool) :
    List (Nat × List (DataArray C)) → List (List Nat) → Values C → Option (Values C)
  | [], _, D => some D
  | _ :: _, [], _ => none
  | f :: fs, hs :: hss, D => (putArrays R f.1 hs f.2 D).bind (setupData R fs hss)

/-- The values on vertices after reading.  io/vtk_reader.hpp:930-934. -/
def VtkResult.vertexValues (r : VtkResult C) (R : Bool → Option Nat → String → Bool) (D : Values C) : Option (Values C) :=
  setupData R (r.files.map fun f => (f.1.toNat, f.2.pointData)) r.points D

/-- The values on cells after reading.  io/vtk_reader.hpp:930-934. -/
def VtkResult.cellValues (r : VtkResult C) (R : Bool → Option Nat → String → Bool) (D : Values C) : Option (Values C) :=
  setupData R (r.files.map fun f => (f.1.toNat, f.2.cellData)) r.cells D

end VG
