import Verif.Model.VtkData

/-!
One `vtk_writer` for several files, some of which cannot be opened.  io/vtk_writer.hpp:127-160, 397-580.
-/

namespace VG

variable {C : Type}

/-- The files of a call: the one of the whole mesh, the .pvd file, and one for each segment.  io/vtk_writer.hpp:399-401, 468-470, 508-511. -/
inductive VtkTarget where
  | mesh
  | pvd
  | segment (g : Nat)
deriving DecidableEq

/-- What a call has written: the .vtu files, and whether it ended with an exception.  io/vtk_writer.hpp:397-580. -/
structure VtkWritten (C : Type) where
  files : List (Nat × VtuFile C)
  threw : Bool

/-- `writer(mesh, segmentation, filename)` when only some of the files can be opened (`opens`).  An exception is thrown for the first file that
cannot be opened; with two or more segments `clear` is called first, for a whole mesh it is not.  io/vtk_writer.hpp:397-451, 459-580.
Files that are opened and cannot be written to (full disk) are not modelled. -/
def VtkWriter.tryCall (w : VtkWriter C) (tag : VtkTag) (txt : C → C) (zero : C) (st : SegState (List C)) (gs : List Nat) (opens : VtkTarget → Bool) :
    VtkWritten C × VtkWriter C :=
  let all := (w.call tag txt zero st gs).1
  if gs.length ≤ 1 then
    if opens .mesh then (⟨all, false⟩, .new) else (⟨[], true⟩, w)
  else if opens .pvd then
    let done := all.takeWhile fun f => opens (.segment f.1)
    (⟨done, decide (done.length < all.length)⟩, .new)
  else (⟨[], true⟩, .new)

/-- A step of a program that uses a writer: a quantity is registered, or the writer is called.  io/vtk_writer.hpp:397-459, 615-677. -/
inductive VtkStep (C : Type) where
  | add (r : VtkReg C)
  | call (st : SegState (List C)) (gs : List Nat) (opens : VtkTarget → Bool)

/-- The writer after one more step.  io/vtk_writer.hpp:397-580, 587-598. -/
def VtkWriter.step (tag : VtkTag) (txt : C → C) (zero : C) (w : VtkWriter C) : VtkStep C → VtkWriter C
  | .add r => w.add r
  | .call st gs opens => (w.tryCall tag txt zero st gs opens).2

end VG
