import Verif.Model.VtkText

/-!
One `vtk_reader` for several files.  io/vtk_reader.hpp:96-204, 696-952, 1199-1227.
-/

namespace VG

/-- A `vtk_reader` object: whether its stream is open, what it has read (the maps by segment, 97-113, 1202-1213), and the names of the fields
that are registered for the quantities (1216-1227; one list here for the eight maps).  io/vtk_reader.hpp:96-113, 1199-1227. -/
structure VtkReader (C : Type) where
  isOpen : Bool
  contents : List (Nat × VtuFile C)
  registered : List (List Char)

/-- A new reader.  io/vtk_reader.hpp:96-113. -/
def VtkReader.new {C : Type} : VtkReader C := ⟨false, [], []⟩

/-- `register_vertex_scalar` and the like.  io/vtk_reader.hpp:1041-1130. -/
def VtkReader.register {C : Type} (o : VtkReader C) (name : List Char) : VtkReader C := { o with registered := o.registered ++ [name] }

/-- `pre_clear`.  io/vtk_reader.hpp:155-183. -/
def VtkReader.preClear {C : Type} (o : VtkReader C) : VtkReader C := { o with contents := [] }

/-- `post_clear`.  io/vtk_reader.hpp:124-152. -/
def VtkReader.postClear {C : Type} (o : VtkReader C) : VtkReader C := { o with registered := [] }

variable {C : Type}

/-- Whether the stream is open after `parse_vtu_segment` for one file after the other: it is closed only at the end of a file that could be
read; `open` fails on a stream that is open.  io/vtk_reader.hpp:190-203, 700-792, 869-875. -/
def openAfter (tag : VtkTag) (num : List Char → Option C) (zero : C) (files : List Char → Option (List Char)) : Bool → List (Int × List Char) → Bool
  | b, [] => b
  | true, _ :: _ => true
  | false, p :: ps =>
    match files p.2 with
    | none => openAfter tag num zero files false ps
    | some input =>
      match parseVtu tag num zero input with
      | .ok _ => openAfter tag num zero files false ps
      | .error _ => true

/-- The files of the segments, then `post_clear`; simplified: the setup of the mesh between them (`readVtk`) fills only
maps that `pre_clear` empties, and is not part of this definition.  io/vtk_reader.hpp:696-792, 869-875, 919-936. -/
def VtkReader.segments (tag : VtkTag) (num : List Char → Option C) (zero : C) (files : List Char → Option (List Char)) (o : VtkReader C)
    (ps : List (Int × List Char)) : Except VtkFail (List (Nat × VtuFile C)) × VtkReader C :=
  match readSegments tag num zero files o.isOpen ps with
  | .error e => (.error e, { o with isOpen := openAfter tag num zero files o.isOpen ps })
  | .ok L => (.ok (o.contents ++ L), { o with isOpen := openAfter tag num zero files o.isOpen ps, contents := o.contents ++ L }.postClear)

/-- `reader(mesh, segmentation, filename)`: what it has read or how it ends, and the reader afterwards.  After an exception nothing of the .pvd
file is in the maps.  io/vtk_reader.hpp:795-878, 892-937. -/
def VtkReader.read (tag : VtkTag) (num : List Char → Option C) (zero : C) (files : List Char → Option (List Char)) (o : VtkReader C)
    (name : List Char) : Except VtkFail (List (Nat × VtuFile C)) × VtkReader C :=
  if extension name = "vtu".toList then o.preClear.segments tag num zero files [(0, name)]
  else if extension name = "pvd".toList then
    if o.isOpen then (.error .throws, o.preClear)
    else match files name with
      | none => (.error .throws, o.preClear)
      | some input =>
        match readPvd input with
        | none => (.error .throws, { o.preClear with isOpen := true })
        | some [] => (.error .assertion, o.preClear)
        | some parts => o.preClear.segments tag num zero files (parts.map fun p => (p.1, name.take (pathLength name) ++ p.2))
  else (.error .throws, o.preClear)

/-- The reader after several calls, each with the files there are at that time; exceptions are caught by the program.
io/vtk_reader.hpp:892-952. -/
def VtkReader.afterAll (tag : VtkTag) (num : List Char → Option C) (zero : C) :
    VtkReader C → List ((List Char → Option (List Char)) × List Char) → VtkReader C
  | o, [] => o
  | o, c :: cs => VtkReader.afterAll tag num zero (o.read tag num zero c.1 c.2).2 cs

end VG
