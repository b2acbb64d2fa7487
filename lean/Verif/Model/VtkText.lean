import Verif.Model.Vtk
import Verif.Model.XmlTag

/-!
The text of VTK files: what `vtk_writer` puts around the numbers, and how `vtk_reader` finds the numbers in it
(io/vtk_writer.hpp, io/vtk_reader.hpp).

A file is a list of characters.  How a floating point number is printed and read is a parameter: `print x` is the text
of `x`, and `num t` is the number with the text `t`, if there is one.  The contents of a file are the `VtuFile` of
`Vtk`.
-/

namespace VG

variable {C : Type}

/-! ### Numbers and blanks -/

/-- The text of a number without sign, as `operator<<` prints it. Used in io/vtk_writer.hpp:306, 317, 414-418, 493. -/
def natText (n : Nat) : List Char := Nat.toDigits 10 n

/-- The text of an index; only -1 (the default id) is negative.  io/vtk_writer.hpp:291-292. -/
def intText (x : Int) : List Char := if 0 ≤ x then natText x.toNat else '-' :: natText (-x).toNat

/-- What `operator>>` skips before a token, and where a token ends.  Used in io/vtk_reader.hpp:242, 269, 295, 322, 336. -/
def isBlank (c : Char) : Bool :=
  c == ' ' || c == '\n' || c == '\t' || c == '\r' || c == Char.ofNat 11 || c == Char.ofNat 12

/-- `strChecker::myIsNumber`: only digits.  io/helper.hpp:97-115. -/
def isNumber (t : List Char) : Bool := t.all Char.isDigit

/-- `atoi`: blanks, a sign, the digits up to the first other character; zero if there are none.  Used in
io/vtk_reader.hpp:275, 301, 322, 364, 719, 726, 737, 854. -/
def atoi (t : List Char) : Int :=
  match t.dropWhile isBlank with
  | '-' :: t => - (Nat.ofDigitChars 10 (t.takeWhile Char.isDigit) 0 : Int)
  | '+' :: t => Nat.ofDigitChars 10 (t.takeWhile Char.isDigit) 0
  | t => Nat.ofDigitChars 10 (t.takeWhile Char.isDigit) 0

/-! ### Writer -/

/-- `writeHeader`.  io/vtk_writer.hpp:163-168. -/
def vtuHeader : List Char :=
  "<?xml version=\"1.0\"?>\n".toList ++
  "<VTKFile type=\"UnstructuredGrid\" version=\"0.1\" byte_order=\"LittleEndian\">\n".toList ++
  " <UnstructuredGrid>\n".toList

/-- The opening tag of the piece.  io/vtk_writer.hpp:414-418, 523-527. -/
def pieceText (points cells : Nat) : List Char :=
  "  <Piece NumberOfPoints=\"".toList ++ natText points ++ "\" NumberOfCells=\"".toList ++ natText cells ++
  "\">\n".toList

/-- The coordinates of a point, separated by blanks.  io/helper.hpp:42-90, io/vtk_writer.hpp:246-252. -/
def pointText (print : C → List Char) : List C → List Char
  | [] => "\n".toList
  | [x] => print x ++ "\n".toList
  | x :: y :: xs => print x ++ " ".toList ++ pointText print (y :: xs)

/-- `writePoints`.  io/vtk_writer.hpp:236-257. -/
def pointsText (print : C → List Char) (ps : List (List C)) : List Char :=
  "   <Points>\n".toList ++
  "    <DataArray type=\"Float32\" NumberOfComponents=\"3\" format=\"ascii\">\n".toList ++
  ps.flatMap (pointText print) ++ "\n".toList ++
  "    </DataArray>\n".toList ++
  "   </Points> \n".toList

/-- `writePointData`, `writeCellData`.  io/vtk_writer.hpp:333-377.  The writer always gives the number of
components. -/
def arrayText (print : C → List Char) (a : DataArray C) : List Char :=
  "    <DataArray type=\"Float32\" Name=\"".toList ++ a.name.toList ++ "\" NumberOfComponents=\"".toList ++
  natText (a.comps.getD 1) ++ "\" format=\"ascii\">\n".toList ++
  a.values.flatMap (fun x => print x ++ " ".toList) ++ "\n".toList ++
  "    </DataArray>\n".toList

/-- The quantities on points or cells; nothing is written if there are none.  io/vtk_writer.hpp:422-432, 435-445,
535-553, 559-574.  `tag` is PointData or CellData. -/
def dataText (print : C → List Char) (tag : String) (as : List (DataArray C)) : List Char :=
  if as = [] then []
  else "   <".toList ++ tag.toList ++ ">\n".toList ++ as.flatMap (arrayText print) ++
    "   </".toList ++ tag.toList ++ ">\n".toList

/-- The indices of the vertices, each followed by a blank, and a line break after each cell; `i` is the number of
indices written before.  io/vtk_writer.hpp:274-296. -/
def connText (nv : Nat) : Nat → List Int → List Char
  | _, [] => []
  | i, x :: xs => intText x ++ " ".toList ++ (if (i + 1) % nv = 0 then "\n".toList else []) ++ connText nv (i + 1) xs

/-- `writeCells`.  io/vtk_writer.hpp:260-323. -/
def cellsText (nv : Nat) (conn : List Int) (offsets types : List Nat) : List Char :=
  "   <Cells> \n".toList ++
  "    <DataArray type=\"Int32\" Name=\"connectivity\" format=\"ascii\">\n".toList ++
  connText nv 0 conn ++ "\n".toList ++
  "    </DataArray>\n".toList ++
  "    <DataArray type=\"Int32\" Name=\"offsets\" format=\"ascii\">\n".toList ++
  offsets.flatMap (fun x => natText x ++ " ".toList) ++ "\n".toList ++
  "    </DataArray>\n".toList ++
  "    <DataArray type=\"UInt8\" Name=\"types\" format=\"ascii\">\n".toList ++
  types.flatMap (fun x => natText x ++ " ".toList) ++ "\n".toList ++
  "    </DataArray>\n".toList ++
  "   </Cells>\n".toList

/-- The end of the piece and `writeFooter`.  io/vtk_writer.hpp:382-386, 447-448, 576-577. -/
def vtuFooter : List Char := "  </Piece>\n".toList ++ " </UnstructuredGrid>\n".toList ++ "</VTKFile>\n".toList

/-- A .vtu file.  io/vtk_writer.hpp:398-451, 503-579. -/
def vtuText (tag : VtkTag) (print : C → List Char) (f : VtuFile C) : List Char :=
  vtuHeader ++ pieceText f.numPoints f.numCells ++ pointsText print f.points ++
  dataText print "PointData" f.pointData ++ cellsText (tag.topo.nv tag.topo.cellDim) f.conn f.offsets f.types ++
  dataText print "CellData" f.cellData ++ vtuFooter

/-- Position behind the last slash, or else behind the last backslash; 0 if there is neither.
io/vtk_writer.hpp:473-479, io/vtk_reader.hpp:808-815. -/
def pathLength (name : List Char) : Nat :=
  if '/' ∈ name then name.length - name.reverse.idxOf '/'
  else if '\\' ∈ name then name.length - name.reverse.idxOf '\\'
  else 0

/-- The line of a segment in the .pvd file.  io/vtk_writer.hpp:490-494. -/
def datasetText (short : List Char) (g : Nat) : List Char :=
  "    <DataSet part=\"".toList ++ natText g ++ "\" file=\"".toList ++ short ++ "_".toList ++ natText g ++
  ".vtu\" name=\"Segment_".toList ++ natText g ++ "\"/>\n".toList

/-- The .pvd file.  io/vtk_writer.hpp:470-500. -/
def pvdText (base : List Char) (gs : List Nat) : List Char :=
  "<?xml version=\"1.0\"?>\n".toList ++
  "<VTKFile type=\"Collection\" version=\"0.1\" byte_order=\"LittleEndian\" compressor=\"vtkZLibDataCompressor\">\n".toList ++
  "<Collection>\n".toList ++
  gs.flatMap (datasetText (base.drop (pathLength base))) ++
  "  </Collection>\n".toList ++
  "</VTKFile>\n".toList

/-- The name of the file of a segment.  io/vtk_writer.hpp:510-511. -/
def segmentFile (base : List Char) (g : Nat) : List Char := base ++ "_".toList ++ natText g ++ ".vtu".toList

/-- The name of the .pvd file.  io/vtk_writer.hpp:468-470. -/
def mainFile (base : List Char) : List Char := base ++ "_main.pvd".toList

/-- The name of the file of a mesh with less than two segments.  io/vtk_writer.hpp:400-401. -/
def meshFile (base : List Char) : List Char := base ++ ".vtu".toList

/-- The files which are written, with their names: one file for a mesh with less than two segments, otherwise a .pvd
file and one file for each segment.  io/vtk_writer.hpp:398-580.  `files` are the contents (`writeVtk`), `segments` is
the number of segments. -/
def vtkFiles (tag : VtkTag) (print : C → List Char) (base : List Char) (segments : Nat)
    (files : List (Nat × VtuFile C)) : List (List Char × List Char) :=
  if segments ≤ 1 then files.map fun f => (meshFile base, vtuText tag print f.2)
  else (mainFile base, pvdText base (files.map (·.1))) ::
    files.map fun f => (segmentFile base f.1, vtuText tag print f.2)

/-! ### Reader of .vtu files -/

/-- How reading can go wrong: an exception, a failing assertion, or a loop which does not end because a token is not
found before the end of the file.  io/vtk_reader.hpp:265-344, 696-792, io/xml_tag.hpp:81-189. -/
inductive VtuFail where
  | throws
  | assertion
  | endless
deriving DecidableEq

/-- Result of reading; a failure says what of the file had been stored, `none` before the number of cells.
io/vtk_reader.hpp:696-792. -/
abbrev VtuRead (C α : Type) := Except (VtuFail × Option (VtuFile C)) α

/-- `parse` and `check_name`.  io/xml_tag.hpp:169-189.  The name has to be in lower case here. -/
def expectTag (soFar : Option (VtuFile C)) (name : String) (input : List Char) : VtuRead C (XmlTag × List Char) :=
  match xmlParse input with
  | .error _ => .error (.throws, soFar)
  | .ok r => if r.tag.name = name.toList then .ok (r.tag, r.rest) else .error (.throws, soFar)

/-- `parse`.  io/xml_tag.hpp:81-166. -/
def nextTag (soFar : Option (VtuFile C)) (input : List Char) : VtuRead C (XmlTag × List Char) :=
  match xmlParse input with
  | .error _ => .error (.throws, soFar)
  | .ok r => .ok (r.tag, r.rest)

/-- `check_attribute` and `get_value`.  io/xml_tag.hpp:206-229. -/
def needAttr (soFar : Option (VtuFile C)) (t : XmlTag) (name : String) : VtuRead C (List Char) :=
  if t.hasAttribute name.toList then .ok (t.getValue name.toList) else .error (.throws, soFar)

/-- The coordinates: `n` numbers, then the rest of the file.  A text which is not a number sets the failure flag and the
number to zero, the end of the file sets the flag and leaves the number as it was; all further numbers stay the same
then and there is no rest.  io/vtk_reader.hpp:233-247.  A number ends here at the next blank or opening bracket; the
uninitialised number before the first one is zero. -/
def readNumbers (num : List Char → Option C) (zero : C) : Nat → C → List Char → List C × Option (List Char)
  | 0, _, input => ([], some input)
  | n + 1, last, input =>
    let s := input.dropWhile isBlank
    if s = [] then (List.replicate (n + 1) last, none)
    else
      match num (s.takeWhile fun c => !isBlank c && c != '<') with
      | none => (List.replicate (n + 1) zero, none)
      | some x =>
        let r := readNumbers num zero n x (s.dropWhile fun c => !isBlank c && c != '<')
        (x :: r.1, r.2)

/-- The numbers in groups of `k`.  io/vtk_reader.hpp:238-247. -/
def groups (k : Nat) : Nat → List C → List (List C)
  | 0, _ => []
  | n + 1, xs => xs.take k :: groups k n (xs.drop k)

/-- Tokens up to one with `stop`, and the rest of the file.  io/vtk_reader.hpp:265-344.  At the end of the file the last
token stays in the variable, so the loop does not end.  `fuel` has to be at least the number of characters. -/
def readTokens (stop : List Char → Bool) : Nat → List Char → Option (List (List Char) × List Char)
  | 0, _ => none
  | fuel + 1, input =>
    let s := input.dropWhile isBlank
    if s = [] then none
    else
      let t := s.takeWhile fun c => !isBlank c
      let rest := s.dropWhile fun c => !isBlank c
      if stop t then some ([], rest)
      else (readTokens stop fuel rest).map fun r => (t :: r.1, r.2)

/-- `token != "</DataArray>"`.  io/vtk_reader.hpp:271, 297, 324. -/
def closesArray (t : List Char) : Bool := t == "</DataArray>".toList

/-- `string_to_lower(token) != "</dataarray>"`.  io/vtk_reader.hpp:338. -/
def closesData (t : List Char) : Bool := t.map lowerChar == "</dataarray>".toList

/-- `readCellIndices`, `readOffsets`, `readTypes`: tokens which have to be numbers.  io/vtk_reader.hpp:265-330.  The
tokens before one that is not a number are not recorded as stored here, since the assertion ends the program. -/
def readIndices (soFar : VtuFile C) (input : List Char) : VtuRead C (List Nat × List Char) :=
  match readTokens closesArray (input.length + 1) input with
  | none => .error (.endless, some soFar)
  | some (ts, rest) =>
    if ts.all isNumber then .ok (ts.map fun t => (atoi t).toNat, rest) else .error (.assertion, some soFar)

/-- The body of the loop over the three arrays of the cells.  io/vtk_reader.hpp:753-765; 326-327 for the types. -/
def readCellArray (tag : VtkTag) (f : VtuFile C) (input : List Char) : VtuRead C (VtuFile C × List Char) := do
  let (t, input) ← expectTag (some f) "dataarray" input
  let name ← needAttr (some f) t "name"
  if name = "connectivity".toList then
    let (ns, input) ← readIndices f input
    return ({ f with conn := f.conn ++ ns.map (fun (n : Nat) => (n : Int)) }, input)
  else if name = "offsets".toList then
    let (ns, input) ← readIndices f input
    return ({ f with offsets := f.offsets ++ ns }, input)
  else if name = "types".toList then
    let (ns, input) ← readIndices f input
    if ns.all (fun n => n = tag.type) then return ({ f with types := f.types ++ ns }, input)
    else throw (.assertion, some f)
  else throw (.throws, some f)

/-- `readPointCellData`: the arrays up to a tag which is not an array, which has to be the closing tag of the points or
of the cells.  `comps` is the variable `components`, `put` enters the arrays into the contents, `got` are the arrays
before.  io/vtk_reader.hpp:347-391.  `fuel` has to be at least the number of characters. -/
def readDataArrays (num : List Char → Option C) (zero : C) (put : List (DataArray C) → VtuFile C) :
    Nat → Nat → List (DataArray C) → List Char → VtuRead C (List (DataArray C) × List Char)
  | 0, _, got, _ => .error (.endless, some (put got))
  | fuel + 1, comps, got, input => do
    let (t, input) ← nextTag (some (put got)) input
    if t.name = "dataarray".toList then
      let name ← needAttr (some (put got)) t "name"
      let given := if t.hasAttribute "numberofcomponents".toList then
        some (atoi (t.getValue "numberofcomponents".toList)).toNat else none
      let comps := given.getD comps
      if comps = 1 ∨ comps = 3 then
        match readTokens closesData (input.length + 1) input with
        | none => throw (.endless, some (put got))
        | some (ts, rest) =>
          readDataArrays num zero put fuel comps
            (got ++ [⟨String.ofList name, given, ts.map fun t => (num t).getD zero⟩]) rest
      else throw (.throws, some (put got))
    else if t.name = "/pointdata".toList ∨ t.name = "/celldata".toList then return (got, input)
    else throw (.throws, some (put got))

/-- The quantities on points or cells, if the next tag announces them, and the tag after them.
io/vtk_reader.hpp:745-751, 769-776.  `tag` is in lower case. -/
def readData (num : List Char → Option C) (zero : C) (put : List (DataArray C) → VtuFile C) (tag : String)
    (input : List Char) : VtuRead C (List (DataArray C) × XmlTag × List Char) := do
  let (t, input) ← nextTag (some (put [])) input
  if t.name = tag.toList then
    let (as, input) ← readDataArrays num zero put (input.length + 1) 1 [] input
    let (t, input) ← nextTag (some (put as)) input
    return (as, t, input)
  else return ([], t, input)

/-- `parse_vtu_segment` from the opening tag of the points on; `f` is the empty file with the announced numbers of points
and cells.  io/vtk_reader.hpp:731-743. -/
def readPointsTags (num : List Char → Option C) (zero : C) (f : VtuFile C) (input : List Char) :
    VtuRead C (VtuFile C × List Char) := do
  let (_, input) ← expectTag (some f) "points" input
  let (t, input) ← expectTag (some f) "dataarray" input
  let comps ← needAttr (some f) t "numberofcomponents"
  let k := (atoi comps).toNat
  let r := readNumbers num zero (f.numPoints * k) zero input
  let f := { f with points := groups k f.numPoints r.1 }
  match r.2 with
  | none => throw (.throws, some f)
  | some input =>
    let (_, input) ← expectTag (some f) "/dataarray" input
    let (_, input) ← expectTag (some f) "/points" input
    return (f, input)

/-- `parse_vtu_segment` up to the numbers of points and cells.  io/vtk_reader.hpp:702-729.  Negative numbers are not
modelled (zero here). -/
def readHead (input : List Char) : VtuRead C (VtuFile C × List Char) := do
  let (t, input) ← nextTag none input
  if t.name = "?xml".toList ∨ t.name = "?xml?".toList then
    let (_, input) ← expectTag none "vtkfile" input
    let (_, input) ← expectTag none "unstructuredgrid" input
    let (t, input) ← expectTag none "piece" input
    let points ← needAttr none t "numberofpoints"
    let cells ← needAttr none t "numberofcells"
    return (⟨(atoi points).toNat, (atoi cells).toNat, [], [], [], [], [], []⟩, input)
  else throw (.throws, none)

/-- `parse_vtu_segment` from the cells on; `t` is the tag read last.  io/vtk_reader.hpp:753-787. -/
def readCellsTags (tag : VtkTag) (num : List Char → Option C) (zero : C) (f : VtuFile C) (t : XmlTag)
    (input : List Char) : VtuRead C (VtuFile C) := do
  if t.name = "cells".toList then
    let (f, input) ← readCellArray tag f input
    let (f, input) ← readCellArray tag f input
    let (f, input) ← readCellArray tag f input
    let (_, input) ← expectTag (some f) "/cells" input
    let (as, t, input) ← readData num zero (fun as => { f with cellData := as }) "celldata" input
    let f := { f with cellData := as }
    if t.name = "/piece".toList then
      let (_, input) ← expectTag (some f) "/unstructuredgrid" input
      let _ ← expectTag (some f) "/vtkfile" input
      return f
    else throw (.throws, some f)
  else throw (.throws, some f)

/-- `parse_vtu_segment` without opening and closing the file: the contents, or what went wrong.
io/vtk_reader.hpp:696-792. -/
def parseVtu (tag : VtkTag) (num : List Char → Option C) (zero : C) (input : List Char) : VtuRead C (VtuFile C) := do
  let (f, input) ← readHead input
  let (f, input) ← readPointsTags num zero f input
  let (as, t, input) ← readData num zero (fun as => { f with pointData := as }) "pointdata" input
  readCellsTags tag num zero { f with pointData := as } t input

/-! ### Reader of several files -/

/-- What `process_pvd` or the reader as a whole throws or does not return from.  io/vtk_reader.hpp:803-878, 892-921. -/
inductive VtkFail where
  /-- an exception reaches the caller -/
  | throws
  /-- an assertion fails -/
  | assertion
  /-- a loop does not end -/
  | endless
deriving DecidableEq

/-- The entries of the .pvd file: the loop over its tags up to the end of the collection; a map from the part to the
name.  io/vtk_reader.hpp:840-856.  At the end of the file `parse` throws.  `fuel` has to be at least the number of
characters. -/
def readParts : Nat → List (Int × List Char) → List Char → Option (List (Int × List Char) × List Char)
  | 0, _, _ => none
  | fuel + 1, parts, input =>
    match xmlParse input with
    | .error _ => none
    | .ok r =>
      if r.tag.name = "/collection".toList then some (parts, r.rest)
      else if r.tag.name = "dataset".toList then
        if r.tag.hasAttribute "file".toList then
          readParts fuel (mapSet (atoi (r.tag.getValue "part".toList)) (r.tag.getValue "file".toList) parts) r.rest
        else none
      else none

/-- The .pvd file: the names of the files by part; `none` stands for an exception.  io/vtk_reader.hpp:817-862. -/
def readPvd (input : List Char) : Option (List (Int × List Char)) :=
  match xmlParse input with
  | .error _ => none
  | .ok r =>
    if r.tag.name = "?xml".toList ∨ r.tag.name = "?xml?".toList then
      match xmlParse r.rest with
      | .error _ => none
      | .ok r =>
        if r.tag.name = "vtkfile".toList ∧ r.tag.hasAttribute "type".toList ∧
            (r.tag.getValue "type".toList).map lowerChar = "collection".toList then
          match xmlParse r.rest with
          | .error _ => none
          | .ok r =>
            if r.tag.name = "collection".toList then
              (readParts (r.rest.length + 1) [] r.rest).bind fun p =>
                match xmlParse p.2 with
                | .error _ => none
                | .ok r => if r.tag.name = "/vtkfile".toList then some p.1 else none
            else none
        else none
    else none

/-- `parse_vtu_segment` for one file after the other; `files` are the files there are, `stuck` says that the stream is
still open, because an exception was caught before the file was closed: then no other file can be opened.  A file that
cannot be opened is left out.  io/vtk_reader.hpp:185-192, 696-792, 869-875. -/
def readSegments (tag : VtkTag) (num : List Char → Option C) (zero : C) (files : List Char → Option (List Char)) :
    Bool → List (Int × List Char) → Except VtkFail (List (Nat × VtuFile C))
  | _, [] => .ok []
  | true, _ :: ps => readSegments tag num zero files true ps
  | false, p :: ps =>
    match files p.2 with
    | none => readSegments tag num zero files false ps
    | some input =>
      match parseVtu tag num zero input with
      | .ok f => (readSegments tag num zero files false ps).map fun r => (p.1.toNat, f) :: r
      | .error (.throws, some f) => (readSegments tag num zero files true ps).map fun r => (p.1.toNat, f) :: r
      | .error (.throws, none) => readSegments tag num zero files true ps
      | .error (.assertion, _) => .error .assertion
      | .error (.endless, _) => .error .endless

/-- The extension of a file name: what follows the last dot, or all of it.  io/vtk_reader.hpp:896-897. -/
def extension (name : List Char) : List Char := name.drop (name.length - name.reverse.idxOf '.')

/-- `reader(mesh, segmentation, filename)` with a new reader, up to the setup of the mesh: the contents of the files which
were read, by segment.  io/vtk_reader.hpp:795-878, 892-921.  Negative parts are not modelled (zero here). -/
def readFiles (tag : VtkTag) (num : List Char → Option C) (zero : C) (files : List Char → Option (List Char))
    (name : List Char) : Except VtkFail (List (Nat × VtuFile C)) :=
  if extension name = "vtu".toList then readSegments tag num zero files false [(0, name)]
  else if extension name = "pvd".toList then
    match files name with
    | none => .error .throws
    | some input =>
      match readPvd input with
      | none => .error .throws
      | some [] => .error .assertion
      | some parts =>
        readSegments tag num zero files false (parts.map fun p => (p.1, name.take (pathLength name) ++ p.2))
  else .error .throws

end VG
