import Verif.Model.TetgenPoly

/-!
`neper_tess_reader` (io/neper_tess_reader.hpp).

A file is the list of its lines and the information whether the last line ends with a newline.  The words of a line are
left to a function `lex`, which stands for `std::istringstream`, as in the model of `tetgen_poly_reader`.  The overload
without seed points (lines 46-52) returns the result of a function without result and does not compile when used.
-/

namespace VG

variable {C : Type}

/-- The stream and the last line read, `tmp`.  io/neper_tess_reader.hpp:71, 84. -/
structure NepIn where
  lines : List (List Char)
  /-- the last line ends with a newline -/
  trail : Bool
  tmp : List Char

/-- `std::getline(reader, tmp)`.  When all lines were read, the first call makes the string empty if the last line ended
with a newline; otherwise, and for later calls, the string stays as it is (standard library).
Used in io/neper_tess_reader.hpp:95-218. -/
def NepIn.getline (s : NepIn) : NepIn :=
  match s.lines with
  | l :: ls => ⟨ls, s.trail, l⟩
  | [] => ⟨[], s.trail, if s.trail then [] else s.tmp⟩

/-- `tmp.find(title) != std::string::npos`.  io/neper_tess_reader.hpp:98, 127, 197. -/
def hasTitle (t l : List Char) : Bool := decide (t <:+: l)

/-- The titles of sections.  io/neper_tess_reader.hpp:98. -/
def vertexTitle : List Char := ['*', '*', 'v', 'e', 'r', 't', 'e', 'x']

/-- See `vertexTitle`.  io/neper_tess_reader.hpp:127. -/
def faceTitle : List Char := ['*', '*', 'f', 'a', 'c', 'e']

/-- See `vertexTitle`.  io/neper_tess_reader.hpp:197. -/
def polyhedronTitle : List Char := ['*', '*', 'p', 'o', 'l', 'y', 'h', 'e', 'd', 'r', 'o', 'n']

/-- What the reader makes and remembers: the mesh, the maps from ids to vertices and from pairs of ids to lines, the
piecewise linear complexes and the seed points.  io/neper_tess_reader.hpp:61-62, 92-93. -/
structure NepOut (C : Type) where
  mesh : Mesh (List C)
  vertices : List (Int × Nat)
  lines : List ((Int × Int) × Nat)
  plcs : List (Plc C)
  seeds : List (List C × Int)

/-- A number at the begin of a line, in a variable that was not initialised.  A number below zero makes a loop that does
nothing.  io/neper_tess_reader.hpp:102-106, 131-135, 201-205. -/
def nepCount (l : List (Tok C)) : Except ReadFail Nat :=
  match (lineIn l).getInt none with
  | .error e => .error e
  | .ok (n, _) => .ok n.toNat

variable (lex : List Char → List (Tok C)) (ofInt : Int → C) (dim : Nat)

/-- The loop over the vertices.  io/neper_tess_reader.hpp:106-122.  Simplified: points have at most three coordinates. -/
def nepVertices : Nat → NepIn → NepOut C → Except ReadFail (NepIn × NepOut C)
  | 0, s, o => .ok (s, o)
  | n + 1, s, o =>
    let s := s.getline
    match (lineIn (lex s.tmp)).getInt none with
    | .error e => .error e
    | .ok (id, _) =>
      let s := s.getline.getline
      nepVertices n s { o with
        mesh := o.mesh.makeVertex none ((lineIn (lex s.tmp)).readPoint ofInt dim).1
        vertices := (id, o.mesh.verts.length) :: o.vertices }

/-- The loop over the ids of a face; what is missing is zero.  io/neper_tess_reader.hpp:146-149. -/
def nepIds : Nat → TokIn C → Except ReadFail (List Int)
  | 0, _ => .ok []
  | n + 1, s =>
    match s.getInt (some 0) with
    | .error e => .error e
    | .ok (i, s) =>
      match nepIds n s with
      | .error e => .error e
      | .ok is => .ok (i :: is)

/-- The line with the ids of a face.  A number below zero is too large for a vector.
io/neper_tess_reader.hpp:142-149. -/
def nepFaceLine (l : List (Tok C)) : Except ReadFail (List Int) :=
  match (lineIn l).getInt none with
  | .error e => .error e
  | .ok (n, s) => if n < 0 then .error .throws else nepIds n.toNat s

/-- The pairs of ids for the lines of a face: neighbors, then first and last; the first and the last of an empty vector
are undefined.  io/neper_tess_reader.hpp:152-183. -/
def nepSides : List Int → Except ReadFail (List (Int × Int))
  | [] => .error .undefined
  | a :: l => .ok ((a :: l).zip l ++ [(a, (a :: l).getLast (by simp))])

/-- One line of a face, made if there is none for the pair of ids.  The handle for an unknown id is a null pointer.
io/neper_tess_reader.hpp:154-166, 170-182. -/
def nepLine (o : NepOut C) (p : Int × Int) : Except ReadFail (NepOut C × Nat) :=
  let key := (min p.1 p.2, max p.1 p.2)
  match o.lines.find? (fun x => x.1 == key) with
  | some x => .ok (o, x.2)
  | none =>
    match o.vertices.find? (fun x => x.1 == key.1), o.vertices.find? (fun x => x.1 == key.2) with
    | some v, some w =>
      let r := o.mesh.makeElem (simplexTopo 2) 1 [v.2, w.2]
      .ok ({ o with mesh := r.mesh, lines := (key, r.slot) :: o.lines }, r.slot)
    | _, _ => .error .undefined

/-- The lines of a face.  io/neper_tess_reader.hpp:151-183. -/
def nepLines : List (Int × Int) → NepOut C → Except ReadFail (NepOut C × List Nat)
  | [], o => .ok (o, [])
  | p :: ps, o =>
    match nepLine o p with
    | .error e => .error e
    | .ok (o, s) =>
      match nepLines ps o with
      | .error e => .error e
      | .ok (o, ss) => .ok (o, s :: ss)

/-- The loop over the faces.  io/neper_tess_reader.hpp:135-192. -/
def nepFaces : Nat → NepIn → NepOut C → Except ReadFail (NepIn × NepOut C)
  | 0, s, o => .ok (s, o)
  | n + 1, s, o =>
    let s := s.getline.getline.getline.getline
    match nepFaceLine (lex s.tmp) with
    | .error e => .error e
    | .ok ids =>
      match nepSides ids with
      | .error e => .error e
      | .ok ps =>
        match nepLines ps o with
        | .error e => .error e
        | .ok (o, ss) =>
          nepFaces n s.getline.getline.getline { o with plcs := o.plcs ++ [makePlc o.mesh ss [] []] }

/-- The loop over the polyhedra.  io/neper_tess_reader.hpp:205-219. -/
def nepSeeds : Nat → NepIn → NepOut C → Except ReadFail (NepIn × NepOut C)
  | 0, s, o => .ok (s, o)
  | n + 1, s, o =>
    let s := s.getline
    match (lineIn (lex s.tmp)).getInt none with
    | .error e => .error e
    | .ok (id, r) =>
      nepSeeds n s.getline.getline { o with seeds := o.seeds ++ [((r.readPoint ofInt dim).1, id)] }

/-- One section, if the last line read contains its title.  io/neper_tess_reader.hpp:98-123, 127-193, 197-220. -/
def nepSection (title : List Char) (body : Nat → NepIn → NepOut C → Except ReadFail (NepIn × NepOut C))
    (s : NepIn) (o : NepOut C) : Except ReadFail (NepIn × NepOut C) :=
  if hasTitle title s.tmp then
    let s := s.getline
    match nepCount (lex s.tmp) with
    | .error e => .error e
    | .ok n => body n s o
  else .ok (s, o)

/-- The body of the outer loop.  io/neper_tess_reader.hpp:96-222. -/
def nepStep (s : NepIn) (o : NepOut C) : Except ReadFail (NepIn × NepOut C) :=
  match nepSection lex vertexTitle (nepVertices lex ofInt dim) s o with
  | .error e => .error e
  | .ok (s, o) =>
    match nepSection lex faceTitle (nepFaces lex) s o with
    | .error e => .error e
    | .ok (s, o) => nepSection lex polyhedronTitle (nepSeeds lex ofInt dim) s o

/-- The outer loop.  io/neper_tess_reader.hpp:95-222.  The first argument bounds the number of passes; the number of
lines is enough, since each pass reads a line. -/
def nepLoop : Nat → NepIn → NepOut C → Except ReadFail (NepOut C)
  | 0, _, o => .ok o
  | n + 1, s, o =>
    match s.lines with
    | [] => .ok o
    | _ :: _ =>
      match nepStep lex ofInt dim s.getline o with
      | .error e => .error e
      | .ok (s, o) => nepLoop n s o

/-- `neper_tess_reader::operator()` for an empty mesh; the file could be opened.  io/neper_tess_reader.hpp:60-223. -/
def readNeper (file : List (List Char)) (trail : Bool) : Except ReadFail (NepOut C) :=
  nepLoop lex ofInt dim file.length ⟨file, trail, []⟩ ⟨Mesh.empty, [], [], [], []⟩

end VG
