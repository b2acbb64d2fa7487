import Verif.Model.Segments

/-!
`netgen_reader` (io/netgen_reader.hpp).

A file is the list of its words, and the information whether blanks follow the last word: reading the last word of a
file without these reaches the end of the file and clears `good()`.  Words are whole numbers, other numbers, or
anything else.
-/

namespace VG

/-- A word of a file; `C` is the type of the coordinates.  io/netgen_reader.hpp:46-136. -/
inductive Tok (C : Type) where
  | int (i : Int)
  | real (c : C)
  | word

/-- An input stream.  `std::ifstream` in io/netgen_reader.hpp:46-136. -/
structure TokIn (C : Type) where
  toks : List (Tok C)
  /-- blanks follow the last word -/
  trail : Bool
  good : Bool

/-- How reading fails.  io/netgen_reader.hpp:46-136. -/
inductive ReadFail where
  /-- an exception -/
  | throws
  /-- a failing assertion -/
  | assertion
  /-- undefined behaviour: an index out of range or an uninitialised variable -/
  | undefined
  /-- a whole number is read from the text of another number: not modelled -/
  | unmodelled
  deriving DecidableEq

variable {C : Type}

/-- The stream after the first word was read.  Standard library; used in io/netgen_reader.hpp:46-136. -/
def TokIn.next (s : TokIn C) (ts : List (Tok C)) : TokIn C := ⟨ts, s.trail, s.trail || !ts.isEmpty⟩

/-- `reader >> x` for a variable of integral type; `none` is an uninitialised variable.  At the end of the stream the
variable keeps its value, for a word which is no number it is set to zero (standard library).
Used in io/netgen_reader.hpp:78, 105, 122, 130. -/
def TokIn.readInt (s : TokIn C) (old : Option Int) : Except ReadFail (Option Int × TokIn C) :=
  if s.good then
    match s.toks with
    | [] => .ok (old, { s with good := false })
    | .int i :: ts => .ok (some i, s.next ts)
    | .real _ :: _ => .error .unmodelled
    | .word :: _ => .ok (some 0, { s with good := false })
  else .ok (old, s)

/-- `reader >> p[j]` for a coordinate, which is zero before (point.hpp).  `ofInt` turns whole numbers into coordinates. -/
def TokIn.readCoord (ofInt : Int → C) (s : TokIn C) : C × TokIn C :=
  if s.good then
    match s.toks with
    | [] => (ofInt 0, { s with good := false })
    | .int i :: ts => (ofInt i, s.next ts)
    | .real c :: ts => (c, s.next ts)
    | .word :: _ => (ofInt 0, { s with good := false })
  else (ofInt 0, s)

/-- The loop over the coordinates of a point.  io/netgen_reader.hpp:93-96. -/
def TokIn.readPoint (ofInt : Int → C) : Nat → TokIn C → List C × TokIn C
  | 0, s => ([], s)
  | d + 1, s =>
    let r := s.readCoord ofInt
    let q := readPoint ofInt d r.2
    (r.1 :: q.1, q.2)

/-- The loop over the vertices, `i` is the number of the next one.  io/netgen_reader.hpp:88-99. -/
def readVertices (ofInt : Int → C) (dim : Nat) : Nat → Nat → TokIn C → Mesh (List C) →
    Except ReadFail (TokIn C × Mesh (List C))
  | 0, _, s, m => .ok (s, m)
  | n + 1, i, s, m =>
    if s.good then
      let r := s.readPoint ofInt dim
      readVertices ofInt dim n (i + 1) r.2 (m.makeVertex (some i) r.1)
    else .error .throws

/-- The loop over the vertices of a cell, giving their handles; `old` is the value of `vertex_num`, `nverts` the number
of vertices of the mesh.  io/netgen_reader.hpp:125-132. -/
def readCell (nverts : Nat) : Nat → TokIn C → Option Int → Except ReadFail (List Nat × TokIn C)
  | 0, s, _ => .ok ([], s)
  | n + 1, s, old =>
    if s.good then
      match s.readInt old with
      | .error e => .error e
      | .ok (none, _) => .error .undefined
      | .ok (some v, s') =>
        if 1 ≤ v ∧ v ≤ nverts then
          match readCell nverts n s' (some v) with
          | .error e => .error e
          | .ok (vs, s'') => .ok ((v - 1).toNat :: vs, s'')
        else .error .undefined
    else .error .throws

/-- Segments of the model are numbered by natural numbers, those of the file by whole numbers.
io/netgen_reader.hpp:122-134. -/
def segNumber (g : Int) : Nat := if 0 ≤ g then 2 * g.toNat else 2 * (-g).toNat - 1

/-- The loop over the cells.  io/netgen_reader.hpp:114-135.  Simplified: cells get generated ids instead of the given
ones 0, 1, ..., which are the same for a mesh without cells. -/
def readCells (T : Topo) : Nat → TokIn C → SegState (List C) → Except ReadFail (SegState (List C))
  | 0, _, st => .ok st
  | n + 1, s, st =>
    if s.good then
      match s.readInt none with
      | .error e => .error e
      | .ok (g, s') =>
        match readCell st.mesh.verts.length (T.nv T.cellDim) s' none with
        | .error e => .error e
        | .ok (vs, s'') =>
          match g with
          | none => .error .undefined
          | some g =>
            match st.makeIn T (segNumber g) (.elem T.cellDim vs) with
            | none => .error .undefined
            | some st' => readCells T n s'' st'
    else .error .throws

/-- `netgen_reader::operator()` for an empty mesh and an empty segmentation; the file could be opened.
io/netgen_reader.hpp:46-136.  With assertions enabled. -/
def readNetgen (ofInt : Int → C) (T : Topo) (dim : Nat) (toks : List (Tok C)) (trail : Bool) :
    Except ReadFail (SegState (List C)) :=
  match (⟨toks, trail, true⟩ : TokIn C).readInt (some 0) with
  | .error e => .error e
  | .ok (n, s) =>
    if 0 < n.getD 0 then
      match readVertices ofInt dim (n.getD 0).toNat 0 s Mesh.empty with
      | .error e => .error e
      | .ok (s, m) =>
        if s.good then
          match s.readInt (some 0) with
          | .error e => .error e
          | .ok (c, s) => readCells T (c.getD 0).toNat s { (SegState.empty : SegState (List C)) with mesh := m }
        else .error .throws
    else .error .assertion

end VG
