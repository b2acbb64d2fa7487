import Verif.Model.Segments

/-!
`bnd_helper` and `bnd_reader` (io/bnd_reader.hpp).

A file is the list of its lines, a line the list of its words.  The reader uses both `reader >> x`, which goes over
line breaks, and `std::getline`, which takes what is left of the line.  Left out: what happens after a number was
expected and something else was found; the stream then is in a failed state (`unmodelled`).
-/

namespace VG

/-- A word of a file.  `count` is a number in parentheses, `(8)`, and `name` a name in parentheses and quotes,
`("substrate")`; a `word` has neither blanks nor parentheses.  io/bnd_reader.hpp:30-56, 258-680. -/
inductive BWord (C : Type) where
  | int (i : Int)
  | real (c : C)
  | word (s : String)
  | count (n : Nat)
  | name (s : String)
deriving DecidableEq

/-- The lines of a file which are left; the first one is what is left of the current line.
io/bnd_reader.hpp:240. -/
abbrev BLines (C : Type) := List (List (BWord C))

/-- How reading goes wrong.  io/bnd_reader.hpp:238-686, 819-905. -/
inductive BndFail where
  /-- an exception leaves the reader -/
  | throws
  /-- the reader does not return -/
  | hangs
  /-- undefined behaviour: an index out of range -/
  | undefined
  /-- outside of the model -/
  | unmodelled
deriving DecidableEq

variable {C A B : Type}

/-- A part of the reader: it is given the lines left, and gives the lines left afterwards and a result.
io/bnd_reader.hpp:238-686. -/
abbrev BndR (C A : Type) := BLines C → Except BndFail (BLines C × A)

/-- A result without reading.  Not in the code. -/
def BndR.done (a : A) : BndR C A := fun ls => .ok (ls, a)

/-- The end of reading.  Not in the code. -/
def BndR.fail (e : BndFail) : BndR C A := fun _ => .error e

/-- One part after another.  Not in the code. -/
def BndR.andThen (r : BndR C A) (f : A → BndR C B) : BndR C B := fun ls =>
  match r ls with
  | .ok (rest, a) => f a rest
  | .error e => .error e

/-- A loop with a known number of rounds.  Used in io/bnd_reader.hpp:320-327, 365-370, 402-414. -/
def BndR.times (r : BndR C A) : Nat → BndR C (List A)
  | 0 => .done []
  | n + 1 => r.andThen fun a => (BndR.times r n).andThen fun l => .done (a :: l)

/-- `reader >> token`: the next word, over line breaks.  Standard library; used in io/bnd_reader.hpp:258-268. -/
def nextWord : BLines C → Option (BWord C × BLines C)
  | [] => none
  | [] :: ls => nextWord ls
  | (w :: l) :: ls => some (w, l :: ls)

/-- `reader >> token` where the token is not used.  io/bnd_reader.hpp:263, 281. -/
def skipWord : BndR C Unit := fun ls =>
  match nextWord ls with
  | some (_, rest) => .ok (rest, ())
  | none => .error .unmodelled

/-- `reader >> x` for a variable of type `long`.  Standard library; used in io/bnd_reader.hpp:367-368, 412, 464. -/
def getLong : BndR C Int := fun ls =>
  match nextWord ls with
  | some (.int i, rest) => .ok (rest, i)
  | _ => .error .unmodelled

/-- `reader >> x` for a variable of type `std::size_t`; negative numbers are left out.  Standard library; used in
io/bnd_reader.hpp:264, 282, 404, 454, 627. -/
def getSize : BndR C Nat := getLong.andThen fun i => if 0 ≤ i then .done i.toNat else .fail .unmodelled

/-- `reader >> coords[j]`; `ofInt` turns whole numbers into coordinates.  io/bnd_reader.hpp:324. -/
def getCoord (ofInt : Int → C) : BndR C C := fun ls =>
  match nextWord ls with
  | some (.int i, rest) => .ok (rest, ofInt i)
  | some (.real c, rest) => .ok (rest, c)
  | _ => .error .unmodelled

/-- The loop `while(1) { reader >> token; if (token == s) ... break; }`.  At the end of the file the token does not
change any more and the loop does not end.  io/bnd_reader.hpp:258-267, 276-285. -/
def seekWord [DecidableEq C] (s : String) : BndR C Unit
  | [] => .error .hangs
  | l :: ls =>
    match l.dropWhile (fun w => decide (w ≠ .word s)) with
    | [] => seekWord s ls
    | _ :: l' => .ok (l' :: ls, ())

/-- `text.find(s) != npos`.  Standard library; used in io/bnd_reader.hpp:302, 348, 384, 431, 581, 595, 609. -/
def hasText (s t : String) : Bool := t.toList.tails.any fun r => s.toList.isPrefixOf r

/-- Whether the text of a word contains the given text, which has letters only.  io/bnd_reader.hpp:302. -/
def BWord.has (s : String) : BWord C → Bool
  | .word t => hasText s t
  | .name t => hasText s t
  | _ => false

/-- The loop `while(1) { std::getline(reader, token); if (token.find(s) != npos) ... break; }`, giving the line.  At the
end of the file the loop does not end.  io/bnd_reader.hpp:298-310, 344-356, 380-392, 427-439, 577-609. -/
def seekLine (s : String) : BndR C (List (BWord C))
  | [] => .error .hangs
  | l :: ls => if l.any (·.has s) then .ok (ls, l) else seekLine s ls

/-- The number between parentheses.  io/bnd_reader.hpp:304-307.  Left out are lines without such a number. -/
def lineCount (l : List (BWord C)) : BndR C Nat :=
  match l.findSome? (fun | .count n => some n | _ => none) with
  | some n => .done n
  | none => .fail .unmodelled

/-- A search for a line and the number in it.  io/bnd_reader.hpp:298-310, 344-356, 380-392, 427-439, 605-617. -/
def seekCount (s : String) : BndR C Nat := (seekLine s).andThen lineCount

/-- The points.  io/bnd_reader.hpp:298-328. -/
def readBndPoints (ofInt : Int → C) (dim : Nat) : BndR C (List (List C)) :=
  (seekCount "Vertices").andThen fun n => BndR.times (BndR.times (getCoord ofInt) dim) n

/-- The edges.  io/bnd_reader.hpp:342-370. -/
def readBndEdges : BndR C (List (Int × Int)) :=
  (seekCount "Edges").andThen fun n => BndR.times (getLong.andThen fun a => getLong.andThen fun b => .done (a, b)) n

/-- The faces, each given by its edges.  io/bnd_reader.hpp:376-419. -/
def readBndFaces : BndR C (List (List Int)) :=
  (seekCount "Faces").andThen fun n => BndR.times (getSize.andThen fun k => BndR.times getLong k) n

/-- `map`: the index of a face or edge which is used backwards is given as `-index-1`.  io/bnd_reader.hpp:780-784. -/
def bndIndex (i : Int) : Nat := if 0 ≤ i then i.toNat else (-i - 1).toNat

/-- An edge in the direction in which it is used; `none` is an index out of range.  io/bnd_reader.hpp:475-479. -/
def bndEdge (edges : List (Int × Int)) (i : Int) : Option (Int × Int) :=
  (edges[bndIndex i]?).map fun e => if i < 0 then (e.2, e.1) else e

/-- The loop over the edges of a face: the end points, each when it is met first.  io/bnd_reader.hpp:470-491, 637-658. -/
def bndCorners (edges : List (Int × Int)) : List Int → List Int → Option (List Int)
  | [], acc => some acc
  | i :: is, acc =>
    match bndEdge edges i with
    | none => none
    | some e =>
      let acc := if e.1 ∈ acc then acc else acc ++ [e.1]
      bndCorners edges is (if e.2 ∈ acc then acc else acc ++ [e.2])

/-- The elements: the polygons of each segment, and the contacts.  io/bnd_reader.hpp:221-233, 786-795. -/
structure BndElems where
  domain : List (List (List Int))
  contacts : List (List Int)

/-- `domain[i].push_back(polygon)`.  io/bnd_reader.hpp:493, 516. -/
def BndElems.push (E : BndElems) (i : Nat) (p : List Int) : BndR C BndElems :=
  if i < E.domain.length then .done { E with domain := E.domain.modify i (· ++ [p]) } else .fail .undefined

/-- The faces of an element of type 10.  io/bnd_reader.hpp:461-494. -/
def readPolyhedron (edges : List (Int × Int)) (faces : List (List Int)) (i : Nat) : Nat → BndElems → BndR C BndElems
  | 0, E => .done E
  | k + 1, E => getLong.andThen fun f =>
    match (faces[bndIndex f]?).bind (fun p => bndCorners edges p []) with
    | none => .fail .undefined
    | some p => (E.push i p).andThen fun E => readPolyhedron edges faces i k E

/-- The edges of an element of type 4.  io/bnd_reader.hpp:506-517. -/
def readFlat (edges : List (Int × Int)) (i : Nat) : Nat → BndElems → BndR C BndElems
  | 0, E => .done E
  | k + 1, E => getLong.andThen fun f =>
    match edges[bndIndex f]? with
    | none => .fail .undefined
    | some e => (E.push i [e.1, e.2]).andThen fun E => readFlat edges i k E

/-- A contact: the list of segments gets shorter by one.  io/bnd_reader.hpp:529-537, 547-554. -/
def BndElems.contact (E : BndElems) (c : List Int) : BndElems := ⟨E.domain.dropLast, E.contacts ++ [c]⟩

/-- One element, `i` is its number.  The flag tells whether an exception was thrown.  io/bnd_reader.hpp:449-561. -/
def readElement (edges : List (Int × Int)) (faces : List (List Int)) (i : Nat) (E : BndElems) :
    BndR C (BndElems × Bool) := fun ls =>
  match nextWord ls with
  | none => .error .unmodelled
  | some (w, ls) =>
    (match w with
    | .int 10 => getSize.andThen fun k => (readPolyhedron edges faces i k E).andThen fun E => .done (E, false)
    | .int 4 => getSize.andThen fun k => (readFlat edges i k E).andThen fun E => .done (E, false)
    | .int 2 => (BndR.times getLong 3).andThen fun c => .done (E.contact c, false)
    | .int 1 => (BndR.times getLong 2).andThen fun c => .done (E.contact c, false)
    | _ => .done (E, true) : BndR C (BndElems × Bool)) ls

/-- The loop over the elements.  io/bnd_reader.hpp:447-562. -/
def readElements (edges : List (Int × Int)) (faces : List (List Int)) : Nat → Nat → BndElems → BndR C (BndElems × Bool)
  | 0, _, E => .done (E, false)
  | n + 1, i, E => (readElement edges faces i E).andThen fun x =>
    if x.2 then .done x else readElements edges faces n (i + 1) x.1

/-- `remove_begin_end_chars`.  io/bnd_reader.hpp:184-204. -/
def trimBlanks (s : String) : String :=
  let blank := fun (c : Char) => c == ' ' || c == '\n' || c == '\t'
  String.ofList ((s.toList.dropWhile blank).reverse.dropWhile blank).reverse

/-- What the regions say: name and material of each segment, names and faces of the contacts.
io/bnd_reader.hpp:226-229, 571-575. -/
structure BndRegions where
  segments : List (String × String)
  names : List String
  groups : List (List (List Int))

/-- The face of a contact: in two dimensions the vertices as they are, otherwise the corners of the edges.
io/bnd_reader.hpp:630-660. -/
def contactFace (dim : Nat) (edges : List (Int × Int)) (c : List Int) : Option (List Int) :=
  if dim = 2 then some c else bndCorners edges c []

/-- The elements of a contact; the name was entered before.  io/bnd_reader.hpp:620-662. -/
def readContact (dim : Nat) (edges : List (Int × Int)) (E : BndElems) : Nat → BndRegions → BndR C BndRegions
  | 0, R => .done R
  | k + 1, R => getSize.andThen fun e =>
    if E.domain.length ≤ e ∧ R.names.length - 1 < R.groups.length then
      match (E.contacts[e - E.domain.length]?).bind (contactFace dim edges) with
      | none => .fail .undefined
      | some f => readContact dim edges E k { R with groups := R.groups.modify (R.names.length - 1) (· ++ [f]) }
    else .fail .undefined

/-- The elements of another region.  io/bnd_reader.hpp:664-674. -/
def readMaterial (name material : String) : Nat → BndRegions → BndR C BndRegions
  | 0, R => .done R
  | k + 1, R => getSize.andThen fun e =>
    if e < R.segments.length then readMaterial name material k { R with segments := R.segments.set e (name, material) }
    else .fail .undefined

/-- The name in the line of a region.  io/bnd_reader.hpp:586-589.  Left out are lines without such a name. -/
def lineName (l : List (BWord C)) : BndR C String :=
  match l.findSome? (fun | .name s => some s | _ => none) with
  | some s => .done (trimBlanks s)
  | none => .fail .unmodelled

/-- The material, the word after `=`.  io/bnd_reader.hpp:597-600.  Left out are lines of another form. -/
def lineMaterial [DecidableEq C] (l : List (BWord C)) : BndR C String :=
  match l.dropWhile (fun w => decide (w ≠ .word "=")) with
  | [_, .word s] => .done s
  | _ => .fail .unmodelled

/-- One region, from its name on.  io/bnd_reader.hpp:581-677. -/
def readRegion [DecidableEq C] (dim : Nat) (edges : List (Int × Int)) (E : BndElems) (R : BndRegions)
    (l : List (BWord C)) : BndR C BndRegions :=
  (lineName l).andThen fun name => (seekLine "material").andThen fun l => (lineMaterial l).andThen fun material =>
  (seekCount "Elements").andThen fun n =>
  if material = "Contact" then readContact dim edges E n { R with names := R.names ++ [name] }
  else readMaterial name material n R

/-- The loop over the regions.  io/bnd_reader.hpp:577-680. -/
def readRegions [DecidableEq C] (dim : Nat) (edges : List (Int × Int)) (E : BndElems) : Nat → BndRegions →
    BndR C BndRegions
  | 0, R => .done R
  | n + 1, R => (seekLine "Region").andThen fun l => (readRegion dim edges E R l).andThen fun R =>
    readRegions dim edges E n R

/-- What `bnd_helper` knows after reading.  io/bnd_reader.hpp:717-770, 786-795. -/
structure BndData (C : Type) where
  dim : Nat
  points : List (List C)
  elems : BndElems
  regions : BndRegions

/-- The part after the elements.  The list of contacts has as many entries as there are regions beyond the segments;
if there are fewer regions than segments, its size is too large and an exception is thrown.
io/bnd_reader.hpp:571-680.  Left out is a file which announces no regions and has some. -/
def readBndRegions [DecidableEq C] (dim regions : Nat) (edges : List (Int × Int)) (E : BndElems) : BndR C BndRegions :=
  let R : BndRegions := ⟨List.replicate E.domain.length ("", ""), [], List.replicate (regions - E.domain.length) []⟩
  if regions < E.domain.length then .done ⟨R.segments, [], []⟩
  else if regions = 0 then fun ls =>
    match ls with
    | [] => .ok ([], R)
    | l :: ls => if l.any (·.has "Region") then .error .unmodelled else .ok (ls, R)
  else readRegions dim edges E regions R

/-- `bnd_helper::operator()` for a file which could be opened.  Exceptions are caught, the value is that of success; what
was read before is kept.  io/bnd_reader.hpp:238-687.  Simplified: the dimension is no negative number. -/
def readBndData [DecidableEq C] (ofInt : Int → C) (ls : BLines C) : Except BndFail (BndData C) :=
  ((seekWord "dimension").andThen fun _ => skipWord.andThen fun _ => getSize.andThen fun dim =>
   (seekWord "nb_regions").andThen fun _ => skipWord.andThen fun _ => getSize.andThen fun regions =>
   (readBndPoints ofInt dim).andThen fun points => readBndEdges.andThen fun edges =>
   (if dim = 3 then readBndFaces else .done []).andThen fun faces =>
   (seekCount "Elements").andThen fun n =>
   (readElements edges faces n 0 ⟨List.replicate n [], []⟩).andThen fun x =>
   (if x.2 then .done ⟨[], [], []⟩ else readBndRegions dim regions edges x.1).andThen fun R =>
   (.done ⟨dim, points, x.1, R⟩ : BndR C (BndData C))) ls |>.map (·.2)

/-! ### The mesh -/

/-- The mesh, and which vertices and triangles were made for points and polygons of the file.
io/bnd_reader.hpp:845-846. -/
structure BndSt (C : Type) where
  st : SegState (List C)
  verts : List (Int × Nat)
  cells : List (List Int × Nat)

/-- The vertices of a polygon, those met first are made.  io/bnd_reader.hpp:880-899.  An index out of range is `none`. -/
def bndVertices (points : List (List C)) : List Int → BndSt C → Option (BndSt C × List Nat)
  | [], S => some (S, [])
  | i :: is, S =>
    match S.verts.find? (fun x => x.1 == i) with
    | some x => (bndVertices points is S).map fun r => (r.1, x.2 :: r.2)
    | none =>
      if 0 ≤ i then
        match points[i.toNat]? with
        | none => none
        | some p =>
          let S' : BndSt C := ⟨{ S.st with mesh := S.st.mesh.makeVertex none p },
            S.verts ++ [(i, S.st.mesh.verts.length)], S.cells⟩
          (bndVertices points is S').map fun r => (r.1, S.st.mesh.verts.length :: r.2)
      else none

/-- One polygon of segment `g`.  io/bnd_reader.hpp:856-902. -/
def bndPolygon (points : List (List C)) (g : Nat) (polygon : List Int) (S : BndSt C) : Except BndFail (BndSt C) :=
  let p := polygon.insertionSort (· ≤ ·)
  if p.length ≠ 3 then .error .throws else
  match S.cells.find? (fun x => x.1 == p) with
  | some x => .ok { S with st := S.st.addElem (simplexTopo 2) g 2 x.2 }
  | none =>
    match bndVertices points p S with
    | none => .error .undefined
    | some (S, vs) =>
      match S.st.makeIn (simplexTopo 2) g (.elem 2 vs) with
      | none => .error .undefined
      | some st => .ok ⟨st, S.verts, S.cells ++ [(p, (S.st.mesh.created (simplexTopo 2) (.elem 2 vs)).2)]⟩

/-- The polygons of segment `g`.  io/bnd_reader.hpp:855-903. -/
def bndSegment (points : List (List C)) (g : Nat) : List (List Int) → BndSt C → Except BndFail (BndSt C)
  | [], S => .ok S
  | p :: ps, S =>
    match bndPolygon points g p S with
    | .error e => .error e
    | .ok S => bndSegment points g ps S

/-- The loop over the segments.  io/bnd_reader.hpp:849-904. -/
def bndSegments (points : List (List C)) : Nat → List (List (List Int)) → BndSt C → Except BndFail (BndSt C)
  | _, [], S => .ok S
  | g, d :: ds, S =>
    match bndSegment points g d S with
    | .error e => .error e
    | .ok S => bndSegments points (g + 1) ds S

/-- `bnd_reader::operator()` for an empty mesh of triangles with points of the given dimension and an empty
segmentation.  io/bnd_reader.hpp:819-905. -/
def readBnd [DecidableEq C] (ofInt : Int → C) (dim : Nat) (ls : BLines C) : Except BndFail (SegState (List C)) :=
  match readBndData ofInt ls with
  | .error e => .error e
  | .ok d =>
    if d.dim ≠ dim then .error .throws
    else (bndSegments d.points 0 d.elems.domain ⟨SegState.empty, [], []⟩).map (·.st)

end VG
