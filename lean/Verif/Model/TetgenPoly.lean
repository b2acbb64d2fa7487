import Verif.Model.Netgen
import Verif.Model.Iterators

/-!
`tetgen_poly_reader` (io/tetgen_poly_reader.hpp) and piecewise linear complexes (topology/plc.hpp).

A file is the list of its lines.  `get_valid_line` works on characters; the words of a line are left to a function `lex`,
which stands for `std::istringstream`.  As in the model of `netgen_reader` a word is a whole number, another number, or
anything else (`Tok`), and reading at the end of a line leaves a variable as it is.
-/

namespace VG

variable {C : Type}

/-- What `get_valid_line` makes of one line: the text before the comment character without leading blanks, or nothing
if it has only blanks, in which case the line is skipped.  io/tetgen_poly_reader.hpp:47-58. -/
def lineContent (l : List Char) : Option (List Char) :=
  match (l.takeWhile (· != '#')).dropWhile (· == ' ') with
  | [] => none
  | c :: r => some (c :: r)

/-- A part of the reader: it is given the lines left, each as its words, and gives the lines left afterwards and a
result.  io/tetgen_poly_reader.hpp:147-148, 162-165. -/
abbrev PolyR (C A : Type) := List (List (Tok C)) → Except ReadFail (List (List (Tok C)) × A)

/-- A result without reading.  Not in the code. -/
def PolyR.done {A : Type} (a : A) : PolyR C A := fun ls => .ok (ls, a)

/-- A result or failure which needs no further lines.  Not in the code. -/
def PolyR.lift {A : Type} (x : Except ReadFail A) : PolyR C A := fun ls =>
  match x with
  | .ok a => .ok (ls, a)
  | .error e => .error e

/-- One part after another.  Not in the code. -/
def PolyR.andThen {A B : Type} (r : PolyR C A) (f : A → PolyR C B) : PolyR C B := fun ls =>
  match r ls with
  | .ok (rest, a) => f a rest
  | .error e => .error e

/-- `if (!get_valid_line(reader, tmp)) throw ...`.  io/tetgen_poly_reader.hpp:162-163. -/
def PolyR.line : PolyR C (List (Tok C))
  | [] => .error .throws
  | l :: rest => .ok (rest, l)

/-- The stream over one line.  Whether blanks follow the last word makes no difference here.
io/tetgen_poly_reader.hpp:165, 188. -/
def lineIn (l : List (Tok C)) : TokIn C := ⟨l, true, true⟩

/-- An uninitialised variable is used.  io/tetgen_poly_reader.hpp:186-196, 225-264, 317-363. -/
def useInt : Option Int → Except ReadFail Int
  | some i => .ok i
  | none => .error .undefined

/-- `current_line >> x`, with `x` used afterwards.  io/tetgen_poly_reader.hpp:166, 189, 233, 252, 262. -/
def TokIn.getInt (s : TokIn C) (old : Option Int) : Except ReadFail (Int × TokIn C) :=
  match s.readInt old with
  | .error e => .error e
  | .ok (i, s') =>
    match useInt i with
    | .error e => .error e
    | .ok i => .ok (i, s')

/-- The line of a vertex: id and coordinates.  io/tetgen_poly_reader.hpp:186-194. -/
def nodeLine (ofInt : Int → C) (dim : Nat) (l : List (Tok C)) : Except ReadFail (Int × List C) :=
  match (lineIn l).getInt none with
  | .error e => .error e
  | .ok (id, s) => .ok (id, (s.readPoint ofInt dim).1)

/-- The loop over the vertices.  io/tetgen_poly_reader.hpp:181-197.  Simplified: the loop counter is an `int`, the
number of vertices a `long`. -/
def readNodes (ofInt : Int → C) (dim : Nat) : Nat → Mesh (List C) → PolyR C (Mesh (List C))
  | 0, m => .done m
  | n + 1, m => PolyR.line.andThen fun l => (PolyR.lift (nodeLine ofInt dim l)).andThen fun x =>
      readNodes ofInt dim n (m.makeVertex (some x.1) x.2)

/-- `find(mesh, id)`: the first vertex with the id; dereferencing `end()` is undefined.
io/tetgen_poly_reader.hpp:263. -/
def cornerOf (m : Mesh (List C)) (id : Int) : Except ReadFail Nat :=
  match m.findById 0 id with
  | some v => .ok v
  | none => .error .undefined

/-- The loop over the corners of a polygon.  io/tetgen_poly_reader.hpp:257-264. -/
def readCorners (m : Mesh (List C)) : Nat → TokIn C → Except ReadFail (List Nat)
  | 0, _ => .ok []
  | n + 1, s =>
    match s.getInt none with
    | .error e => .error e
    | .ok (id, s') =>
      match cornerOf m id with
      | .error e => .error e
      | .ok v =>
        match readCorners m n s' with
        | .error e => .error e
        | .ok vs => .ok (v :: vs)

/-- The line of a polygon.  io/tetgen_poly_reader.hpp:245-264. -/
def polygonLine (m : Mesh (List C)) (l : List (Tok C)) : Except ReadFail (List Nat) :=
  match (lineIn l).getInt none with
  | .error e => .error e
  | .ok (n, s) => if n < 0 then .error .throws else readCorners m n.toNat s

/-- The ends of the lines of a closed polygon: neighbors, then last and first.
io/tetgen_poly_reader.hpp:276-280. -/
def closedSides : List Nat → List (Nat × Nat)
  | [] => []
  | a :: l => (a :: l).zip l ++ [((a :: l).getLast (by simp), a)]

/-- `make_line` for each pair.  The mesh has vertices and lines, and piecewise linear complexes as cells; lines are stored
by key, as in a mesh of triangles.  mesh/element_creation.hpp:215-235. -/
def makeLines : Mesh (List C) → List (Nat × Nat) → Mesh (List C) × List Nat
  | m, [] => (m, [])
  | m, p :: ps =>
    let r := m.makeElem (simplexTopo 2) 1 [p.1, p.2]
    let q := makeLines r.mesh ps
    (q.1, r.slot :: q.2)

/-- What is collected for a facet: mesh, lines, single vertices.  io/tetgen_poly_reader.hpp:240-241. -/
structure FacetIn (C : Type) where
  mesh : Mesh (List C)
  lines : List Nat
  loose : List Nat

/-- A polygon of a facet: one corner is a loose vertex, two are one line, more are closed; for none an iterator of an
empty vector is incremented.  io/tetgen_poly_reader.hpp:266-281. -/
def FacetIn.polygon (f : FacetIn C) : List Nat → Except ReadFail (FacetIn C)
  | [] => .error .undefined
  | [v] => .ok { f with loose := f.loose ++ [v] }
  | [v, w] =>
    let r := makeLines f.mesh [(v, w)]
    .ok { f with mesh := r.1, lines := f.lines ++ r.2 }
  | v :: w :: x :: l =>
    let r := makeLines f.mesh (closedSides (v :: w :: x :: l))
    .ok { f with mesh := r.1, lines := f.lines ++ r.2 }

/-- The loop over the polygons of a facet.  io/tetgen_poly_reader.hpp:243-282. -/
def readPolygons : Nat → FacetIn C → PolyR C (FacetIn C)
  | 0, f => .done f
  | n + 1, f => PolyR.line.andThen fun l => (PolyR.lift (polygonLine f.mesh l)).andThen fun vs =>
      (PolyR.lift (f.polygon vs)).andThen fun f' => readPolygons n f'

/-- The line of a hole: a number which is not used, and a point.  io/tetgen_poly_reader.hpp:291-301, 336-345. -/
def holeLine (ofInt : Int → C) (dim : Nat) (l : List (Tok C)) : Except ReadFail (List C) :=
  match (lineIn l).readInt none with
  | .error e => .error e
  | .ok (_, s) => .ok (s.readPoint ofInt dim).1

/-- A loop over holes.  io/tetgen_poly_reader.hpp:286-302, 331-346. -/
def readHoles (ofInt : Int → C) (dim : Nat) : Nat → PolyR C (List (List C))
  | 0 => .done []
  | n + 1 => PolyR.line.andThen fun l => (PolyR.lift (holeLine ofInt dim l)).andThen fun p =>
      (readHoles ofInt dim n).andThen fun ps => .done (p :: ps)

/-- A piecewise linear complex: its lines, its vertices, its hole points.  topology/plc.hpp:30-108. -/
structure Plc (C : Type) where
  lines : List Nat
  verts : List Nat
  holes : List (List C)

/-- `insert_unique_handle` one after another.  storage/view.hpp:256-262. -/
def insUnique (l : List Nat) : List Nat → List Nat
  | [] => l
  | h :: hs => insUnique (if h ∈ l then l else l ++ [h]) hs

/-- `make_plc`: lines once each, loose vertices, then the vertices of the lines.  mesh/element_creation.hpp:289-312,
topology/plc.hpp:60-92. -/
def makePlc (m : Mesh (List C)) (lines loose : List Nat) (holes : List (List C)) : Plc C where
  lines := insUnique [] lines
  verts := insUnique (insUnique [] loose) ((insUnique [] lines).flatMap (m.vertsOf 1))
  holes := holes

/-- The first line of a facet: numbers of polygons and holes, both uninitialised before.
io/tetgen_poly_reader.hpp:225-238. -/
def facetLine (l : List (Tok C)) : Except ReadFail (Nat × Nat) :=
  match (lineIn l).getInt none with
  | .error e => .error e
  | .ok (n, s) =>
    match s.getInt none with
    | .error e => .error e
    | .ok (h, _) => if n < 0 ∨ h < 0 then .error .throws else .ok (n.toNat, h.toNat)

/-- The loop over the facets.  io/tetgen_poly_reader.hpp:223-313. -/
def readFacets (ofInt : Int → C) (dim : Nat) : Nat → Mesh (List C) → PolyR C (Mesh (List C) × List (Plc C))
  | 0, m => .done (m, [])
  | n + 1, m => PolyR.line.andThen fun l => (PolyR.lift (facetLine l)).andThen fun k =>
      (readPolygons k.1 ⟨m, [], []⟩).andThen fun f => (readHoles ofInt dim k.2).andThen fun hs =>
        (readFacets ofInt dim n f.mesh).andThen fun r => .done (r.1, makePlc f.mesh f.lines f.loose hs :: r.2)

/-- The first line: numbers of vertices, of coordinates, of attributes, of markers, zero if they are missing.
io/tetgen_poly_reader.hpp:150-175. -/
def headLine (dim : Nat) (l : List (Tok C)) : Except ReadFail (Nat × Int) :=
  match (lineIn l).getInt (some 0) with
  | .error e => .error e
  | .ok (n, s) =>
    match s.getInt (some 0) with
    | .error e => .error e
    | .ok (d, s) =>
      match s.getInt (some 0) with
      | .error e => .error e
      | .ok (a, s) =>
        match s.getInt (some 0) with
        | .error e => .error e
        | .ok (b, _) =>
          if n < 0 ∨ d ≠ dim ∨ a < 0 ∨ b < 0 ∨ 1 < b then .error .throws else .ok (n.toNat, b)

/-- The line before the facets; the number of markers keeps the value `b` if it is missing.
io/tetgen_poly_reader.hpp:206-217. -/
def facetsLine (b : Int) (l : List (Tok C)) : Except ReadFail Nat :=
  match (lineIn l).getInt (some 0) with
  | .error e => .error e
  | .ok (n, s) =>
    match s.getInt (some b) with
    | .error e => .error e
    | .ok (b, _) => if n < 0 ∨ b < 0 ∨ 1 < b then .error .throws else .ok n.toNat

/-- The line with the number of holes or regions, uninitialised before.  io/tetgen_poly_reader.hpp:317-329,
351-363. -/
def countLine (l : List (Tok C)) : Except ReadFail Nat :=
  match (lineIn l).getInt none with
  | .error e => .error e
  | .ok (n, _) => if n < 0 then .error .throws else .ok n.toNat

/-- The line of a region: a number which is not used, a point, and the id of the segment.
io/tetgen_poly_reader.hpp:370-382. -/
def seedLine (ofInt : Int → C) (dim : Nat) (l : List (Tok C)) : Except ReadFail (List C × Int) :=
  match (lineIn l).readInt none with
  | .error e => .error e
  | .ok (_, s) =>
    match (s.readPoint ofInt dim).2.getInt none with
    | .error e => .error e
    | .ok (g, _) => .ok ((s.readPoint ofInt dim).1, g)

/-- The loop over the regions.  io/tetgen_poly_reader.hpp:365-383. -/
def readSeeds (ofInt : Int → C) (dim : Nat) : Nat → PolyR C (List (List C × Int))
  | 0 => .done []
  | n + 1 => PolyR.line.andThen fun l => (PolyR.lift (seedLine ofInt dim l)).andThen fun p =>
      (readSeeds ofInt dim n).andThen fun ps => .done (p :: ps)

/-- What is read: mesh, piecewise linear complexes, hole points, seed points with segment ids.
io/tetgen_poly_reader.hpp:119-121. -/
structure PolyMesh (C : Type) where
  mesh : Mesh (List C)
  plcs : List (Plc C)
  holes : List (List C)
  seeds : List (List C × Int)

/-- A part which is left out if there is no line.  io/tetgen_poly_reader.hpp:319-323, 353-357. -/
def PolyR.optional {A : Type} (other : A) (f : List (Tok C) → PolyR C A) : PolyR C A
  | [] => .ok ([], other)
  | l :: rest => f l rest

/-- The parts after the facets.  io/tetgen_poly_reader.hpp:315-384. -/
def readRest (ofInt : Int → C) (dim : Nat) : PolyR C (List (List C) × List (List C × Int)) :=
  PolyR.optional ([], []) fun l => (PolyR.lift (countLine l)).andThen fun n =>
    (readHoles ofInt dim n).andThen fun hs =>
      PolyR.optional (hs, []) fun l => (PolyR.lift (countLine l)).andThen fun n =>
        (readSeeds ofInt dim n).andThen fun ss => .done (hs, ss)

/-- `tetgen_poly_reader::operator()` for an empty mesh, on the lines which have content; the file could be opened.
io/tetgen_poly_reader.hpp:119-384.  The check of `reader.good()` in 199-200 is left out: if it fails there are no more
lines, and reading the next one throws as well. -/
def readPoly (ofInt : Int → C) (dim : Nat) : PolyR C (PolyMesh C) :=
  PolyR.line.andThen fun l => (PolyR.lift (headLine dim l)).andThen fun h =>
    (readNodes ofInt dim h.1 Mesh.empty).andThen fun m =>
      PolyR.line.andThen fun l => (PolyR.lift (facetsLine h.2 l)).andThen fun k =>
        (readFacets ofInt dim k m).andThen fun r => (readRest ofInt dim).andThen fun x =>
          .done ⟨r.1, r.2, x.1, x.2⟩

/-- Reading a file.  io/tetgen_poly_reader.hpp:37-60, 119-384. -/
def readPolyFile (ofInt : Int → C) (dim : Nat) (lex : List Char → List (Tok C)) (file : List (List Char)) :
    Except ReadFail (PolyMesh C) :=
  match readPoly ofInt dim ((file.filterMap lineContent).map lex) with
  | .ok (_, r) => .ok r
  | .error e => .error e

end VG
