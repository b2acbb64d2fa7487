import Verif.Model.Bnd
import Verif.Lemmas.Netgen

/-! The specification for the reader of .bnd files: `BndFile` is what a file says, `BndFile.ShownBy` how it is written. -/

namespace VG

variable {C : Type}

/-- What a region says: its name, its material, and which elements it has. -/
structure BndRegion where
  name : String
  material : String
  elems : List Nat

/-- What a file says: points, edges (ends), faces (edges; an edge used backwards is `-index-1`), polyhedra (faces, in the
same way), triangles of contacts (edges), and regions. -/
structure BndFile (C : Type) where
  points : List (List (Coord C))
  edges : List (Int × Int)
  faces : List (List Int)
  segs : List (List Int)
  contacts : List (List Int)
  regions : List BndRegion

/-- The index stands for entry `k`, in one direction or the other. -/
def RefersTo (i : Int) (k : Nat) : Prop := i = k ∨ i = -(k : Int) - 1

/-- The vertex is an end of one of the edges. -/
def IsEnd (edges : List (Int × Int)) (is : List Int) (v : Int) : Prop :=
  ∃ i ∈ is, ∃ k e, RefersTo i k ∧ edges[k]? = some e ∧ (v = e.1 ∨ v = e.2)

/-- All edges exist. -/
def EdgesExist (edges : List (Int × Int)) (is : List Int) : Prop := ∀ i ∈ is, ∃ k, RefersTo i k ∧ k < edges.length

/-- The edges have three ends altogether, points `a`, `b` and `c`. -/
def HasCorners (edges : List (Int × Int)) (is : List Int) (a b c : Nat) : Prop :=
  a ≠ b ∧ a ≠ c ∧ b ≠ c ∧ ∀ v : Int, IsEnd edges is v ↔ v = a ∨ v = b ∨ v = c

/-- The word of a coordinate. -/
def coordWord : Coord C → BWord C
  | .inl i => .int i
  | .inr c => .real c

/-- The text is part of the word. -/
def BWord.Contains (s : String) (w : BWord C) : Prop :=
  ∃ t a b, (w = .word t ∨ w = .name t) ∧ t.toList = a ++ s.toList ++ b

/-- An entry of the head of the file, `key = n`; `rest` is what follows. -/
def ShowsEntry (key : String) (n : Nat) (ls rest : BLines C) : Prop :=
  ∃ pre before x after more, ls = pre ++ (before ++ .word key :: x :: .int n :: after) :: more ∧ rest = after :: more ∧
    (∀ l ∈ pre, .word key ∉ l) ∧ .word key ∉ before

/-- The first number in parentheses. -/
def HasCount (l : List (BWord C)) (n : Nat) : Prop := ∃ a b, l = a ++ .count n :: b ∧ ∀ k, .count k ∉ a

/-- A section `title (n) { ... }` with the given words on any number of lines.  Lines without the title may come
before it. -/
def ShowsSection (title : String) (n : Nat) (ws : List (BWord C)) (ls rest : BLines C) : Prop :=
  ∃ gap head body, ls = gap ++ head :: (body ++ rest) ∧ (∀ l ∈ gap, ∀ w ∈ l, ¬ w.Contains title) ∧
    (∃ w ∈ head, w.Contains title) ∧ HasCount head n ∧ body.flatten = ws

/-- Blanks as removed by the reader. -/
def IsBlank (c : Char) : Prop := c = ' ' ∨ c = '\n' ∨ c = '\t'

/-- A name, with blanks around it. -/
def Padded (raw name : String) : Prop :=
  ∃ p q, raw.toList = p ++ name.toList ++ q ∧ (∀ c ∈ p ++ q, IsBlank c) ∧
    (∀ c, name.toList.head? = some c → ¬ IsBlank c) ∧ ∀ c, name.toList.getLast? = some c → ¬ IsBlank c

/-- The first name in parentheses and quotes. -/
def HasName (l : List (BWord C)) (s : String) : Prop := ∃ a b, l = a ++ .name s :: b ∧ ∀ t, .name t ∉ a

/-- A region: `Region ("name") {`, `material = ...`, and the section with its elements. -/
def ShowsRegion (r : BndRegion) (ls rest : BLines C) : Prop :=
  ∃ gap head raw gap' before mid, ls = gap ++ head :: (gap' ++ (before ++ [.word "=", .word r.material]) :: mid) ∧
    (∀ l ∈ gap, ∀ w ∈ l, ¬ w.Contains "Region") ∧ (∃ w ∈ head, w.Contains "Region") ∧ HasName head raw ∧
    Padded raw r.name ∧ (∀ l ∈ gap', ∀ w ∈ l, ¬ w.Contains "material") ∧ (∃ w ∈ before, w.Contains "material") ∧
    .word "=" ∉ before ∧ ShowsSection "Elements" r.elems.length (r.elems.map fun (e : Nat) => .int e) mid rest

/-- The regions one after another. -/
def ShowsRegions : List BndRegion → BLines C → Prop
  | [], _ => True
  | r :: rs, ls => ∃ rest, ShowsRegion r ls rest ∧ ShowsRegions rs rest

/-- The lines of a file which says this. -/
def BndFile.ShownBy (f : BndFile C) (ls : BLines C) : Prop :=
  ∃ l1 l2 l3 l4 l5 l6, ShowsEntry "dimension" 3 ls l1 ∧ ShowsEntry "nb_regions" f.regions.length l1 l2 ∧
    ShowsSection "Vertices" f.points.length (f.points.flatMap fun p => p.map coordWord) l2 l3 ∧
    ShowsSection "Edges" f.edges.length (f.edges.flatMap fun e => [.int e.1, .int e.2]) l3 l4 ∧
    ShowsSection "Faces" f.faces.length (f.faces.flatMap fun p => .int p.length :: p.map .int) l4 l5 ∧
    ShowsSection "Elements" (f.segs.length + f.contacts.length)
      ((f.segs.flatMap fun s => .int 10 :: .int s.length :: s.map .int) ++
        f.contacts.flatMap fun c => .int 2 :: c.map .int) l5 l6 ∧
    ShowsRegions f.regions l6

/-- The face belongs to polyhedron `g`. -/
def BndFile.FaceOf (f : BndFile C) (g : Nat) (face : List Int) : Prop :=
  ∃ s i k, f.segs[g]? = some s ∧ i ∈ s ∧ RefersTo i k ∧ f.faces[k]? = some face

/-- A file the reader can read: three coordinates; the faces of polyhedra, their edges and the ends of these exist;
contacts have three edges, and come after the polyhedra; regions list polyhedra or contacts; there are fewer regions than
polyhedra, or there are no more contacts than regions beyond the number of polyhedra. -/
structure BndFile.OK (f : BndFile C) : Prop where
  coords : ∀ p ∈ f.points, p.length = 3
  segs : ∀ s ∈ f.segs, ∀ i ∈ s, ∃ k face, RefersTo i k ∧ f.faces[k]? = some face ∧ EdgesExist f.edges face ∧
    ∀ v, IsEnd f.edges face v → ∃ n : Nat, v = n ∧ n < f.points.length
  contacts : ∀ c ∈ f.contacts, c.length = 3
  regions : ∀ r ∈ f.regions, if r.material = "Contact" then
      ∀ e ∈ r.elems, f.segs.length ≤ e ∧ ∃ c, f.contacts[e - f.segs.length]? = some c ∧ EdgesExist f.edges c
    else ∀ e ∈ r.elems, e < f.segs.length
  some : f.regions ≠ []
  enough : f.regions.length < f.segs.length ∨
    f.segs.length + (f.regions.filter fun r => r.material = "Contact").length ≤ f.regions.length

/-- All faces of polyhedra are triangles. -/
def BndFile.Triangulated (f : BndFile C) : Prop := ∀ g face, f.FaceOf g face → ∃ a b c, HasCorners f.edges face a b c

/-- Polyhedron `g` has a face with these three corners. -/
def BndFile.Triangle (f : BndFile C) (g a b c : Nat) : Prop := ∃ face, f.FaceOf g face ∧ HasCorners f.edges face a b c

/-- Contact `e`, counted like the elements of the file, is the triangle. -/
def BndFile.ContactIs (f : BndFile C) (e : Nat) (triangle : List Int) : Prop :=
  ∃ c, f.contacts[e - f.segs.length]? = some c ∧ triangle.Nodup ∧ ∀ v, v ∈ triangle ↔ IsEnd f.edges c v

end VG
