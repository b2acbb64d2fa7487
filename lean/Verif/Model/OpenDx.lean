import Verif.Model.Queries
import Mathlib.Data.Rat.Floor

/-!
Model of the writer for OpenDX files, `opendx_writer`: the numbers and names written, not their text.
-/

namespace VG

/-- `static_cast<long>` of a real number: towards zero, undefined if the result does not fit (64 bit `long`).
io/opendx_writer.hpp:44. -/
def castLong (x : ℚ) : Option ℤ :=
  if 0 ≤ x then (if ⌊x⌋ < 2 ^ 63 then some ⌊x⌋ else none)
  else (if -2 ^ 63 ≤ ⌈x⌉ then some ⌈x⌉ else none)

/-- `DXfixer`, in exact arithmetic.  io/opendx_writer.hpp:41-48. -/
def dxFix (v : ℚ) : Option ℚ :=
  (castLong (v * 10000)).map fun (t : ℤ) => if |v * 10000 - t| < 1 then v + 1 / 100000 else v

/-- What is written.  The point of a vertex is written with all its coordinates by `PointWriter`
(io/helper.hpp:37-93).  `data` is the object `VisData`: whether it belongs to positions (else to connections), the
number of items in its header, and the numbers.  The last lines of the file always refer to an object `VisData`.
io/opendx_writer.hpp:113-206. -/
structure DxFile (C : Type) where
  pointShape : Nat
  pointItems : Nat
  points : List (List C)
  cellShape : Nat
  cellItems : Nat
  cells : List (List ℤ)
  elementType : String
  data : Option (Bool × Nat × List ℚ)

/-- The writer object: the quantities registered on vertices and on cells, each a `std::map` from names, here a list in
the order of names; and the names of which it was announced on `std::cout` that they will be ignored.  A quantity is given by
its value for each handle.  io/opendx_writer.hpp:99-103, 261-266. -/
structure DxWriter where
  onVertices : List (String × (Nat → ℚ))
  onCells : List (String × (Nat → ℚ))
  ignored : List String

/-- A new writer.  io/opendx_writer.hpp:256-257. -/
def DxWriter.new : DxWriter := ⟨[], [], []⟩

/-- `add_to_container`.  io/opendx_writer.hpp:215-226. -/
def namePut {V : Type} (k : String) (v : V) : List (String × V) → List (String × V)
  | [] => [(k, v)]
  | (a, w) :: l => if k = a then (k, v) :: l else if k < a then (k, v) :: (a, w) :: l else (a, w) :: namePut k v l

/-- `add_scalar_data_on_vertices`.  io/opendx_writer.hpp:233-242. -/
def DxWriter.addOnVertices (w : DxWriter) (name : String) (f : Nat → ℚ) : DxWriter where
  onVertices := namePut name f w.onVertices
  onCells := w.onCells
  ignored := if 0 < w.onVertices.length then w.ignored ++ [name] else w.ignored

/-- `add_scalar_data_on_cells`.  io/opendx_writer.hpp:245-258. -/
def DxWriter.addOnCells (w : DxWriter) (name : String) (f : Nat → ℚ) : DxWriter where
  onVertices := w.onVertices
  onCells := namePut name f w.onCells
  ignored := w.ignored ++ (if 0 < w.onCells.length then [name] else []) ++
    (if 0 < w.onVertices.length then [name] else [])

/-- `DXHelper`: the attribute by the dimension of points; other dimensions do not compile.
io/opendx_writer.hpp:50-72. -/
def dxType : Nat → String
  | 1 => "line"
  | 2 => "triangles"
  | _ => "tetrahedra"

/-- The numbers of a quantity, for `n` elements in the order of iteration.  io/opendx_writer.hpp:170-201. -/
def dxValues (n : Nat) (f : Nat → ℚ) : Option (List ℚ) := (List.range n).mapM (fun s => dxFix (f s))

/-- `opendx_writer::operator()` for a mesh with `g` coordinates; no result if a cast is undefined.
Vertices and cells are in `std::deque`s, so iteration is in the order of positions.
io/opendx_writer.hpp:113-206. -/
def DxWriter.write {g : Nat} {C : Type} (w : DxWriter) (T : Topo) (m : Mesh (Fin g → C)) : Option (DxFile C) :=
  let data : Option (Option (Bool × Nat × List ℚ)) := match w.onVertices, w.onCells with
    | (_, f) :: _, _ => (dxValues m.verts.length f).map (fun l => some (true, m.verts.length, l))
    | [], (_, f) :: _ => (dxValues (m.elems T.cellDim).length f).map
        (fun l => some (false, (m.elems T.cellDim).length, l))
    | [], [] => some none
  data.map fun d =>
    { pointShape := g
      pointItems := m.verts.length
      points := m.verts.map (fun v => List.ofFn v.pt)
      cellShape := g + 1
      cellItems := (m.elems T.cellDim).length
      cells := (m.elems T.cellDim).map (fun e => e.verts.map m.vid)
      elementType := dxType g
      data := d }

end VG
