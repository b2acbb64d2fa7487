import Verif.Model.Copy

/-!
Choice of the edges to refine: longest edge closure, transfer of cell marks, hyperplanes.
algorithm/refine.hpp:236-412.

Marks of edges are a function from edge slots; a cell is the list of slots of its edges.
-/

namespace VG

/-- The search for the longest edge: a pointer that starts as NULL (`none`) and a length that starts at 0.
algorithm/refine.hpp:283-303. -/
def longestEdge {K : Type} [Zero K] [LT K] [DecidableLT K] (len : Nat → K) (es : List Nat) : Option Nat :=
  (es.foldl (fun (b : Option Nat × K) e => if len e > b.2 then (some e, len e) else b) (none, 0)).1

/-- `edge_refinement_flag_accessor(edge) = true`.  algorithm/refine.hpp:305-308. -/
def setMark (m : Nat → Bool) (e : Nat) : Nat → Bool := fun x => if x = e then true else m x

/-- One cell: marks and `something_changed` before and after; `none` is the dereferenced NULL pointer.
algorithm/refine.hpp:263-311. -/
def closeCell {K : Type} [Zero K] [LT K] [DecidableLT K] (len : Nat → K) (s : (Nat → Bool) × Bool) (es : List Nat) :
    Option ((Nat → Bool) × Bool) :=
  if es.any s.1 then
    match longestEdge len es with
    | none => none
    | some e => if s.1 e then some s else some (setMark s.1 e, true)
  else some s

/-- One pass over the cells.  algorithm/refine.hpp:258-314. -/
def closePass {K : Type} [Zero K] [LT K] [DecidableLT K] (len : Nat → K) :
    (Nat → Bool) × Bool → List (List Nat) → Option ((Nat → Bool) × Bool)
  | s, [] => some s
  | s, es :: cells => (closeCell len s es).bind (fun s' => closePass len s' cells)

/-- What the loop can come to.  Not in the code. -/
inductive CloseResult where
  | done (m : Nat → Bool)
  | null
  | running

/-- `ensure_longest_edge_refinement`: at most `fuel` passes of the loop; `running` if it has not ended by
then.  algorithm/refine.hpp:238-319. -/
def closeMarks {K : Type} [Zero K] [LT K] [DecidableLT K] (len : Nat → K) (cells : List (List Nat)) :
    Nat → (Nat → Bool) → CloseResult
  | 0, _ => .running
  | fuel + 1, m =>
    match closePass len (m, false) cells with
    | none => .null
    | some (m', true) => closeMarks len cells fuel m'
    | some (m', false) => .done m'

/-- `cell_refinement_to_edge_refinement`: `flag` is the mark of the cell.
algorithm/refine.hpp:323-355. -/
def cellMarks (cells : List (Bool × List Nat)) (m : Nat → Bool) : Nat → Bool :=
  cells.foldl (fun m c => if c.1 then c.2.foldl setMark m else m) m

end VG
