/-!
Model of the registry of segments: ids, names and the two maps of a segmentation.
-/

namespace VG

/-- A segmentation without its elements: the segments in the order of creation with id and name
(`segments`, `segment_id_map`), the name map, and the highest id.  mesh/segmentation.hpp:541-551,
571, 940-950.  The name map holds pointers to segments: `some (some id)` is a pointer to the segment
`id`, `some none` a pointer to a segment which does not exist any more.  `N` is the type of names. -/
structure Reg (N : Type) where
  segs : List (Int × N)
  names : N → Option (Option Int)
  highest : Int

/-- What a call does: returns a segment, throws, or has undefined behaviour.  Not in the code. -/
inductive Res where
  | ok (id : Int)
  | throws
  | undefined
deriving DecidableEq, Repr

variable {N : Type} [DecidableEq N]

/-- A new segmentation.  mesh/segmentation.hpp:571. -/
def Reg.empty : Reg N := ⟨[], fun _ => none, -1⟩

/-- `get_make_segment(id)`; `nm id` is the decimal form of the id.  mesh/segmentation.hpp:673-696. -/
def Reg.getMakeId (nm : Int → N) (r : Reg N) (id : Int) : Reg N × Res :=
  if id ∈ r.segs.map (·.1) then (r, .ok id)
  else
    let r1 : Reg N := { r with
      segs := r.segs ++ [(id, nm id)]
      highest := if r.highest < id then id else r.highest }
    match r.names (nm id) with
    | some _ => (r1, .throws)
    | none => ({ r1 with names := fun n => if n = nm id then some (some id) else r.names n }, .ok id)

/-- `make_segment()`.  mesh/segmentation.hpp:721.  Simplified: ids are unbounded. -/
def Reg.makeSegment (nm : Int → N) (r : Reg N) : Reg N × Res :=
  Reg.getMakeId nm { r with highest := r.highest + 1 } (r.highest + 1)

/-- `segment.set_name(n)` for the segment with an id; undefined if there is no such segment (the handle
dangles).  mesh/segmentation.hpp:94-103. -/
def Reg.setName (r : Reg N) (id : Int) (n : N) : Reg N × Res :=
  match r.segs.find? (fun s => s.1 == id) with
  | none => (r, .undefined)
  | some s =>
    match r.names n with
    | some _ => (r, .throws)
    | none =>
      ({ r with
          segs := r.segs.map (fun t => if t.1 = id then (id, n) else t)
          names := fun n' => if n' = n then some (some id) else if n' = s.2 then none else r.names n' },
        .ok id)

/-- `get_make_segment(name)`, `segmentation[name]`.  mesh/segmentation.hpp:703-713. -/
def Reg.getMakeName (nm : Int → N) (r : Reg N) (n : N) : Reg N × Res :=
  match r.names n with
  | some (some id) => (r, .ok id)
  | some none => (r, .undefined)
  | none =>
    match r.makeSegment nm with
    | (r1, .ok id) => r1.setName id n
    | (r1, res) => (r1, res)

/-- `segmentation.clear()`: the name map is not cleared, its pointers dangle.
mesh/segmentation.hpp:915-921. -/
def Reg.clear (r : Reg N) : Reg N :=
  ⟨[], fun n => (r.names n).map (fun _ => none), -1⟩

/-- Calls on a segmentation.  mesh/segmentation.hpp:94-103, 673-721, 915-921. -/
inductive ROp (N : Type) where
  | getId (id : Int)
  | make
  | setName (id : Int) (n : N)
  | getName (n : N)

/-- One call.  See the operations. -/
def Reg.step (nm : Int → N) (r : Reg N) : ROp N → Reg N × Res
  | .getId id => r.getMakeId nm id
  | .make => r.makeSegment nm
  | .setName id n => r.setName id n
  | .getName n => r.getMakeName nm n

/-- A history of calls, exceptions being caught by the caller; the results are collected.  Not in the code. -/
def Reg.run (nm : Int → N) : Reg N → List (ROp N) → Reg N × List Res
  | r, [] => (r, [])
  | r, op :: ops =>
    let p := r.step nm op
    let q := Reg.run nm p.1 ops
    (q.1, p.2 :: q.2)

end VG
