import Verif.Model.ViewQueries

/-!
Model of `extract_seed_points`.
-/

namespace VG

/-- One pass over the unvisited cells (in the order of the map, which is the order of ids; `todo` is what is
left of the pass): a cell having a neighbor that is not unvisited is erased.
algorithm/extract_seed_points.hpp:35-60.  `nb` stands for the answers of the neighbor queries. -/
def markPass (nb : Nat → List Nat) : List Nat → List Nat → List Nat × Bool
  | [], u => (u, false)
  | c :: todo, u =>
    if (nb c).any (fun n => !(u.contains n)) then ((markPass nb todo (u.filter (· ≠ c))).1, true)
    else markPass nb todo u

/-- `neighbor_mark`: passes are repeated until one of them finds nothing.
algorithm/extract_seed_points.hpp:28-62.  The first argument bounds the number of passes; a pass that finds
something removes a cell, so one more than the number of cells is enough (`markLoop_closed`). -/
def markLoop (nb : Nat → List Nat) : Nat → List Nat → List Nat
  | 0, u => u
  | fuel + 1, u =>
    let r := markPass nb u u
    if r.2 then markLoop nb fuel r.1 else r.1

/-- The loop over all cells: an unvisited one becomes a seed.
algorithm/extract_seed_points.hpp:89-100. -/
def seedPass (nb : Nat → List Nat) : List Nat → List Nat → List Nat × List Nat
  | [], u => (u, [])
  | c :: cs, u =>
    if u.contains c then
      let r := seedPass nb cs (markLoop nb (u.length + 1) (u.filter (· ≠ c)))
      (r.1, c :: r.2)
    else seedPass nb cs u

/-- The outer loop.  algorithm/extract_seed_points.hpp:86-101.  The first argument bounds its repetitions. -/
def seedLoop (nb : Nat → List Nat) (cells : List Nat) : Nat → List Nat → List Nat
  | 0, _ => []
  | fuel + 1, u =>
    if u.isEmpty then []
    else
      let r := seedPass nb cells u
      r.2 ++ seedLoop nb cells fuel r.1

/-- The cells whose centroids `extract_seed_points(mesh, seed_points)` appends.
algorithm/extract_seed_points.hpp:71-102. -/
def seedCells (nb : Nat → List Nat) (cells : List Nat) : List Nat :=
  seedLoop nb cells (cells.length + 1) cells

variable {P : Type}

/-- `extract_seed_points(mesh, ...)`.  The neighbor queries are asked in the given state; that earlier queries
do not change later answers is C14.  algorithm/extract_seed_points.hpp:70-103. -/
def MState.seedPoints (T : Topo) (st : MState P) (centroid : Nat → P) : List P :=
  (seedCells (fun t => (st.neighbors T.cellDim (T.cellDim - 1) t).2)
    (List.range (st.mesh.count T.cellDim))).map centroid

/-- `extract_seed_points(segment, ...)`; `none`: a neighbor query throws.  algorithm/extract_seed_points.hpp:70-103. -/
def VC.seedPoints (T : Topo) (m : Mesh P) (v : VC) (centroid : Nat → P) : Option (List P) :=
  if (v.content T.cellDim).all (fun t => (v.neighbors m T.cellDim (T.cellDim - 1) t).2.isSome) then
    some ((seedCells (fun t => ((v.neighbors m T.cellDim (T.cellDim - 1) t).2).getD [])
      (v.content T.cellDim)).map centroid)
  else none

/-- The loop over the segments of a segmentation, each given by its id and its view.
algorithm/extract_seed_points.hpp:126-132. -/
def seedsOfSegments (T : Topo) (m : Mesh P) (centroid : Nat → P) : List (Nat × VC) → Option (List (P × Nat))
  | [] => some []
  | (id, v) :: rest =>
    (VC.seedPoints T m v centroid).bind (fun l =>
      (seedsOfSegments T m centroid rest).map (fun r => l.map (fun p => (p, id)) ++ r))

/-- `extract_seed_points(mesh, segmentation, ...)`; without segments those of the mesh are paired with 0.
algorithm/extract_seed_points.hpp:111-134. -/
def seedPointsWithSegments (T : Topo) (st : MState P) (segs : List (Nat × VC)) (centroid : Nat → P) :
    Option (List (P × Nat)) :=
  if segs.isEmpty then some ((st.seedPoints T centroid).map (fun p => (p, 0)))
  else seedsOfSegments T st.mesh centroid segs

end VG
