import Verif.Model.Queries

/-!
Model of the element membership of segments and of views derived from views.
-/

namespace VG

variable {P : Type}

/-- `insert_unique_handle`: linear search, then append.  storage/view.hpp:256-264. -/
def insertUnique (l : List Nat) (h : Nat) : List Nat := if h ∈ l then l else l ++ [h]

/-- `erase_handle`: the first matching handle.  storage/view.hpp:270-278. -/
def eraseHandle (l : List Nat) (h : Nat) : List Nat := l.erase h

/-- Content of a view: handles per dimension.  storage/view.hpp:210-290, storage/container_collection.hpp:174-204. -/
abbrev View := Nat → List Nat

/-- Insertion of one handle into a view.  storage/container_collection.hpp:174-204. -/
def View.ins (v : View) (x : Nat × Nat) : View :=
  fun k => if k = x.1 then insertUnique (v k) x.2 else v k

/-- Removal of one handle from a view.  storage/view.hpp:270-278. -/
def View.del (v : View) (x : Nat × Nat) : View :=
  fun k => if k = x.1 then eraseHandle (v k) x.2 else v k

/-- A mesh with a segmentation: `view g` is the view of segment `g`, `all` the view of all segmented
elements, `segs d id` the record of segment ids of the element of dimension `d` with that id
(`element_segment_mapping`, keyed by element id).  `recs d` is the length of the container of these records, which
grows when an element is added.  mesh/segmentation.hpp:541-551, 915-960, 1120-1175.
`added g` records which elements the user added to or created in segment `g`; it has no counterpart in
the code and is used to state what a segment should contain. -/
structure SegState (P : Type) where
  mesh : Mesh P
  view : Nat → View
  all : View
  segs : Nat → Int → List Nat
  recs : Nat → Nat
  added : Nat → List (Nat × Nat)

/-- Empty mesh and segmentation.  mesh/segmentation.hpp:571, mesh/mesh.hpp:240-263. -/
def SegState.empty : SegState P where
  mesh := Mesh.empty
  view _ _ := []
  all _ := []
  segs _ _ := []
  recs _ := 0
  added _ := []

/-- The container of records after access to the record of an element through an accessor: it is resized if
it is too short.  accessor.hpp:230-235, mesh/segmentation.hpp:1847-1851, 2080-2084.  Ids of elements in a mesh are not
negative. -/
def SegState.touch (st : SegState P) (x : Nat × Nat) : Nat → Nat :=
  fun d => if d = x.1 then max (st.recs d) ((st.mesh.eid x.1 x.2).toNat + 1) else st.recs d

/-- `detail::simple_add`: view of the segment, view of all elements, record of the element.
mesh/segmentation.hpp:1829-1846, 1862-1870.  The change counter of the view is left out. -/
def SegState.simpleAdd (g : Nat) (st : SegState P) (x : Nat × Nat) : SegState P :=
  { st with
    view := fun g' => if g' = g then (st.view g).ins x else st.view g'
    all := st.all.ins x
    segs := fun d i =>
      if d = x.1 ∧ i = st.mesh.eid x.1 x.2 then
        (if g ∈ st.segs d i then st.segs d i else st.segs d i ++ [g])
      else st.segs d i
    recs := st.touch x }

/-- The element itself and its boundary elements of all dimensions, as visited by `add`.
mesh/segmentation.hpp:1925-1936, mesh/mesh.hpp `for_each_boundary_element`. -/
def Mesh.closureOf (T : Topo) (m : Mesh P) (d t : Nat) : List (Nat × Nat) :=
  (d, t) :: (0 :: (T.layers d (T.nv d)).map (·.1)).flatMap (fun k => (m.bndOf d t k).map (fun s => (k, s)))

/-- `add(segment, element)`.  mesh/segmentation.hpp:1923-1936. -/
def SegState.addElem (T : Topo) (st : SegState P) (g d t : Nat) : SegState P :=
  let st' := (st.mesh.closureOf T d t).foldl (SegState.simpleAdd g) st
  { st' with added := fun g' => if g' = g then st'.added g ++ [(d, t)] else st'.added g' }

/-- The handle returned by a creation.  mesh/element_creation.hpp:28-67, storage/inserter.hpp:108-135. -/
def Mesh.created (T : Topo) (m : Mesh P) : MOp P → Nat × Nat
  | .vertex _ _ => (0, m.verts.length)
  | .elem d vs => (d, (m.makeElem T d vs).slot)

/-- Creation of an element in a segment: the element is created in the mesh with the inserter of the
view of the segment, which enters every handle passed to `handle_insert` into that view
(storage/inserter.hpp:108-135, 186-192), then `add` is called.
mesh/segmentation.hpp:2171-2192. -/
def SegState.makeIn (T : Topo) (st : SegState P) (g : Nat) (op : MOp P) : Option (SegState P) :=
  (st.mesh.step T op).map (fun m' =>
    let calls := m'.log.drop st.mesh.log.length
    let st' : SegState P :=
      { st with mesh := m', view := fun g' => if g' = g then calls.foldl View.ins (st.view g) else st.view g' }
    let x := st.mesh.created T op
    st'.addElem T g x.1 x.2)

/-- Removal of one element from a segment: view, record, and view of all elements if it is in no
segment any more.  mesh/segmentation.hpp:2061-2113. -/
def SegState.eraseOne (g : Nat) (st : SegState P) (x : Nat × Nat) : SegState P :=
  let segs' : Nat → Int → List Nat := fun d i =>
    if d = x.1 ∧ i = st.mesh.eid x.1 x.2 then (st.segs d i).erase g else st.segs d i
  { st with
    view := fun g' => if g' = g then (st.view g).del x else st.view g'
    segs := segs'
    recs := st.touch x
    all := if segs' x.1 (st.mesh.eid x.1 x.2) = [] then st.all.del x else st.all }

/-- The elements of the segment which have the element on their boundary
(`mark_referencing_elements`).  mesh/mesh_operations.hpp:167-224.  Simplified: the coboundary in the
segment is computed directly; the dimensions are those up to the cell. -/
def SegState.marked (T : Topo) (st : SegState P) (g k s : Nat) : List (Nat × Nat) :=
  ((List.range (T.cellDim + 1)).filter (fun d => k < d)).flatMap (fun d =>
    ((st.view g d).filter (fun t => s ∈ st.mesh.bndOf d t k)).map (fun t => (d, t)))

/-- `erase(segment, element)`.  mesh/segmentation.hpp:2156-2165. -/
def SegState.eraseElem (T : Topo) (st : SegState P) (g k s : Nat) : SegState P :=
  (st.marked T g k s).foldl (SegState.eraseOne g) st

/-- Whether there is a record for the element.  accessor.hpp:293-298, 783-791. -/
def SegState.recorded (st : SegState P) (d t : Nat) : Bool := (st.mesh.eid d t).toNat < st.recs d

/-- What `is_in_segment(segment, element)` answers if it is defined: the search in the record of the element.
mesh/segmentation.hpp:1557-1569. -/
def SegState.isIn (st : SegState P) (g d t : Nat) : Bool := g ∈ st.segs d (st.mesh.eid d t)

/-- What `segment_ids(segmentation, element)` refers to if it is defined: the record of the element.
mesh/segmentation.hpp:1713-1719. -/
def SegState.segmentIds (st : SegState P) (d t : Nat) : List Nat := st.segs d (st.mesh.eid d t)

/-- `is_in_segment(segment, element)`: the accessor is const, so for an element without record an assertion fails (with
assertions off, memory outside of the container is read).  mesh/segmentation.hpp:1571-1594, accessor.hpp:293-298. -/
def SegState.queryIn (st : SegState P) (g d t : Nat) : Option Bool := if st.recorded d t then some (st.isIn g d t) else none

/-- `segment_ids(segmentation, element)`, as far as the range is used: for an element without record the range refers
to the default value of a field, which is a temporary object destroyed when the function returns.
mesh/segmentation.hpp:1713-1719, 1600-1665; accessor.hpp:783-791, 808. -/
def SegState.queryIds (st : SegState P) (d t : Nat) : Option (List Nat) :=
  if st.recorded d t then some (st.segmentIds d t) else none

/-- Equality of two segment id ranges: sorted copies compared.  mesh/segmentation.hpp:1156-1171. -/
def segIdsEqual (a b : List Nat) : Bool :=
  if a.length ≠ b.length then false
  else a.insertionSort (· ≤ ·) == b.insertionSort (· ≤ ·)

/-- `segmentation.clear()` on the elements: segments and records are dropped, the view of all elements
is not touched.  mesh/segmentation.hpp:915-921. -/
def SegState.clearAll (st : SegState P) : SegState P :=
  { st with view := fun _ _ => [], segs := fun _ _ => [], recs := fun _ => 0, added := fun _ => [] }

/-- `clear(segment)`: the view is replaced by an empty one, the records of the elements and the view of
all elements are not touched.  mesh/segmentation.hpp:153-157, mesh/mesh.hpp:278-300.  Left out: the new
view is not connected to the mesh any more, creating elements in the segment afterwards is undefined. -/
def SegState.clearSegment (st : SegState P) (g : Nat) : SegState P :=
  { st with
    view := fun g' => if g' = g then fun _ => [] else st.view g'
    added := fun g' => if g' = g then [] else st.added g' }

/-- What a user does with a mesh and its segments.  Not in the code. -/
inductive SOp (P : Type) where
  | mesh (op : MOp P)
  | make (g : Nat) (op : MOp P)
  | add (g d t : Nat)

/-- The creation in an operation.  Not in the code. -/
def SOp.creation : SOp P → Option (MOp P)
  | .mesh op => some op
  | .make _ op => some op
  | .add _ _ _ => none

/-- One operation; `none` for undefined behaviour.  See the operations. -/
def SegState.step (T : Topo) (st : SegState P) : SOp P → Option (SegState P)
  | .mesh op => (st.mesh.step T op).map (fun m => { st with mesh := m })
  | .make g op => st.makeIn T g op
  | .add g d t => if d ≤ T.cellDim ∧ t < st.mesh.count d then some (st.addElem T g d t) else none

/-- A history.  Not in the code. -/
def SegState.run (T : Topo) : SegState P → List (SOp P) → Option (SegState P)
  | st, [] => some st
  | st, op :: ops => (st.step T op).bind (fun st' => SegState.run T st' ops)

/-! Views derived from views -/

/-- A mesh with views; `parent v` is the view the view `v` was made from, `none` for the mesh.
mesh/mesh.hpp:248-258, storage/inserter.hpp:150-235.  `through v` records the elements inserted through
the view `v` itself (not in the code). -/
structure VState (P : Type) where
  mesh : Mesh P
  parent : List (Option Nat)
  content : Nat → View
  through : Nat → List (Nat × Nat)

/-- A mesh without views.  mesh/mesh.hpp:240-258. -/
def VState.empty : VState P where
  mesh := Mesh.empty
  parent := []
  content _ _ := []
  through _ := []

/-- The chain of views from `v` to the mesh; `fuel` bounds its length.
mesh/mesh.hpp:248-258, storage/inserter.hpp:186-212. -/
def VState.chain (st : VState P) : Nat → Nat → List Nat
  | 0, v => [v]
  | f + 1, v =>
    match st.parent.getD v none with
    | none => [v]
    | some p => v :: st.chain f p

/-- `handle_insert` of the inserter of view `v`: this view, then the inserter of its parent.
storage/inserter.hpp:186-192. -/
def VState.handleInsert (st : VState P) (content : Nat → View) (v : Nat) (x : Nat × Nat) : Nat → View :=
  (st.chain st.parent.length v).foldl (fun c w => fun u => if u = w then (c w).ins x else c u) content

/-- Operations: a new view of the mesh or of a view (always empty at first, `make_view`), creation in
the mesh, creation through a view.  mesh/mesh.hpp:248-258, mesh/element_creation.hpp:28-196. -/
inductive VOp (P : Type) where
  | view (p : Option Nat)
  | mesh (op : MOp P)
  | via (v : Nat) (op : MOp P)

/-- The creation in an operation.  Not in the code. -/
def VOp.creation : VOp P → Option (MOp P)
  | .view _ => none
  | .mesh op => some op
  | .via _ op => some op

/-- One operation.  mesh/mesh.hpp:248-258; storage/inserter.hpp:186-212. -/
def VState.step (T : Topo) (st : VState P) : VOp P → Option (VState P)
  | .view p =>
    if p.all (· < st.parent.length) then
      some { st with parent := st.parent ++ [p] }
    else none
  | .mesh op => (st.mesh.step T op).map (fun m => { st with mesh := m })
  | .via v op =>
    if v < st.parent.length then
      (st.mesh.step T op).map (fun m' =>
        let calls := m'.log.drop st.mesh.log.length
        { st with
          mesh := m'
          content := calls.foldl (fun c x => st.handleInsert c v x) st.content
          through := fun w => if w = v then st.through v ++ calls else st.through w })
    else none

/-- A history.  Not in the code. -/
def VState.run (T : Topo) : VState P → List (VOp P) → Option (VState P)
  | st, [] => some st
  | st, op :: ops => (st.step T op).bind (fun st' => VState.run T st' ops)

end VG
