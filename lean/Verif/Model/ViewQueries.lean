import Verif.Model.Segments

/-!
Model of the cached queries of views and segments (which are views), and of interface information
between two segments.  A view has its own change counter and its own caches, indexed by element id.
-/

namespace VG

variable {P : Type}

/-- Storage of a `std::vector` indexed by element id: `data x` counts for `0 ≤ x < size`, elements
created by a resize are empty.  accessor.hpp:196-261. -/
structure Dense (α : Type) where
  size : Int
  data : Int → α

/-- A cache of a view with dense storage.  mesh/mesh.hpp:62-95. -/
structure DCache (α : Type) where
  counter : Nat
  store : Dense α

/-- A view with its change counter and caches.  mesh/mesh.hpp:240-258, 326-330.  Left out: the handles
stored in the caches know their base container. -/
structure VC where
  content : View
  counter : Nat
  cob : Nat → Nat → DCache (List Nat)
  nb : Nat → Nat → DCache (List Nat)
  bd : Nat → Cache Bool

/-- A new view, `make_view`.  mesh/mesh.hpp:62-95, 240-258. -/
def VC.empty : VC where
  content _ := []
  counter := 0
  cob _ _ := ⟨0, ⟨0, fun _ => []⟩⟩
  nb _ _ := ⟨0, ⟨0, fun _ => []⟩⟩
  bd _ := ⟨0, fun _ => false⟩

/-- One handle enters the view and the counter is incremented: `add_single_handle`
(mesh/segmentation.hpp:2205-2219), `recursive_inserter::handle_insert` (storage/inserter.hpp:186-192),
`add(segment, element)` for each of the elements it visits (mesh/segmentation.hpp:1829-1870). -/
def VC.insert (v : VC) (x : Nat × Nat) : VC :=
  { v with content := v.content.ins x, counter := v.counter + 1 }

/-- One handle leaves the view and the counter is incremented: `erase_elements(view, ...)`
(mesh/element_deletion.hpp:159-191), `erase(segment, element)` (mesh/segmentation.hpp:2061-2113). -/
def VC.remove (v : VC) (x : Nat × Nat) : VC :=
  { v with content := v.content.del x, counter := v.counter + 1 }

/-- `handle_mesh(mesh, view)`: handles of all elements are appended; the counter is not touched.
mesh/mesh.hpp:743-759, 815-820; storage/view.hpp:608-620. -/
def VC.handleMesh (m : Mesh P) (v : VC) : VC :=
  { v with content := fun k => v.content k ++ List.range (m.count k) }

/-- `accessor(*it).clear()` for each element of the view: the storage is resized when needed.
mesh/coboundary_iteration.hpp:225-229, accessor.hpp:228-233. -/
def Dense.clearFor (old : Dense (List Nat)) (ids : List Int) : Dense (List Nat) where
  size := ids.foldl (fun n x => max n (x + 1)) old.size
  data := fun x => if x ∈ ids then [] else old.data x

/-- `accessor.at(element).insert_handle(t)`; the second component turns false when `at` throws
`std::out_of_range`, nothing is executed after that.  accessor.hpp:242-247. -/
def cobPut (t : Nat) (acc : Dense (List Nat) × Bool) (x : Int) : Dense (List Nat) × Bool :=
  if acc.2 = true ∧ 0 ≤ x ∧ x < acc.1.size then
    (⟨acc.1.size, upd acc.1.data x (acc.1.data x ++ [t])⟩, true)
  else (acc.1, false)

/-- `create_coboundary_information` for a view.  mesh/coboundary_iteration.hpp:210-248. -/
def createCobV (m : Mesh P) (c : View) (k d : Nat) (old : Dense (List Nat)) : Dense (List Nat) × Bool :=
  (c d).foldl (fun acc t => ((m.bndOf d t k).map (m.eid k)).foldl (cobPut t) acc)
    (old.clearFor ((c k).map (m.eid k)), true)

/-- `coboundary_elements<k,d>(view, s)`; `none` when it throws.  mesh/coboundary_iteration.hpp:252-275,
335-391.  When it throws the counter of the cache is not updated. -/
def VC.coboundary (m : Mesh P) (v : VC) (k d s : Nat) : VC × Option (List Nat) :=
  if (v.cob k d).counter ≠ v.counter then
    let r := createCobV m v.content k d (v.cob k d).store
    let c' : DCache (List Nat) := ⟨if r.2 then v.counter else (v.cob k d).counter, r.1⟩
    ({ v with cob := fun k' d' => if k' = k ∧ d' = d then c' else v.cob k' d' },
      if r.2 then some (r.1.data (m.eid k s)) else none)
  else (v, some ((v.cob k d).store.data (m.eid k s)))

/-- `create_neighbor_information` for a view.  mesh/neighbor_iteration.hpp:175-228. -/
def createNbV (m : Mesh P) (v : VC) (d c : Nat) (old : Int → List Nat) :
    VC × (Int → List Nat) × Bool :=
  let init : Int → List Nat := fun x => if x ∈ (v.content d).map (m.eid d) then [] else old x
  (v.content c).foldl
    (fun acc s =>
      if acc.2.2 then
        let q := acc.1.coboundary m c d s
        match q.2 with
        | some l => (q.1, (nbPairs l).foldl (nbStep m d) acc.2.1, true)
        | none => (q.1, acc.2.1, false)
      else acc) (v, init, true)

/-- `neighbor_elements<d,c>(view, t)`; `none` when it throws.  mesh/neighbor_iteration.hpp:231-250,
302-359. -/
def VC.neighbors (m : Mesh P) (v : VC) (d c t : Nat) : VC × Option (List Nat) :=
  if (v.nb d c).counter ≠ v.counter then
    let q := createNbV m v d c (v.nb d c).store.data
    let c' : DCache (List Nat) := ⟨if q.2.2 then v.counter else (v.nb d c).counter, ⟨0, q.2.1⟩⟩
    ({ q.1 with nb := fun d' c1 => if d' = d ∧ c1 = c then c' else q.1.nb d' c1 },
      if q.2.2 then some (q.2.1 (m.eid d t)) else none)
  else (v, some ((v.nb d c).store.data (m.eid d t)))

/-- Facet flags of a view.  algorithm/boundary.hpp:32-71. -/
def detectFacetsV (T : Topo) (m : Mesh P) (c : View) (old : Int → Bool) : Int → Bool :=
  let init : Int → Bool := fun x => if x ∈ (c (T.cellDim - 1)).map (m.eid (T.cellDim - 1)) then false else old x
  (c T.cellDim).foldl
    (fun acc t => (m.bndOf T.cellDim t (T.cellDim - 1)).foldl
      (fun acc s => upd acc (m.eid (T.cellDim - 1) s) (!acc (m.eid (T.cellDim - 1) s))) acc) init

/-- Transfer of facet flags to elements of dimension `k` of a view.  algorithm/boundary.hpp:76-112. -/
def transferFlagsV (T : Topo) (m : Mesh P) (c : View) (facet : Int → Bool) (k : Nat)
    (old : Int → Bool) : Int → Bool :=
  let init : Int → Bool := fun x => if x ∈ (c k).map (m.eid k) then false else old x
  (c (T.cellDim - 1)).foldl
    (fun acc t => if facet (m.eid (T.cellDim - 1) t) then
      (m.bndOf (T.cellDim - 1) t k).foldl (fun acc s => upd acc (m.eid k s) true) acc else acc) init

/-- `detect_boundary` of a view.  algorithm/boundary.hpp:119-212. -/
def VC.detectBoundary (T : Topo) (m : Mesh P) (v : VC) : VC :=
  let fl := detectFacetsV T m v.content (v.bd (T.cellDim - 1)).data
  { v with bd := fun k =>
      if k = T.cellDim - 1 then ⟨v.counter, fl⟩
      else if k < T.cellDim - 1 then ⟨v.counter, transferFlagsV T m v.content fl k (v.bd k).data⟩
      else v.bd k }

/-- `is_boundary(view, element)`.  algorithm/boundary.hpp:238-262. -/
def VC.isBoundary (T : Topo) (m : Mesh P) (v : VC) (k s : Nat) : VC × Bool :=
  let v' := if (v.bd k).counter ≠ v.counter then v.detectBoundary T m else v
  (v', (v'.bd k).data (m.eid k s))

/-- A mesh and one view of it.  mesh/mesh.hpp:240-258. -/
structure MV (P : Type) where
  mesh : Mesh P
  view : VC

/-- What a user does.  Not in the code. -/
inductive VQOp (P : Type) where
  | mesh (op : MOp P)
  | insert (d t : Nat)
  | remove (d t : Nat)
  | handleMesh
  | coboundary (k d s : Nat)
  | neighbors (d c t : Nat)
  | isBoundary (k s : Nat)

/-- One step; a handle that enters the view has to be valid.  A query that throws leaves the state as
described at the query.  See the operations. -/
def MV.step (T : Topo) (st : MV P) : VQOp P → Option (MV P)
  | .mesh op => (st.mesh.step T op).map (fun m => { st with mesh := m })
  | .insert d t => if t < st.mesh.count d then some { st with view := st.view.insert (d, t) } else none
  | .remove d t => some { st with view := st.view.remove (d, t) }
  | .handleMesh => some { st with view := st.view.handleMesh st.mesh }
  | .coboundary k d s => some { st with view := (st.view.coboundary st.mesh k d s).1 }
  | .neighbors d c t => some { st with view := (st.view.neighbors st.mesh d c t).1 }
  | .isBoundary k s => some { st with view := (st.view.isBoundary T st.mesh k s).1 }

/-- A history.  Not in the code. -/
def MV.run (T : Topo) : MV P → List (VQOp P) → Option (MV P)
  | st, [] => some st
  | st, op :: ops => (st.step T op).bind (fun st' => MV.run T st' ops)

/-- A mesh and a view, both new.  mesh/mesh.hpp:240-258. -/
def MV.empty : MV P := ⟨Mesh.empty, VC.empty⟩

/-- The creation in an operation.  Not in the code. -/
def VQOp.creation : VQOp P → Option (MOp P)
  | .mesh op => some op
  | _ => none

/-! Interface information -/

/-- Flags of a pair of segments for one dimension with the counters of both segments at the last
computation.  mesh/segmentation.hpp:1222-1236. -/
structure IFlags where
  c0 : Nat
  c1 : Nat
  data : Int → Bool

/-- A mesh, its segments, and interface information per unordered pair of segments and dimension.
mesh/segmentation.hpp:1238-1291. -/
structure IState (P : Type) where
  mesh : Mesh P
  seg : Nat → VC
  flags : Nat × Nat → Nat → IFlags

/-- No segment contains anything.  mesh/segmentation.hpp:1238-1291. -/
def IState.empty : IState P where
  mesh := Mesh.empty
  seg _ := VC.empty
  flags _ _ := ⟨0, 0, fun _ => false⟩

/-- Key of a pair.  mesh/segmentation.hpp:1249-1257. -/
def pairKey (a b : Nat) : Nat × Nat := (min a b, max a b)

/-- `is_boundary(seg0, facet)` is asked for each facet of the first segment; collected are those on the
boundary.  algorithm/interface.hpp:66-78. -/
def collectFacets (T : Topo) (m : Mesh P) : VC → List Nat → VC × List Nat
  | v, [] => (v, [])
  | v, f :: fs =>
    let q := v.isBoundary T m (T.cellDim - 1) f
    let r := collectFacets T m q.1 fs
    (r.1, if q.2 then f :: r.2 else r.2)

/-- `detect_interface(seg0, seg1)`: facets of the second segment found among the collected are flagged
(no flag is ever reset); the flags are transferred to lower dimensions over both segments; all counters are
updated.  algorithm/interface.hpp:66-91, 94-149, 209-237. -/
def IState.detect (T : Topo) (st : IState P) (a b : Nat) : IState P :=
  let F := T.cellDim - 1
  let q := collectFacets T st.mesh (st.seg a) ((st.seg a).content F)
  let seg' : Nat → VC := fun g => if g = a then q.1 else st.seg g
  let fl : Int → Bool := ((st.seg b).content F).foldl
    (fun acc f => if f ∈ q.2 then upd acc (st.mesh.eid F f) true else acc) (st.flags (pairKey a b) F).data
  let low : Nat → Int → Bool := fun k =>
    transferFlagsV T st.mesh (st.seg b).content fl k
      (transferFlagsV T st.mesh (st.seg a).content fl k (st.flags (pairKey a b) k).data)
  { st with
    seg := seg'
    flags := fun p k =>
      if p = pairKey a b then
        if k = F then ⟨(st.seg a).counter, (st.seg b).counter, fl⟩
        else if k < F then ⟨(st.seg a).counter, (st.seg b).counter, low k⟩
        else st.flags p k
      else st.flags p k }

/-- `is_interface(seg0, seg1, element)`.  algorithm/interface.hpp:246-272. -/
def IState.isInterface (T : Topo) (st : IState P) (a b k s : Nat) : IState P × Bool :=
  let fl := st.flags (pairKey a b) k
  let st' := if (st.seg a).counter ≠ fl.c0 ∨ (st.seg b).counter ≠ fl.c1 then st.detect T a b else st
  (st', (st'.flags (pairKey a b) k).data (st.mesh.eid k s))

/-- What a user does with segments here: create in the mesh, add an element (with all its boundary
elements) to a segment, remove an element from a segment, ask.  Not in the code. -/
inductive IOp (P : Type) where
  | mesh (op : MOp P)
  | add (g d t : Nat)
  | remove (g d t : Nat)
  | isBoundary (g k s : Nat)
  | isInterface (a b k s : Nat)

/-- One step; the two segments of an interface have to be different (`assert`,
mesh/segmentation.hpp:1251). -/
def IState.step (T : Topo) (st : IState P) : IOp P → Option (IState P)
  | .mesh op => (st.mesh.step T op).map (fun m => { st with mesh := m })
  | .add g d t =>
    if d ≤ T.cellDim ∧ t < st.mesh.count d then
      some { st with seg := fun g' => if g' = g then (st.mesh.closureOf T d t).foldl VC.insert (st.seg g) else st.seg g' }
    else none
  | .remove g d t => some { st with seg := fun g' => if g' = g then (st.seg g).remove (d, t) else st.seg g' }
  | .isBoundary g k s =>
    some { st with seg := fun g' => if g' = g then ((st.seg g).isBoundary T st.mesh k s).1 else st.seg g' }
  | .isInterface a b k s => if a = b then none else some (st.isInterface T a b k s).1

/-- A history.  Not in the code. -/
def IState.run (T : Topo) : IState P → List (IOp P) → Option (IState P)
  | st, [] => some st
  | st, op :: ops => (st.step T op).bind (fun st' => IState.run T st' ops)

/-- The creation in an operation.  Not in the code. -/
def IOp.creation : IOp P → Option (MOp P)
  | .mesh op => some op
  | _ => none

end VG
