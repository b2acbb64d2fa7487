import Verif.Model.Mesh

/-!
Model of the cached queries of a mesh: coboundary, neighbor and boundary information, with the
change counters that decide when cached information is recomputed.

Throughout, elements of one dimension are iterated in the order of creation.  The code iterates
intermediate dimensions in key order; the order of a range is not part of any claim.
-/

namespace VG

variable {P : Type}

/-- Number of elements of dimension `k`.  storage/container.hpp:397-445. -/
def Mesh.count (m : Mesh P) (k : Nat) : Nat := if k = 0 then m.verts.length else (m.elems k).length

/-- Id of the element of dimension `k` with handle `s`.  storage/id.hpp. -/
def Mesh.eid (m : Mesh P) (k s : Nat) : Int :=
  if k = 0 then m.vid s else (((m.elems k).map (fun e => (e.id : Int)))).getD s (-1)

/-- Handles of the boundary elements of dimension `k` of the element `t` of dimension `d`,
`elements<k>(element)`; dimension 0 are its vertices.  element/element.hpp:66-170, mesh/mesh.hpp:850-905. -/
def Mesh.bndOf (m : Mesh P) (d t k : Nat) : List Nat :=
  match (m.elems d)[t]? with
  | none => []
  | some e => if k = 0 then e.verts else e.bndSlots k

/-- Update of a map.  Not in the code. -/
def upd {α : Type} (f : Int → α) (x : Int) (v : α) : Int → α := fun y => if y = x then v else f y

/-- The ids of all elements of dimension `k`.  storage/container.hpp:49-62. -/
def Mesh.idsOf (m : Mesh P) (k : Nat) : List Int := (List.range (m.count k)).map (m.eid k)

/-- A cache: data indexed by the element id and the change counter of its last computation.
mesh/mesh.hpp:62-95.  Simplified: the accessor storage is a total map; see the model of
accessors for its own properties. -/
structure Cache (α : Type) where
  counter : Nat
  data : Int → α

/-- `create_coboundary_information`.  mesh/coboundary_iteration.hpp:175-208. -/
def createCob (m : Mesh P) (k d : Nat) (old : Int → List Nat) : Int → List Nat :=
  let init : Int → List Nat := fun x => if x ∈ m.idsOf k then [] else old x
  (List.range (m.count d)).foldl
    (fun acc t => (m.bndOf d t k).foldl
      (fun acc s => upd acc (m.eid k s) (acc (m.eid k s) ++ [t])) acc) init

/-- A mesh with its caches (`appendix`).  mesh/mesh.hpp:140-160, 326-330.
`cob k d`: elements of dimension `d` around elements of dimension `k`;
`nb d c`: neighbors among elements of dimension `d` through elements of dimension `c`;
`bd k`: boundary flags of elements of dimension `k`. -/
structure MState (P : Type) where
  mesh : Mesh P
  cob : Nat → Nat → Cache (List Nat)
  nb : Nat → Nat → Cache (List Nat)
  bd : Nat → Cache Bool

/-- A new mesh: all counters are zero.  mesh/mesh.hpp:62-95, 240. -/
def MState.empty : MState P where
  mesh := Mesh.empty
  cob _ _ := ⟨0, fun _ => []⟩
  nb _ _ := ⟨0, fun _ => []⟩
  bd _ := ⟨0, fun _ => false⟩

/-- Recomputation of coboundary information if it is obsolete.
mesh/coboundary_iteration.hpp:335-356 (`is_obsolete`: mesh/mesh.hpp:319-320). -/
def MState.refreshCob (st : MState P) (k d : Nat) : MState P :=
  if (st.cob k d).counter ≠ st.mesh.counter then
    { st with cob := fun k' d' => if k' = k ∧ d' = d then
        ⟨st.mesh.counter, createCob st.mesh k d (st.cob k d).data⟩ else st.cob k' d' }
  else st

/-- `coboundary_elements<k,d>(mesh, s)`.  mesh/coboundary_iteration.hpp:335-356. -/
def MState.coboundary (st : MState P) (k d s : Nat) : MState P × List Nat :=
  let st' := st.refreshCob k d
  (st', (st'.cob k d).data (st'.mesh.eid k s))

/-- The pairs visited for one connector element: `jt1` runs from the second entry, `jt0` from the
first up to `jt1`.  mesh/neighbor_iteration.hpp:205-226. -/
def nbPairs (l : List Nat) : List (Nat × Nat) :=
  (List.range l.length).flatMap (fun j1 => (List.range j1).map (fun j0 => (l.getD j0 0, l.getD j1 0)))

/-- One pair: enter each as a neighbor of the other unless the second is already listed at the
first, compared by id.  mesh/neighbor_iteration.hpp:209-224. -/
def nbStep (m : Mesh P) (d : Nat) (acc : Int → List Nat) (ab : Nat × Nat) : Int → List Nat :=
  if m.eid d ab.2 ∈ (acc (m.eid d ab.1)).map (m.eid d) then acc
  else
    let acc1 := upd acc (m.eid d ab.1) (acc (m.eid d ab.1) ++ [ab.2])
    upd acc1 (m.eid d ab.2) (acc1 (m.eid d ab.2) ++ [ab.1])

/-- `create_neighbor_information`: for each connector element its coboundary is queried (which
refreshes that cache) and all pairs are entered.  mesh/neighbor_iteration.hpp:175-228. -/
def createNb (st : MState P) (d c : Nat) (old : Int → List Nat) : MState P × (Int → List Nat) :=
  let init : Int → List Nat := fun x => if x ∈ st.mesh.idsOf d then [] else old x
  (List.range (st.mesh.count c)).foldl
    (fun acc s =>
      let q := acc.1.coboundary c d s
      (q.1, (nbPairs q.2).foldl (nbStep st.mesh d) acc.2)) (st, init)

/-- Recomputation of neighbor information if it is obsolete.
mesh/neighbor_iteration.hpp:231-250, 302-322. -/
def MState.refreshNb (st : MState P) (d c : Nat) : MState P :=
  if (st.nb d c).counter ≠ st.mesh.counter then
    let q := createNb st d c (st.nb d c).data
    { q.1 with nb := fun d' c' => if d' = d ∧ c' = c then ⟨st.mesh.counter, q.2⟩ else q.1.nb d' c' }
  else st

/-- `neighbor_elements<d,c>(mesh, t)`.  mesh/neighbor_iteration.hpp:302-322. -/
def MState.neighbors (st : MState P) (d c t : Nat) : MState P × List Nat :=
  let st' := st.refreshNb d c
  (st', (st'.nb d c).data (st'.mesh.eid d t))

/-- Facet flags: cleared for all facets, then toggled for each facet of each cell.
algorithm/boundary.hpp:32-71. -/
def detectFacets (T : Topo) (m : Mesh P) (old : Int → Bool) : Int → Bool :=
  let init : Int → Bool := fun x => if x ∈ m.idsOf (T.cellDim - 1) then false else old x
  (List.range (m.count T.cellDim)).foldl
    (fun acc t => (m.bndOf T.cellDim t (T.cellDim - 1)).foldl
      (fun acc s => upd acc (m.eid (T.cellDim - 1) s) (!acc (m.eid (T.cellDim - 1) s))) acc) init

/-- Transfer of the facet flags to elements of dimension `k`.  algorithm/boundary.hpp:76-112. -/
def transferFlags (T : Topo) (m : Mesh P) (facet : Int → Bool) (k : Nat) (old : Int → Bool) :
    Int → Bool :=
  let init : Int → Bool := fun x => if x ∈ m.idsOf k then false else old x
  (List.range (m.count (T.cellDim - 1))).foldl
    (fun acc t => if facet (m.eid (T.cellDim - 1) t) then
      (m.bndOf (T.cellDim - 1) t k).foldl (fun acc s => upd acc (m.eid k s) true) acc else acc) init

/-- `detect_boundary`: facets, then all lower dimensions, all counters updated.
algorithm/boundary.hpp:119-212. -/
def MState.detectBoundary (T : Topo) (st : MState P) : MState P :=
  let fl := detectFacets T st.mesh (st.bd (T.cellDim - 1)).data
  { st with bd := fun k =>
      if k = T.cellDim - 1 then ⟨st.mesh.counter, fl⟩
      else if k < T.cellDim - 1 then ⟨st.mesh.counter, transferFlags T st.mesh fl k (st.bd k).data⟩
      else st.bd k }

/-- `is_boundary(mesh, element)` for an element of dimension `k` smaller than that of cells.
algorithm/boundary.hpp:238-262. -/
def MState.isBoundary (T : Topo) (st : MState P) (k s : Nat) : MState P × Bool :=
  let st' := if (st.bd k).counter ≠ st.mesh.counter then st.detectBoundary T else st
  (st', (st'.bd k).data (st'.mesh.eid k s))

/-- Continue with a copy of the mesh (copy constructor or assignment): containers, caches with
their counters, id generators and the change counter are copied, then the counter is incremented.
mesh/mesh.hpp:265-271, 278-292.  The handles, which point into the old mesh at first, are corrected
by the code; that the result has the same positions is `C21_copy`, on a model with explicit mesh
objects in `Model/MeshCopy.lean`. -/
def MState.copied (st : MState P) : MState P :=
  { st with mesh := { st.mesh with counter := st.mesh.counter + 1 } }

/-- Erasing position `t` of a `std::deque`: its value is swapped with the last, the last is erased.
mesh/element_deletion.hpp:113-130. -/
def swapPop {α : Type} (l : List α) (t : Nat) : List α :=
  match l.getLast? with
  | none => l
  | some b => (l.set t b).dropLast

/-- `erase_element(mesh, cell)`: no element refers to a cell, so only the cell itself is marked and
erased; the change counter is incremented.  No result if there is no such cell.
mesh/element_deletion.hpp:87-157, 196-220.  The general case is in `Model/Erase.lean`. -/
def Mesh.eraseCell (T : Topo) (m : Mesh P) (t : Nat) : Option (Mesh P) :=
  if t < (m.elems T.cellDim).length then
    some { m with
      elems := fun k => if k = T.cellDim then swapPop (m.elems T.cellDim) t else m.elems k
      counter := m.counter + 1 }
  else none

/-- Everything a user can do: create elements, erase cells, ask, and replace the mesh by a copy.  Not in the code. -/
inductive QOp (P : Type) where
  | copy
  | eraseCell (t : Nat)
  | mesh (op : MOp P)
  | coboundary (k d s : Nat)
  | neighbors (d c t : Nat)
  | isBoundary (k s : Nat)

/-- One step.  See the operations. -/
def MState.step (T : Topo) (st : MState P) : QOp P → Option (MState P)
  | .copy => some st.copied
  | .eraseCell t => (st.mesh.eraseCell T t).map (fun m => { st with mesh := m })
  | .mesh op => (st.mesh.step T op).map (fun m => { st with mesh := m })
  | .coboundary k d s => some (st.coboundary k d s).1
  | .neighbors d c t => some (st.neighbors d c t).1
  | .isBoundary k s => some (st.isBoundary T k s).1

/-- An interleaved history of creations and queries.  Not in the code. -/
def MState.run (T : Topo) : MState P → List (QOp P) → Option (MState P)
  | st, [] => some st
  | st, op :: ops => (st.step T op).bind (fun st' => MState.run T st' ops)

/-- The creations in a history.  Not in the code. -/
def QOp.meshOps : List (QOp P) → List (MOp P)
  | [] => []
  | .mesh op :: ops => op :: meshOps ops
  | _ :: ops => meshOps ops

end VG
