import Verif.Model.Segments

/-!
Model of the information stored for a pair of segment and element (`segment_element_info`).
-/

namespace VG

variable {P V : Type}

/-- A mesh with segments, where the record of an element has a value for each segment; `none` for a value which was not
initialised: the constructor of an entry only sets the segment id.  mesh/segmentation.hpp:1104-1116, 1498-1545. -/
structure InfoState (P V : Type) where
  st : SegState P
  info : Nat → Int → List (Nat × Option V)

/-- An empty mesh and segmentation.  mesh/segmentation.hpp:571. -/
def InfoState.empty : InfoState P V := ⟨SegState.empty, fun _ _ => []⟩

/-- `detail::add(segment, segment_info)`: nothing if there is an entry for the segment, otherwise a new entry at the end.
mesh/segmentation.hpp:1830-1846. -/
def infoAdd (g : Nat) (l : List (Nat × Option V)) : List (Nat × Option V) :=
  if g ∈ l.map (·.1) then l else l ++ [(g, none)]

/-- `detail::erase(segment, segment_info)`: the first entry for the segment is removed.  mesh/segmentation.hpp:2061-2078. -/
def infoErase (g : Nat) : List (Nat × Option V) → List (Nat × Option V)
  | [] => []
  | e :: l => if e.1 = g then l else e :: infoErase g l

/-- `detail::segment_element_info(segment, segment_info)`: the value of the first entry for the segment, `none` for the null
pointer.  mesh/segmentation.hpp:1726-1760. -/
def infoFind (g : Nat) : List (Nat × Option V) → Option (Option V)
  | [] => none
  | e :: l => if e.1 = g then some e.2 else infoFind g l

/-- Assignment through the pointer; `none` for the null pointer.  mesh/segmentation.hpp:1726-1742. -/
def infoSet (g : Nat) (v : V) : List (Nat × Option V) → Option (List (Nat × Option V))
  | [] => none
  | e :: l => if e.1 = g then some ((g, some v) :: l) else (infoSet g v l).map (e :: ·)

/-- Change of the record of one element.  accessor.hpp:230-235. -/
def InfoState.upd (s : InfoState P V) (x : Nat × Nat) (f : List (Nat × Option V) → List (Nat × Option V)) :
    Nat → Int → List (Nat × Option V) :=
  fun d i => if d = x.1 ∧ i = s.st.mesh.eid x.1 x.2 then f (s.info d i) else s.info d i

/-- `detail::simple_add`, see `SegState.simpleAdd`.  mesh/segmentation.hpp:1829-1846, 1862-1870. -/
def InfoState.simpleAdd (g : Nat) (s : InfoState P V) (x : Nat × Nat) : InfoState P V :=
  ⟨s.st.simpleAdd g x, s.upd x (infoAdd g)⟩

/-- `add(segment, element)`, see `SegState.addElem`.  mesh/segmentation.hpp:1923-1936. -/
def InfoState.addElem (T : Topo) (s : InfoState P V) (g d t : Nat) : InfoState P V :=
  let s' := (s.st.mesh.closureOf T d t).foldl (InfoState.simpleAdd g) s
  ⟨{ s'.st with added := fun g' => if g' = g then s'.st.added g ++ [(d, t)] else s'.st.added g' }, s'.info⟩

/-- Creation of an element in a segment, see `SegState.makeIn`.  mesh/segmentation.hpp:2171-2192. -/
def InfoState.makeIn (T : Topo) (s : InfoState P V) (g : Nat) (op : MOp P) : Option (InfoState P V) :=
  (s.st.mesh.step T op).map (fun m' =>
    let calls := m'.log.drop s.st.mesh.log.length
    let st' : SegState P :=
      { s.st with mesh := m', view := fun g' => if g' = g then calls.foldl View.ins (s.st.view g) else s.st.view g' }
    let x := s.st.mesh.created T op
    (⟨st', s.info⟩ : InfoState P V).addElem T g x.1 x.2)

/-- Removal of one element from a segment, see `SegState.eraseOne`.  mesh/segmentation.hpp:2061-2113. -/
def InfoState.eraseOne (g : Nat) (s : InfoState P V) (x : Nat × Nat) : InfoState P V :=
  ⟨s.st.eraseOne g x, s.upd x (infoErase g)⟩

/-- `erase(segment, element)`, see `SegState.eraseElem`.  mesh/segmentation.hpp:2156-2165. -/
def InfoState.eraseElem (T : Topo) (s : InfoState P V) (g k t : Nat) : InfoState P V :=
  (s.st.marked T g k t).foldl (InfoState.eraseOne g) s

/-- `segment_element_info(segment, element)` of a constant segment: undefined (`none`) for an element without record, `some
none` for the null pointer, otherwise the value pointed to.  mesh/segmentation.hpp:1789-1800, accessor.hpp:293-298. -/
def InfoState.query (s : InfoState P V) (g d t : Nat) : Option (Option (Option V)) :=
  if s.st.recorded d t then some (infoFind g (s.info d (s.st.mesh.eid d t))) else none

/-- `*segment_element_info(segment, element) = v`; undefined (`none`) for the null pointer.  Simplified: the access makes a
record if there is none, but then the pointer is null.  mesh/segmentation.hpp:1812-1823. -/
def InfoState.write (s : InfoState P V) (g d t : Nat) (v : V) : Option (InfoState P V) :=
  (infoSet g v (s.info d (s.st.mesh.eid d t))).map (fun l => ⟨s.st, s.upd (d, t) (fun _ => l)⟩)

/-- What a user does.  Not in the code. -/
inductive InfoOp (P V : Type) where
  | mesh (op : MOp P)
  | make (g : Nat) (op : MOp P)
  | add (g d t : Nat)
  | erase (g k s : Nat)
  | write (g d t : Nat) (v : V)

/-- One operation; `none` for undefined behaviour.  See the operations. -/
def InfoState.step (T : Topo) (s : InfoState P V) : InfoOp P V → Option (InfoState P V)
  | .mesh op => (s.st.mesh.step T op).map (fun m => ⟨{ s.st with mesh := m }, s.info⟩)
  | .make g op => s.makeIn T g op
  | .add g d t => if d ≤ T.cellDim ∧ t < s.st.mesh.count d then some (s.addElem T g d t) else none
  | .erase g k t => if k ≤ T.cellDim ∧ t < s.st.mesh.count k then some (s.eraseElem T g k t) else none
  | .write g d t v => if d ≤ T.cellDim ∧ t < s.st.mesh.count d then s.write g d t v else none

/-- A history.  Not in the code. -/
def InfoState.run (T : Topo) : InfoState P V → List (InfoOp P V) → Option (InfoState P V)
  | s, [] => some s
  | s, op :: ops => (s.step T op).bind (fun s' => InfoState.run T s' ops)

end VG
