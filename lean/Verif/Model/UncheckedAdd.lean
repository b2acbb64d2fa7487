import Verif.Model.Segments

/-!
Model of `unchecked_add`.
-/

namespace VG

variable {P : Type}

/-- `insert_handle` of a view: append without a search.  storage/view.hpp:264. -/
def View.push (v : View) (x : Nat × Nat) : View :=
  fun k => if k = x.1 then v k ++ [x.2] else v k

/-- `detail::simple_unchecked_add`: the handle is appended to the view of the segment and to the view of all elements; the
record of the element is made as in `add`.  mesh/segmentation.hpp:1829-1846, 1884-1893.  The change counter of the view is
left out. -/
def SegState.simpleUncheckedAdd (g : Nat) (st : SegState P) (x : Nat × Nat) : SegState P :=
  { st with
    view := fun g' => if g' = g then (st.view g).push x else st.view g'
    all := st.all.push x
    segs := fun d i =>
      if d = x.1 ∧ i = st.mesh.eid x.1 x.2 then
        (if g ∈ st.segs d i then st.segs d i else st.segs d i ++ [g])
      else st.segs d i
    recs := st.touch x }

/-- `unchecked_add(segment, element)`.  mesh/segmentation.hpp:2029-2053. -/
def SegState.uncheckedAdd (T : Topo) (st : SegState P) (g d t : Nat) : SegState P :=
  let st' := (st.mesh.closureOf T d t).foldl (SegState.simpleUncheckedAdd g) st
  { st' with added := fun g' => if g' = g then st'.added g ++ [(d, t)] else st'.added g' }

/-- `erase(segment, element)` for segments which may list elements twice: the elements to erase are collected in a view
with `insert_unique_handle`, so each is erased once.  mesh/segmentation.hpp:2156-2165, mesh/mesh_operations.hpp:189-196.
The same as `eraseElem` if no element is listed twice. -/
def SegState.eraseElemOnce (T : Topo) (st : SegState P) (g k s : Nat) : SegState P :=
  (st.marked T g k s).eraseDups.foldl (SegState.eraseOne g) st

end VG
