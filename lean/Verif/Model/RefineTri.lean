/-!
Refinement of a triangle: algorithm/detail/refine_tri.hpp.

The vertices of the triangle are the labels 0, 1, 2; the new vertices on its edges e0 = (0, 1),
e1 = (0, 2), e2 = (1, 2) are the labels 3, 4, 5.  A child is the list of labels of its three vertices.
Simplification: handles of the output mesh are these labels; `vertex_copy_map` and the accessors
that give the handles are left out.
-/

namespace VG

/-- `add_refinement_element`: entries of the array of handles.  algorithm/detail/refine_tri.hpp:30-42.
Each call site is within the array. -/
def triChild (handles : List Nat) (i0 i1 i2 : Nat) : List Nat :=
  [handles.getD i0 0, handles.getD i1 0, handles.getD i2 0]

/-- `apply0`.  algorithm/detail/refine_tri.hpp:54-84. -/
def tri0 : List (List Nat) := [triChild [0, 1, 2] 0 1 2]

/-- Step 2 of `apply1`.  algorithm/detail/refine_tri.hpp:155-163. -/
def tri1cells (v3 offset : Nat) : List (List Nat) :=
  let handles := [0, 1, 2, v3]
  [triChild handles ((offset + 0) % 3) 3 ((offset + 2) % 3),
   triChild handles 3 ((offset + 1) % 3) ((offset + 2) % 3)]

/-- `apply1`; `none` is the failing assertion.  algorithm/detail/refine_tri.hpp:100-164. -/
def tri1 (m : Nat → Bool) : Option (List (List Nat)) :=
  if m 0 then some (tri1cells 3 0)
  else if m 1 then some (tri1cells 4 2)
  else if m 2 then some (tri1cells 5 1)
  else none

/-- Step 2 of `apply2`.  algorithm/detail/refine_tri.hpp:241-270. -/
def tri2cells {K : Type} [LT K] [DecidableLT K] (len : Nat → Nat → K) (v3 v4 offset : Nat) : List (List Nat) :=
  let handles := [0, 1, 2, v3, v4]
  let vh0 := handles.getD ((offset + 0) % 3) 0
  let vh1 := handles.getD ((offset + 1) % 3) 0
  let vh2 := handles.getD ((offset + 2) % 3) 0
  triChild handles 3 ((offset + 1) % 3) 4 ::
  (if len vh1 vh0 > len vh2 vh1 then
    [triChild handles ((offset + 0) % 3) 3 ((offset + 2) % 3), triChild handles ((offset + 2) % 3) 3 4]
  else
    [triChild handles ((offset + 0) % 3) 3 4, triChild handles ((offset + 0) % 3) 4 ((offset + 2) % 3)])

/-- `apply2`; `none` is the failing assertion.  algorithm/detail/refine_tri.hpp:181-273. -/
def tri2 {K : Type} [LT K] [DecidableLT K] (len : Nat → Nat → K) (m : Nat → Bool) : Option (List (List Nat)) :=
  if m 0 && m 1 then some (tri2cells len 4 3 2)
  else if m 0 && m 2 then some (tri2cells len 3 5 0)
  else if m 1 && m 2 then some (tri2cells len 5 4 1)
  else none

/-- `apply3`.  algorithm/detail/refine_tri.hpp:283-334. -/
def tri3 : List (List Nat) :=
  let handles := [0, 1, 2, 3, 4, 5]
  [triChild handles 0 3 4, triChild handles 3 1 5, triChild handles 4 5 2, triChild handles 4 3 5]

/-- `apply`: the children of a triangle whose edge `i` is marked if `m i`; `len a b` is the distance of
the vertices `a` and `b`.  algorithm/detail/refine_tri.hpp:345-377. -/
def refineTri {K : Type} [LT K] [DecidableLT K] (len : Nat → Nat → K) (m : Nat → Bool) : Option (List (List Nat)) :=
  match ([m 0, m 1, m 2].filter (fun b => b)).length with
  | 0 => some tri0
  | 1 => tri1 m
  | 2 => tri2 len m
  | _ => some tri3

end VG
