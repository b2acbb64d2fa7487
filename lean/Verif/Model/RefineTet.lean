import Mathlib.Algebra.Order.Field.Basic

/-!
Model of the refinement of a tetrahedron.  Vertices of the children are named by labels: 0-3 are the
vertices of the cell, 4-9 the new vertices on its edges 0-5, the edges being 01, 02, 03, 12, 13, 23
(topology/simplex.hpp, see C06).
-/

namespace VG

/-- The statements of a refinement function: write a child with the vertices of the given labels,
compare two edges given by the labels of their end points, compare the distances of new vertices
(`apply6` only), fail an assertion, or return.  algorithm/detail/refine_tet.hpp:37-2101. -/
inductive RTree
  | done
  | fail
  | add (a b c d : Nat) (rest : RTree)
  | longer (a b c d : Nat) (yes no : RTree)
  | nearest (a b c d e f : Nat) (yes no : RTree)

/-- The call of a function with another array of vertices: label `i` of the function stands for entry
`i` of the array.  An entry never assigned would be label 10, which is not used.
algorithm/detail/refine_tet.hpp:85-105. -/
def RTree.on (ord : List Nat) : RTree → RTree
  | .done => .done
  | .fail => .fail
  | .add a b c d r => .add (ord.getD a 10) (ord.getD b 10) (ord.getD c 10) (ord.getD d 10) (r.on ord)
  | .longer a b c d y n =>
      .longer (ord.getD a 10) (ord.getD b 10) (ord.getD c 10) (ord.getD d 10) (y.on ord) (n.on ord)
  | .nearest a b c d e f y n =>
      .nearest (ord.getD a 10) (ord.getD b 10) (ord.getD c 10) (ord.getD d 10) (ord.getD e 10) (ord.getD f 10)
        (y.on ord) (n.on ord)

/-- Execution: the children written, none if an assertion fails.  `lg` is `stable_line_is_longer`,
`dist` the distance of two vertices of the refined mesh.  algorithm/detail/refine_tet.hpp:37-2101. -/
def RTree.eval {K : Type} [LE K] [DecidableLE K] (lg : Nat → Nat → Nat → Nat → Bool) (dist : Nat → Nat → K) :
    RTree → Option (List (List Nat))
  | .done => some []
  | .fail => none
  | .add a b c d r => (r.eval lg dist).map ([a, b, c, d] :: ·)
  | .longer a b c d y n => if lg a b c d then y.eval lg dist else n.eval lg dist
  | .nearest a b c d e f y n =>
      if dist a b ≤ dist c d ∧ dist a b ≤ dist e f then y.eval lg dist else n.eval lg dist

/-- `stable_line_is_longer`: compares the lines ab and cd by length and in case of equality by the
smaller and then by the greater id of the end points.  algorithm/detail/refine_tet.hpp:37-83. -/
def stableLonger {K : Type} [LT K] [LE K] [DecidableLT K] [DecidableLE K] (len : Nat → Nat → K)
    (id : Nat → Int) (a b c d : Nat) : Bool :=
  let p1 := if id a < id b then a else b
  let p2 := if id a < id b then b else a
  let q1 := if id c < id d then c else d
  let q2 := if id c < id d then d else c
  if len a b > len c d then true
  else if len a b ≥ len c d then
    if id p1 > id q1 then true
    else if id p1 = id q1 then
      if id p2 > id q2 then true else false
    else false
  else false

/-- Edge 01 is bisected.  algorithm/detail/refine_tet.hpp:256-259. -/
def tet1cells : RTree :=
  .add 0 4 2 3 <|
  .add 4 1 2 3 <|
  .done

/-- Refinement of a tetrahedron with one marked edge.
algorithm/detail/refine_tet.hpp:153-260. -/
def tet1 (m : Nat → Bool) : RTree :=
  if m 0 = true then (tet1cells.on [0, 1, 2, 3, 4])
  else if m 1 = true then (tet1cells.on [2, 0, 1, 3, 5])
  else if m 2 = true then (tet1cells.on [0, 3, 1, 2, 6])
  else if m 3 = true then (tet1cells.on [1, 2, 0, 3, 7])
  else if m 4 = true then (tet1cells.on [3, 1, 0, 2, 8])
  else if m 5 = true then (tet1cells.on [3, 2, 1, 0, 9])
  else .fail

/-- Two edges with a common vertex are bisected: 01 and 12.
algorithm/detail/refine_tet.hpp:284-300. -/
def tet21 : RTree :=
  .add 4 1 5 3 <|
  .longer 0 1 2 1
    (.add 0 4 2 3 <|
     .add 4 5 2 3 <|
     .done)
    (.add 0 4 5 3 <|
     .add 0 5 2 3 <|
     .done)

/-- Two opposite edges are bisected: 01 and 23.
algorithm/detail/refine_tet.hpp:316-324. -/
def tet22 : RTree :=
  .add 4 1 2 5 <|
  .add 4 1 5 3 <|
  .add 0 4 2 5 <|
  .add 0 4 5 3 <|
  .done

/-- Three edges with a common vertex are bisected: 01, 12 and 13.
algorithm/detail/refine_tet.hpp:598-672. -/
def tet31 : RTree :=
  .add 4 1 5 6 <|
  .longer 0 1 1 2
    (.longer 1 3 1 2
       (.longer 1 3 0 1
          (.add 0 6 2 3 <|
           .add 0 4 2 6 <|
           .add 4 5 2 6 <|
           .done)
          (.add 0 4 2 3 <|
           .add 3 4 2 6 <|
           .add 4 5 2 6 <|
           .done))
       (.longer 1 3 0 1
          (.fail)
          (.add 0 4 2 3 <|
           .add 4 5 2 3 <|
           .add 4 6 5 3 <|
           .done)))
    (.longer 1 3 1 2
       (.longer 1 3 0 1
          (.add 0 4 5 6 <|
           .add 0 6 5 2 <|
           .add 0 6 2 3 <|
           .done)
          (.fail))
       (.longer 1 3 0 1
          (.add 0 4 5 6 <|
           .add 0 6 5 3 <|
           .add 0 5 2 3 <|
           .done)
          (.add 0 4 5 3 <|
           .add 4 5 3 6 <|
           .add 0 5 2 3 <|
           .done)))

/-- The three edges of a face are bisected: 01, 12 and 02.
algorithm/detail/refine_tet.hpp:690-698. -/
def tet32 : RTree :=
  .add 0 4 6 3 <|
  .add 4 5 6 3 <|
  .add 4 1 5 3 <|
  .add 6 5 2 3 <|
  .done

/-- Three edges 01, 12, 03 are bisected.
algorithm/detail/refine_tet.hpp:715-759. -/
def tet33 : RTree :=
  .longer 0 1 0 3
    (.add 4 1 5 3 <|
     .longer 0 1 1 2
       (.add 0 4 2 6 <|
        .add 6 4 2 3 <|
        .add 4 5 2 3 <|
        .done)
       (.add 0 4 5 6 <|
        .add 0 5 2 6 <|
        .add 6 4 5 3 <|
        .add 6 5 2 3 <|
        .done))
    (.add 4 1 5 6 <|
     .add 6 1 5 3 <|
     .add 6 5 2 3 <|
     .longer 0 1 1 2
       (.add 0 4 2 6 <|
        .add 6 4 5 2 <|
        .done)
       (.add 0 4 5 6 <|
        .add 0 5 2 6 <|
        .done))

/-- Three edges 01, 12, 23 are bisected.
algorithm/detail/refine_tet.hpp:775-821. -/
def tet34 : RTree :=
  .longer 0 1 1 2
    (.add 0 4 2 6 <|
     .add 0 4 6 3 <|
     .add 4 5 2 6 <|
     .longer 1 2 2 3
       (.add 4 1 5 3 <|
        .add 4 5 6 3 <|
        .done)
       (.add 4 1 6 3 <|
        .add 4 1 5 6 <|
        .done))
    (.longer 1 2 2 3
       (.add 0 4 5 3 <|
        .add 0 5 6 3 <|
        .add 0 5 2 6 <|
        .add 4 1 5 3 <|
        .done)
       (.add 0 4 5 6 <|
        .add 0 4 6 3 <|
        .add 0 5 2 6 <|
        .add 4 1 5 6 <|
        .add 4 1 6 3 <|
        .done))

/-- Four edges are bisected, the others have a common vertex: 02, 13, 23, 03.
algorithm/detail/refine_tet.hpp:1175-1225. -/
def tet41 : RTree :=
  .longer 0 3 1 3
    (.add 0 1 4 7 <|
     .add 7 5 6 3 <|
     .longer 1 3 2 3
       (.add 7 1 4 5 <|
        .add 7 5 4 6 <|
        .add 1 2 4 5 <|
        .add 4 5 2 6 <|
        .done)
       (.add 7 1 6 5 <|
        .add 7 1 4 6 <|
        .add 1 2 4 6 <|
        .done))
    (.add 0 1 4 5 <|
     .add 0 5 4 7 <|
     .add 7 5 6 3 <|
     .add 7 5 4 6 <|
     .longer 1 3 2 3
       (.add 1 2 4 5 <|
        .add 4 5 2 6 <|
        .done)
       (.add 5 1 4 6 <|
        .add 4 1 2 6 <|
        .done))

/-- Four edges are bisected, the others are opposite: 12, 02, 03, 13.
algorithm/detail/refine_tet.hpp:1242-1455. -/
def tet42 : RTree :=
  .longer 0 3 1 3
    (.longer 1 3 1 2
       (.longer 0 2 0 3
          (.longer 0 2 1 2
             (.add 0 1 5 6 <|
              .add 6 1 5 7 <|
              .add 1 4 5 7 <|
              .add 4 2 5 7 <|
              .add 6 7 5 3 <|
              .add 7 2 5 3 <|
              .done)
             (.fail))
          (.longer 0 2 1 2
             (.add 0 1 5 6 <|
              .add 1 4 5 6 <|
              .add 1 4 6 7 <|
              .add 7 4 6 2 <|
              .add 4 2 5 6 <|
              .add 6 7 2 3 <|
              .done)
             (.add 0 1 4 6 <|
              .add 0 4 5 6 <|
              .add 6 1 4 7 <|
              .add 6 7 4 2 <|
              .add 6 4 5 2 <|
              .add 6 7 2 3 <|
              .done)))
       (.longer 0 2 0 3
          (.longer 0 2 1 2
             (.add 0 1 5 6 <|
              .add 6 1 5 7 <|
              .add 1 4 5 7 <|
              .add 5 4 2 3 <|
              .add 5 7 4 3 <|
              .add 6 7 5 3 <|
              .done)
             (.add 0 1 4 6 <|
              .add 6 1 4 7 <|
              .add 6 7 4 3 <|
              .add 6 4 5 3 <|
              .add 0 4 5 6 <|
              .add 5 4 2 3 <|
              .done))
          (.longer 0 2 1 2
             (.add 0 1 5 6 <|
              .add 1 4 5 6 <|
              .add 1 4 6 7 <|
              .add 7 4 6 3 <|
              .add 4 2 5 6 <|
              .add 6 4 2 3 <|
              .done)
             (.add 0 1 4 6 <|
              .add 6 1 4 7 <|
              .add 6 7 4 3 <|
              .add 0 4 5 6 <|
              .add 5 4 2 6 <|
              .add 6 4 2 3 <|
              .done))))
    (.longer 1 3 1 2
       (.longer 0 2 0 3
          (.longer 0 2 1 2
             (.add 0 1 5 7 <|
              .add 0 7 5 6 <|
              .add 1 4 5 7 <|
              .add 5 4 2 7 <|
              .add 5 7 2 3 <|
              .add 6 7 5 3 <|
              .done)
             (.add 0 1 4 7 <|
              .add 0 4 5 7 <|
              .add 0 7 5 6 <|
              .add 6 7 5 3 <|
              .add 5 4 2 7 <|
              .add 5 7 2 3 <|
              .done))
          (.longer 0 2 1 2
             (.add 0 1 5 7 <|
              .add 1 4 5 7 <|
              .add 0 7 5 6 <|
              .add 4 2 5 7 <|
              .add 7 2 5 6 <|
              .add 7 2 6 3 <|
              .done)
             (.add 0 1 4 7 <|
              .add 0 7 4 6 <|
              .add 0 4 5 6 <|
              .add 6 7 4 2 <|
              .add 6 4 5 2 <|
              .add 6 7 2 3 <|
              .done)))
       (.longer 0 2 0 3
          (.longer 0 2 1 2
             (.add 0 1 5 7 <|
              .add 0 7 5 6 <|
              .add 6 7 5 3 <|
              .add 1 4 5 7 <|
              .add 7 4 5 3 <|
              .add 4 2 5 3 <|
              .done)
             (.add 0 1 4 7 <|
              .add 0 4 5 7 <|
              .add 0 7 5 6 <|
              .add 6 7 5 3 <|
              .add 7 4 5 3 <|
              .add 4 2 5 3 <|
              .done))
          (.longer 0 2 1 2
             (.fail)
             (.add 0 1 4 7 <|
              .add 0 7 4 6 <|
              .add 0 4 5 6 <|
              .add 6 7 4 3 <|
              .add 6 4 2 3 <|
              .add 5 4 2 6 <|
              .done))))

/-- All edges but 01 are bisected: 12, 02, 03, 13, 23.
algorithm/detail/refine_tet.hpp:1757-1804. -/
def tet51 : RTree :=
  .add 6 7 8 3 <|
  .add 5 4 2 8 <|
  .longer 0 3 1 3
    (.add 6 4 5 8 <|
     .add 6 7 4 8 <|
     .add 1 4 6 7 <|
     .longer 0 2 1 2
       (.add 0 1 5 6 <|
        .add 1 4 5 6 <|
        .done)
       (.add 0 1 4 6 <|
        .add 0 4 5 6 <|
        .done))
    (.longer 0 2 1 2
       (.add 0 1 5 7 <|
        .add 0 7 5 6 <|
        .add 1 4 5 7 <|
        .add 7 4 5 8 <|
        .add 6 7 5 8 <|
        .done)
       (.add 0 1 4 7 <|
        .add 0 7 4 6 <|
        .add 0 4 5 6 <|
        .add 6 4 5 8 <|
        .add 6 7 4 8 <|
        .done))

/-- Refinement of a tetrahedron with 2 marked edges: selection of the case and of the order of
vertices.  `m i` is the mark of edge `i`.  algorithm/detail/refine_tet.hpp:332-577. -/
def tet2 (m : Nat → Bool) : RTree :=
  if m 0 = true then
    (if m 1 = true then tet21.on [2, 0, 1, 3, 5, 4]
    else if m 2 = true then tet21.on [1, 0, 3, 2, 4, 6]
    else if m 3 = true then tet21.on [0, 1, 2, 3, 4, 7]
    else if m 4 = true then tet21.on [3, 1, 0, 2, 8, 4]
    else if m 5 = true then tet22.on [0, 1, 2, 3, 4, 9]
    else .fail)
  else if m 1 = true then
    (if m 2 = true then tet21.on [3, 0, 2, 1, 6, 5]
    else if m 3 = true then tet21.on [1, 2, 0, 3, 7, 5]
    else if m 4 = true then tet22.on [2, 0, 1, 3, 5, 8]
    else if m 5 = true then tet21.on [0, 2, 3, 1, 5, 9]
    else .fail)
  else if m 2 = true then
    (if m 3 = true then tet22.on [3, 0, 2, 1, 6, 7]
    else if m 4 = true then tet21.on [0, 3, 1, 2, 6, 8]
    else if m 5 = true then tet21.on [2, 3, 0, 1, 9, 6]
    else .fail)
  else if m 3 = true then
    (if m 4 = true then tet21.on [2, 1, 3, 0, 7, 8]
    else if m 5 = true then tet21.on [3, 2, 1, 0, 9, 7]
    else .fail)
  else if m 4 = true then
    (if m 5 = true then tet21.on [1, 3, 2, 0, 8, 9]
    else .fail)
  else .fail

/-- Refinement of a tetrahedron with 3 marked edges: selection of the case and of the order of
vertices.  `m i` is the mark of edge `i`.  algorithm/detail/refine_tet.hpp:829-1154. -/
def tet3 (m : Nat → Bool) : RTree :=
  if m 0 = true then
    (if m 1 = true then
      (if m 2 = true then tet31.on [2, 0, 1, 3, 5, 4, 6]
      else if m 3 = true then tet32.on [2, 0, 1, 3, 5, 4, 7]
      else if m 4 = true then tet34.on [2, 0, 1, 3, 5, 4, 8]
      else if m 5 = true then tet33.on [2, 0, 1, 3, 5, 4, 9]
      else .fail)
    else if m 2 = true then
      (if m 3 = true then tet33.on [1, 0, 3, 2, 4, 6, 7]
      else if m 4 = true then tet32.on [1, 0, 3, 2, 4, 6, 8]
      else if m 5 = true then tet34.on [1, 0, 3, 2, 4, 6, 9]
      else .fail)
    else if m 3 = true then
      (if m 4 = true then tet31.on [0, 1, 2, 3, 4, 7, 8]
      else if m 5 = true then tet34.on [0, 1, 2, 3, 4, 7, 9]
      else .fail)
    else if m 4 = true then
      (if m 5 = true then tet33.on [3, 1, 0, 2, 8, 4, 9]
      else .fail)
    else .fail)
  else if m 1 = true then
    (if m 2 = true then
      (if m 3 = true then tet34.on [3, 0, 2, 1, 6, 5, 7]
      else if m 4 = true then tet33.on [3, 0, 2, 1, 6, 5, 8]
      else if m 5 = true then tet32.on [3, 0, 2, 1, 6, 5, 9]
      else .fail)
    else if m 3 = true then
      (if m 4 = true then tet33.on [1, 2, 0, 3, 7, 5, 8]
      else if m 5 = true then tet31.on [1, 2, 0, 3, 7, 5, 9]
      else .fail)
    else if m 4 = true then
      (if m 5 = true then tet34.on [1, 3, 2, 0, 8, 9, 5]
      else .fail)
    else .fail)
  else if m 2 = true then
    (if m 3 = true then
      (if m 4 = true then tet34.on [0, 3, 1, 2, 6, 8, 7]
      else if m 5 = true then tet33.on [3, 2, 1, 0, 9, 7, 6]
      else .fail)
    else if m 4 = true then
      (if m 5 = true then tet31.on [0, 3, 1, 2, 6, 8, 9]
      else .fail)
    else .fail)
  else if m 3 = true then
    (if m 4 = true then
      (if m 5 = true then tet32.on [2, 1, 3, 0, 7, 8, 9]
      else .fail)
    else .fail)
  else .fail

/-- Refinement of a tetrahedron with 4 marked edges: selection of the case and of the order of
vertices.  `m i` is the mark of edge `i`.  algorithm/detail/refine_tet.hpp:1462-1736. -/
def tet4 (m : Nat → Bool) : RTree :=
  if m 0 = false then
    (if m 1 = false then tet41.on [2, 0, 1, 3, 7, 6, 8, 9]
    else if m 2 = false then tet41.on [1, 0, 3, 2, 8, 5, 9, 7]
    else if m 3 = false then tet41.on [0, 1, 2, 3, 5, 8, 9, 6]
    else if m 4 = false then tet41.on [3, 1, 0, 2, 6, 7, 5, 9]
    else if m 5 = false then tet42.on [0, 1, 2, 3, 7, 5, 6, 8]
    else .fail)
  else if m 1 = false then
    (if m 2 = false then tet41.on [3, 0, 2, 1, 9, 4, 7, 8]
    else if m 3 = false then tet41.on [1, 2, 0, 3, 4, 9, 6, 8]
    else if m 4 = false then tet42.on [2, 0, 1, 3, 4, 7, 9, 6]
    else if m 5 = false then tet41.on [0, 2, 3, 1, 6, 7, 8, 4]
    else .fail)
  else if m 2 = false then
    (if m 3 = false then tet42.on [3, 0, 2, 1, 5, 9, 8, 4]
    else if m 4 = false then tet41.on [0, 3, 1, 2, 4, 9, 7, 5]
    else if m 5 = false then tet41.on [2, 3, 0, 1, 5, 8, 4, 7]
    else .fail)
  else if m 3 = false then
    (if m 4 = false then tet41.on [2, 1, 3, 0, 9, 4, 6, 5]
    else if m 5 = false then tet41.on [3, 2, 1, 0, 8, 5, 4, 6]
    else .fail)
  else if m 4 = false then
    (if m 5 = false then tet41.on [1, 3, 2, 0, 7, 6, 5, 4]
    else .fail)
  else .fail

/-- Refinement of a tetrahedron with 5 marked edges: selection of the case and of the order of
vertices.  `m i` is the mark of edge `i`.  algorithm/detail/refine_tet.hpp:1810-1937. -/
def tet5 (m : Nat → Bool) : RTree :=
  if m 0 = false then tet51.on [0, 1, 2, 3, 7, 5, 6, 8, 9]
  else if m 1 = false then tet51.on [2, 0, 1, 3, 4, 7, 9, 6, 8]
  else if m 2 = false then tet51.on [0, 3, 1, 2, 8, 4, 5, 9, 7]
  else if m 3 = false then tet51.on [1, 2, 0, 3, 5, 4, 8, 9, 6]
  else if m 4 = false then tet51.on [1, 3, 2, 0, 9, 7, 4, 6, 5]
  else if m 5 = false then tet51.on [3, 2, 1, 0, 7, 8, 6, 5, 4]
  else .fail

/-- Refinement of a tetrahedron without marked edges.  algorithm/detail/refine_tet.hpp:124-147. -/
def tet0 : RTree := .add 0 1 2 3 <| .done

/-- Refinement of a tetrahedron with all edges marked: four corners, and the octahedron between them
cut along its shortest diagonal.  algorithm/detail/refine_tet.hpp:1950-2053. -/
def tet6 : RTree :=
  .add 0 4 5 6 <|
  .add 1 7 4 8 <|
  .add 2 5 7 9 <|
  .add 3 8 6 9 <|
  .nearest 5 8 6 7 4 9
    (.add 4 8 5 6 <|
     .add 4 8 7 5 <|
     .add 7 8 9 5 <|
     .add 8 6 9 5 <|
     .done)
    (.nearest 6 7 5 8 4 9
      (.add 4 7 6 8 <|
       .add 4 7 5 6 <|
       .add 7 9 6 8 <|
       .add 7 9 5 6 <|
       .done)
      (.add 4 9 6 8 <|
       .add 4 9 5 6 <|
       .add 4 7 9 8 <|
       .add 4 7 5 9 <|
       .done))

/-- The number of marked edges of a tetrahedron.  algorithm/detail/refine_tet.hpp:2080-2087. -/
def markCount (m : Nat → Bool) : Nat :=
  (if m 0 then 1 else 0) + (if m 1 then 1 else 0) + (if m 2 then 1 else 0) + (if m 3 then 1 else 0) +
  (if m 4 then 1 else 0) + (if m 5 then 1 else 0)

/-- The statements executed for a tetrahedron with marks `m` of its edges.
algorithm/detail/refine_tet.hpp:2070-2101. -/
def tetTree (m : Nat → Bool) : RTree :=
  match markCount m with
  | 0 => tet0
  | 1 => tet1 m
  | 2 => tet2 m
  | 3 => tet3 m
  | 4 => tet4 m
  | 5 => tet5 m
  | 6 => tet6
  | _ => .done

/-- The children of a tetrahedron as lists of labels.  `len` is the length of the line between two
vertices of the cell, `id` the ids of the vertices, `dist` the distance of two vertices of the
refined mesh.  algorithm/detail/refine_tet.hpp:2070-2101. -/
def refineTet {K : Type} [LT K] [LE K] [DecidableLT K] [DecidableLE K] (len dist : Nat → Nat → K)
    (id : Nat → Int) (m : Nat → Bool) : Option (List (List Nat)) :=
  (tetTree m).eval (stableLonger len id) dist

end VG
