import Verif.Model.CopySeg
import Verif.Model.Voronoi

/-!
Model of the writer for Comsol files, `mphtxt_writer`: what numbers are written, not their text.
-/

namespace VG

variable {P : Type}

/-- What the writer is given: mesh and records of the segmentation, the views of the segments with their caches, and
the ids of the segments in the order of iteration.  Coordinates enter through two decisions about handles: whether the
normals of two triangles count as parallel, and whether the normal of a triangle points away from a cell; see
`normalsParallel` and `pointsAway`.  io/mphtxt_writer.hpp:152-160. -/
structure MphSrc (P : Type) where
  st : SegState P
  seg : Nat → VC
  gs : List Nat
  par : Nat → Nat → Bool
  away : Nat → Nat → Bool

/-- Normal of the triangle `t`.  algorithm/geometry.hpp:67-82. -/
noncomputable def Mesh.triNormal (m : Mesh (Fin 3 → ℝ)) (t : Nat) : Fin 3 → ℝ :=
  normalTriangle (m.at0 ((m.vertsOf 2 t).getD 0 0)) (m.at0 ((m.vertsOf 2 t).getD 1 0)) (m.at0 ((m.vertsOf 2 t).getD 2 0))

open Classical in
/-- `std::abs(dot) > (1.0-1e-6) * norm_2(normal) * norm_2(neighbor_normal)`.  io/mphtxt_writer.hpp:84-88. -/
noncomputable def normalsParallel (m : Mesh (Fin 3 → ℝ)) (t u : Nat) : Bool :=
  decide ((1 - 1 / 1000000) * euclNorm (m.triNormal t) * euclNorm (m.triNormal u)
    < |innerProd (m.triNormal t) (m.triNormal u)|)

open Classical in
/-- `inner_prod(triangle_center-tetrahedron_center, triangle_normal) > 0`.  io/mphtxt_writer.hpp:276-289. -/
noncomputable def pointsAway (m : Mesh (Fin 3 → ℝ)) (t c : Nat) : Bool :=
  decide (0 < innerProd (m.centroidOf 2 t - m.centroidOf 3 c) (m.triNormal t))

/-- `is_boundary(segment, triangle)`.  The answers of the queries do not depend on the queries made before, so the
caches they fill are not carried along here.  algorithm/boundary.hpp:238-262. -/
def MphSrc.isBd (S : MphSrc P) (g t : Nat) : Bool := ((S.seg g).isBoundary (simplexTopo 3) S.st.mesh 2 t).2

/-- The neighbors of a triangle in a segment across its vertices.  io/mphtxt_writer.hpp:68-72. -/
def MphSrc.nbs (S : MphSrc P) (g t : Nat) : Except Fail (List Nat) :=
  match ((S.seg g).neighbors S.st.mesh 2 0 t).2 with
  | some l => .ok l
  | none => .error .thrown

/-- The tetrahedra of a segment at a triangle.  io/mphtxt_writer.hpp:279-281. -/
def MphSrc.cells (S : MphSrc P) (g t : Nat) : Except Fail (List Nat) :=
  match ((S.seg g).coboundary S.st.mesh 2 3 t).2 with
  | some l => .ok l
  | none => .error .thrown

/-- `f` for each entry of a list, until one fails.  The loops in io/mphtxt_writer.hpp:60-140. -/
def loopE {A B : Type} (f : A → B → Except Fail A) : A → List B → Except Fail A
  | a, [] => .ok a
  | a, x :: l =>
    match f a x with
    | .ok a' => loopE f a' l
    | .error e => .error e

/-- `mark_planar_neighbors`: a neighbor with index -1 which passes the tests `ok` gets the index `c` and is continued
with.  `key` is the id of a triangle.  The first argument bounds the depth of the recursion.
io/mphtxt_writer.hpp:60-94. -/
def markFrom (nbs : Nat → Except Fail (List Nat)) (key : Nat → Int) (ok : Nat → Nat → Bool) (c : Int) :
    Nat → (Int → Int) → Nat → Except Fail (Int → Int)
  | 0, _, _ => .error .undefined
  | f + 1, mk, t =>
    match nbs t with
    | .error e => .error e
    | .ok l =>
      loopE (fun mk u =>
        if mk (key u) ≠ -1 then .ok mk
        else if ok t u then markFrom nbs key ok c f (upd mk (key u) c) u
        else .ok mk) mk l

/-- The tests of `mark_planar_neighbors`: on the boundary of the segment, in the same segments as the triangle it
started with, and parallel.  io/mphtxt_writer.hpp:77-88. -/
def MphSrc.joins (S : MphSrc P) (g : Nat) (sids : List Nat) (t u : Nat) : Bool :=
  S.isBd g u && segIdsEqual sids (S.st.segmentIds 2 u) && S.par t u

/-- One triangle of a segment in `mark_segment_hull_contacts`.  io/mphtxt_writer.hpp:120-136. -/
def MphSrc.contactStep (S : MphSrc P) (g : Nat) (acc : (Int → Int) × Int) (t : Nat) : Except Fail ((Int → Int) × Int) :=
  if S.isBd g t = true ∧ acc.1 (S.st.mesh.eid 2 t) = -1 then
    match markFrom (S.nbs g) (S.st.mesh.eid 2) (S.joins g (S.st.segmentIds 2 t)) acc.2 (S.st.mesh.count 2)
        (upd acc.1 (S.st.mesh.eid 2 t) acc.2) t with
    | .ok ix => .ok (ix, acc.2 + 1)
    | .error e => .error e
  else .ok acc

/-- `mark_segment_hull_contacts`: the indices by triangle id, and their number.  Entries of the field nothing was
assigned to are zero.  io/mphtxt_writer.hpp:99-140. -/
def MphSrc.contacts (S : MphSrc P) : Except Fail ((Int → Int) × Int) :=
  loopE (fun acc g => loopE (S.contactStep g) acc ((S.seg g).content 2))
    (fun x => if x ∈ (S.st.all 2).map (S.st.mesh.eid 2) then -1 else 0, 0) S.gs

/-- An entry of `used_triangles`.  io/mphtxt_writer.hpp:38-50. -/
structure TriInfo where
  tri : Nat
  up : Int
  down : Int
deriving DecidableEq, Repr

/-- Changes the entry of a `std::map` (ordered by key); it is made if there is none.
io/mphtxt_writer.hpp:272-274. -/
def touchInfo (x : Int) (t : Nat) (f : TriInfo → TriInfo) : List (Int × TriInfo) → List (Int × TriInfo)
  | [] => [(x, f ⟨t, 0, 0⟩)]
  | (y, j) :: l =>
    if x < y then (x, f ⟨t, 0, 0⟩) :: (y, j) :: l
    else if x = y then (y, f j) :: l
    else (y, j) :: touchInfo x t f l

/-- One triangle of a segment: the segment is entered on one of the two sides.  The first of the tetrahedra is
taken, also if there are several.  io/mphtxt_writer.hpp:268-310. -/
def MphSrc.sideStep (S : MphSrc P) (g : Nat) (used : List (Int × TriInfo)) (t : Nat) :
    Except Fail (List (Int × TriInfo)) :=
  if S.isBd g t then
    match S.cells g t with
    | .error e => .error e
    | .ok [] => .error .undefined
    | .ok (c :: _) =>
      .ok (touchInfo (S.st.mesh.eid 2 t) t
        (fun i => if S.away t c then { i with up := (g : Int) + 1 } else { i with down := (g : Int) + 1 }) used)
  else .ok used

/-- `used_triangles`.  io/mphtxt_writer.hpp:256-311. -/
def MphSrc.used (S : MphSrc P) : Except Fail (List (Int × TriInfo)) :=
  loopE (fun used g => loopE (S.sideStep g) used ((S.seg g).content 2)) [] S.gs

/-- `vertex_index_map`: the position of a vertex by its id; `operator[]` of the map gives zero for other ids.
io/mphtxt_writer.hpp:224-237. -/
def vertexIndex (m : Mesh P) : Int → Nat :=
  (List.range m.verts.length).foldl (fun f i => upd f (m.vid i) i) (fun _ => 0)

/-- What is written: the points; the triangles by positions of points; their contact indices; the segments on their
two sides; the tetrahedra by positions of points; their segments.  The numbers of lines, written before each of these,
are their lengths.  io/mphtxt_writer.hpp:158-410. -/
structure MphFile (P : Type) where
  points : List P
  tris : List (List Nat)
  contacts : List Int
  sides : List (Int × Int)
  tets : List (List Nat)
  domains : List Int

/-- The segment of each cell: the first of its segments.  io/mphtxt_writer.hpp:398-406. -/
def MphSrc.domains (S : MphSrc P) : List Nat → Except Fail (List Int)
  | [] => .ok []
  | c :: cs =>
    match S.st.segmentIds 3 c with
    | [] => .error .undefined
    | g :: _ =>
      match S.domains cs with
      | .error e => .error e
      | .ok l => .ok (((g : Int) + 1) :: l)

/-- `mphtxt_writer::operator()`.  io/mphtxt_writer.hpp:158-410.  The loss of digits of the coordinates is left out. -/
def MphSrc.write (S : MphSrc P) : Except Fail (MphFile P) :=
  match S.used with
  | .error e => .error e
  | .ok used =>
    match S.contacts with
    | .error e => .error e
    | .ok ix =>
      match S.domains (List.range (S.st.mesh.count 3)) with
      | .error e => .error e
      | .ok doms => .ok
        { points := S.st.mesh.verts.map (·.pt)
          tris := used.map (fun x => (S.st.mesh.vertsOf 2 x.2.tri).map (fun v => vertexIndex S.st.mesh (S.st.mesh.vid v)))
          contacts := used.map (fun x => ix.1 (S.st.mesh.eid 2 x.2.tri))
          sides := used.map (fun x => (x.2.up, x.2.down))
          tets := (List.range (S.st.mesh.count 3)).map
            (fun c => (S.st.mesh.vertsOf 3 c).map (fun v => vertexIndex S.st.mesh (S.st.mesh.vid v)))
          domains := doms }

end VG
