import Verif.Model.GeometryReal
import Verif.Model.Transform

/-!
Model of `apply_voronoi`: interface areas of edges, box volumes of vertices and edges, and the contributions of the
cells to them, for lines and triangles.
-/

namespace VG

/-- The three quantities: interface area of an edge, box volume of a vertex, box volume of an edge.  Each has an
accessor for the total and one for the contributions of the cells.  algorithm/voronoi.hpp:898-925. -/
inductive VoroQ where
  | area
  | vbox
  | ebox
deriving DecidableEq, Repr

/-- One statement changing what an accessor refers to: `total(s) += x`, `total(s) = x`,
`contributions(s).push_back((c, x))`, `voronoi_unique_quantity_update(contributions(s), (c, x))`.  The function reads no
accessor, so it is described by the sequence of these statements.  algorithm/voronoi.hpp:55-890. -/
inductive VoroWrite where
  | add (q : VoroQ) (s : Nat) (x : ℝ)
  | set (q : VoroQ) (s : Nat) (x : ℝ)
  | push (q : VoroQ) (s c : Nat) (x : ℝ)
  | upd (q : VoroQ) (s c : Nat) (x : ℝ)

/-- The values behind the accessors, by handle (accessors find them by id, accessor.hpp; ids are unique). -/
structure VoroSt where
  total : VoroQ → Nat → ℝ
  parts : VoroQ → Nat → List (Nat × ℝ)

/-- Accessors nothing was written to: numbers zero, containers empty (value-initialised by the container behind the
accessor, see `Field`; accessor.hpp:218-255, 345-380). -/
def VoroSt.fresh : VoroSt := ⟨fun _ _ => 0, fun _ _ => []⟩

/-- `voronoi_unique_quantity_update`.  algorithm/voronoi.hpp:55-78. -/
noncomputable def uniqueUpdate (c : Nat) (x : ℝ) : List (Nat × ℝ) → List (Nat × ℝ)
  | [] => [(c, x)]
  | (c', y) :: l => if c' = c then (c', y + x) :: l else (c', y) :: uniqueUpdate c x l

/-- Effect of one statement, see `VoroWrite`.  algorithm/voronoi.hpp:55-78. -/
noncomputable def VoroSt.write (st : VoroSt) : VoroWrite → VoroSt
  | .add q s x => { st with total := fun q' s' => if q' = q ∧ s' = s then st.total q s + x else st.total q' s' }
  | .set q s x => { st with total := fun q' s' => if q' = q ∧ s' = s then x else st.total q' s' }
  | .push q s c x => { st with parts := fun q' s' => if q' = q ∧ s' = s then st.parts q s ++ [(c, x)] else st.parts q' s' }
  | .upd q s c x =>
    { st with parts := fun q' s' => if q' = q ∧ s' = s then uniqueUpdate c x (st.parts q s) else st.parts q' s' }

/-- The handles of the two end points of an edge.  algorithm/voronoi.hpp:113-137. -/
def Mesh.ends {P : Type} (m : Mesh P) (e : Nat) : Nat × Nat := ((m.vertsOf 1 e).getD 0 0, (m.vertsOf 1 e).getD 1 0)

variable {d : Nat}

/-- Point of a vertex (handles of vertices of elements always exist).  accessor.hpp:218-255. -/
noncomputable def Mesh.at0 (m : Mesh (Fin d → ℝ)) (v : Nat) : Fin d → ℝ := (m.ptOf v).getD 0

/-- Coordinate `i`; only coordinates the point has are asked for.  storage/static_array.hpp:227-240. -/
noncomputable def co (p : Fin d → ℝ) (i : Nat) : ℝ := if h : i < d then p ⟨i, h⟩ else 0

/-! ### Lines -/

/-- The statements for one line.  `volume(*cit)` is the distance of the end points.  algorithm/voronoi.hpp:113-137. -/
noncomputable def voroLine (m : Mesh (Fin d → ℝ)) (c : Nat) : List VoroWrite :=
  let a := (m.ends c).1
  let b := (m.ends c).2
  let x := volumeLine (m.at0 a) (m.at0 b) / 2
  [.set .area c 1, .push .area c c 1]
    ++ [a, b].flatMap (fun v => [.add .vbox v x, .push .vbox v c x])
    ++ [.set .ebox c (0 + x + x), .push .ebox c c (0 + x + x)]

/-- `apply_voronoi` for a mesh of lines (simplex or hypercube).  algorithm/voronoi.hpp:80-165. -/
noncomputable def Mesh.voronoiLines (m : Mesh (Fin d → ℝ)) (v : VoroSt) : VoroSt :=
  (List.range (m.count 1)).foldl (fun v c => (voroLine m c).foldl VoroSt.write v) v

/-! ### Triangles -/

/-- `circumcenter` and `spanned_volume` of triangles for points of dimension `d`.
algorithm/circumcenter.hpp:84-176, algorithm/spanned_volume.hpp:281-286. -/
structure VoroGeo (d : Nat) where
  circ : (Fin d → ℝ) → (Fin d → ℝ) → (Fin d → ℝ) → Fin d → ℝ
  span : (Fin d → ℝ) → (Fin d → ℝ) → (Fin d → ℝ) → ℝ

/-- Points in the plane.  algorithm/circumcenter.hpp:84-115, algorithm/spanned_volume.hpp:52-78. -/
noncomputable def geo2 : VoroGeo 2 := ⟨circumTriangle2, spannedTriangle⟩

/-- Points in space.  algorithm/circumcenter.hpp:150-176, algorithm/spanned_volume.hpp:79-125. -/
noncomputable def geo3 : VoroGeo 3 := ⟨circumTriangle3, spannedTriangle3⟩

/-- `point_to_local_coordinates`; `none` when the determinant is zero and the coordinates are not numbers.
algorithm/voronoi.hpp:253-275. -/
noncomputable def localCoords (p a b c : Fin d → ℝ) : Option (ℝ × ℝ) :=
  let v0 := b - a
  let v1 := c - a
  let vp := p - a
  let det := co v0 0 * co v1 1 - co v0 1 * co v1 0
  if det = 0 then none
  else some ((co v1 1 * co vp 0 - co v1 0 * co vp 1) / det, (co v0 0 * co vp 1 - co v0 1 * co vp 0) / det)

/-- `line_intersection` (without the warning); coordinates other than the first two are zero.
algorithm/voronoi.hpp:279-294, point.hpp:601-604. -/
noncomputable def lineIntersection (a b c d' : Fin d → ℝ) : Fin d → ℝ :=
  let det := (co a 0 - co b 0) * (co c 1 - co d' 1) - (co a 1 - co b 1) * (co c 0 - co d' 0)
  let px := (co a 0 * co b 1 - co a 1 * co b 0) * (co c 0 - co d' 0)
    - (co a 0 - co b 0) * (co c 0 * co d' 1 - co c 1 * co d' 0)
  let py := (co a 0 * co b 1 - co a 1 * co b 0) * (co c 1 - co d' 1)
    - (co a 1 - co b 1) * (co c 0 * co d' 1 - co c 1 * co d' 0)
  fun i => if i.1 = 0 then px / det else if i.1 = 1 then py / det else 0

/-- Which edge of the triangle (by position) the circumcenter lies behind, and the position of the opposite vertex;
`none`: the circumcenter is inside.  Comparisons with something that is not a number are false.
algorithm/voronoi.hpp:348-377. -/
noncomputable def crossedEdge (p a b c : Fin d → ℝ) : Option (Nat × Nat) :=
  match localCoords p a b c with
  | none => none
  | some (x, y) =>
    if x < 0 ∨ y < 0 ∨ x + y > 1 then some (if y < 0 then (0, 2) else if x < 0 then (1, 1) else (2, 0)) else none

/-- The statements for one edge of a triangle that contains its circumcenter `o`.  algorithm/voronoi.hpp:538-565. -/
noncomputable def voroInside (G : VoroGeo d) (m : Mesh (Fin d → ℝ)) (o : Fin d → ℝ) (c e : Nat) : List VoroWrite :=
  let a := (m.ends e).1
  let b := (m.ends e).2
  let mid := circumLine (m.at0 a) (m.at0 b)
  let x := |signedLine o mid|
  let box := fun v => G.span o mid (m.at0 v)
  [.add .area e x, .upd .area e c x]
    ++ [a, b].flatMap (fun v => [.add .vbox v (box v), .upd .vbox v c (box v)])
    ++ [.add .ebox e (0 + box a + box b), .upd .ebox e c (0 + box a + box b)]

/-- The statements for an edge `e` other than the crossed one: `w` the opposite vertex, `p`, `q` the end points of the
crossed edge, `other` the triangle on the other side of it.  algorithm/voronoi.hpp:411-499. -/
noncomputable def voroOutside (G : VoroGeo d) (m : Mesh (Fin d → ℝ)) (o : Fin d → ℝ) (c e w : Nat) (p q : Fin d → ℝ)
    (other : Option Nat) : List VoroWrite :=
  let a := (m.ends e).1
  let b := (m.ends e).2
  let mid := circumLine (m.at0 a) (m.at0 b)
  let cut := lineIntersection mid o p q
  let cutW := lineIntersection (m.at0 w) o p q
  let x := |signedLine cut mid|
  let y := |signedLine cut o|
  let box := fun v => G.span cut mid (m.at0 v)
  [.add .area e x, .upd .area e c x, .add .area e y]
    ++ (match other with
        | some t => [.upd .area e t y]
        | none => [])
    ++ [a, b].flatMap (fun v =>
        [.add .vbox v (box v), .upd .vbox v c (box v)]
          ++ (if v ≠ w then
                match other with
                | some t =>
                  let z := G.span o cut (m.at0 v)
                  [.add .vbox v z, .upd .vbox v t z, .add .ebox e z, .upd .ebox e t z]
                | none => []
              else
                let z := G.span cutW cut (m.at0 v)
                [.add .vbox v z, .upd .vbox v c z, .add .ebox e z, .upd .ebox e c z]
                  ++ (match other with
                      | some t =>
                        let z := G.span o cut cutW
                        [.add .vbox v z, .upd .vbox v t z, .add .ebox e z, .upd .ebox e t z]
                      | none => [])))
    ++ [.add .ebox e (0 + box a + box b), .upd .ebox e c (0 + box a + box b)]

/-- The statements for the crossed edge: the triangle on the other side gets negative contributions.
algorithm/voronoi.hpp:500-526. -/
noncomputable def voroCrossed (G : VoroGeo d) (m : Mesh (Fin d → ℝ)) (o : Fin d → ℝ) (e : Nat) (other : Option Nat) :
    List VoroWrite :=
  match other with
  | none => []
  | some t =>
    let a := (m.ends e).1
    let b := (m.ends e).2
    let mid := circumLine (m.at0 a) (m.at0 b)
    let x := |signedLine o mid|
    let box := fun v => G.span o mid (m.at0 v)
    [.add .area e (-x), .upd .area e t (-1 * x)]
      ++ [a, b].flatMap (fun v => [.add .vbox v (-box v), .upd .vbox v t (-1 * box v)])
      ++ [.add .ebox e (-(0 + box a + box b)), .upd .ebox e t (-1 * (0 + box a + box b))]

/-- The statements for one triangle, with the coboundary query for the crossed edge; `none`: the triangle does not have
three vertices and edges.  algorithm/voronoi.hpp:343-570. -/
noncomputable def voroTriangle (G : VoroGeo d) (st : MState (Fin d → ℝ)) (c : Nat) :
    Option (MState (Fin d → ℝ) × List VoroWrite) :=
  let m := st.mesh
  match m.vertsOf 2 c, m.bndOf 2 c 1 with
  | [v0, v1, v2], [e0, e1, e2] =>
    let o := G.circ (m.at0 v0) (m.at0 v1) (m.at0 v2)
    match crossedEdge o (m.at0 v0) (m.at0 v1) (m.at0 v2) with
    | none => some (st, [e0, e1, e2].flatMap (voroInside G m o c))
    | some (k, l) =>
      let ek := [e0, e1, e2].getD k 0
      let w := [v0, v1, v2].getD l 0
      let cob := st.coboundary 1 2 ek
      let other := cob.2.find? (fun t => decide (m.eid 2 t ≠ m.eid 2 c))
      let p := m.at0 (m.ends ek).1
      let q := m.at0 (m.ends ek).2
      some (cob.1, [e0, e1, e2].flatMap fun e =>
        if ek ≠ e then voroOutside G m o c e w p q other else voroCrossed G m o e other)
  | _, _ => none

/-- The loop over the triangles.  algorithm/voronoi.hpp:343-570. -/
noncomputable def voroTriangles (G : VoroGeo d) : MState (Fin d → ℝ) → VoroSt → List Nat →
    Option (MState (Fin d → ℝ) × VoroSt)
  | st, v, [] => some (st, v)
  | st, v, c :: cs => (voroTriangle G st c).bind fun r => voroTriangles G r.1 (r.2.foldl VoroSt.write v) cs

/-- `apply_voronoi` for a mesh of triangles.  algorithm/voronoi.hpp:297-573. -/
noncomputable def MState.voronoiTriangles (G : VoroGeo d) (st : MState (Fin d → ℝ)) (v : VoroSt) :
    Option (MState (Fin d → ℝ) × VoroSt) := voroTriangles G st v (List.range (st.mesh.count 2))

end VG
