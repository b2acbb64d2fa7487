import Verif.Model.Voronoi
import Verif.Model.CopySeg

/-!
Model of `apply_voronoi` for quadrilaterals, hexahedra and tetrahedra.  The accessors, the statements changing them and
the points of vertices are those of `Voronoi`.
-/

namespace VG

variable {d : Nat}

/-- `circumcenter` of a quadrilateral or hexahedron: the mean of the vertices.
algorithm/circumcenter.hpp:116-143, 175-202, 242-269. -/
noncomputable def meanPoint (l : List (Fin d → ℝ)) : Fin d → ℝ :=
  fun i => l.foldl (fun acc p => acc + p i) 0 / (l.length : ℝ)

/-- The statements for the edge `e` of a cell `c`: interface `x`, and for each end point of the edge its part of the box.
Hexahedra have `push_back` before `+=`; they concern different accessors.
algorithm/voronoi.hpp:218-241 (quadrilateral), 861-882 (hexahedron). -/
noncomputable def voroPush (m : Mesh (Fin d → ℝ)) (c e : Nat) (x : ℝ) (box : Nat → ℝ) : List VoroWrite :=
  let a := (m.ends e).1
  let b := (m.ends e).2
  [.add .area e x, .push .area e c x]
    ++ [a, b].flatMap (fun v => [.add .vbox v (box v), .push .vbox v c (box v)])
    ++ [.add .ebox e (0 + box a + box b), .push .ebox e c (0 + box a + box b)]

/-- Middle of an edge, `circumcenter` of a line.  algorithm/circumcenter.hpp:57-72. -/
noncomputable def Mesh.midOf (m : Mesh (Fin d → ℝ)) (e : Nat) : Fin d → ℝ :=
  circumLine (m.at0 (m.ends e).1) (m.at0 (m.ends e).2)

/-- Mean of the vertices of an element.  algorithm/circumcenter.hpp:116-143, 175-202, 242-269. -/
noncomputable def Mesh.meanOf (m : Mesh (Fin d → ℝ)) (k c : Nat) : Fin d → ℝ := meanPoint ((m.vertsOf k c).map m.at0)

/-! ### Quadrilaterals -/

/-- The statements for one quadrilateral; `span` is `spanned_volume` of three points.
algorithm/voronoi.hpp:209-245. -/
noncomputable def voroQuad (span : (Fin d → ℝ) → (Fin d → ℝ) → (Fin d → ℝ) → ℝ) (m : Mesh (Fin d → ℝ)) (c : Nat) :
    List VoroWrite :=
  let o := m.meanOf 2 c
  (m.bndOf 2 c 1).flatMap fun e =>
    voroPush m c e |signedLine o (m.midOf e)| fun v => span o (m.midOf e) (m.at0 v)

/-- `apply_voronoi` for a mesh of quadrilaterals.  algorithm/voronoi.hpp:167-247. -/
noncomputable def Mesh.voronoiQuads (span : (Fin d → ℝ) → (Fin d → ℝ) → (Fin d → ℝ) → ℝ) (m : Mesh (Fin d → ℝ))
    (v : VoroSt) : VoroSt :=
  (List.range (m.count 2)).foldl (fun v c => (voroQuad span m c).foldl VoroSt.write v) v

/-! ### Hexahedra -/

/-- The statements for one hexahedron: over its facets and the edges of these.  algorithm/voronoi.hpp:844-887. -/
noncomputable def voroHex (m : Mesh (Fin 3 → ℝ)) (c : Nat) : List VoroWrite :=
  let o := m.meanOf 3 c
  (m.bndOf 3 c 2).flatMap fun f =>
    (m.bndOf 2 f 1).flatMap fun e =>
      voroPush m c e (spannedTriangle3 o (m.meanOf 2 f) (m.midOf e))
        fun v => spannedTetrahedron o (m.meanOf 2 f) (m.midOf e) (m.at0 v)

/-- `apply_voronoi` for a mesh of hexahedra.  algorithm/voronoi.hpp:797-890. -/
noncomputable def Mesh.voronoiHexes (m : Mesh (Fin 3 → ℝ)) (v : VoroSt) : VoroSt :=
  (List.range (m.count 3)).foldl (fun v c => (voroHex m c).foldl VoroSt.write v) v

/-! ### Tetrahedra -/

/-- `circumcenter` of the cell `c`: an exception for (nearly) flat tetrahedra.  algorithm/circumcenter.hpp:207-240. -/
noncomputable def Mesh.tetCenter (m : Mesh (Fin 3 → ℝ)) (c : Nat) : Except Fail (Fin 3 → ℝ) :=
  match m.vertsOf 3 c with
  | [v0, v1, v2, v3] =>
    match circumTetrahedron (m.at0 v0) (m.at0 v1) (m.at0 v2) (m.at0 v3) with
    | some o => .ok o
    | none => .error .thrown
  | _ => .error .undefined

/-- `circumcenter` of the triangle `f`.  algorithm/circumcenter.hpp:150-176. -/
noncomputable def Mesh.triCenter (m : Mesh (Fin 3 → ℝ)) (f : Nat) : Fin 3 → ℝ :=
  match m.vertsOf 2 f with
  | [v0, v1, v2] => circumTriangle3 (m.at0 v0) (m.at0 v1) (m.at0 v2)
  | _ => 0

/-- The map from facets to the circumcenters of the cells there, with the cells.  algorithm/voronoi.hpp:642-645. -/
abbrev CircMap := Nat → List ((Fin 3 → ℝ) × Nat)

/-- A segment of the boundary of an interface, with the cell it belongs to.  algorithm/voronoi.hpp:631-633. -/
abbrev IfSeg := ((Fin 3 → ℝ) × (Fin 3 → ℝ)) × Nat

/-- `map[key].push_back(x)`.  algorithm/voronoi.hpp:666, 689-709. -/
def pushAt {α : Type} (g : Nat → List α) (s : Nat) (x : α) : Nat → List α := fun s' => if s' = s then g s ++ [x] else g s'

/-- Step one.  algorithm/voronoi.hpp:653-668. -/
noncomputable def tetStep1 (m : Mesh (Fin 3 → ℝ)) : List Nat → CircMap → Except Fail CircMap
  | [], g => .ok g
  | c :: cs, g =>
    match m.tetCenter c with
    | .error e => .error e
    | .ok o => tetStep1 m cs ((m.bndOf 3 c 2).foldl (fun g f => pushAt g f (o, c)) g)

/-- The segments a facet contributes to the interface of one of its edges; an exception unless there are one or two
circumcenters.  algorithm/voronoi.hpp:687-715. -/
noncomputable def facetSegs (m : Mesh (Fin 3 → ℝ)) (g : CircMap) (f e : Nat) : Except Fail (List IfSeg) :=
  match g f with
  | [(o, c)] => .ok [((o, m.triCenter f), c), ((m.midOf e, m.triCenter f), c)]
  | [(o, c), (o', c')] =>
    let mid : Fin 3 → ℝ := fun i => (o i + o' i) / 2
    .ok [((o, mid), c), ((mid, o'), c')]
  | _ => .error .thrown

/-- Step two, the edges of one facet.  algorithm/voronoi.hpp:682-717. -/
noncomputable def tetStep2Edges (m : Mesh (Fin 3 → ℝ)) (g : CircMap) (f : Nat) :
    List Nat → (Nat → List IfSeg) → Except Fail (Nat → List IfSeg)
  | [], h => .ok h
  | e :: es, h =>
    match facetSegs m g f e with
    | .error x => .error x
    | .ok l => tetStep2Edges m g f es (l.foldl (fun h x => pushAt h e x) h)

/-- Step two.  algorithm/voronoi.hpp:674-718.  (`circumcenters_on_facets[...]` of a facet without cells is empty.) -/
noncomputable def tetStep2 (m : Mesh (Fin 3 → ℝ)) (g : CircMap) : List Nat → (Nat → List IfSeg) →
    Except Fail (Nat → List IfSeg)
  | [], h => .ok h
  | f :: fs, h =>
    match tetStep2Edges m g f (m.bndOf 2 f 1) h with
    | .error x => .error x
    | .ok h' => tetStep2 m g fs h'

/-- The mean of the middles of the segments.  algorithm/voronoi.hpp:748-753. -/
noncomputable def innerPoint (l : List IfSeg) : Fin 3 → ℝ :=
  fun i => (l.map fun s => (s.1.1 i + s.1.2 i) / 2).sum / (l.length : ℝ)

/-- The statements for one edge with its segments.  `spanned_volume` of two points is their distance.
algorithm/voronoi.hpp:732-789. -/
noncomputable def voroTetEdge (m : Mesh (Fin 3 → ℝ)) (e : Nat) (l : List IfSeg) : List VoroWrite :=
  let a := (m.ends e).1
  let b := (m.ends e).2
  let len := |signedLine (m.at0 a) (m.at0 b)|
  let p := innerPoint l
  let size : IfSeg → ℝ := fun s => spannedTriangle3 s.1.1 s.1.2 p
  let used := l.filter fun s => decide (0 < size s)
  let area := used.foldl (fun acc s => acc + size s) 0
  used.flatMap (fun s =>
      [.upd .area e s.2 (size s), .upd .ebox e s.2 (2 * (size s * len / 6)), .upd .vbox a s.2 (size s * len / 6),
        .upd .vbox b s.2 (size s * len / 6)])
    ++ [.set .area e area, .set .ebox e (2 * (area * len / 6)), .add .vbox a (area * len / 6),
      .add .vbox b (area * len / 6)]

/-- Step three: `interface_segments[0]` of an edge without segments is undefined.  algorithm/voronoi.hpp:724-791. -/
noncomputable def tetStep3 (m : Mesh (Fin 3 → ℝ)) (h : Nat → List IfSeg) : List Nat → VoroSt → Except Fail VoroSt
  | [], v => .ok v
  | e :: es, v => if h e = [] then .error .undefined else tetStep3 m h es ((voroTetEdge m e (h e)).foldl VoroSt.write v)

/-- `apply_voronoi` for a mesh of tetrahedra.  The maps are ordered by the addresses of the elements, here functions of the
handles; edges and facets are visited in order of creation.  algorithm/voronoi.hpp:585-793. -/
noncomputable def Mesh.voronoiTets (m : Mesh (Fin 3 → ℝ)) (v : VoroSt) : Except Fail VoroSt :=
  match tetStep1 m (List.range (m.count 3)) (fun _ => []) with
  | .error x => .error x
  | .ok g =>
    match tetStep2 m g (List.range (m.count 2)) (fun _ => []) with
    | .error x => .error x
    | .ok h => tetStep3 m h (List.range (m.count 1)) v

end VG
