import Verif.Model.Copy
import Verif.Model.UniqueVertex
import Verif.Model.TetgenPoly

/-!
Model of `copy_elements` and `copy_elements_by_handle`: elements of one mesh are copied into another, which
may have elements already; vertices closer than a tolerance are reused.
-/

namespace VG

variable {P K : Type} [LinearOrder K] [Zero K]

/-- One vertex: the map of vertex ids is asked first, then `make_unique_vertex` with the tolerance.  `none`:
the vertex does not exist.  mesh/element_creation.hpp:438-445. -/
def glueVertex (dist : P → P → K) (tol : K) (src : Mesh P) (c : CopySt P) (v : Nat) :
    Option (CopySt P × Nat) :=
  match c.map.find? (fun e => e.1 == src.vid v) with
  | some e => some (c, e.2)
  | none =>
    (src.ptOf v).map (fun p =>
      (⟨(c.dst.makeUniqueVertex dist p tol).1,
        (src.vid v, (c.dst.makeUniqueVertex dist p tol).2) :: c.map⟩,
        (c.dst.makeUniqueVertex dist p tol).2))

/-- The vertices of an element one after the other.  mesh/element_creation.hpp:432-446. -/
def glueVerts (dist : P → P → K) (tol : K) (src : Mesh P) : CopySt P → List Nat →
    Option (CopySt P × List Nat)
  | c, [] => some (c, [])
  | c, v :: vs =>
    (glueVertex dist tol src c v).bind (fun q =>
      (glueVerts dist tol src q.1 vs).map (fun r => (r.1, q.2 :: r.2)))

/-- One element of dimension `d`: vertices, then `make_element`.  mesh/element_creation.hpp:432-448. -/
def glueElement (T : Topo) (d : Nat) (dist : P → P → K) (tol : K) (src : Mesh P) (c : CopySt P)
    (vs : List Nat) : Option (CopySt P) :=
  (glueVerts dist tol src c vs).bind (fun q =>
    (q.1.dst.step T (.elem d q.2)).map (fun m => ⟨m, q.1.map⟩))

/-- The loop over the elements, given by their vertices.  mesh/element_creation.hpp:430-449, and 470-489 for
handles, which does the same after dereferencing. -/
def glueElements (T : Topo) (d : Nat) (dist : P → P → K) (tol : K) (src : Mesh P) :
    CopySt P → List (List Nat) → Option (CopySt P)
  | c, [] => some c
  | c, vs :: rest =>
    (glueElement T d dist tol src c vs).bind (fun c' => glueElements T d dist tol src c' rest)

/-- `copy_elements(begin, end, output, tolerance)` for the elements of dimension `d` with the handles `els`:
the map of vertex ids starts empty.  mesh/element_creation.hpp:413-450, 617-627, 638-650.  Simplified: the output is a
mesh (for a segment handle the elements are added to the segment too), it is not the mesh copied from, and
coordinates are exact. -/
def Mesh.copyElementsTo (T : Topo) (d : Nat) (dist : P → P → K) (tol : K) (src : Mesh P) (els : List Nat)
    (dst : Mesh P) : Option (Mesh P) :=
  (glueElements T d dist tol src ⟨dst, []⟩ (els.map (src.vertsOf d))).map (·.dst)

/-- `copy_elements(begin, end, output)`: the tolerance is -1.  mesh/element_creation.hpp:629-635, 652-659. -/
def Mesh.copyElementsToDefault [Neg K] [One K] (T : Topo) (d : Nat) (dist : P → P → K) (src : Mesh P)
    (els : List Nat) (dst : Mesh P) : Option (Mesh P) :=
  src.copyElementsTo T d dist (-1) els dst

/-! Piecewise linear complexes -/

/-- The output mesh, its complexes, and the maps from ids of vertices and of lines.
mesh/element_creation.hpp:514-515. -/
structure PlcCopy (C : Type) where
  dst : Mesh (List C)
  vmap : List (Int × Nat)
  lmap : List (Nat × Nat)

variable {C : Type}

/-- One line of a complex: the map of line ids is asked first, then the two ends are looked up or made, and
`make_line` is called.  `none`: a handle that does not exist.  mesh/element_creation.hpp:526-546. -/
def plcLine (dist : List C → List C → K) (tol : K) (src : Mesh (List C)) (c : PlcCopy C) (l : Nat) :
    Option (PlcCopy C × Nat) :=
  match (src.elems 1)[l]? with
  | none => none
  | some e =>
    match c.lmap.find? (fun x => x.1 == e.id) with
    | some x => some (c, x.2)
    | none =>
      (glueVerts dist tol src ⟨c.dst, c.vmap⟩ e.verts).bind (fun q =>
        (q.1.dst.step (simplexTopo 2) (.elem 1 q.2)).map (fun m =>
          (⟨m, q.1.map, (e.id, (q.1.dst.makeElem (simplexTopo 2) 1 q.2).slot) :: c.lmap⟩,
            (q.1.dst.makeElem (simplexTopo 2) 1 q.2).slot)))

/-- The lines of a complex one after the other.  mesh/element_creation.hpp:520-547. -/
def plcLines (dist : List C → List C → K) (tol : K) (src : Mesh (List C)) :
    PlcCopy C → List Nat → Option (PlcCopy C × List Nat)
  | c, [] => some (c, [])
  | c, l :: ls =>
    (plcLine dist tol src c l).bind (fun q =>
      (plcLines dist tol src q.1 ls).map (fun r => (r.1, q.2 :: r.2)))

/-- The loop over the complexes: `make_plc` gets the lines only.  mesh/element_creation.hpp:518-550, and
576-608 for handles. -/
def plcAll (dist : List C → List C → K) (tol : K) (src : Mesh (List C)) :
    PlcCopy C → List (Plc C) → Option (PlcCopy C × List (Plc C))
  | c, [] => some (c, [])
  | c, p :: ps =>
    (plcLines dist tol src c p.lines).bind (fun q =>
      (plcAll dist tol src q.1 ps).map (fun r => (r.1, makePlc q.1.dst q.2 [] [] :: r.2)))

/-- `copy_elements` for piecewise linear complexes: the output mesh and its new complexes.
mesh/element_creation.hpp:494-551.  Simplified as `Mesh.copyElementsTo`. -/
def copyPlcs (dist : List C → List C → K) (tol : K) (src : Mesh (List C)) (ps : List (Plc C))
    (dst : Mesh (List C)) : Option (Mesh (List C) × List (Plc C)) :=
  (plcAll dist tol src ⟨dst, [], []⟩ ps).map (fun r => (r.1.dst, r.2))

end VG
