import Verif.Model.Queries

/-!
Model of the copy operations that go through a map of vertex ids: `vertex_copy_map`, `copy` of selected
cells, and `extract_boundary`.
-/

namespace VG

variable {P : Type}

/-- A destination mesh together with the map from vertex ids of the source to vertex handles of the
destination.  mesh/mesh_operations.hpp:35-96. -/
structure CopySt (P : Type) where
  dst : Mesh P
  map : List (Int × Nat)

/-- Point of a vertex, `none` for a handle that does not exist.  mesh/mesh_operations.hpp:65. -/
def Mesh.ptOf (m : Mesh P) (v : Nat) : Option P := m.verts[v]?.map (·.pt)

/-- `vertex_copy_map::operator()` with tolerance 0 (the only tolerance used by `copy` and
`extract_boundary`): with it `make_unique_vertex` always makes a vertex
(mesh/element_creation.hpp:199-219).  `none`: the vertex does not exist.
mesh/mesh_operations.hpp:59-70. -/
def copyVertex (src : Mesh P) (c : CopySt P) (v : Nat) : Option (CopySt P × Nat) :=
  match c.map.find? (fun e => e.1 == src.vid v) with
  | some e => some (c, e.2)
  | none =>
    (src.ptOf v).map (fun p =>
      (⟨c.dst.makeVertex none p, (src.vid v, c.dst.verts.length) :: c.map⟩, c.dst.verts.length))

/-- The vertices of an element one after the other.  mesh/mesh_operations.hpp:84-87. -/
def copyVerts (src : Mesh P) : CopySt P → List Nat → Option (CopySt P × List Nat)
  | c, [] => some (c, [])
  | c, v :: vs =>
    (copyVertex src c v).bind (fun q => (copyVerts src q.1 vs).map (fun r => (r.1, q.2 :: r.2)))

/-- `copy_element`: vertices, then `make_element` in the destination.  mesh/mesh_operations.hpp:77-90;
algorithm/extract_boundary.hpp:54-60 does the same. -/
def copyElement (T : Topo) (src : Mesh P) (c : CopySt P) (vs : List Nat) : Option (CopySt P) :=
  (copyVerts src c vs).bind (fun q =>
    (q.1.dst.step T (.elem T.cellDim q.2)).map (fun m => ⟨m, q.1.map⟩))

/-- Several elements, given by their vertices.
The loops in mesh/mesh_operations.hpp:123-127 and algorithm/extract_boundary.hpp:46-61. -/
def copyElements (T : Topo) (src : Mesh P) : CopySt P → List (List Nat) → Option (CopySt P)
  | c, [] => some c
  | c, vs :: rest => (copyElement T src c vs).bind (fun c' => copyElements T src c' rest)

/-- `copy(src_mesh, dst_mesh, functor)`.  mesh/mesh_operations.hpp:108-126. -/
def copySelected (T : Topo) (src : Mesh P) (sel : Nat → Bool) : Option (Mesh P) :=
  (copyElements T src ⟨Mesh.empty, []⟩
    (((List.range (src.count T.cellDim)).filter sel).map (src.vertsOf T.cellDim))).map (·.dst)

/-- The facets that `is_boundary` accepts, asked one after the other.
algorithm/extract_boundary.hpp:46-50.  `order` is the order of iteration (key order in the code). -/
def boundaryFacets (T : Topo) : MState P → List Nat → MState P × List Nat
  | st, [] => (st, [])
  | st, f :: fs =>
    let q := st.isBoundary T (T.cellDim - 1) f
    let r := boundaryFacets T q.1 fs
    (r.1, if q.2 then f :: r.2 else r.2)

/-- `extract_boundary(volume_mesh, hull_mesh)`, with facets as hull elements.
algorithm/extract_boundary.hpp:34-62.  Simplified: the facets are selected first and copied afterwards; in
the code both happen in the same loop, and the two meshes do not influence each other. -/
def extractBoundary (T T' : Topo) (st : MState P) (order : List Nat) : Option (Mesh P) :=
  (copyElements T' st.mesh ⟨Mesh.empty, []⟩
    ((boundaryFacets T st order).2.map (st.mesh.vertsOf (T.cellDim - 1)))).map (·.dst)

end VG
