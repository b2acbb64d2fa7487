import Mathlib.Data.List.Basic

/-!
Model of the id generator of a mesh and of element creation with and without
an id chosen by the caller, for one element type stored in a push-back container
(vertices and cells in the default configuration).
-/

namespace VG

/-- State of `continuous_id_generator_layer` for one element type together with the
ids of the stored elements in storage order.
storage/id_generator.hpp:103-138 (`last_id`), mesh/mesh.hpp (element container).
Simplified: ids are unbounded integers instead of `int`; only the id of an element is kept. -/
structure IdMesh where
  lastId : Int
  ids : List Int
deriving Repr, DecidableEq

/-- A fresh mesh.  storage/id_generator.hpp:112 (`last_id(0)`). -/
def IdMesh.empty : IdMesh := ⟨0, []⟩

/-- `set_max_id`.  storage/id_generator.hpp:121-128. -/
def setMaxId (last x : Int) : Int :=
  if x > last then x + 1 else last

/-- One element creation: `none` is a creation without id (`make_vertex`), `some i` one
with the explicit id `i` (`make_vertex_with_id`).  mesh/element_creation.hpp:163-196. -/
abbrev IdOp := Option Int

/-- Creation of one element.
storage/inserter.hpp:29-49 (generated id / `set_max_id`), 108-135 (`physical_insert`);
storage/id_generator.hpp:115-118 (`return last_id++`);
storage/container.hpp:422 (`is_present` is always false for push-back containers). -/
def IdMesh.create (m : IdMesh) : IdOp → IdMesh
  | none => ⟨m.lastId + 1, m.ids ++ [m.lastId]⟩
  | some i => ⟨setMaxId m.lastId i, m.ids ++ [i]⟩

/-- A history of creations.  Not in the code. -/
def IdMesh.run (m : IdMesh) (h : List IdOp) : IdMesh := h.foldl IdMesh.create m

/-- `id_upper_bound`.  mesh/mesh.hpp:830-835, storage/id_generator.hpp:131-134. -/
def IdMesh.idUpperBound (m : IdMesh) : Int := m.lastId

end VG
