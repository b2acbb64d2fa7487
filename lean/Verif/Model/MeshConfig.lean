import Verif.Model.Typelist

/-!
The configurations of meshes (config/mesh_config.hpp, config/element_config.hpp): which types of elements a mesh stores,
in which containers, and which boundary elements and orientations an element stores.

A configuration is a typemap (`Cfg`, see `Typelist`); compile errors are `none`.
-/

namespace VG

/-- Tags of element types; lines and vertices are the simplices of dimensions 1 and 0.  forwards.hpp:148-171. -/
inductive ElemTag where
  | simplex (n : Nat)
  | quadrilateral
  | hexahedron
  | polygon
  | plc
deriving DecidableEq, Repr

/-- `vertex_tag`.  forwards.hpp:150. -/
abbrev vertexTag : ElemTag := .simplex 0

/-- `dim`.  topology/simplex.hpp:63, vertex.hpp:31, quadrilateral.hpp:32, hexahedron.hpp:33, polygon.hpp:31, plc.hpp:33. -/
def ElemTag.dim : ElemTag → Nat
  | .simplex n => n
  | .quadrilateral => 2
  | .hexahedron => 3
  | .polygon => 2
  | .plc => 2

/-- `facet_tag`; `null_type` for vertices.  topology/simplex.hpp:61, vertex.hpp:29, quadrilateral.hpp:30,
hexahedron.hpp:31, polygon.hpp:29, plc.hpp:31. -/
def ElemTag.facet : ElemTag → Option ElemTag
  | .simplex 0 => none
  | .simplex (n + 1) => some (.simplex n)
  | .quadrilateral => some (.simplex 1)
  | .hexahedron => some .quadrilateral
  | .polygon => some (.simplex 1)
  | .plc => some (.simplex 1)

theorem ElemTag.facet_dim {t f : ElemTag} (h : t.facet = some f) : f.dim < t.dim := by
  unfold ElemTag.facet at h
  split at h <;> cases h <;> simp [ElemTag.dim]

/-- Containers of elements: those given for vertices and cells, the map by keys, and the default `std::deque` of
queries.  Handle types are left out.  config/mesh_config.hpp:68-92, element_config.hpp:72-77. -/
inductive ContainerTag where
  | vertices
  | cells
  | keyMap
  | deque
deriving DecidableEq, Repr

/-- The types which occur in configurations.  config/mesh_config.hpp:40-228. -/
inductive CfgType where
  | elem (t : ElemTag)
  | idTag
  | containerTag
  | layoutTag
  | appendixTag
  | smartIdInt
  | container (c : ContainerTag)
  | fullHandling
  | noOrientationHandling
  | noHandling
  | nullType
  | notFound
deriving DecidableEq, Repr

/-- A typemap of a configuration.  config/config.hpp:57-82. -/
abbrev CfgMap := List (CfgType × Cfg CfgType)

/-- `storage_layout_config`: how the boundary elements down from the given type are stored.
config/mesh_config.hpp:40-66. -/
def storageLayout (t : ElemTag) : Option CfgMap :=
  match _h : t.facet with
  | none => some [(.elem vertexTag, .type .noOrientationHandling)]
  | some f => (storageLayout f).bind fun m => tmInsert m (.elem t, .type .fullHandling)
termination_by t.dim
decreasing_by exact ElemTag.facet_dim (by assumption)

/-- `default_container_tag`.  config/mesh_config.hpp:68-92. -/
def defaultContainer (cell t : ElemTag) : ContainerTag :=
  if t = vertexTag then .vertices else if t = cell then .cells else .keyMap

/-- The typemap of an element, given its container and its storage layout.  config/mesh_config.hpp:95-140, 200-226. -/
def elementCfg (c : ContainerTag) (layout : CfgMap) : Cfg CfgType :=
  .map [(.idTag, .type .smartIdInt), (.containerTag, .type (.container c)), (.layoutTag, .map layout),
    (.appendixTag, .type .nullType)]

/-- `full_element_config`.  config/mesh_config.hpp:94-140. -/
def fullElementCfg (cell t : ElemTag) : Option (Cfg CfgType) :=
  match t.facet with
  | none => some (elementCfg (defaultContainer cell t) [])
  | some f => (storageLayout f).map fun l => elementCfg (defaultContainer cell t) l

/-- `full_topology_config_helper`.  config/mesh_config.hpp:143-163. -/
def fullTopologyHelper (cell t : ElemTag) : Option CfgMap :=
  match _h : t.facet with
  | none => (fullElementCfg cell t).map fun c => [(.elem vertexTag, c)]
  | some f =>
    (fullTopologyHelper cell f).bind fun m => (fullElementCfg cell t).bind fun c => tmInsert m (.elem t, c)
termination_by t.dim
decreasing_by exact ElemTag.facet_dim (by assumption)

/-- `full_topology_config`.  config/mesh_config.hpp:166-179. -/
def fullTopology (cell : ElemTag) : Option CfgMap := fullTopologyHelper cell cell

/-- `thin_topology_config`; `make_typemap` checks that the keys are distinct.  config/mesh_config.hpp:184-228,
meta/typemap.hpp:455-473. -/
def thinTopology (cell : ElemTag) : Option CfgMap :=
  (storageLayout vertexTag).bind fun l =>
    tmConsistency [(.elem cell, elementCfg .cells l), (.elem vertexTag, elementCfg .vertices [])]

/-- `EQUAL` of a configuration entry and a type which is no map.  meta/utils.hpp:46-57. -/
def cfgEqual (c : Cfg CfgType) (t : CfgType) : Bool :=
  match c with
  | .type t' => decide (t' = t)
  | .map _ => false

/-- `is_element_present`: the default of the query is `null_type`, the result is compared with `not_found`.
config/element_config.hpp:55-62. -/
def isElementPresent (m : CfgMap) (t : ElemTag) : Option Bool :=
  (cfgQuery (.type .nullType) (.map m) [.elem t]).map fun c => !cfgEqual c .notFound

/-- `query_element_container_tag`.  config/element_config.hpp:72-77. -/
def queryContainer (m : CfgMap) (t : ElemTag) : Option (Cfg CfgType) :=
  cfgQuery (.type (.container .deque)) (.map m) [.elem t, .containerTag]

/-- The storage layout of a boundary element, with `no_handling_tag` as default.
config/element_config.hpp:94-103. -/
def queryLayout (m : CfgMap) (host b : ElemTag) : Option (Cfg CfgType) :=
  cfgQuery (.type .noHandling) (.map m) [.elem host, .layoutTag, .elem b]

/-- `has_boundary`.  config/element_config.hpp:94-118. -/
def hasBoundary (m : CfgMap) (host b : ElemTag) : Option Bool :=
  (isElementPresent m b).bind fun p =>
    if p then (queryLayout m host b).map fun c => !cfgEqual c .noHandling
    else some false

/-- `has_orientation`; the lazy handling tag is left out.  config/element_config.hpp:121-150. -/
def hasOrientation (m : CfgMap) (host b : ElemTag) : Option Bool :=
  (isElementPresent m b).bind fun p =>
    if p then (queryLayout m host b).map fun c => cfgEqual c .fullHandling
    else some false

/-- `element_boundary_element_container_typelist`: the types of the boundary elements an element stores, and whether
their orientations are stored; `push_back` of `null_type` leaves a list as it is.
config/element_config.hpp:276-308, meta/typelist.hpp:150-169. -/
def boundaryContainers (m : CfgMap) (host t : ElemTag) : Option (List (ElemTag × Bool)) :=
  match _h : t.facet with
  | none => some []
  | some f => do
    let l ← boundaryContainers m host f
    let p ← hasBoundary m host f
    if p then
      -- the specialisation for vertices has no orientations, config/element_config.hpp:227-270
      let o ← if f = vertexTag then some false else hasOrientation m host f
      some (tlPushBack l (f, o))
    else some l
termination_by t.dim
decreasing_by exact ElemTag.facet_dim (by assumption)

/-- `topologic_cell_dimension`.  config/mesh_config.hpp:503-526. -/
def cellDimension : List ElemTag → Int
  | [] => -1
  | t :: l => if cellDimension l > (t.dim : Int) then cellDimension l else t.dim

/-- `elements_of_topologic_dim`.  config/mesh_config.hpp:530-553. -/
def elementsOfDim : List ElemTag → Int → List ElemTag
  | [], _ => []
  | t :: l, d => if (t.dim : Int) = d then tlPushBack (elementsOfDim l d) t else elementsOfDim l d

/-- `cell_tag_from_typelist`; `none` is `out_of_range`.  config/mesh_config.hpp:556-563. -/
def cellTagOf (l : List ElemTag) : Option ElemTag := tlAt (elementsOfDim l (cellDimension l)) 0

/-- The element tags of a configuration: the `key_typelist`.  config/mesh_config.hpp:601. -/
def elementTags (m : CfgMap) : List ElemTag :=
  (tmKeys m).filterMap fun k => match k with
    | .elem t => some t
    | _ => none

/-- `boundary_information_collection_typemap`: the element types for which `is_boundary` is available.
config/mesh_config.hpp:597-608. -/
def boundaryInfoTags (m : CfgMap) : Option (List ElemTag) :=
  (cellTagOf (elementTags m)).map fun c => tlErase (elementTags m) c

end VG
