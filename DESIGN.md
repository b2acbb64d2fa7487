# Formal model of viennagrid-dev: design

The code under /repo is a C++ template library.  It is read as text; nothing in
/repo is built, run or changed.  The model is written by hand in Lean 4 under
`lean/Verif/`.  Every model definition carries a comment naming the file and
lines it models (paths relative to `viennagrid/`) and what was simplified.

## Layout

* `lean/Verif/Model/*.lean`   definitions that mirror the C++ code
* `lean/Verif/Lemmas/*.lean`  helper lemmas about the model
* `lean/Verif/Props/*.lean`   property theorems, one file per group, with
  small specifications written independently of the model, and `example`s
  showing that hypotheses are satisfiable in non-trivial cases
* `properties.jsonl`          the properties (C01, C02, ...)
* `MANIFEST.json`             property -> theorems
* `seeded/LOG.jsonl`          wrong variants of the model that were tried

Names: a theorem `Cxx_..._partial` proves part of the claim, the note of the
property says what is missing; `Cxx_violated...` proves that the code does not
have the property, with a concrete witness.  A status `partial` in the manifest
therefore mostly means: the code violates the claim as stated, the violation is
proved, and so is the part of the claim that holds.

## Trusted base

* Lean's kernel (Lean 4.33.0) and the three axioms `propext`,
  `Classical.choice`, `Quot.sound`.  No other axiom, no `sorry`, no
  `native_decide`, no `bv_decide`.  The axioms of each theorem are listed at the
  end of this file.  Finite tables (topologies, refinement patterns) are checked
  by `decide`/`decide +kernel`, which is evaluation in the kernel, over the whole
  finite domain.
* Mathlib definitions used in statements: orders, fields, finite sums, real
  numbers with `sqrt`, `sin`, `cos`, `arccos`, `Complex.arg`, `Submodule.span`,
  `List` functions.
* The hand translation from C++ to Lean.  There is no mechanical link between
  the C++ text and the model; the citations are there so it can be reviewed.
* Modelling conventions:
  * unbounded `Nat`/`Int` instead of machine integers (ids, counters); overflow
    of `int` ids and `long` counters is not modelled;
  * coordinates are elements of a linearly ordered field (or of the reals where
    square roots and angles are needed), not IEEE doubles; rounding (except of
    numbers in VTK files, C108), NaN and infinities are not modelled;
  * `std::map`, `std::set`, `std::deque`, `std::vector`, streams are lists with
    the documented behaviour of the operations used;
  * a handle (pointer/iterator) is a position or an id; where addresses matter
    (erasure, copies of meshes) they are explicit; undefined behaviour (dangling
    handle, out-of-range access, dereferencing end or NULL, division by zero) is
    the distinct outcome `none`/`undefined`; exceptions are a distinct outcome as
    well;
  * elements of intermediate dimension are iterated in order of creation instead
    of key order, except where the order matters (erasure, extraction, where any
    order is allowed);
  * compile-time dispatch (typelists, tags, traits) is resolved by hand: a model
    definition describes the instantiation named in its comment, usually the
    default configurations (config/default_configs.hpp).

## What is modelled

| code | model |
|------|-------|
| storage/id_generator.hpp, storage/inserter.hpp (ids, change counter, `handle_insert` chain) | `IdGen`, `Mesh`, `Segments` |
| element/element_key.hpp | `ElementKey` |
| storage/hidden_key_map.hpp (lookup and insertion by key) | `Mesh.findSlot`, `Erase` |
| topology/simplex, quadrilateral, hexahedron, polygon | `Topology`; meshes of them `Mesh` (`simplexTopo`, `cubeTopo`, `polyTopo`, `thinTopo`; polygons with fewer than three vertices are excluded there) |
| element/element.hpp, element_orientation.hpp (boundary storage, orientations) | `Mesh` |
| storage/range.hpp, storage/hidden_key_map.hpp (order of iteration), element/element_view.hpp | `Ranges` |
| mesh/element_creation.hpp (`make_vertex`, `make_element`, `make_unique_vertex`, `copy_elements`) | `Mesh`, `UniqueVertex`, `CopyElements` |
| storage/static_array.hpp | `StaticArray` |
| storage/container.hpp, view.hpp (iterators, find, handles in views) | `Iterators`, `Segments` |
| storage/handle.hpp, id.hpp (kinds of handles, dereferencing, invalid handles), container.hpp (insert) | `Handles` |
| mesh/coboundary_iteration.hpp, neighbor_iteration.hpp, algorithm/boundary.hpp | `Queries`, `ViewQueries` |
| mesh/mesh.hpp (copy, `fix_handles`, views, `handle_mesh`, `local_vertex`) | `MeshCopy`, `Segments`, `ViewQueries`, `Mesh` |
| mesh/element_deletion.hpp | `Erase`, `Queries.eraseCell` |
| mesh/segmentation.hpp (`copy_segmentation`, `unchecked_add`) | `CopySeg`, `UncheckedAdd` |
| mesh/segmentation.hpp (`is_in_segment`, `segment_ids` for elements without a record, `segment_element_info`) | `Segments`, `SegInfo` |
| mesh/mesh_operations.hpp (`vertex_copy_map`, `copy`, `mark_referencing_elements`), mesh/segmented_mesh.hpp | `Copy`, `CopySeg`, `Segments`, `Erase` |
| mesh/segmentation.hpp (segments, names, add, erase, clear, interface information) | `Segments`, `SegNames`, `ViewQueries` |
| accessor.hpp | `Field` |
| algorithm/interface.hpp, extract_boundary.hpp, extract_seed_points.hpp | `ViewQueries`, `Copy`, `CopySeg`, `Seeds` |
| algorithm/refine.hpp, detail/refine_tri.hpp, detail/refine_tet.hpp | `RefineMarks`, `Hyperplane`, `RefineTri`, `RefineTet`, `RefineMesh`, `HyperRefine`, `Uniform`, `CellRefine` |
| algorithm/inner_prod, cross_prod, norm, geometry, spanned_volume, volume, surface, centroid, circumcenter, inclusion, geometric_transform, detail/numeric | `Geometry`, `GeometryReal`, `Transform`, `CellSurface`, `Orthogonalize`, `MeshSize`, `Normals` |
| algorithm/closest_points.hpp | `ClosestPoints` |
| algorithm/distance.hpp | `Iterators` (line to segment), `Distance` |
| algorithm/angle.hpp | `Angles` |
| algorithm/voronoi.hpp (lines, triangles) | `Voronoi` |
| algorithm/voronoi.hpp (quadrilaterals, tetrahedra, hexahedra) | `VoronoiCells` |
| io/mphtxt_writer.hpp | `Mphtxt` |
| io/opendx_writer.hpp | `OpenDx` |
| io/tetgen_poly_reader.hpp, topology/plc.hpp, make_plc | `TetgenPoly` |
| io/bnd_reader.hpp | `Bnd` |
| io/serialization.hpp | `Serialization` |
| io/neper_tess_reader.hpp | `Neper` |
| io/vmesh_writer.hpp | `Vmesh` |
| meta/typelist.hpp, meta/typemap.hpp, config/config.hpp (query) | `Typelist` |
| config/mesh_config.hpp (full and thin configurations, cell types, boundary information), element_config.hpp (presence, boundary containers) | `MeshConfig`, `Mesh.thinTopo` |
| algorithm/quantity_transfer.hpp | `QuantityTransfer` |
| point.hpp | `Coordinates`, `Geometry` |
| io/xml_tag.hpp, vtk_writer.hpp, vtk_reader.hpp, vtk_common.hpp, netgen_reader.hpp | `XmlTag`, `Vtk`, `VtkData`, `VtkText`, `VtkReuse`, `VtkWriterReuse`, `NumberText`, `Netgen` |

## Properties

For each property: what is modelled, how it is proved, what is known. The theorems are in `lean/Verif/Props`.

### C01 Ids of one element type are never handed out twice (partial)

* Modelled: `Model/IdGen.lean`: the generator of one element type (`last_id`, `set_max_id`) and creations with and without a given id.
* Proof: Invariant by induction over histories (all stored ids are below the generator). The defect is shown from an arbitrary state, not only from the empty mesh.
* Result: The code violates the claim: an explicit id equal to the next id to be generated does not advance the generator (C01_ids_unique_violated, C01_collision_from_any_state, C01_create_after_reading). Proved: uniqueness for all histories in which no explicit id equals the current bound, and for histories without explicit ids; the same for the vertices of whole meshes, with elements created in between (C01_mesh_partial, C01_mesh_violated).
* Theorems: `C01_ids_unique_violated`, `C01_collision_from_any_state`, `C01_ids_unique_partial`, `C01_generated_ids`, `C01_create_after_reading`, `C01_mesh_partial`, `C01_mesh_violated`

### C02 id_upper_bound is an exclusive bound on every id in the mesh (partial)

* Modelled: Same model; `id_upper_bound` is the generator state.
* Proof: Same invariant; the witness continues the history of C01.
* Result: Violated for the same reason (C02_upper_bound_violated, C02_reader_bound). Proved for all histories avoiding the defect.
* Theorems: `C02_upper_bound_violated`, `C02_upper_bound_partial`, `C02_reader_bound`

### C03 Element keys identify elements exactly up to vertex order (proved)

* Modelled: `Model/ElementKey.lean`: sorting constructor, vector constructor, comparison.
* Proof: `List.Perm` of sorted lists; the comparison is proved irreflexive, transitive, total on different keys, so the equivalence used by `std::map` is equality of vertex multisets.
* Result: Key equality iff same vertices up to order, strict total order, equivalence used by std::map. The vector constructor does not sort (C03_vector_key_depends_on_order).
* Theorems: `C03_key_eq_iff_perm`, `C03_keyLt_irrefl`, `C03_keyLt_trans`, `C03_keyLt_total`, `C03_map_equivalence_iff_same_vertices`, `C03_vector_key_depends_on_order`

### C04 Shared faces and edges are stored exactly once (partial)

* Modelled: `Model/Mesh.lean`: containers per dimension, key lookup, recursive creation of boundary elements, orientations.
* Proof: `Inv` (Lemmas/Mesh.lean): an invariant of every creation step, proved by induction over the recursion of the insertion and over histories. Specification: no two stored elements have the same vertex set.
* Result: Proved for every history in which vertex ids are unique and the vertices of each created element are distinct. Violated with duplicate vertex ids, which the id generator permits (C04_violated_with_duplicate_ids).
* Theorems: `C04_no_two_elements_with_same_vertices`, `C04_refers_to_the_shared_element`, `C04_create_reuses`, `C04_violated_with_duplicate_ids`

### C05 A mesh contains no element that nobody asked for (proved)

* Modelled: Same model.
* Proof: Same invariant, plus `Reached`: each stored element of intermediate dimension is a boundary element of a stored element of higher dimension. Ids are positions.
* Result: All histories of vertex and cell creations. For simplex meshes each intermediate element lies on a cell; in general on a stored element of higher dimension. Thin meshes, which store no edges and faces, are covered by C05_thin. Meshes of polygons are covered by C05_polygon_no_junk. For meshes of quadrilaterals C05_quad_no_junk says that every line is an edge of a cell.
* Theorems: `C05_quad_no_junk`, `C05_no_unreferenced_element`, `C05_simplex_no_junk`, `C05_ids_are_positions`, `C05_polygon_no_junk`, `C05_thin`

### C06 The boundary elements of an n-simplex are all its vertex subsets, once each (proved)

* Modelled: `Model/Topology.lean`: `n_over_k` and the loops of the boundary generators.
* Proof: Induction on n; the edge list is exactly the set of increasing pairs, without repetition, and its length is the binomial coefficient of Mathlib.
* Result: All n: counts, exact sets, no duplicates.
* Theorems: `C06_simplex_count`, `C06_edges_are_pairs`, `C06_triangles_are_triples`, `C06_edges_nodup`, `C06_triangles_nodup`, `C06_edges_count`, `C06_triangles_count`

### C07 Boundary of quadrilaterals and hexahedra is the boundary of the reference cube (partial)

* Modelled: The tables of quadrilaterals and hexahedra; for the consequences in a mesh the creation of elements and the queries.
* Proof: Finite tables; the specification is the reference cube (corner i has coordinates the binary digits of i). In a mesh: every stored element goes back to a cell by the tables (`Descends`, induction over the creation), and the coboundaries are exact (C13).
* Result: Quadrilateral edges and hexahedron facets proved. The hexahedron edge table violates the claim: (2,5) instead of (2,6) (C07_hex_edges_violated, C07_hex_thirteen_lines). What this means for meshes: C07_violated_in_mesh (a stored diagonal which is no boundary element, an edge without its hexahedron); C07_hex_coboundary_partial and C07_hex_no_junk_partial say that nothing else is wrong.
* Theorems: `C07_hex_coboundary_partial`, `C07_hex_no_junk_partial`, `C07_violated_in_mesh`, `C07_quad_edges`, `C07_hex_facets`, `C07_hex_facet_edges_are_cube_edges`, `C07_hex_edges_violated`, `C07_hex_edges_partial`, `C07_hex_thirteen_lines`

### C08 local_vertex enumerates a shared face in the order of the asking cell (proved)

* Modelled: `orient`, `localVertex` in `Model/Mesh.lean`.
* Proof: `orient` is proved to be the permutation between stored and requested order; invariant over histories says all orientations in the mesh are of that form.
* Result: All histories with unique vertex ids; simplex and hypercube topologies.
* Theorems: `C08_local_vertex`

### C09 Post-increment of element iterators returns the old position (partial)

* Modelled: `Model/Iterators.lean`: iterators are positions.
* Proof: Witness and a statement for every position; the contract is stated independently of the implementation.
* Result: Violated by all container and view iterators at every position (C09_violated, C09_every_position_wrong); proved for static_array iterators.
* Theorems: `C09_violated`, `C09_every_position_wrong`, `C09_decrement_violated`, `C09_static_array_partial`

### C10 Distance from a line to a segment is the minimum over all its lines (partial)

* Modelled: `lineSegmentDistance` with the post-increment as a parameter.
* Proof: Loop invariant for the running minimum; with the wrong post-increment the result is the minimum without the first line.
* Result: Violated: the first line is skipped (C10_violated, C10_distance_skips_first_line) and one-line segments are undefined behaviour (C10_one_line_undefined). Proved when a later line is at most as far as the first.
* Theorems: `C10_distance_skips_first_line`, `C10_one_line_undefined`, `C10_violated`, `C10_distance_partial`, `C10_right_with_contract_partial`

### C11 Looking up an element by id returns that element (proved)

* Modelled: `findById`, `findByHandle`.
* Proof: `List.findIdx?` with the uniqueness invariant of C01/C05; handles of existing elements are not moved by later creations.
* Result: Given unique ids; lookup by id, by handle, and stability of handles.
* Theorems: `C11_find_by_id`, `C11_find_by_id_end`, `C11_find_by_handle`, `C11_handles_are_stable`

### C12 Creating an element in a segment makes it visible in every enclosing container (proved)

* Modelled: `VState` in `Model/Segments.lean`: chains of views and `handle_insert` along the chain.
* Proof: Induction over histories; the content of each view is characterised exactly by the record of what was created through it or through a view made from it.
* Result: All chains of views of any length, all interleavings of creations at any level; content characterised exactly.
* Theorems: `C12_view_content`, `C12_created_visible`

### C13 Coboundary iteration is exact and never stale (proved)

* Modelled: `Model/Queries.lean`: `MState`, caches with change counters, `create_coboundary_information`.
* Proof: Invariant: a cache with the current counter equals the freshly computed information. The freshly computed information is proved exact (membership iff on the boundary, no repetition).
* Result: All interleavings of creations, erasures of cells, copies of the mesh, and coboundary, neighbor and boundary queries, with the change counters and caches modelled. Thin meshes are covered by C13_thin. Meshes of polygons are covered; C13_coboundary_polygon says which polygons meet at a line. C13_coboundary_quad and C13_coboundary_hex_facet say the same in terms of the corners of the reference square and cube.
* Theorems: `C13_coboundary_quad`, `C13_coboundary_hex_facet`, `C13_coboundary_polygon`, `C13_coboundary_exact`, `C13_coboundary_simplex`, `C13_inverse_of_boundary`, `C13_query_keeps_mesh`, `C13_thin`

### C14 Neighbor iteration is symmetric, irreflexive, complete and never stale (proved)

* Modelled: `createNb`, with nested coboundary queries.
* Proof: As C13; symmetry and irreflexivity follow from exactness.
* Result: Same histories as C13; exact, each once, symmetric, irreflexive. Thin meshes are covered by C14_thin. Meshes of polygons are covered; see C14_neighbors_polygon.
* Theorems: `C14_neighbors_polygon`, `C14_neighbors_exact`, `C14_neighbors_symmetric`, `C14_neighbors_irreflexive`, `C14_thin`

### C15 Cached queries on a view agree with the view's content (partial)

* Modelled: `Model/ViewQueries.lean`: views with counters, dense caches and `at` that throws.
* Proof: As C13 for views, under the hypotheses found necessary; two witnesses for what fails.
* Result: Violated: handle_mesh fills a view without bumping its counter (queries then see an empty view), and a coboundary query throws when a boundary element of an element is not in the view. Proved for all histories of inserting, removing, creating and asking without handle_mesh.
* Theorems: `C15_coboundary_partial`, `C15_coboundary_answers_partial`, `C15_neighbors_partial`, `C15_boundary_partial`, `C15_lower_boundary_partial`, `C15_violated_handle_mesh`, `C15_violated_missing_faces`

### C16 A facet is on the boundary iff exactly one cell uses it (partial)

* Modelled: `detectFacets` (toggling of flags).
* Proof: The flag is the parity of the number of cells at the facet (induction over the cells); equality with `exactly one` for facets with at most two cells; three triangles at an edge as witness.
* Result: The code computes the parity of the number of cells (C16_boundary_iff_odd). Violated for facets used by three cells (C16_violated); proved for facets used by at most two.
* Theorems: `C16_boundary_iff_odd`, `C16_boundary_iff_one_cell_partial`, `C16_violated`

### C17 Lower-dimensional boundary is the closure of the boundary facets (proved)

* Modelled: `transferFlags`.
* Proof: Induction over facets.
* Result: Same histories as C13.
* Theorems: `C17_lower_boundary_is_closure`

### C18 Interface flags describe the current common boundary of two segments, symmetrically (partial)

* Modelled: `IState`: two counters per pair and the flags of `detect_interface`.
* Proof: Invariant over histories that only add cells; three witnesses for the general case.
* Result: Violated three ways (flag kept after a segment grows, after it shrinks, and answers depending on argument order). Proved for all histories that only add cells, at facets where no cell is in both segments and at most two cells meet.
* Theorems: `C18_facets_partial`, `C18_lower_partial`, `C18_symmetric_partial`, `C18_violated_stale`, `C18_violated_asymmetric`, `C18_violated_removed`

### C19 extract_boundary produces exactly the hull (proved)

* Modelled: `Model/Copy.lean`: `vertex_copy_map`, `extract_boundary`.
* Proof: Invariant of the copy map over the loop; result compared with the facets for which `is_boundary` holds, for any visiting order.
* Result: For all simplex, quadrilateral and hexahedral meshes with distinct vertex ids, any visiting order of facets; combined with C16 for the meaning of boundary. The variant with a segmentation is C64.
* Theorems: `C19_hull`, `C19_manifold`

### C20 extract_seed_points yields one seed per connected part (proved)

* Modelled: `Model/Seeds.lean`: passes of `neighbor_mark`, loops of `extract_seed_points`.
* Proof: Marking computes the connected component (soundness by induction, completeness because a pass that changes nothing is closed under neighbors); fuel is proved sufficient.
* Result: Mesh, segment and segmentation variants; the search is proved to terminate and to find exactly one cell of each part.
* Theorems: `C20_seed_points`, `C20_seed_points_of_segment`, `C20_seed_points_of_segmentation`, `C20_no_segments`

### C21 A copied mesh is isomorphic to and independent of the original (proved)

* Modelled: `Model/MeshCopy.lean`: mesh objects with handles that name the object they point into, `fix_handles`.
* Proof: Lookup by id succeeds because ids are positions or distinct; all references of the result are into the new object.
* Result: On a model with explicit mesh objects: after fix_handles every reference is into the copy at the element with the same id, orientations and id generators are kept, and with caches copied the queries on the copy agree with the original (C21_copy, C21_references, C21_queries); copies may occur anywhere in the histories of C13-C17. Distinct vertex ids are needed (C21_needs_distinct_ids).
* Theorems: `C21_copy`, `C21_references`, `C21_queries`, `C21_needs_distinct_ids`

### C22 Copying selected cells creates each vertex once and nothing else (proved)

* Modelled: `copySelected` in `Model/Copy.lean`.
* Proof: As C19.
* Result: For source meshes with distinct vertex ids (needed: C22_needs_distinct_ids). The variant with a segmentation is C63.
* Theorems: `C22_copy_selected`, `C22_sharing`, `C22_needs_distinct_ids`

### C23 Erasing an element removes it and everything referring to it, and nothing else (partial)

* Modelled: `Model/Erase.lean`: storage nodes with addresses, swap with the last node, redirection of references, marking.
* Proof: Invariant over the list of erased ids and over the dimensions; the specification says which ids remain and that each remaining element keeps its boundary ids.
* Result: Proved for simplex meshes of any dimension and for line and quadrilateral meshes, for any sequence of erasures of element sets of any dimension after any history (C23_erase_elements, C23_erase_element, C23_remaining_ids). Violated for hexahedra (C23_violated_hexahedron): erasing the edge missing in the table of hexahedra leaves dangling face references. Handles, views and segments after the erasure: C77. Thin meshes of simplices and of hypercubes of any dimension are covered.
* Theorems: `C23_erase_elements`, `C23_erase_element`, `C23_remaining_ids`, `C23_violated_hexahedron`

### C24 After erasing, creating elements still finds shared faces correctly (partial)

* Modelled: Same model, lookup by stored key; and `eraseCell` in the histories of `Model/Queries.lean`.
* Proof: Witness for stale keys; invariant for erasures of cells.
* Result: Violated: erasing an edge leaves the map of edges with stale keys (C24_violated). Proved for all interleavings of creations and erasures of cells (C24_after_cell_erasures_partial, C24_faces_shared_partial).
* Theorems: `C24_after_cell_erasures_partial`, `C24_faces_shared_partial`, `C24_violated`

### C25 make_unique_vertex never duplicates a point (partial)

* Modelled: `Model/UniqueVertex.lean`.
* Proof: Direct, for any distance function; witnesses with exact coordinates.
* Result: With a tolerance: proved in full (C25_tolerance, C25_separated, C25_no_tolerance). Without a tolerance argument the claim is violated: at the origin the tolerance is zero and a duplicate is created (C25_violated_at_origin), and the first vertex within the tolerance is preferred to one exactly at the location (C25_violated_nearby). C25_default_partial is what remains. Exact arithmetic instead of floating point.
* Theorems: `C25_tolerance`, `C25_separated`, `C25_no_tolerance`, `C25_default_partial`, `C25_violated_at_origin`, `C25_violated_nearby`

### C26 Membership in a segment is closed under boundary and consistent with the element's own record (partial)

* Modelled: `SegState` in `Model/Segments.lean`: views, element set, records per element, `add`, creation in segments. The field `recs` is the size of the arrays of records; `queryIn` and `queryIds` are the calls of the API, with `none` for undefined.
* Proof: Invariant over histories: view, record and the ghost list of added elements agree; closure under boundary needs that boundary elements of boundary elements are boundary elements (`Topo.WF`), which fails for the hexahedron table. `RecInv` (Lemmas/SegRecords.lean): the array covers exactly the ids up to the largest one touched by an operation on segments; the specification `HasRecord` does not mention the array.
* Result: Proved for simplex meshes and quadrilateral meshes, all histories of creations, add and erase(segment, element). Violated for edges of hexahedra because of the wrong hexahedron edge (C26_violated_hexahedron); vertices, facets and cells of hexahedra are covered by C26_hexahedra_partial. unchecked_add is the subject of C89. Thin meshes of simplices and of hypercubes of any dimension are covered. is_in_segment and segment_ids are undefined for elements without a record, that is with an id larger than the ids of all elements of that type ever added to or erased from segments (C26_violated_query); C26_queries_partial says exactly when they are defined, and that they then give the right answer.
* Theorems: `C26_after_erase_partial`, `C26_content_partial`, `C26_is_in_segment_partial`, `C26_segment_ids_partial`, `C26_queries_partial`, `C26_closed_partial`, `C26_all_elements_partial`, `C26_violated_query`, `C26_violated_hexahedron`, `C26_hexahedra_partial`

### C27 Erasing an element from a segment removes it from that segment (partial)

* Modelled: `eraseElem` with `mark_referencing_elements`.
* Proof: For all states: the element stays; the referencing elements are removed. For histories with `erase` (`Props/SegmentHistory.lean`) the invariant is kept with a new ghost list after each erasure.
* Result: Violated: the element itself is never removed (C27_element_stays, for all states). The rest of the claim is proved, from every state reached by creations, add and erase.
* Theorems: `C27_after_erase_partial`, `C27_element_stays`, `C27_referencing_elements_partial`

### C28 Segments are found under their id and their name, and names stay unique (partial)

* Modelled: `Model/SegNames.lean`: ids, names and the name map.
* Proof: Invariant over histories of calls with exceptions; witnesses.
* Result: Violated for names which are numbers (three witnesses); ids are proved for all histories, names for all histories in which the caller does not use numbers as names.
* Theorems: `C28_ids_unique`, `C28_lookup_by_id`, `C28_violated_first_name`, `C28_violated_unique_names`, `C28_violated_lookup`, `C28_names_partial`

### C29 clear() returns a segmentation to its initial state (partial)

* Modelled: `Reg.clear`, `SegState.clearAll`.
* Proof: Simulation between the cleared and a new segmentation for names not registered before; witnesses.
* Result: Violated (make_segment throws after clear, dangling name entries, element set kept); proved for later calls avoiding registered names.
* Theorems: `C29_violated_make`, `C29_violated_name`, `C29_clear_partial`, `C29_violated_all_elements`

### C30 Equality of segment sets ignores order and counts multiplicity (proved)

* Modelled: `segIdsEqual`.
* Proof: Sorting and `List.Perm`; connected with C26 for meshes.
* Result: For arbitrary lists (multiset equality), and for elements of simplex and quadrilateral meshes in terms of the lists of the segments.
* Theorems: `C30_equal_iff_count`, `C30_same_segments`

### C31 Fields and accessors return the last value written, else the default (partial)

* Modelled: `Model/Field.lean`: growing array and map, accessors and fields.
* Proof: The exact value of a read after any history is given by a specification over the history; the claim follows in the cases named.
* Result: Violated: dense fields with a default read as a default constructed value below the greatest id written (C31_violated_dense), and reading through a non-const field inserts such values (C31_violated_by_reading). Exact behaviour for all histories in C31_dense_exact; the claim is proved for fields whose default is a default constructed value, and for map fields with any default when reads are const. find, at and assignments through at of dense containers: C31_dense_missing.
* Theorems: `C31_dense_exact`, `C31_dense_partial`, `C31_dense_written`, `C31_dense_missing`, `C31_dense_others_partial`, `C31_violated_dense`, `C31_violated_by_reading`, `C31_mapped_partial`, `C31_mapped_reads_partial`, `C31_mapped_others`

### C32 Triangle refinement tiles each triangle (proved)

* Modelled: `Model/RefineTri.lean`.
* Proof: All 8 mark patterns and both comparisons; areas as polynomial identities with positions of the new vertices as variables.
* Result: All mark patterns, all lengths, all positions of the new vertices on their edges, points with any number of coordinates: the areas of the children have the sign of the triangle and add up (C32_area); each edge of the result is used once on the boundary and twice inside (C32_edges). Exact arithmetic. C32_refine_mesh: for whole meshes, the children of each cell have corners and midpoints of the cell as vertices.
* Theorems: `C32_refine_mesh`, `C32_area`, `C32_edges`, `C32_longer_edge`

### C33 Tetrahedron refinement preserves volume and never hits an assertion (proved)

* Modelled: `Model/RefineTet.lean`: every `apply` function as a tree of statements.
* Proof: A checker for trees is proved sound once (Lemmas/RefineCheck.lean) and run by the kernel on the 64 mark patterns with all outcomes of comparisons that are consistent; volumes are polynomial identities.
* Result: All 64 mark patterns, all lengths and ids, all positions of the new vertices on their edges: no branch without children is reached, child volumes are nonzero and add up to that of the tetrahedron. Exact arithmetic. C33_refine_mesh and C33_mesh_volume: the same for whole meshes, whose volume is kept.
* Theorems: `C33_refine_mesh`, `C33_mesh_volume`, `C33_volume`

### C34 Tetrahedron refinement is conforming across cells (proved)

* Modelled: Same model.
* Proof: The checker computes the triangles on each face; independence from the rest of the cell is proved for all marks and lengths.
* Result: The triangles on a face are given by ids, marks and lengths on the face alone (C34_face), so two neighboring tetrahedra agree (C34_two_cells); inside, each facet belongs to two children (C34_inside). Lengths are any symmetric function into a linear order.
* Theorems: `C34_face`, `C34_two_cells`, `C34_inside`

### C35 Tetrahedron refinement keeps the orientation (partial)

* Modelled: Same model.
* Proof: Same checker with signs; witness for one pattern.
* Result: Violated: with three marked edges forming a path of one handedness one child can be inverted (C35_violated). Proved for the other 58 mark patterns, and at most one child is inverted in any case.
* Theorems: `C35_orientation_partial`, `C35_at_most_one_partial`, `C35_violated`

### C36 Longest-edge closure of marked edges terminates in the least closed superset (partial)

* Modelled: `Model/RefineMarks.lean`.
* Proof: Termination measure (number of unmarked edges), closedness at the end, minimality by induction over steps.
* Result: Violated: a marked cell whose edges all have length zero makes the code dereference a null pointer (C36_violated). Proved for all meshes in which each cell has an edge of positive length: termination with a bound on the passes, closedness, and minimality; ties go to the first longest edge.
* Theorems: `C36_least_closed_partial`, `C36_violated`, `C36_mesh_partial`, `C36_cell_marks`

### C37 Refinement passes segment membership on to the children (partial)

* Modelled: `Model/RefineMesh.lean`: `refineSegMesh`, refinement of a mesh with segmentation, using C32 and C33 for single cells; undefined if a cell has no record.
* Proof: Invariant over cells and children, sums of volumes by segment.
* Result: Violated: simple_refine reads segment_ids of every cell, which is undefined if there is a cell with an id larger than those of all cells ever put in segments, for example if no cell is in a segment (C37_violated). Proved for all segmented meshes of triangles and of tetrahedra where each cell has a record (C37_tetrahedra_partial, C37_triangles_partial), all marks and all orders of the edges, refine into an empty mesh: each cell made is in exactly the segments of its parent, and the volume of each segment is kept (C37_segment_volume_partial). Exact arithmetic; the new vertices are at midpoints as in refine.
* Theorems: `C37_tetrahedra_partial`, `C37_triangles_partial`, `C37_segment_volume_partial`, `C37_violated`

### C38 Hyperplane refinement puts the new vertices on the plane (partial)

* Modelled: `Model/Hyperplane.lean`.
* Proof: Field arithmetic; invariant over the loop of edges; witness for merged points.
* Result: Violated: the vertex goes through make_unique_vertex, so far away from the origin points of different edges are merged (C38_violated). Proved: marks exact, the point computed is on the plane and inside the edge, the vertex assigned is within a millionth of the norm of that point. Exact arithmetic.
* Theorems: `C38_marks`, `C38_point`, `C38_call_partial`, `C38_violated`

### C39 is_inside decides containment in a simplex exactly (partial)

* Modelled: `insideTriangle`, `insideTetrahedron` in `Model/Geometry.lean`.
* Proof: Barycentric coordinates: the numbers computed are the barycentric coordinates (or their absolute values); specification is convex combination.
* Result: Exact with zero tolerance for tetrahedra (C39_tetrahedron) and triangles in the plane (C39_triangle_partial); positive tolerances accept all inside points. Violated for triangles in space: points above the triangle are accepted (C39_violated); what is decided is containment of the orthogonal projection (C39_triangle_projection). Exact arithmetic.
* Theorems: `C39_triangle_partial`, `C39_triangle_accepts`, `C39_triangle_projection`, `C39_violated`, `C39_tetrahedron`, `C39_tetrahedron_accepts`

### C40 closest_points of a point and a line, triangle, quadrilateral, tetrahedron or hexahedron returns the nearest point (proved)

* Modelled: `Model/ClosestPoints.lean`.
* Proof: Optimality by expanding squared distances; the reduction from face to edges is proved geometrically in any dimension.
* Result: Exact arithmetic in any dimension: the result is a point of the element and no point of it is closer (squares of distances are compared). Quadrilaterals: nearest point of the two triangles, of the convex hull if the diagonals meet; hexahedra: nearest point of the six tetrahedra, of the whole box if faces are parallel.
* Theorems: `C40_line`, `C40_triangle`, `C40_tetrahedron`, `C40_quadrilateral`, `C40_quadrilateral_convex`, `C40_hexahedron`, `C40_box`

### C41 closest_points(line, line) returns a point of the first line first and is optimal (partial)

* Modelled: `closestLineLine`.
* Proof: As C40; witnesses for order and for nearly parallel segments.
* Result: The code violates the claim: in the branches using end points the returned points may be in the wrong order (C41_violated_order), and crossing segments with an angle whose squared sine is below 1e-6 get end points instead of the crossing (C41_violated_distance). Proved: the points belong to the two segments up to order, and the distance is minimal for parallel lines, for lines which are not nearly parallel, and whenever the common perpendicular is outside.
* Theorems: `C41_optimal_partial`, `C41_members_partial`, `C41_violated_order`, `C41_violated_distance`

### C42 orthogonalize returns pairwise orthogonal vectors with the same span (proved)

* Modelled: `Model/Orthogonalize.lean`.
* Proof: Loop invariant: pairwise orthogonal, same span (Mathlib `Submodule.span`).
* Result: All lists of vectors, any dimension, any positive tolerance, including absence of division by zero. With tolerance zero the function divides by zero on dependent vectors (C42_violated_zero_tolerance). Exact arithmetic.
* Theorems: `C42_orthogonalize`, `C42_span_first`, `C42_violated_zero_tolerance`

### C43 circumcenter is equidistant from all vertices (partial)

* Modelled: `circum*` in `Model/Geometry.lean`.
* Proof: `field_simp` and `ring` identities; witness below the absolute threshold.
* Result: Lines, triangles in the plane and in space: proved in full. Tetrahedra: proved when the code does not throw; it throws below an absolute threshold, so small non-degenerate tetrahedra violate the claim (C43_violated). Exact arithmetic.
* Theorems: `C43_line`, `C43_triangle2`, `C43_triangle3`, `C43_tetrahedron_partial`, `C43_no_exception`, `C43_violated`

### C44 bounding_box is the tightest box (proved)

* Modelled: `boundingBox`.
* Proof: Induction over the points.
* Result: Any non-empty list of points with representable coordinates.
* Theorems: `C44_bounding_box`, `C44_unique`

### C45 volume of a planar element is its area (partial)

* Modelled: `signedTriangle`, `volumeQuad`, `spannedTriangle3`.
* Proof: Algebra; the specification is the shoelace area or the sum of triangles along a diagonal; witness.
* Result: Triangles in the plane and in space: proved. Quadrilaterals: violated, the formula assumes a cyclic numbering of corners (C45_violated); right for trapezoids with the edges 0-1 and 2-3 parallel, and for cyclically numbered convex ones. Exact arithmetic.
* Theorems: `C45_triangle`, `C45_violated`, `C45_trapezoid_partial`, `C45_cyclic_partial`, `C45_triangle_space`

### C46 volume of a hexahedron is the sum of its tetrahedra (partial)

* Modelled: `volumeHex`.
* Proof: Specification by the flux through the facets (divergence theorem); algebra; witness.
* Result: Violated (C46_violated, a prism over the quadrilateral of C45). Proved for parallelepipeds, and for cyclically numbered hexahedra with planar facets. The volume is specified by the divergence theorem. Exact arithmetic.
* Theorems: `C46_violated`, `C46_parallelepiped_partial`, `C46_cyclic_partial`

### C47 centroid, scale and affine transforms commute (proved)

* Modelled: `Model/Transform.lean`, `centroid`, `scalePoint`, `affinePoint`.
* Proof: Algebra with finite sums.
* Result: Mesh level (C47_transform), centroids of elements and of meshes, inverse scaling and inverse affine maps, volumes of triangles, quadrilaterals, polygons, tetrahedra and hexahedra. Exact arithmetic; elements without vertices are excluded.
* Theorems: `C47_transform`, `C47_centroid_mean`, `C47_scale_back`, `C47_scale_origin`, `C47_affine_back`, `C47_centroid_affine`, `C47_centroid_scale`, `C47_volume`, `C47_volume_scale`, `C47_centroid_mesh`, `C47_centroid_mesh_affine`

### C48 Mesh volume and surface are additive and independent of order (partial)

* Modelled: `volumeOf`, `surface` with the boundary caches of C16; the area of quadrilaterals in space (`volumeQuad3`) for the violations. `Model/CellSurface.lean`: `surface` of one cell. Volume and surface of a view with its caches (`VC.surface`, `VC.volume`).
* Proof: Folds over permutations of lists; histories of C13 for the boundary flags. For cells of any kind: facets created by a cell store its corners in the order of the table (`makeElem_new_facet`), so in a history of cells only the corner order of a facet on the boundary is given by its only cell. Violations: a prism over a quadrilateral, with its lower facet numbered otherwise by an earlier element. The surfaces of all cells: the sums over cells and facets are exchanged, each facet is counted once for each of its cells (`surfaces_sum`). Segments: as for meshes, with the caches of C15.
* Result: Volume: sum, additive, order independent. Surface: sum over the facets reported by is_boundary after any history. The surface is order independent for facets whose volume does not depend on vertex order (lines, triangles) after any history, and for all facets if only vertices and cells are created and no facet belongs to more than two cells (C48_surface_order_cells_partial). Violated otherwise for hexahedra: a facet created before its cell, or left by an erased cell, has another corner order and another computed area (C48_violated, C48_violated_erase). Surfaces of cells: C48_cell_surface, and C48_cell_surfaces_partial for meshes in which no facet belongs to more than two cells. Segments: C48_segment_volume, C48_segment_surface_partial; violated after handle_mesh, where the surface is empty (C48_violated_segment). Exact arithmetic.
* Theorems: `C48_cell_surface`, `C48_cell_surfaces_partial`, `C48_volume`, `C48_volume_order`, `C48_volume_additive`, `C48_surface`, `C48_surface_one_cell_partial`, `C48_surface_order_partial`, `C48_segment_volume`, `C48_segment_surface_partial`, `C48_violated_segment`, `C48_surface_order_cells_partial`, `C48_violated`, `C48_violated_erase`

### C49 Writing a mesh with the VTK writer and reading it back gives the same mesh (partial)

* Modelled: `Model/Vtk.lean`: contents of files, writer, reader with merged points, cells by key, parts sorted.
* Proof: Round trip: invariants for the point list, for the index maps, and for the cells made; specification `VtkSame` compares points, cells and segments.
* Result: Proved for lines, triangles, tetrahedra, quadrilaterals and hexahedra, any history of creating and segmenting, any ids: read mesh has the same points, cells, vertex order and segments (C49_segments_partial; with fewer than two segments everything goes to segment 0, C49_mesh_partial). Needed: different points stay different as 15-digit text (C49_violated_digits) and vertex ids are different (C49_violated_ids). Without these hypotheses each file is a VTK file of the right cells with the standard order of points (C49_standard). Text layout of the file is not modelled here, number formatting is a function txt; C108 has the texts of doubles and replaces the hypothesis on 15-digit texts by a distance of the points.
* Theorems: `C49_segments_partial`, `C49_standard`, `C49_mesh_partial`, `C49_violated_digits`, `C49_violated_ids`

### C50 Data arrays in VTK files are attached to the right elements (partial)

* Modelled: Same model: arrays, components, loops attaching values.
* Proof: Loop invariants; witnesses.
* Result: The code violates the claim: a scalar array without NumberOfComponents after a vector array is read as vector (C50_violated_components); vector quantities registered for one segment are read out of bounds (C50_violated_segment_vector). Proved for the other cases, for all files; and for written files end to end, with segments (C50_written_partial) and as one file (C50_mesh_partial).
* Theorems: `C50_components_partial`, `C50_violated_components`, `C50_scalar_values`, `C50_vector_values_partial`, `C50_violated_segment_vector`, `C50_written_partial`, `C50_mesh_partial`

### C51 XML tags are parsed into their name and attributes (partial)

* Modelled: `Model/XmlTag.lean`: the parser character by character.
* Proof: Induction over the text; specification is a printer of tags.
* Result: The code violates the claim: a tag with an empty attribute value is rejected (C51_violated_empty), a value with a closing bracket ends the tag (C51_violated_bracket). Proved for all other tags (C51_name, C51_attributes_partial), with arbitrary text before and after; attributes are separated by blanks. For every input, what is consumed ends with a bracket or is the whole stream (C51_consumes). C51_violated_skipws: a tag without attributes leaves the stream with another setting than one with attributes.
* Theorems: `C51_name`, `C51_attributes_partial`, `C51_violated_empty`, `C51_violated_bracket`, `C51_violated_skipws`, `C51_queries`, `C51_no_tag`, `C51_consumes`

### C52 quantity_transfer averages exactly the values of adjacent accepted source elements (partial)

* Modelled: `Model/QuantityTransfer.lean`.
* Proof: Loop invariants for the map of values; witnesses.
* Result: Higher to lower dimension proved for all reachable meshes, ranges, filters, values and averages (C52_boundary). Lower to higher dimension violated: the accessor is called for the destination element (C52_violated), elements without accepted source are set as well (C52_violated_empty); proved when values agree and every accepted element has an accepted source, and what happens in general (C52_coboundary_actual).
* Theorems: `C52_boundary`, `C52_coboundary_partial`, `C52_coboundary_actual`, `C52_violated`, `C52_violated_empty`

### C53 Coordinate systems convert back and forth without loss (partial)

* Modelled: `Model/Coordinates.lean` over the reals.
* Proof: Mathlib's `Complex.arg`, `Real.arccos`.
* Result: Over the real numbers. Proved: Cartesian to polar, cylindrical, spherical coordinates and back for all points, also the other way for coordinates in the usual ranges, vector arithmetic with negative factors, spherical to cylindrical. The code violates cylindrical to spherical for negative rho (C53_violated), proved for rho >= 0 (C53_cylindrical_to_spherical_partial).
* Theorems: `C53_polar`, `C53_cylindrical`, `C53_spherical`, `C53_polar_range`, `C53_polar_back`, `C53_cylindrical_back`, `C53_spherical_back`, `C53_polar_arithmetic`, `C53_cylindrical_arithmetic`, `C53_spherical_arithmetic`, `C53_spherical_to_cylindrical`, `C53_cylindrical_to_spherical_partial`, `C53_violated`, `C53_polar_norm`

### C54 point_less is a strict weak order compatible with equality (proved)

* Modelled: `pointLess`.
* Proof: Induction on the dimension.
* Result: Any dimension, any linearly ordered coordinates; no NaN.
* Theorems: `C54_meaning`, `C54_strict_total`

### C55 Polygon boundary is one closed cycle (partial)

* Modelled: `polygonEdges`; meshes of polygons are `polyTopo` in `Model/Mesh.lean`: cells with any number of vertices from three on.
* Proof: Lists of consecutive pairs; undefined behaviour is the outcome `none`. In a mesh: the invariant of the mesh model for `polyTopo`.
* Result: Proved for at least one vertex (cycle) and at least three (distinct edges); the empty polygon runs into undefined behaviour (C55_empty_polygon_undefined). C55_mesh_cycle proves the cycle for each polygon stored in a mesh, with shared lines and orientations.
* Theorems: `C55_mesh_cycle`, `C55_empty_polygon_undefined`, `C55_polygon_cycle`, `C55_polygon_edges_distinct`

### C56 Polygon volume does not depend on the starting vertex, position or direction (proved)

* Modelled: `volumePolygon` in two dimensions.
* Proof: The fan sum is the shoelace sum (induction); rotation, reversal, translation.
* Result: Any number of vertices, any position of the origin used. Exact arithmetic.
* Theorems: `C56_shoelace`, `C56_invariant`

### C57 Tolerant comparison is symmetric and reflexive (partial)

* Modelled: `numIsEqual`.
* Proof: Direct; witnesses.
* Result: Violated: not symmetric near the tolerance, not reflexive with tolerance zero (C57_violated). Reflexive for positive tolerances, symmetric with an absolute tolerance. Exact arithmetic.
* Theorems: `C57_violated`, `C57_reflexive_partial`, `C57_symmetric_partial`

### C58 Cross product, inner product and norms satisfy their laws (proved)

* Modelled: `innerProd`, `crossProd`, `determinant*`, norms.
* Proof: `ring`; Cauchy-Schwarz of Mathlib.
* Result: Exact arithmetic (any ordered field; the Euclidean norm over the reals).
* Theorems: `C58_determinant`, `C58_cross`, `C58_inner`, `C58_inner_definite`, `C58_normal_line`, `C58_normal_triangle`, `C58_norm1`, `C58_normInf`, `C58_norm2`

### C59 Reading a Netgen file builds the described mesh (partial)

* Modelled: `Model/Netgen.lean`: streams of words with the state `good()`.
* Proof: Induction over the file; all ways to cut a file.
* Result: Well-formed files: vertices, cells, ids and segments proved for simplices and quadrilaterals (C59_mesh, C59_segments). Truncated files: exception proved for files ending right after a word (C59_truncated_partial); violated for files with a line break at the end (C59_violated_cell, C59_violated_no_cells, C59_violated_undefined) and for empty files (C59_violated_empty). Files are lists of words; the text of numbers is not modelled.
* Theorems: `C59_mesh`, `C59_segments`, `C59_truncated_partial`, `C59_violated_cell`, `C59_violated_no_cells`, `C59_violated_undefined`, `C59_violated_empty`

### C60 clear(segment) leaves no trace of the segment's elements (partial)

* Modelled: `clearSegment`.
* Proof: Direct on states; violated for every element.
* Result: Violated for every element of the cleared segment (C60_violated); the effect on lists, other segments and the mesh is proved.
* Theorems: `C60_violated`, `C60_clear_segment_partial`

### C61 Volume of a planar polygon in space is its area (partial)

* Modelled: `volumePolygon` with the unsigned triangle area of space.
* Proof: Reduction to the plane; witness.
* Result: Violated for non-convex polygons (C61_violated). Proved for polygons in any plane whose fan triangles at the first vertex have one orientation. Over the reals.
* Theorems: `C61_violated`, `C61_star_partial`

### C62 closest_points_on_boundary(point, mesh) returns the nearest boundary point (proved)

* Modelled: `closestOnBoundary` with the boundary caches; `nearLine`, `nearTriangle`, `nearQuad` are the routines for single facets.
* Proof: Loop invariant; C40 for single facets, which have two (three, four) points because their vertices exist (`pointsOf_length`).
* Result: For every reachable mesh state of triangles, quadrilaterals, tetrahedra and hexahedra with the routines of the library for lines, triangles and quadrilaterals (C62_triangle_mesh, C62_quadrilateral_mesh, C62_tetrahedron_mesh, C62_hexahedron_mesh, the last with plane convex faces); C62_closest_on_boundary for any routine correct on single facets. Facets counted as boundary are those for which is_boundary holds (C16).
* Theorems: `C62_triangle_mesh`, `C62_quadrilateral_mesh`, `C62_tetrahedron_mesh`, `C62_hexahedron_mesh`, `C62_closest_on_boundary`

### C63 Copying a mesh with its segments keeps the segments (partial)

* Modelled: `Model/CopySeg.lean`: `copySeg` with the vertex map, the names and the segment records; exceptions and undefined lookups are distinct outcomes. The segments of a cell are read with `queryIds`.
* Proof: Loop invariant `SCInv` over the accepted cells; C26 turns the records of additions into the content of the segments.
* Result: Proved for simplices and quadrilaterals, any source history of creations and additions, any predicate, and a destination segmentation that never listed an element and has the needed names free (C63_copy_partial). Violated otherwise: names and segments without cells are lost (C63_violated_names), assigning twice to the same object throws (C63_violated_again), the view of all segmented elements keeps elements that no longer exist (C63_violated_all). Assigning a segmented mesh to itself removes everything (C63_violated_self). Copying is undefined if an accepted cell has no record in the segmentation, in particular for all meshes with cells where no cell was ever put in a segment (C63_violated_no_segment, C63_violated_no_segments); C63_copy_partial asks for the records.
* Theorems: `C63_copy_partial`, `C63_violated_names`, `C63_violated_again`, `C63_violated_all`, `C63_violated_self`, `C63_violated_no_segment`, `C63_violated_no_segments`

### C64 extract_boundary of a segmentation gives the hulls of all segments (partial)

* Modelled: `Model/CopySeg.lean`: `extractBoundarySeg` over the segments with their boundary caches.
* Proof: Loop invariant `HInv` over pairs (segment, facet).
* Result: Proved for any history in which cells are added to segments and any queries, any list of segments, and a fresh hull segmentation (C64_hull_partial; in terms of one cell per facet for manifold segments, C64_manifold). Violated: a second extraction into the same hull throws although both objects are cleared (C64_violated_again).
* Theorems: `C64_hull_partial`, `C64_manifold`, `C64_violated_again`

### C65 angle and dihedral_angle give the geometric angle (proved)

* Modelled: `Model/Angles.lean` over the reals.
* Proof: Cauchy-Schwarz and `Real.arccos`; half-planes through the parts perpendicular to the edge.
* Result: All vectors other than zero in all dimensions; for a zero vector the code divides zero by zero (C65_zero_vector). Exchanging two points of one plane gives the supplementary angle (C65_dihedral_reversed). Exact real arithmetic.
* Theorems: `C65_angle`, `C65_zero_vector`, `C65_angle_at`, `C65_dihedral`, `C65_dihedral_reversed`

### C66 solid_angle is the solid angle (proved)

* Modelled: `solidAngle` with `atan2` as `Complex.arg`.
* Proof: Product of the three angles as complex numbers against the square of the number whose argument is taken (polynomial identities), dual law of cosines for the range. In a plane: the divisor is the product of a positive number and |c| + x |a| + y |b| for c = x a + y b.
* Result: All triples with determinant other than zero by the formula of Girard for the spherical excess (C66_solid_angle), also in terms of dihedral_angle (C66_solid_angle_at); all triples with determinant zero in C66_flat. Exact real arithmetic.
* Theorems: `C66_solid_angle`, `C66_invariant`, `C66_solid_angle_at`, `C66_flat`

### C67 distance is the least distance (partial)

* Modelled: `Model/Distance.lean`: the norm of the closest pair.
* Proof: From C40, C41, C62; for meshes of triangles, quadrilaterals, tetrahedra and hexahedra with the routines of the library (`C67_triangle_mesh` and the like).
* Result: Proved for points, point to element and point to mesh boundary. For two line segments violated when they cross nearly parallel (C67_violated), proved otherwise (C67_lines_partial). distance(line, segment) of a segmentation is C10.
* Theorems: `C67_triangle_mesh`, `C67_tetrahedron_mesh`, `C67_quadrilateral_mesh`, `C67_hexahedron_mesh`, `C67_points`, `C67_point_element`, `C67_lines_partial`, `C67_boundary`, `C67_violated`

### C68 apply_voronoi for triangles gives the Voronoi boxes (partial)

* Modelled: `Model/Voronoi.lean`: the sequence of statements changing the accessors, in exact real arithmetic; coboundary query for the cell across the edge.
* Proof: Per triangle, the sums written to each vertex and edge are computed in closed form (cotangents) in both branches; loop invariant over the triangles with the coboundary cache; sums exchanged over the mesh. In space (`Lemmas/VoronoiSurface.lean`): the circumcenter written from the middle of an edge, Lagrange's identity for the cross product; without obtuse angles no edge is crossed.
* Result: The vertex boxes add up to the area of the mesh for all plane meshes without flat triangles (C68_total_volume), and box totals are the sums of the recorded contributions (C68_contributions). Interfaces are right when the edge opposite each obtuse angle belongs to another triangle (C68_interface_partial and the following). Otherwise the interface total contains a part outside the mesh that no cell contributes (C68_violated); for surfaces in space with obtuse triangles boxes are wrong (C68_violated_in_space). For surfaces in space without obtuse triangles interfaces, boxes, totals and contributions are right (C68_surface_partial, C68_surface_contributions_partial), also for upright triangles, where the local coordinates are not numbers.
* Theorems: `C68_total_volume`, `C68_interface_partial`, `C68_boxes_partial`, `C68_contributions`, `C68_interface_contributions_partial`, `C68_boxes_from_interfaces_partial`, `C68_delaunay_partial`, `C68_violated`, `C68_violated_in_space`, `C68_surface_partial`, `C68_surface_contributions_partial`

### C69 apply_voronoi for lines halves each line (proved)

* Modelled: `Model/Voronoi.lean`: the statements for one line, folded over the lines.
* Proof: Loop invariant giving all six accessors after the first n lines; the sums over vertices and lines are exchanged.
* Result: All meshes of lines in all dimensions. Interface and line box are set, vertex boxes are added to what the accessor held before. Exact real arithmetic.
* Theorems: `C69_boxes`, `C69_contributions`, `C69_total_volume`

### C70 apply_voronoi for quadrilaterals divides the cells among their corners (partial)

* Modelled: `Model/VoronoiCells.lean`: the statements for the edges of a quadrilateral.
* Proof: Statements which only add are summed per cell; the eight triangles of a convex quadrilateral are added up (shoelace); counts of the recorded cells. `Props/VoronoiQuadParts.lean`: the same for convex quadrilaterals and for interfaces of any quadrilaterals, from the orientation of the four triangles at the mean of the corners.
* Result: The vertex boxes add up to the area for convex quadrilaterals (C70_total_volume), each vertex having the parts of its cells next to it (C70_boxes); interfaces and edge boxes for any quadrilaterals (C70_interface); the totals are the sums of the contributions for every mesh (C70_contributions), a cell is recorded once at each of its edges (C70_once_at_edges). Violated: each cell is recorded twice at each of its vertices (C70_violated_twice). The shares of parallelograms are in C70_boxes_partial and C70_interface_partial. For other quadrilaterals the mean of the corners is not equidistant, so these boxes are no Voronoi boxes in the usual sense.
* Theorems: `C70_boxes`, `C70_interface`, `C70_total_volume`, `C70_boxes_partial`, `C70_interface_partial`, `C70_contributions`, `C70_once_at_edges`, `C70_violated_twice`

### C71 apply_voronoi for hexahedra divides the cells among their corners (partial)

* Modelled: `Model/VoronoiCells.lean`: the loops over the facets of a hexahedron and the edges of a facet, as stored in the mesh.
* Proof: The double loop is rewritten into a sum over 24 (facet, corner, corner) triples by the stored boundary lists (`hex_sides`); the 24 tetrahedra of a convex hexahedron have the same sign, so their volumes add up to the flux form of the volume; for parallelepipeds each is a 24th and each interface triangle a cross product over 8; counting the triples gives what is recorded. The mesh has to be conforming: a facet is stored with the corner order of the first cell which has it (C04), and a second cell listing the same four corners with other opposite corners would use diagonals as edges. `Props/VoronoiHexParts.lean`: boxes and interfaces of any hexahedra, by regrouping the 24 tetrahedra.
* Result: The vertex boxes add up to the volume for conforming meshes of convex hexahedra (C71_total_volume); the boxes and interfaces are made of the tetrahedra and triangles of the statement for conforming meshes of any hexahedra (C71_boxes, C71_interface); the totals are the sums of the contributions for every mesh (C71_contributions). Violated: each cell is recorded twice at each of its edges and six times at each of its vertices (C71_violated_twice). The shares of parallelepipeds are in C71_boxes_partial and C71_interface_partial. For other hexahedra the means of the corners are not equidistant, so these boxes are no Voronoi boxes in the usual sense.
* Theorems: `C71_boxes`, `C71_interface`, `C71_total_volume`, `C71_boxes_partial`, `C71_interface_partial`, `C71_contributions`, `C71_violated_twice`

### C72 apply_voronoi for tetrahedra gives the Voronoi boxes of a Delaunay mesh (partial)

* Modelled: `Model/VoronoiCells.lean`: the three steps over cells, facets and edges with their maps, exceptions and the read of the first segment of an empty list as outcomes.
* Proof: The maps are characterised by the stored boundary lists (`tetStep1_ok`, `tetStep2_ok`), which gives the segments of an edge in terms of the cells at each facet. With signs: the determinant of the edge and two points in its bisecting plane is twice an oriented area times the length (`plane_area`); in a Delaunay mesh the mean of the segment middles sees all segments turning the same way (the empty spheres give `q_near`, the boundary conditions `q_side`), so unsigned areas are oriented areas (`facet_identity`), which telescope around each cell to the quadrilateral of the cell (`edge_identity`); over the six edges of a cell the quadrilaterals give six times its volume (`all_edges`, a polynomial identity from the circumcenter equations). The specification (`VoronoiTetsSpec.lean`) speaks only of cells, their vertices, and points equidistant from them.
* Result: When the function returns, throws or reads outside a vector is decided for every mesh (C72_returns); boxes as double pyramids (C72_boxes), totals as sums of contributions (C72_contributions) and what each cell contributes (C72_cells) are proved for every mesh. That the interfaces consist of the pieces in the cells (C72_interface_partial) and the boxes add up to the volume (C72_total_volume_partial) is proved for Delaunay meshes which conform to their boundary, with a boundary convex at each of its edges. Violated otherwise: a single cell with its circumcenter outside has boxes larger than itself (C72_violated). Violated even for cells with circumcenters inside: the connection of two circumcenters is split in the middle and not where it crosses the facet, so contributions go to the wrong cell (C72_violated_cells). Missing: boundaries not convex at their edges.
* Theorems: `C72_returns`, `C72_boxes`, `C72_contributions`, `C72_cells`, `C72_interface_partial`, `C72_total_volume_partial`, `C72_violated`, `C72_violated_cells`

### C73 The cells of a refined mesh fit together (proved)

* Modelled: `Model/RefineMesh.lean` with `Model/RefineTet.lean`: the whole of `refine` of a mesh with a segmentation, new vertices, children, insertion of their facets.
* Proof: Each vertex of the refined mesh gets a name, the pair of old vertices it is made of, and two labels of any two cells give the same vertex iff they have the same name (`Refined.label_iff`). The triangles of the children on a face of their cell are those of the rule `FaceTriangle`, which depends on the ids, marks and lengths on this face only (C34), and three labels not on a face are in two children or none (C33 machinery, finite case analysis of the refinement patterns). Counting cells over all parents gives the number of cells at each facet. For the areas the triangles of `FaceTriangle` are listed for 0 to 3 marked edges. For triangles (`Lemmas/RefineEdges.lean`) the children at two labels on one edge are counted by C32_edges.
* Result: The relation of new to old triangles is C73_facets; C73_two_cells, C73_boundary and C73_surface follow from it. C73_edges, C73_two_triangles, C73_edge_boundary and C73_perimeter say the same of meshes of triangles. Facets which belong to no cell are left out. Exact arithmetic; new vertices at midpoints.
* Theorems: `C73_edges`, `C73_two_triangles`, `C73_edge_boundary`, `C73_perimeter`, `C73_facets`, `C73_two_cells`, `C73_boundary`, `C73_surface`

### C74 The Comsol writer writes the mesh and the segments of the cells (partial)

* Modelled: `Model/Mphtxt.lean`: the lists of numbers written, with the map of triangles by id and the map from vertex ids to positions; queries on the segments with their caches (C15); reading the first of no segments as undefined behaviour.
* Proof: The map of triangles is kept in order of ids (`touch_inOrder`), its entries are the boundary triangles (`used_spec`), positions are looked up by unique ids (`vertexIndex_spec`).
* Result: Points, tetrahedra and triangles of a written file are right for every history (C74_geometry), and each cell has the number of one of its segments (C74_domains; with several segments only one is written). A file is written if every cell is in a segment (C74_written_partial). Violated otherwise: for a cell in no segment the first of an empty list is read (C74_undefined, C74_violated), although the comment reserves zero for it.
* Theorems: `C74_geometry`, `C74_domains`, `C74_written_partial`, `C74_undefined`, `C74_violated`

### C75 Contacts in a Comsol file are the connected flat regions of the boundary (partial)

* Modelled: `markFrom`: the recursion with the marks as state and a bound on its depth which is never reached; `contactStep`, `contacts`.
* Proof: Depth-first search invariant (`markFrom_spec`: old marks kept, new ones reachable, marked triangles closed under the tests, by the number of unmarked triangles); loop invariant `ContactInv` over segments and triangles. The comparison of normals becomes a comparison of squares (`normalsParallel_iff`). The converse needs that links do not leave the boundary of a segment (`SameHulls`, implied by `SegParts`); `C75_violated_several` shows that it is needed, by evaluating the writer on integer coordinates (`parallel_int`).
* Result: For every mesh the indices are 0..n-1 and triangles with the same index are connected (C75_contacts_partial); the converse, and so that the contacts are exactly the connected regions, if triangles side by side are on the boundary of the same segments, in particular if no cell is in two segments and triangles have at most two cells (same theorem); exactly coplanar neighbours share a contact under the same condition (C75_flat_partial). Violated otherwise: with cells in several segments the half of a square which is also on the boundary of an earlier segment gets another index (C75_violated_several); normals are compared with a tolerance, so a flat tetrahedron is one contact (C75_violated_plane).
* Theorems: `C75_contacts_partial`, `C75_flat_partial`, `C75_violated_plane`, `C75_violated_several`

### C76 The sides of triangles in a Comsol file (proved)

* Modelled: `sideStep`: the entry of a segment on one side, decided from centroids and normal.
* Proof: Loop invariant `UInv`; the sign of the inner product of the centroids with the normal is that of the volume of the tetrahedron (`pointsAway_iff`).
* Result: For meshes of tetrahedra without flat or overlapping tetrahedra, each cell in at most one segment, after any history (C76_sides). Exact arithmetic.
* Theorems: `C76_sides`

### C77 Handles, views and segments after erasing elements of the mesh (partial)

* Modelled: `Model/Erase.lean` with storage cells at addresses; a handle is an address, a view a list of them, and reading a missing cell is undefined (`readView`).
* Proof: One erasure removes the last cell (`eraseId_cells`), so after n of them the cells left are the first ones of a deque, or those with the smallest keys of a key map (`CellsLeft`, by induction over the ids and the dimensions); an element not erased moves only out of a cell which disappears.
* Result: Violated (C77_violated): erasing the first of two triangles leaves the view of the second with a dangling handle and makes the view of the first list the second. Proved for all histories: which storage cells are left (C77_cells_left), what each handle refers to afterwards (C77_handle, an equivalence), and exactly which views still list their elements or cannot be read (C77_view_partial, C77_last_dangle_partial). Hexahedra are excluded, see C23.
* Theorems: `C77_cells_left`, `C77_handle`, `C77_view_partial`, `C77_last_dangle_partial`, `C77_violated`

### C78 The mesh in an OpenDX file (partial)

* Modelled: `Model/OpenDx.lean`: the headers, points, rows of ids and data of a file.
* Proof: The specification `DxDescribes` reads corners as positions in the array of points; histories without explicit ids keep ids equal to positions (`generated_run`).
* Result: Proved for meshes of simplices in space of the same dimension whose vertex ids are positions, with a quantity registered (C78_mesh_partial); ids are positions if none were given (C78_generated_ids), and this is needed (C78_ids_needed). Violated for other ids, for triangles in space, and without a quantity (C78_violated_ids, C78_violated_shape, C78_violated_no_data).
* Theorems: `C78_mesh_partial`, `C78_ids_needed`, `C78_generated_ids`, `C78_violated_ids`, `C78_violated_shape`, `C78_violated_no_data`

### C79 Which quantity opendx_writer writes (partial)

* Modelled: `DxWriter` with its two maps in the order of names and the announcements.
* Proof: Invariant `NameMap` over the registrations: sorted, each entry the last registration with its name.
* Result: What is written is determined for all sequences of registrations (C79_written): the alphabetically first name, its last registration. The claim holds if the first quantity has the alphabetically first name and no other has the same (C79_first_partial) and is violated otherwise (C79_violated). C79_announced: which names are announced as ignored.
* Theorems: `C79_written`, `C79_first_partial`, `C79_announced`, `C79_violated`

### C80 The numbers of a quantity in an OpenDX file (partial)

* Modelled: `dxFix` over rational numbers with the cast to `long` (64 bit) as a partial function.
* Proof: A number differs from its truncation by less than one; printing with five digits is the relation `PrintedAs` (nearest multiple of 1/100000, ties either way).
* Result: The condition in DXfixer is always true: 1/100000 is added to every value (C80_always_changed, C80_near). Violated for 0.99999, which is printed as 1.00000 because of that (C80_violated, C80_printed_integer); proved for values with at most four digits (C80_not_integer_partial). Values from 9.3e14 on have an undefined cast (C80_defined, C80_undefined). Exact arithmetic.
* Theorems: `C80_always_changed`, `C80_near`, `C80_printed_integer`, `C80_not_integer_partial`, `C80_violated`, `C80_defined`, `C80_undefined`

### C81 tetgen_poly_reader reads what is in the file (partial)

* Modelled: `Model/TetgenPoly.lean`: `lineContent` on characters, then one function per line and loop; uninitialised variables are `none` and their use is undefined behaviour. Vertices and lines are those of `Model/Mesh.lean`; a complex is a record of lines, vertices and hole points. Splitting a line into words is a parameter.
* Proof: A calculus for readers of lines (`PolyR.Reads`: reads exactly these lines whatever follows, throws if some are missing) closed under sequencing; insertion of lines by C04's `makeElem_spec`. The specification is the contents `PolyFile`, the relation `ShownBy` to lines of words, `FileLines` to the text, and `Describes`, which speaks of ids only.
* Result: Proved for all files in which each facet states its number of holes and blank lines have only blanks (C81_read_partial, from the characters of the file; splitting a line into words is a parameter). Violated if the number of holes is left out, as the format allows: an uninitialised variable is used (C81_violated_holes); and if a line has only a tab or a carriage return (C81_violated_blank).
* Theorems: `C81_read_partial`, `C81_violated_holes`, `C81_violated_blank`

### C82 tetgen_poly_reader rejects files which are cut off or malformed (partial)

* Modelled: As C81.
* Proof: The second half of `PolyR.Reads`; optional lists separately.
* Result: Proved for every file cut off after a line (C82_cut_partial) and for the optional lists (C82_optional). Violated: missing coordinates are accepted as zero (C82_violated_accepted), unknown corners, polygons without corners and missing corners are undefined behaviour (C82_violated_undefined).
* Theorems: `C82_cut_partial`, `C82_optional`, `C82_violated_accepted`, `C82_violated_undefined`

### C83 bnd_reader builds the triangulated boundaries of the polyhedra (partial)

* Modelled: `Model/Bnd.lean`: lines of words; the search loops, which do not end at the end of the file (`hangs`); one function per section; the lists which shrink with each contact; exceptions caught and ignored; then the vertices and triangles made for points and polygons, on `Model/Segments.lean`.
* Proof: A calculus for reading words over line breaks (`BndR.Reads`, `Lays`); corners of a face are the ends of its edges (`bndCorners_spec`); invariant `BInv` over the polygons; segments by C26. The specification `Props/BndFile.lean` says what a file contains and how it is written.
* Result: Proved for all files of dimension 3 whose polyhedra are triangulated and come before the contacts (C83_mesh_partial). Violated: files of dimension 2 cannot be read at all (C83_violated_2d); contacts before polyhedra (C83_violated_order) and regions of several polyhedra together with a contact (C83_violated_regions) make the reader use lists beyond their ends.
* Theorems: `C83_mesh_partial`, `C83_violated_2d`, `C83_violated_order`, `C83_violated_regions`

### C84 bnd_helper gives names, materials and contacts of the file (partial)

* Modelled: As C83.
* Proof: Folds over the regions (`regSteps_segments_length`, `regSteps_other`, `regSteps_names`, `regSteps_groups`). Elements of dimension 2: induction over the elements (`readElements_flat`, `readElements_flatContacts`).
* Result: Proved for the files of C83, triangulated or not, with at least as many regions as polyhedra (C84_helper_partial). Files of dimension 2: the part with the elements gives the ends of the listed edges and the contact lines (C84_flat_partial); the ends are in the stored order also for edges used backwards, and regions of such files are not covered. Violated for fewer regions: an exception is swallowed and all names and materials are empty (C84_violated).
* Theorems: `C84_helper_partial`, `C84_violated`, `C84_flat_partial`

### C85 bnd_reader rejects files it cannot read (partial)

* Modelled: As C83.
* Proof: `bndSegments_throws`; the search for a word which is not there.
* Result: Proved for the files of C84: another dimension, or a face which is no triangle, is rejected with an exception (C85_rejected_partial). Violated: the reader does not return for files without an expected word, for example an empty file (C85_violated_hangs); element types which are not supported are accepted (C85_violated_type); indices are not checked (C85_violated_index).
* Theorems: `C85_rejected_partial`, `C85_violated_hangs`, `C85_violated_type`, `C85_violated_index`

### C86 Saving and loading a mesh gives the same mesh (partial)

* Modelled: `Model/Serialization.lean`: the archive as a list of numbers; saving, and loading through `make_vertex`, lookups by id and insertion of cells on `Model/Mesh.lean`.
* Proof: A mesh made of vertices and cells in any order is the same as one made of all vertices first (simulation `Sim` between insertions into meshes which differ in vertices made later); lookups by id find positions (`find_position`); prefixes by induction over the items.
* Result: Proved for meshes made of vertices without given ids and of cells (C86_same_mesh_partial); for elements of any dimension the vertices and cells are the same (C86_cells_partial). Violated: ids given by the user mix up corners or are undefined behaviour (C86_violated_ids), elements which belong to no cell are lost (C86_violated_lower), and a mesh which is not empty gets cells with the wrong corners (C86_violated_not_empty). Truncated archives: C86_truncated; the Boost archive, which gives back what was written and throws at its end, is trusted. Meshes of polygons are excluded: the number of vertices of a polygon is no constant of its type.
* Theorems: `C86_same_mesh_partial`, `C86_cells_partial`, `C86_truncated`, `C86_no_mesh`, `C86_violated_ids`, `C86_violated_lower`, `C86_violated_not_empty`

### C87 neper_tess_reader reads what the file describes (partial)

* Modelled: `Model/Neper.lean`: `getline` with its behaviour at the end of the file, the three sections, the two maps; uninitialised variables and null handles are undefined behaviour. Splitting a line into words is a parameter.
* Proof: `PartReads` for the loops over entries, invariant `FaceInv` for the maps and lines, complexes by the lemmas of C81. The specification is the contents `NepFile`, `ShownBy` (which lines show it), and `Describes`.
* Result: Proved for all files which make sense (C87_read_partial). Violated for malformed files: files cut off are accepted or undefined behaviour (C87_violated_cut), missing ids are taken to be zero (C87_violated_short), and unknown corners are undefined behaviour for every file (C87_violated_unknown). Faces with one corner are outside of the theorem.
* Theorems: `C87_read_partial`, `C87_violated_cut`, `C87_violated_unknown`, `C87_violated_short`

### C88 copy_segmentation gives elements the segments of the elements with the same ids (partial)

* Modelled: `Model/CopySeg.lean`: `copySegsOf`, `copySegmentation`; the order of the element types is a parameter. The segments of an element are read with `queryIds`.
* Proof: `CopiedFor` describes a part of the loop and composes (`CopiedFor.trans`); that the boundary adds nothing new follows from the closedness of the segments of the source (C26). The specification is `SameById`, `Needed`, `Available`.
* Result: Proved for simplices and quadrilaterals, any source, any destination whose elements have the ids and the boundaries of elements of the source, and names which are not taken (C88_copy_partial); for a copy of the mesh the segments have the same elements (C88_same_mesh_partial). Violated: names and segments without elements are not copied (C88_violated_names), names taken throw (C88_violated_clash), ids missing in the source are undefined behaviour for every destination (C88_violated_missing), and meshes copied by copy() get segments of other cells (C88_violated_renumbered). Undefined if the element of the source has no record (C88_violated_no_segment); the partial theorems ask for the records.
* Theorems: `C88_copy_partial`, `C88_same_mesh_partial`, `C88_violated_missing`, `C88_violated_names`, `C88_violated_clash`, `C88_violated_renumbered`, `C88_violated_no_segment`

### C89 unchecked_add puts the same elements into a segment as add (partial)

* Modelled: `Model/UncheckedAdd.lean`: `simpleUncheckedAdd`, `uncheckedAdd`, `eraseElemOnce`.
* Proof: Folds over the closure of the element, which has no duplicates (`closureOf_nodup`).
* Result: The elements and records are those of add for every state (C89_same_elements_partial). That each element is present once holds exactly if none of the elements was listed before (C89_once_partial); violated otherwise (C89_violated, C89_violated_all), and elements listed twice stay listed after they are erased (C89_violated_erase).
* Theorems: `C89_same_elements_partial`, `C89_once_partial`, `C89_violated`, `C89_violated_all`, `C89_violated_erase`

### C90 Files written by vtk_writer are read back with all their contents (partial)

* Modelled: `Model/VtkText.lean`: a file is a list of characters; the text of the writer around the numbers, and the reader of .vtu files with tags (`XmlTag`), tokens and numbers. Printing and reading a floating point number are parameters (`print`, `num`), with the hypothesis `Prints` that the text is a word and is read as `txt x`.
* Proof: Each piece of the text is a list of tags and words (`*_eq`), the readers of tags, tokens and numbers are shown to read them (`readTokens_text`, `readNumbers_text`, C51), and composed (`parseVtu_text`); what `writeVtu` produces is readable (`writeVtu_readable`). The meshes are those of C49 and C50.
* Result: Proved for all meshes and quantities of C49 and C50 whose quantity names are not empty and have no quotes and closing brackets (C90_file_partial for the text of one file, C90_segments_partial and C90_mesh_partial for writing and reading whole meshes through files); how a floating point number is printed and read is a parameter with the hypothesis Prints, which C108 satisfies for double. Violated for the other names (C90_violated_names).
* Theorems: `C90_file_partial`, `C90_segments_partial`, `C90_mesh_partial`, `C90_violated_names`

### C91 The .pvd file leads to the files of the segments, also after moving them (partial)

* Modelled: As C90; names of files, the .pvd file (`pvdText`, `readPvd`), a directory as a function from names to texts.
* Proof: `readPvd_text`, `partFile`, `foldl_mapSet`.
* Result: Proved for all file names without quotes and closing brackets in the last component (C91_names_partial), and for files moved to another directory (C91_moved_partial). Violated for names with these characters (C91_violated_names) and for names with backslashes (C91_violated_backslash).
* Theorems: `C91_names_partial`, `C91_moved_partial`, `C91_violated_names`, `C91_violated_backslash`

### C92 Missing and malformed VTK files are reported (partial)

* Modelled: As C90; `readSegments` with exceptions caught and the stream left open.
* Proof: Case analysis of the reader; the grammar of .pvd files is the relation `TagsOf`.
* Result: Proved for the .pvd file and for unknown extensions (C92_pvd_partial). Violated for .vtu files: missing files are read as empty (C92_violated_missing), files cut off lead to undefined behaviour (C92_violated_cut), and all files after a bad one are ignored (C92_violated_stuck).
* Theorems: `C92_pvd_partial`, `C92_violated_missing`, `C92_violated_stuck`, `C92_violated_cut`

### C93 .vmesh files describe the mesh and its segments (partial)

* Modelled: `Vmesh`: the text of the file (`vmeshText`), the type names (`cellTagName`), and the choice of the file name (`vmeshFile`).
* Proof: A separate small reader of XML (`readInfo`) is specified and evaluated on the text for all names and numbers; the counts are compared with the specification of segment membership of C26.
* Result: Proved for all meshes and segments with ids of at least 0 and for names of mesh files without < which are not blank (C93_info_partial); the name of the file ends with the extension for every name other than vmesh (C93_file_name_partial). Violated: names of segments are never written (C93_violated_names), and the output name "vmesh" gets no extension (C93_violated_file_name).
* Theorems: `C93_info_partial`, `C93_violated_names`, `C93_file_name_partial`, `C93_violated_file_name`

### C94 Typelist operations do what their names say (partial)

* Modelled: `Typelist`: the template specialisations as functions on lists; a type is a value with decidable equality.
* Proof: Induction over the list; the specification uses positions (`l = a ++ x :: b`), membership, counts and list functions of the library.
* Result: Proved for all lists, except that replace_at with the index -1 (the result of index_of for an absent type) gives the empty list (C94_violated_replace_at).
* Theorems: `C94_size`, `C94_at`, `C94_index_of`, `C94_push_back`, `C94_push_back_list`, `C94_erase_at`, `C94_erase_at_outside`, `C94_erase`, `C94_erase_absent`, `C94_erase_all`, `C94_reverse`, `C94_no_duplicates`, `C94_replace_at`, `C94_replace_at_outside_partial`, `C94_violated_replace_at`, `C94_replace`, `C94_replace_absent`, `C94_replace_all`, `C94_intersection`

### C95 Typemaps and configurations behave as maps (partial)

* Modelled: `Typelist`: typemaps as lists of pairs, compile errors as `none`; nested configurations `Cfg`.
* Proof: Search position by induction; entries as membership under distinct keys; merges by induction over the second map; `query` against the relations `ValueAt` and `Blocked`.
* Result: Proved for all typemaps with distinct keys and all configurations; value_typelist is right for at most one entry (C95_values_partial) and otherwise lists the keys after the first value (C95_violated_values).
* Theorems: `C95_lookup`, `C95_insert`, `C95_modify`, `C95_insert_or_modify`, `C95_erase`, `C95_merge`, `C95_consistency`, `C95_keys`, `C95_values_partial`, `C95_violated_values`, `C95_query`

### C96 Mesh configurations define the stored elements (partial)

* Modelled: `MeshConfig`: the metafunctions which build and query configurations, on top of the typemaps of `Typelist`; types of elements with their facet types.
* Proof: Induction along the facet types gives the configurations in closed form over `faceTags` (the specification); the queries are evaluated on them.
* Result: Proved for all cell types (C96_full, C96_thin and the theorems on boundary containers, orientations, storage and boundary information). Violated: config::result_of::is_element_present is true for every type (C96_violated_is_element_present), and with several cell types the last is taken, not the first as documented (C96_violated_first_cell_tag; C96_cell_tag_partial covers lists in which the taken type is the last of the highest dimension, in particular all with one cell type).
* Theorems: `C96_full`, `C96_thin`, `C96_full_boundary`, `C96_thin_boundary`, `C96_full_containers`, `C96_thin_containers`, `C96_full_storage`, `C96_violated_is_element_present`, `C96_elements_of_dim`, `C96_cell_tag_partial`, `C96_violated_first_cell_tag`, `C96_full_boundary_information`, `C96_thin_boundary_information`

### C97 copy_elements adds exactly the given elements (proved)

* Modelled: `CopyElements`: `glueVertex` (map of vertex ids, then `make_unique_vertex`), `glueElements`, `Mesh.copyElementsTo`; source and output are meshes of the mesh model.
* Proof: Invariant over the elements copied (`GInv` for vertices, `GElems` for elements); that several calls are the same as one: with a positive tolerance the map of ids always says what a search would find, so the map can be left out (`glueElements_plain`).
* Result: The distance is any function with the laws of a metric (zero on equal points, symmetric, triangle inequality). C97_needs_apart shows that twice the tolerance is needed: two vertices further apart than the tolerance can go to one vertex. C97_several_calls_no_tolerance shows that copies of two calls with the default tolerance are not joined. The output is a mesh, not a segment, and not the mesh copied from.
* Theorems: `C97_copy_elements`, `C97_in_several_calls`, `C97_needs_apart`, `C97_several_calls_no_tolerance`

### C98 Copying piecewise linear complexes keeps lines, vertices and holes (partial)

* Modelled: `CopyElements`: `plcLine` (maps of line ids and vertex ids), `plcAll`, `copyPlcs`; PLCs as in C81.
* Proof: Invariant `PInv` over the lines copied; the complexes made earlier do not change when lines are added. The violation is evaluated.
* Result: Violated by the code: loose vertices and hole points are dropped (C98_violated). Proved: lines and their ends are copied, common ones once, so PLCs without loose vertices and holes are copied completely.
* Theorems: `C98_copy_plcs_partial`, `C98_violated`

### C99 Ranges and element views list each element once in a fixed order (partial)

* Modelled: `Ranges`: `Mesh.range` (vertices and cells in containers in the order of creation, other elements in a map by key), `rangeAt`, `elementView`.
* Proof: The map is a fold of insertions by key; keys are distinct by C04, so it is the sorted list; the order of C03 is turned into the specification `Precedes` on sorted ids.
* Result: Violated: edges and faces are ordered by the ids of their vertices, so the element at a position changes when others are created (C99_violated). Proved: each element once, creation order for vertices and cells, the order of edges and faces (C99_by_vertices), and that elements there before keep their relative order (C99_order_kept_partial).
* Theorems: `C99_each_once`, `C99_creation_order`, `C99_by_vertices`, `C99_order_kept_partial`, `C99_element_view`, `C99_element_view_segment`, `C99_violated`

### C100 The information stored for a segment and an element is kept (partial)

* Modelled: `Model/SegInfo.lean`: `InfoState`, a state of a segmentation with the map from segment id to value of each element; `upd` is the function called for each element by add and erase; `query` and `write` are calls of `segment_element_info` (reading and writing through the pointer). Uninitialised values are a distinct outcome.
* Proof: Invariant: the keys of the map of an element are the segments it is in; values are followed through `upd` for each operation, and over histories by induction.
* Result: Violated: the value is not initialised when an element gets into a segment (C100_violated_fresh, for every operation that puts an element in a segment), and the call for a constant segment is undefined for elements without a record (C100_violated_const). Proved for simplices and quadrilaterals, all histories of creations, add, erase and assignments: the pointer is null iff the element is not in the segment (C100_pointer_partial), assignments change this pair only (C100_write), values are kept (C100_kept) and the last value assigned is read (C100_last_written).
* Theorems: `C100_pointer_partial`, `C100_write`, `C100_kept`, `C100_last_written`, `C100_violated_fresh`, `C100_violated_const`

### C101 hyperplane_refine cuts the cells along the plane (partial)

* Modelled: `Model/HyperRefine.lean` (on top of `Hyperplane`, `RefineMesh`, `RefineTri`, `RefineTet`): the loop over the edges with make_unique_vertex, then simple_refine.
* Proof: If no points are merged the loop gives each cut edge its own vertex (`hyperMark_eq`), so the general statement about refined meshes applies (`refine_parts_gen`). No child has both ends of a cut edge or a new point and a vertex strictly on both sides: finite check over all marks and templates (`tetTree_cut`, `triKids_cut`), then the signs along the plane. Volumes from C32/C33 with arbitrary places of the new points.
* Result: Violated: far away from the origin the points of two cut edges of a triangle are merged; the result has a triangle with a vertex twice and half of the area is lost (C101_violated); with a segmentation the call is undefined if a cell has no record (C101_violated_unrecorded). Proved for all segmented meshes of tetrahedra and of triangles in any dimension if the points of different cut edges are not closer than the merging tolerance: parents, points, sides, segments, kept cells, sums of volumes and areas, no degenerate children (C101_tetrahedra_partial, C101_triangles_partial); C101_one_side: with tolerance zero each cell lies on one side; C101_segmentation: the variant with segmentations. Exact arithmetic.
* Theorems: `C101_tetrahedra_partial`, `C101_triangles_partial`, `C101_one_side`, `C101_segmentation`, `C101_violated`, `C101_violated_unrecorded`

### C102 cell_refine_uniformly halves every cell (proved)

* Modelled: `Model/Uniform.lean` on top of `RefineMesh`, `RefineTri`, `RefineTet` and `Ranges`: all edges are marked in the order of iteration, then `refine`. The loop `uniformTimes` is that of a user; the code has no such function.
* Proof: With all edges marked the children of a triangle are a fixed list and those of a tetrahedron pass a finite check over all comparisons of edges (`tetTree_uni`: eight cells, integer determinant of each, the corner cells). `refine_parts` carries this to the mesh; the vertices are counted by an invariant over the loops (`VCnt`). Several refinements by induction. Edges: every edge of the result is in a cell (`refineMesh_fromCells`), is either inside of a triangle with two cells or on one edge of the mesh with as many cells as that has (C73), and there are exactly two on each edge (`Refined.edge_two`); summing the cells at the edges in both meshes gives the number of edges (`count_edges`). Tetrahedra: to each edge and facet of the result belong the vertices of the source of which its corners are made; these are the vertices of exactly one edge, facet or cell (`inside_exists`, `inside_unique`). How many edges and facets there are for each is a finite check of the children (`tetTree_glue`: labels made of less than four vertices are in a common child iff each two have a vertex in common, so that neighbouring cells agree); the numbers follow by counting over these (`card_by_relation`, `Refined.count_parts`).
* Result: All meshes of triangles and tetrahedra, any history, any number of refinements. With a segmentation the call is undefined if a cell has no record (second half of C102_segmentation; see C37). Floating point is not modelled: volumes and midpoints are those of an ordered field.
* Theorems: `C102_triangles`, `C102_tetrahedra`, `C102_times_triangles`, `C102_times_tetrahedra`, `C102_segmentation`, `C102_edges`, `C102_euler`, `C102_euler_times`, `C102_euler_tetrahedra`, `C102_euler_tetrahedra_times`

### C103 Handles refer to the same element while others are created (partial)

* Modelled: `Model/Handles.lean`: a container is a list of elements with addresses; pointers, iterators and ids are looked up as in `dereference_handle`. What `push_back` and `insert` do to addresses and iterators is that of the C++ standard (trusted, not in /repo): iterators carry the number of the state they were made in, a full vector moves its elements to new addresses. Erasing is not in this model (see C23, C77).
* Proof: Invariant: addresses are distinct and below the next unused one; an element stays a member of the list under insertion (in a moved vector: one with the same id), and a search in a list without duplicates finds the member. The cases that fail are decided by a run with three insertions each.
* Result: Holds for pointers except in vectors, iterators in lists, sets and maps, and ids that are unique (C103_kept_partial); false in all other cases (C103_violated), among them iterator handles with the default containers (C103_configurations_partial). An element with the id -1 has a handle reported as invalid (C103_violated_invalid). Which insertions invalidate pointers and iterators is taken from the C++ standard.
* Theorems: `C103_kept_partial`, `C103_violated`, `C103_inserted`, `C103_invalid_partial`, `C103_violated_invalid`, `C103_configurations_partial`

### C104 Quantities registered at a vtk_writer are found again at the vtk_reader under name and segment (partial)

* Modelled: `Model/VtkData.lean`: the containers of the writer as lists sorted by name, the order in which arrays are written to the files, the choice of the destination at the reader, and the loops over the arrays of all files (`attachScalar`, `attachVector` of `Model/Vtk.lean`). Accessors and fields are functions from handles to values. Registering at the reader is given by the set of registered names. Building, writing and reading the mesh is the model of C49.
* Proof: `LastReg` says in terms of the list of calls which quantity is registered; `Chosen` which one a segment has; `Goes` where its values are expected; `Delivered` that all elements got the value and nothing else changed, with the greatest segment id winning at shared elements. `C104_values_partial` (two and more segments) and `C104_mesh_partial` (the mesh as a whole) prove this from the composition of all writes (`Lemmas/VtkData.lean`: `Applied`). `C104_for_all` and `C104_for_segment` draw the conclusions for quantities registered for all segments and for one. `C104_cleared`: files written afterwards have no data. Three violations, see the list of defects.
* Result: Proved for two and more segments (C104_values_partial) and for the mesh as a whole (C104_mesh_partial), without vector quantities at accessors registered for one segment (C50_violated_segment_vector). Violated: with less than two segments quantities registered for a segment are not written (C104_violated_one_segment); a name registered for all segments and for one is written twice to the file of that segment (C104_violated_twice); an accessor registered at the reader for a segment gets nothing if one is registered for all segments under the same name (C104_violated_reader).
* Theorems: `C104_values_partial`, `C104_mesh_partial`, `C104_for_all`, `C104_for_segment`, `C104_cleared`, `C104_violated_one_segment`, `C104_violated_twice`, `C104_violated_reader`

### C105 mesh_size bounds the distances in a mesh (partial)

* Modelled: `Model/MeshSize.lean`: `mesh_size` on top of `boundingBox`; `top` is the largest number.
* Proof: `HasPoint` and `IsLeast`/`IsGreatest` describe the box independently of the loop. The bounds follow coordinate by coordinate. The mesh without vertices is a violation: the box is inside out and the difference of its corners overflows in the code.
* Result: For meshes with vertices whose coordinates are representable: the diagonal (C105_diagonal_partial), the bounds (C105_diameter_partial), zero (C105_zero_partial), moving (C105_translate_partial), scaling (C105_scale_partial). A mesh without vertices has a size above twice the largest number (C105_violated). Real numbers; rounding is not modelled.
* Theorems: `C105_diagonal_partial`, `C105_diameter_partial`, `C105_zero_partial`, `C105_translate_partial`, `C105_scale_partial`, `C105_violated`

### C106 Outward normal vectors close every cell and every mesh and give its volume (partial)

* Modelled: `Model/Normals.lean` and `Mesh.triNormal` of `Model/Mphtxt.lean`: the normal vectors with the vertices of the facet in the stored order; `is_boundary`, `volume`, `centroid` as in C16, C48, C47. Turning a normal vector away from a cell is not part of the library; `outward` and `outwardLine` in the specification do what users do, with the centroids.
* Proof: A quantity of a facet in a cell which cancels between the two cells of a facet has the same sum over the cells and over the boundary (`boundary_sum`, from C16). For one cell the sum is computed with all orders of the vertices of the stored facets (`outAmt_perm`, `outLine_swap`); the signs are those of one determinant. `NoOverlap` and `NoFold` state that cells are not flat and lie on different sides of a common facet; that a facet has at most two cells follows. Quadrilaterals use only the first three corners: `C106_quad_partial` and `C106_violated`. Convex quadrilaterals in the plane (`Props/NormalsQuad.lean`): both other corners are on one side of an edge, so the centroids decide as for triangles; the area is the one of the corners (`cornersQuad`), as the library's is wrong (C45). Parallelepipeds (`Props/NormalsHex.lean`): any three corners of a parallelogram give the same normal vector up to the sign (`normal_face`, all 24 orders), so the order in which a facet was stored does not matter; the volume is the library's `volume` (C46).
* Result: Lines and triangles: proved for every reachable mesh whose cells are not flat and do not overlap (C106_mesh, C106_mesh_line, C106_cell, C106_cell_line, C106_outward, C106_outward_line), also for meshes of convex quadrilaterals in the plane (C106_mesh_quad, C106_outward_quad) and of parallelepipeds (C106_mesh_box, C106_outward_box). Quadrilaterals in space: orthogonal and not zero if the first three corners are not on a line (C106_quad_partial); a quadrilateral of area one can have the normal vector zero, and the side depends on which corner is first (C106_violated).
* Theorems: `C106_outward`, `C106_cell`, `C106_mesh`, `C106_outward_line`, `C106_cell_line`, `C106_mesh_line`, `C106_quad_partial`, `C106_violated`, `C106_outward_box`, `C106_mesh_box`, `C106_outward_quad`, `C106_mesh_quad`

### C107 Arrays of fixed length and points: comparison, iteration, exchange and the difference of iterators (partial)

* Modelled: `Model/StaticArray.lean`: an array is a function on `Fin n`, an iterator a position; the loops of `std::equal`, `std::lexicographical_compare`, `std::fill_n`, `std::copy` and `swap` entry by entry; moving or reading outside is `none`; the difference is a 64 bit number.
* Proof: Induction over the rest of the array. `Before` and `steps` are the specification. The sign of the difference of two iterators is lost in `std::size_t` and comes back in the conversion to `long`.
* Result: Proved for all lengths: comparison (C107_equal, C107_less, C107_order), iteration (C107_traverse, C107_move), access and assignment (C107_get, C107_swap, C107_assign). The difference of iterators is right if the second does not come after the first (C107_difference_partial) and survives it1 + (it2 - it1) (C107_round_trip); in the other direction it is a large positive number (C107_violated). Entries of a linear order, so no NaN.
* Theorems: `C107_equal`, `C107_less`, `C107_order`, `C107_traverse`, `C107_move`, `C107_round_trip`, `C107_difference_partial`, `C107_violated`, `C107_get`, `C107_swap`, `C107_assign`

### C108 Coordinates and values in VTK files keep 15 decimal digits (proved)

* Modelled: `Model/NumberText.lean`: rounding to a number of digits in a base (half to even), the text of `operator<<` with the default format and precision 15 (`decimalText`: digits, point, exponent, zeros omitted), and reading it (`readNumber`). Numbers are rational, as every double is.
* Proof: The digits of the text are read as the rounded number (`unsigned_text`, for each of the three formats); the error of rounding is half of the last place, which is relative to the number by the logarithm (`roundTo_err`). That 15 digits survive (`written_near`): the double differs from the decimal number by less than half of the last of 15 decimal places, also where the logarithms of the two differ. `prints_double` makes C90 applicable to doubles.
* Result: Numbers: C108_error, C108_double, C108_exact, C108_again, C108_different. Whole meshes through the text of the files, in continuation of C90 (with its conditions on names): exactly the same points for coordinates of at most 15 digits (C108_segments_exact, C108_mesh_exact), points within the error for others whose points are far enough apart (C108_segments_near, C108_mesh_near, which also say that each element gets its values of the quantities, within the same error). Closer points can be merged (C49_violated_digits). Infinite, NaN and subnormal numbers and negative zero are not modelled.
* Theorems: `C108_error`, `C108_double`, `C108_exact`, `C108_again`, `C108_different`, `C108_segments_exact`, `C108_mesh_exact`, `C108_segments_near`, `C108_mesh_near`

### C109 cell_refine refines the marked cells and closes the mesh (proved)

* Modelled: `Model/CellRefine.lean`: `edgeFlags` (`cell_refinement_to_edge_refinement` on the cells of the mesh with their flags and edges), `cellRefine` and `cellRefineSeg` (the calls of `refine` with these flags). The middle of an edge is the centroid of its vertices, as in C102.
* Proof: The specification `CellsRefined` names the new cells of cell t by an interval of numbers. The flags are those of edges on marked cells (C36_cell_marks); `refine_parts` gives each cell's labels, and `triKids_all`, `tetKids_all` say that only labels of corners and of marked edges are used, that a cell without marked edges is kept, and that one with all edges marked is divided as in C102. The sums of areas and volumes are over the interval of the cell. The middles belong to edges by `edge_ends`. C73_edges and C73_facets apply for any flags. Repeated refinement (`Props/CellRefineTimes.lean`) needs that no two new cells have the same vertices: each child has all corners of the cell among the ends of its labels (checked for the 64 combinations of marks and all orders of the edge lengths, `tetTree_cover`; `TriCase.covers`), so cells with the same vertices come from the same cell, where the children have different labels.
* Result: Triangles (C109_triangles) and tetrahedra (C109_tetrahedra), the new cells fit together (C109_fit_triangles, C109_fit_tetrahedra, with EdgeMap and FacetMap of C73), with segmentations the same result if every cell has a record, undefined otherwise (C109_segmentation; the undefined call is the violation of C37). Adaptive refinement, any number of times with any marks (C109_times_triangles, C109_times_tetrahedra): no two cells get the same vertices (C109_single_triangles, C109_single_tetrahedra), so the cells fit together each time. Into an empty mesh, default point accessor; numbers of an ordered field, for tetrahedra a symmetric distance.
* Theorems: `C109_triangles`, `C109_tetrahedra`, `C109_fit_triangles`, `C109_fit_tetrahedra`, `C109_segmentation`, `C109_single_triangles`, `C109_single_tetrahedra`, `C109_times_triangles`, `C109_times_tetrahedra`

### C110 A vtk_reader can be used for several files (partial)

* Modelled: `Model/VtkReuse.lean`: the reader as an object (`VtkReader`: is the stream open, what has been read, registered fields), one call (`VtkReader.read`: `pre_clear`, the files as in C92, `post_clear`) and calls one after the other (`VtkReader.afterAll`). The eight maps of registered fields are one list of names.
* Proof: `openAfter` stays false when each file that is there can be parsed (`openAfter_sound`), so the stream is closed after each call (`read_sound`), and a closed reader does what `readFiles` (C92) does; induction over the calls. For the violation: an open stream stays open through any call (`read_open`).
* Result: As long as the files that were opened could be read (or are missing), any number of calls, returning or not, leaves the reader as good as new (C110_closed_partial, C110_sequence_partial); registered fields (C110_registered). Violated after a file that cannot be read: the stream is not closed, so every later .vtu file gives nothing, without exception, and every .pvd file an exception (C110_violated, C110_violated_no_tag).
* Theorems: `C110_closed_partial`, `C110_sequence_partial`, `C110_registered`, `C110_violated`, `C110_violated_no_tag`

### C111 A vtk_writer can be used for several files (partial)

* Modelled: `Model/VtkWriterReuse.lean`: `VtkWriter.tryCall`, a call when only some of the files can be opened, on the containers of `VtkData`; steps of a program (`VtkStep`). The maps of used vertices and cells are emptied by `clear` after each use and are local to `writeVtu`.
* Proof: Induction over the steps: the writer is the one on which the registrations since the last call (`sinceCall`) were made (`steps_sinceCall`). C104 says what a call of such a writer writes. The files written are the longest beginning of the list that can be opened.
* Result: Any sequence of registrations and calls, also with exceptions of calls with segments (C111_sequence_partial); an exception exactly if not all files were written (C111_complete). Violated: the call for a whole mesh throws without clear, so the quantities get into the next files (C111_violated, C111_violated_written), unlike the call with segments.
* Theorems: `C111_sequence_partial`, `C111_complete`, `C111_violated`, `C111_violated_written`

## Not modelled

* io: infinite, NaN and subnormal numbers, negative zero and `float` in texts (doubles: C108).
* meta/* and config/* except typelists, typemaps, queries and the element types of configurations;
  forwards.hpp: compile-time programming, resolved by hand.
* Machine arithmetic, performance, thread safety (the library has none).

## Defects found in the code

Proved in the model (theorem in brackets):

* storage/id_generator.hpp:121-128 `set_max_id(x)` does nothing for `x == last_id`:
  an element created with an explicit id equal to the next generated id is followed
  by an element with the same id, and `id_upper_bound` is not a bound
  [`C01_ids_unique_violated`, `C01_collision_from_any_state`,
  `C02_upper_bound_violated`].  Follow-up: faces of different cells are identified
  [`C04_violated_with_duplicate_ids`].
* storage/container.hpp, storage/view.hpp: post-increment and post-decrement return
  the new position [`C09_violated`, `C09_decrement_violated`]; `distance(line,
  segment)` therefore skips the first line and dereferences `end()` for a segment
  with one line [`C10_violated`, `C10_one_line_undefined`].
* mesh/segmentation.hpp:2226-2285 `copy_segmentation`: elements are looked up by id and the
  iterator is not compared with the end [`C88_violated_missing`], so that meshes copied by
  `copy` get wrong segments [`C88_violated_renumbered`]; names and empty segments are not
  copied [`C88_violated_names`]; names taken throw [`C88_violated_clash`].
* mesh/segmentation.hpp:1884-1893, 2020-2053 `unchecked_add`: the comment says that elements
  are only present once, but shared boundary elements are listed twice [`C89_violated`], also
  if the segment was empty [`C89_violated_all`]; they stay listed after they are erased
  [`C89_violated_erase`].
* topology/hexahedron.hpp:104-106: edge (2,5) instead of (2,6)
  [`C07_hex_edges_violated`, `C07_hex_thirteen_lines`]; consequences: segments of
  hexahedra are not closed under boundary [`C26_violated_hexahedron`] and erasing an
  edge leaves dangling references [`C23_violated_hexahedron`].
* topology/polygon.hpp: polygon without vertices is undefined behaviour
  [`C55_empty_polygon_undefined`].
* element/element_key.hpp:45: the constructor from a vector does not sort
  [`C03_vector_key_depends_on_order`].
* mesh/mesh.hpp:743-759 `handle_mesh` does not change the counter of the view
  [`C15_violated_handle_mesh`]; coboundary queries on views lacking boundary
  elements throw [`C15_violated_missing_faces`].
* algorithm/boundary.hpp:32-71 computes parity: a facet at three cells counts as
  boundary [`C16_violated`].
* algorithm/interface.hpp: flags are never reset and depend on the order of the
  arguments [`C18_violated_stale`, `C18_violated_removed`,
  `C18_violated_asymmetric`].
* mesh/element_deletion.hpp:113-130: elements of intermediate dimension stay under
  stale keys after a swap [`C24_violated`]; handles in views and segments are not
  redirected, so some dangle and some refer to other elements [`C77_violated`].
* mesh/element_creation.hpp:222-228: the default tolerance of `make_unique_vertex`
  is zero at the origin and prefers the first vertex nearby
  [`C25_violated_at_origin`, `C25_violated_nearby`]; `hyperplane_refine` merges far
  points for the same reason [`C38_violated`]; the refined mesh then has cells with the same vertex twice and part of
  the area is lost [`C101_violated`].
* mesh/segmentation.hpp: `erase(segment, element)` keeps the element
  [`C27_element_stays`]; names that are numbers collide [`C28_violated_*`];
  `clear()` leaves the name map with dangling pointers and the element set
  [`C29_violated_*`]; `clear(segment)` leaves the records [`C60_violated`].
* mesh/mesh_operations.hpp:138-165, mesh/segmented_mesh.hpp:41-76,
  algorithm/extract_boundary.hpp:83-149: copies lose segment names and segments
  without cells [`C63_violated_names`]; a second copy or extraction into the same
  object throws because `segmentation.clear()` keeps the names [`C63_violated_again`,
  `C64_violated_again`]; the view of all segmented elements dangles
  [`C63_violated_all`].
* accessor.hpp:679-751: dense fields return default constructed values instead of
  the default for ids below the size, also after mere reading
  [`C31_violated_dense`, `C31_violated_by_reading`].
* algorithm/detail/refine_tet.hpp: one branch of `apply3_3` inverts a child
  [`C35_violated`].
* algorithm/refine.hpp:283-311: NULL is dereferenced for a marked cell with only
  edges of length zero [`C36_violated`].
* algorithm/inclusion.hpp: points above a triangle in space count as inside
  [`C39_violated`].
* algorithm/closest_points.hpp: line-line pairs in the wrong order
  [`C41_violated_order`], crossing nearly parallel segments
  [`C41_violated_distance`, `C67_violated`].
* algorithm/geometry.hpp:250-257: division by zero with tolerance zero
  [`C42_violated_zero_tolerance`].
* algorithm/circumcenter.hpp:230: absolute threshold [`C43_violated`].
* algorithm/volume.hpp: quadrilaterals and hexahedra are measured as if numbered
  cyclically [`C45_violated`, `C46_violated`], so `surface(mesh)` of hexahedra depends
  on which element created a facet first [`C48_violated`,
  `C48_violated_erase`]; polygons in space
  [`C61_violated`].
* algorithm/voronoi.hpp:429-433: the interface behind an obtuse triangle at the
  boundary is added to the total though no cell is there [`C68_violated`];
  `line_intersection` (279-294) sets the third coordinate to zero, so boxes of
  surfaces in space are wrong at obtuse triangles [`C68_violated_in_space`]; for
  surfaces perpendicular to the xy-plane the local coordinates are 0/0 and every
  circumcenter counts as inside.
* algorithm/voronoi.hpp:228-237: a quadrilateral is recorded twice in the
  contributions to each of its corners [`C70_violated_twice`].
* algorithm/voronoi.hpp:865 and 877: a hexahedron is recorded twice in the
  contributions to each of its edges and six times in those to each corner,
  though the comment says that nothing has to be done about it
  [`C71_violated_twice`].
* algorithm/voronoi.hpp:692-709 (tetrahedra): boundary segments are used whether or
  not the circumcenter is inside, so boxes are larger than the mesh
  [`C72_violated`]; the connection of two circumcenters is divided in the middle
  instead of at the facet, so part of the interface is recorded for the wrong cell
  [`C72_violated_cells`].  747: the first segment of an edge without facets is read.
* io/mphtxt_writer.hpp:398-406: the segment of a cell in no segment is read from an
  empty list [`C74_violated`]; 84-88: the tolerance for normals joins triangles which
  are not in one plane [`C75_violated_plane`]; 75-76: with cells in several segments, a
  triangle given its index for an earlier segment is not continued from for a later one,
  and a flat region is split in two contacts [`C75_violated_several`].  Comment and code disagree about the
  order of the two sides: the segment from which the normal points away comes first
  (276-308, C76).
* io/opendx_writer.hpp:42-48: the condition of `DXfixer` holds for every number, so 0.00001
  is added to every value; 0.99999, which needed no change, becomes 1 and is printed as the
  whole number the function is there to avoid [`C80_violated`]; the conversion to `long` is
  undefined from about 9.2e14 on, which doping concentrations exceed [`C80_undefined`].
  142-158: the header gives one corner more than the cells have and the connections are
  ids instead of positions [`C78_violated_shape`, `C78_violated_ids`]; a file without
  quantities refers to data which is not there [`C78_violated_no_data`].  The quantity
  written is the one whose name is first in the alphabet, though it may have been
  announced as ignored [`C79_violated`].
* io/tetgen_poly_reader.hpp:225-238: the number of holes of a facet, which the format
  allows to be left out, is uninitialised [`C81_violated_holes`]; 51-58: lines with only
  a tab or carriage return are not skipped [`C81_violated_blank`]; 193-194: missing
  coordinates are zero [`C82_violated_accepted`]; 262-263, 277: unknown or missing
  corners, and polygons without corners [`C82_violated_undefined`].
* io/bnd_reader.hpp:256-267 and every other search: the end of the file is not noticed and
  the loop does not end [`C85_violated_hangs`]; 682-684: exceptions are caught and the file
  counts as read [`C85_violated_type`, `C84_violated`]; 537, 554: each contact removes the
  last segment, so polyhedra after it are written beyond the end [`C83_violated_order`];
  575: the number of contacts is taken as regions minus polyhedra
  [`C83_violated_regions`]; 868-875: in dimension 2 sides are taken for triangles
  [`C83_violated_2d`]; indices are not checked [`C85_violated_index`].
* io/serialization.hpp: cells are restored by vertex ids looked up in a mesh in which
  vertices got new ids [`C86_violated_ids`, `C86_violated_not_empty`]; elements of lower
  dimension which belong to no cell are not saved [`C86_violated_lower`].
* io/neper_tess_reader.hpp: the end of the file is not noticed inside of a section
  [`C87_violated_cut`]; 149: missing ids are zero [`C87_violated_short`]; 163, 179: an id
  without vertex gives a null handle [`C87_violated_unknown`].
* algorithm/detail/numeric.hpp: `is_equal` is neither symmetric nor reflexive
  [`C57_violated`].
* algorithm/quantity_transfer.hpp:139: accessor called for the destination
  [`C52_violated`], averages of nothing [`C52_violated_empty`].
* point.hpp:244-258: sign of negative rho lost [`C53_violated`].
* io/xml_tag.hpp: empty values, `>` in values, stream flags
  [`C51_violated_empty`, `C51_violated_bracket`, `C51_violated_skipws`].
* io/netgen_reader.hpp: truncated files accepted or undefined behaviour
  [`C59_violated_*`].
* io/vtk_reader.hpp:788-792: exceptions for .vtu files are caught and only printed. A
  missing file is an empty mesh [`C92_violated_missing`]; the cells announced by a file
  which is cut off are accessed [`C92_violated_cut`]; the stream stays open, so that no
  further file can be read [`C92_violated_stuck`], not even by a later call
  [`C110_violated`].
* io/vtk_writer.hpp:333-377, 490-494: names are written without escaping. Quantities with
  an empty name or with `"` or `>` in it make files which cannot be read
  [`C90_violated_names`], likewise file names with these characters
  [`C91_violated_names`]; names with a backslash depend on how the directory is given
  [`C91_violated_backslash`].
* io/vtk_writer.hpp, vtk_reader.hpp: points closer than the written digits are
  merged [`C49_violated_digits`], duplicate ids [`C49_violated_ids`], number of
  components taken over from the array before [`C50_violated_components`], vector
  data of segments read out of bounds [`C50_violated_segment_vector`].
* io/vmesh_writer.hpp: the element `<name>` of a segment is always written empty
  [`C93_violated_names`]; the output name `vmesh` is taken for an extension, so the file has
  none [`C93_violated_file_name`].
* meta/typelist.hpp:334-338 `replace_at` with the index -1 gives the empty list
  [`C94_violated_replace_at`].
* meta/typemap.hpp:373-377 `value_typelist` goes on with the keys after the first value
  [`C95_violated_values`]; it is not used in the library.
* config/element_config.hpp:57-62 `is_element_present` compares the result of a query whose
  default is `null_type` with `not_found`, so it is true for every type
  [`C96_violated_is_element_present`].
* config/mesh_config.hpp:537-563 the cell type of a mesh with several is the last, not the
  first as documented [`C96_violated_first_cell_tag`].
* mesh/element_creation.hpp:494-609 `copy_elements` for PLCs calls `make_plc` with the lines
  only: loose vertices and hole points are lost [`C98_violated`].
* mesh/segmented_mesh.hpp:56-60: assigning a `segmented_mesh` to itself removes all
  elements and segments [`C63_violated_self`].
* storage/hidden_key_map.hpp: positions in ranges of edges and faces change when
  elements are created [`C99_violated`].
* mesh/segmentation.hpp:1558-1593, 1704-1720 (`is_in_segment`, `segment_ids`): the records of the elements are
  dense fields. `is_in_segment` uses the constant accessor, which asserts that the field is
  long enough, and `segment_ids` returns a reference to the default value of a field object
  that is destroyed on return. Both are undefined for elements with an id larger than the ids
  of all elements of the type ever put in segments [`C26_violated_query`]; so are copying and
  refining a mesh with a segmentation if there is such a cell, e.g. if no cell is in a segment
  [`C63_violated_no_segments`, `C37_violated`, `C88_violated_no_segment`].
* mesh/segmentation.hpp:1105-1117: the value behind `segment_element_info` is not initialised
  [`C100_violated_fresh`]; examples/tutorial/segments.cpp reads it. Constant version undefined for
  elements without a record [`C100_violated_const`]. Not modelled: the pointers become invalid
  when the element is added to another segment, and the values are not copied by `copy`.
* storage/handle.hpp, config/mesh_config.hpp:161-180: the configurations take any kind of handle and any container,
  but iterators as handles with the default `std::deque` for vertices and cells, and pointers or iterators with
  `std::vector`, are invalid after further elements are created [`C103_violated`,
  `C103_configurations_partial`].  The invalid id handle is -1, which a vertex can have as id
  [`C103_violated_invalid`].
* io/vtk_writer.hpp:461: with less than two segments the mesh is written by the function without segmentation, which
  leaves out quantities registered for a segment and forgets them [`C104_violated_one_segment`].  533-571: a name
  registered for all segments and for one gives two arrays with the same name [`C104_violated_twice`].
* io/vtk_reader.hpp:489-512: accessors registered for a segment are not served if one is registered for all segments under
  the same name [`C104_violated_reader`].
* algorithm/geometry.hpp:213-226, 241: the bounding box of a mesh without vertices is inside out; `mesh_size` is then more
  than twice the largest number, which overflows [`C105_violated`].
* algorithm/geometry.hpp:86-96: the normal vector of a quadrilateral is that of its first three corners; it is zero if these are
  on a line, and points to the other side if the second corner is a reflex one [`C106_violated`].
* storage/static_array.hpp:57,93-94: the difference of two iterators is unsigned, so `begin() - end()` is
  a large positive number and `it2 - it1 < 0` never holds [`C107_violated`].
* io/vtk_writer.hpp:397-404, `vtk_writer` for a whole mesh: when the file cannot be opened, the exception is thrown
  without `clear`, so quantities registered for this file are
  written to the next one [`C111_violated`]; with segments they are cleared.

Seen while reading, outside of the model:

* storage/static_array.hpp:78-79: the comparison of an iterator with a `const_iterator` is declared and not
  defined; `operator+` and `operator-` of iterators are not `const`; `resize(s)` changes nothing.
* mesh/element_creation.hpp:377-406 `copy_element` has a misplaced parenthesis; the
  version with two arguments returns nothing.
* algorithm/surface.hpp:123-235: `smallest_boundary_volume` and `largest_boundary_volume` pass the mesh to
  `volume` in place of a point accessor; they cannot be instantiated.
* accessor.hpp:640-660: a const specialisation calls the nonexistent `access`.
* mesh/segmentation.hpp:813: `id_upper_bound` is the highest id, not one past it.
* algorithm/closest_points.hpp: overloads for vertices drop the accessor (472, 518,
  634, 690); the order of the pair follows the dimension of the arguments and not
  their order; `closest_points_on_boundary(element, mesh)` exchanges the pair; a mesh
  without boundary gives a default constructed pair.
* point.hpp:516-521: `what()` returns a pointer into a temporary.
* algorithm/geometry.hpp: the box of an empty mesh is (max, -max).
* io/vtk_reader.hpp:1233-1245: `import_vtk` returns the value of a void function;
  exceptions are swallowed (789-792), so a file with a two-component array is lost
  without notice.
* io/serialization.hpp:193, 197: the constructor which takes a mesh and `load(mesh)` assign
  with the wrong level of pointers and do not compile when used.
* io/neper_tess_reader.hpp:47-52: the version with two arguments returns the value of a
  void function.
* refine functions do not clear their output mesh.
* storage/container.hpp:539-546: `IDCompare` of ids as handles uses `->` on an id, which has no such operator.

## Axioms of each property theorem

As printed by `#print axioms`.

No axioms (9 theorems): `C09_static_array_partial`, `C50_violated_components`, `C55_empty_polygon_undefined`, `C94_push_back`, `C94_violated_replace_at`, `C95_keys`, `C95_violated_values`, `C96_violated_first_cell_tag`, `C103_violated_invalid`

`Classical.choice`, `Quot.sound`, `propext` (472 theorems): `C01_create_after_reading`, `C03_key_eq_iff_perm`, `C03_keyLt_total`, `C03_map_equivalence_iff_same_vertices`, `C03_vector_key_depends_on_order`, `C04_no_two_elements_with_same_vertices`, `C04_refers_to_the_shared_element`, `C04_create_reuses`, `C05_no_unreferenced_element`, `C05_simplex_no_junk`, `C05_polygon_no_junk`, `C05_thin`, `C06_simplex_count`, `C06_edges_are_pairs`, `C06_triangles_are_triples`, `C06_edges_nodup`, `C06_triangles_nodup`, `C06_edges_count`, `C06_triangles_count`, `C07_hex_coboundary_partial`, `C07_hex_no_junk_partial`, `C08_local_vertex`, `C09_every_position_wrong`, `C10_distance_skips_first_line`, `C10_distance_partial`, `C10_right_with_contract_partial`, `C11_find_by_id`, `C11_find_by_handle`, `C11_handles_are_stable`, `C12_view_content`, `C12_created_visible`, `C13_coboundary_quad`, `C13_coboundary_hex_facet`, `C13_coboundary_polygon`, `C13_coboundary_exact`, `C13_coboundary_simplex`, `C13_inverse_of_boundary`, `C13_thin`, `C14_neighbors_polygon`, `C14_neighbors_exact`, `C14_neighbors_symmetric`, `C14_neighbors_irreflexive`, `C14_thin`, `C15_coboundary_partial`, `C15_coboundary_answers_partial`, `C15_neighbors_partial`, `C15_boundary_partial`, `C15_lower_boundary_partial`, `C16_boundary_iff_odd`, `C16_boundary_iff_one_cell_partial`, `C16_violated`, `C17_lower_boundary_is_closure`, `C18_facets_partial`, `C18_lower_partial`, `C18_symmetric_partial`, `C18_violated_stale`, `C19_hull`, `C19_manifold`, `C20_seed_points`, `C20_seed_points_of_segment`, `C20_seed_points_of_segmentation`, `C21_copy`, `C21_references`, `C21_queries`, `C22_copy_selected`, `C23_erase_elements`, `C23_erase_element`, `C23_remaining_ids`, `C24_after_cell_erasures_partial`, `C24_faces_shared_partial`, `C25_tolerance`, `C25_default_partial`, `C25_violated_at_origin`, `C25_violated_nearby`, `C26_after_erase_partial`, `C26_content_partial`, `C26_is_in_segment_partial`, `C26_segment_ids_partial`, `C26_queries_partial`, `C26_closed_partial`, `C26_all_elements_partial`, `C26_hexahedra_partial`, `C27_after_erase_partial`, `C27_element_stays`, `C27_referencing_elements_partial`, `C28_violated_first_name`, `C28_violated_unique_names`, `C28_violated_lookup`, `C28_names_partial`, `C29_clear_partial`, `C30_equal_iff_count`, `C30_same_segments`, `C31_dense_exact`, `C31_dense_partial`, `C31_dense_written`, `C31_dense_missing`, `C31_dense_others_partial`, `C31_mapped_partial`, `C31_mapped_reads_partial`, `C31_mapped_others`, `C32_refine_mesh`, `C32_area`, `C32_longer_edge`, `C33_refine_mesh`, `C33_mesh_volume`, `C33_volume`, `C34_face`, `C34_two_cells`, `C34_inside`, `C35_orientation_partial`, `C35_at_most_one_partial`, `C35_violated`, `C36_least_closed_partial`, `C36_mesh_partial`, `C36_cell_marks`, `C37_tetrahedra_partial`, `C37_triangles_partial`, `C37_segment_volume_partial`, `C37_violated`, `C38_marks`, `C38_point`, `C38_call_partial`, `C38_violated`, `C39_triangle_partial`, `C39_triangle_accepts`, `C39_triangle_projection`, `C39_violated`, `C39_tetrahedron`, `C39_tetrahedron_accepts`, `C40_line`, `C40_triangle`, `C40_tetrahedron`, `C40_quadrilateral`, `C40_quadrilateral_convex`, `C40_hexahedron`, `C40_box`, `C41_optimal_partial`, `C41_members_partial`, `C41_violated_order`, `C41_violated_distance`, `C42_orthogonalize`, `C42_violated_zero_tolerance`, `C43_line`, `C43_triangle2`, `C43_triangle3`, `C43_tetrahedron_partial`, `C43_no_exception`, `C43_violated`, `C45_triangle`, `C45_violated`, `C45_trapezoid_partial`, `C45_cyclic_partial`, `C45_triangle_space`, `C46_violated`, `C46_parallelepiped_partial`, `C46_cyclic_partial`, `C47_scale_back`, `C47_scale_origin`, `C47_affine_back`, `C47_centroid_affine`, `C47_centroid_scale`, `C47_volume`, `C47_volume_scale`, `C47_centroid_mesh_affine`, `C48_cell_surface`, `C48_cell_surfaces_partial`, `C48_surface`, `C48_surface_one_cell_partial`, `C48_surface_order_partial`, `C48_segment_volume`, `C48_segment_surface_partial`, `C48_violated_segment`, `C48_surface_order_cells_partial`, `C48_violated`, `C48_violated_erase`, `C49_segments_partial`, `C49_standard`, `C49_mesh_partial`, `C49_violated_digits`, `C50_scalar_values`, `C50_vector_values_partial`, `C50_written_partial`, `C50_mesh_partial`, `C51_name`, `C51_attributes_partial`, `C51_violated_empty`, `C51_violated_bracket`, `C51_violated_skipws`, `C51_queries`, `C51_consumes`, `C52_boundary`, `C52_coboundary_partial`, `C52_coboundary_actual`, `C52_violated`, `C52_violated_empty`, `C53_polar`, `C53_cylindrical`, `C53_spherical`, `C53_polar_range`, `C53_polar_back`, `C53_cylindrical_back`, `C53_spherical_back`, `C53_polar_arithmetic`, `C53_cylindrical_arithmetic`, `C53_spherical_arithmetic`, `C53_spherical_to_cylindrical`, `C53_cylindrical_to_spherical_partial`, `C53_violated`, `C53_polar_norm`, `C54_strict_total`, `C55_mesh_cycle`, `C56_shoelace`, `C56_invariant`, `C57_violated`, `C57_reflexive_partial`, `C57_symmetric_partial`, `C58_determinant`, `C58_cross`, `C58_inner`, `C58_inner_definite`, `C58_normal_line`, `C58_normal_triangle`, `C58_norm1`, `C58_normInf`, `C58_norm2`, `C59_mesh`, `C59_segments`, `C59_truncated_partial`, `C59_violated_cell`, `C59_violated_no_cells`, `C59_violated_undefined`, `C60_violated`, `C61_violated`, `C61_star_partial`, `C62_triangle_mesh`, `C62_quadrilateral_mesh`, `C62_tetrahedron_mesh`, `C62_hexahedron_mesh`, `C62_closest_on_boundary`, `C63_copy_partial`, `C64_hull_partial`, `C64_manifold`, `C65_angle`, `C65_zero_vector`, `C65_angle_at`, `C65_dihedral`, `C65_dihedral_reversed`, `C66_solid_angle`, `C66_invariant`, `C66_solid_angle_at`, `C66_flat`, `C67_triangle_mesh`, `C67_tetrahedron_mesh`, `C67_quadrilateral_mesh`, `C67_hexahedron_mesh`, `C67_points`, `C67_point_element`, `C67_lines_partial`, `C67_boundary`, `C67_violated`, `C68_total_volume`, `C68_interface_partial`, `C68_boxes_partial`, `C68_contributions`, `C68_interface_contributions_partial`, `C68_boxes_from_interfaces_partial`, `C68_delaunay_partial`, `C68_violated`, `C68_violated_in_space`, `C68_surface_partial`, `C68_surface_contributions_partial`, `C69_boxes`, `C69_contributions`, `C69_total_volume`, `C70_boxes`, `C70_interface`, `C70_total_volume`, `C70_boxes_partial`, `C70_interface_partial`, `C70_contributions`, `C70_once_at_edges`, `C70_violated_twice`, `C71_boxes`, `C71_interface`, `C71_total_volume`, `C71_boxes_partial`, `C71_interface_partial`, `C71_contributions`, `C71_violated_twice`, `C72_returns`, `C72_boxes`, `C72_contributions`, `C72_cells`, `C72_interface_partial`, `C72_total_volume_partial`, `C72_violated`, `C72_violated_cells`, `C73_edges`, `C73_edge_boundary`, `C73_perimeter`, `C73_facets`, `C73_boundary`, `C73_surface`, `C74_geometry`, `C74_domains`, `C74_written_partial`, `C74_undefined`, `C74_violated`, `C75_contacts_partial`, `C75_flat_partial`, `C75_violated_plane`, `C75_violated_several`, `C76_sides`, `C77_cells_left`, `C77_handle`, `C77_view_partial`, `C77_last_dangle_partial`, `C78_mesh_partial`, `C78_ids_needed`, `C78_generated_ids`, `C78_violated_ids`, `C78_violated_shape`, `C78_violated_no_data`, `C79_written`, `C79_first_partial`, `C79_announced`, `C79_violated`, `C80_always_changed`, `C80_near`, `C80_printed_integer`, `C80_not_integer_partial`, `C80_violated`, `C80_defined`, `C80_undefined`, `C81_read_partial`, `C82_cut_partial`, `C82_optional`, `C83_mesh_partial`, `C83_violated_2d`, `C83_violated_order`, `C83_violated_regions`, `C84_helper_partial`, `C84_violated`, `C84_flat_partial`, `C85_rejected_partial`, `C85_violated_hangs`, `C85_violated_type`, `C85_violated_index`, `C86_same_mesh_partial`, `C86_cells_partial`, `C86_truncated`, `C87_read_partial`, `C87_violated_cut`, `C87_violated_unknown`, `C87_violated_short`, `C88_copy_partial`, `C88_same_mesh_partial`, `C88_violated_missing`, `C89_same_elements_partial`, `C89_once_partial`, `C90_file_partial`, `C90_segments_partial`, `C90_mesh_partial`, `C90_violated_names`, `C91_names_partial`, `C91_moved_partial`, `C91_violated_names`, `C91_violated_backslash`, `C92_pvd_partial`, `C92_violated_missing`, `C92_violated_stuck`, `C92_violated_cut`, `C93_info_partial`, `C93_violated_names`, `C93_file_name_partial`, `C93_violated_file_name`, `C94_index_of`, `C94_no_duplicates`, `C94_intersection`, `C96_cell_tag_partial`, `C96_full_boundary_information`, `C96_thin_boundary_information`, `C97_copy_elements`, `C97_in_several_calls`, `C97_needs_apart`, `C97_several_calls_no_tolerance`, `C98_copy_plcs_partial`, `C98_violated`, `C99_each_once`, `C99_creation_order`, `C99_by_vertices`, `C99_order_kept_partial`, `C99_element_view`, `C100_pointer_partial`, `C100_write`, `C100_kept`, `C100_last_written`, `C100_violated_fresh`, `C101_tetrahedra_partial`, `C101_triangles_partial`, `C101_one_side`, `C101_segmentation`, `C101_violated`, `C101_violated_unrecorded`, `C102_triangles`, `C102_tetrahedra`, `C102_times_triangles`, `C102_times_tetrahedra`, `C102_segmentation`, `C102_edges`, `C102_euler`, `C102_euler_times`, `C102_euler_tetrahedra`, `C102_euler_tetrahedra_times`, `C103_kept_partial`, `C103_inserted`, `C103_invalid_partial`, `C104_values_partial`, `C104_mesh_partial`, `C104_for_all`, `C104_violated_one_segment`, `C104_violated_twice`, `C104_violated_reader`, `C105_diagonal_partial`, `C105_diameter_partial`, `C105_zero_partial`, `C105_translate_partial`, `C105_scale_partial`, `C105_violated`, `C106_outward`, `C106_cell`, `C106_mesh`, `C106_outward_line`, `C106_cell_line`, `C106_mesh_line`, `C106_quad_partial`, `C106_violated`, `C106_outward_box`, `C106_mesh_box`, `C106_outward_quad`, `C106_mesh_quad`, `C107_order`, `C107_traverse`, `C107_move`, `C107_round_trip`, `C107_violated`, `C107_assign`, `C108_error`, `C108_double`, `C108_exact`, `C108_again`, `C108_different`, `C108_segments_exact`, `C108_mesh_exact`, `C108_segments_near`, `C108_mesh_near`, `C109_triangles`, `C109_tetrahedra`, `C109_fit_triangles`, `C109_fit_tetrahedra`, `C109_segmentation`, `C109_single_triangles`, `C109_single_tetrahedra`, `C109_times_triangles`, `C109_times_tetrahedra`, `C110_closed_partial`, `C110_sequence_partial`, `C110_registered`, `C110_violated`, `C110_violated_no_tag`, `C111_sequence_partial`, `C111_violated_written`

`Quot.sound`, `propext` (112 theorems): `C01_collision_from_any_state`, `C01_ids_unique_partial`, `C01_generated_ids`, `C01_mesh_partial`, `C01_mesh_violated`, `C02_upper_bound_violated`, `C02_upper_bound_partial`, `C02_reader_bound`, `C03_keyLt_trans`, `C05_quad_no_junk`, `C05_ids_are_positions`, `C07_violated_in_mesh`, `C07_quad_edges`, `C07_hex_facets`, `C07_hex_edges_violated`, `C07_hex_edges_partial`, `C07_hex_thirteen_lines`, `C09_decrement_violated`, `C11_find_by_id_end`, `C13_query_keeps_mesh`, `C15_violated_handle_mesh`, `C15_violated_missing_faces`, `C18_violated_asymmetric`, `C18_violated_removed`, `C20_no_segments`, `C21_needs_distinct_ids`, `C22_sharing`, `C23_violated_hexahedron`, `C24_violated`, `C25_separated`, `C26_violated_query`, `C26_violated_hexahedron`, `C28_ids_unique`, `C28_lookup_by_id`, `C29_violated_make`, `C29_violated_name`, `C29_violated_all_elements`, `C32_edges`, `C36_violated`, `C42_span_first`, `C44_bounding_box`, `C47_transform`, `C47_centroid_mean`, `C47_centroid_mesh`, `C48_volume`, `C48_volume_order`, `C48_volume_additive`, `C49_violated_ids`, `C50_violated_segment_vector`, `C54_meaning`, `C55_polygon_cycle`, `C55_polygon_edges_distinct`, `C59_violated_empty`, `C60_clear_segment_partial`, `C63_violated_names`, `C63_violated_again`, `C63_violated_all`, `C63_violated_self`, `C63_violated_no_segment`, `C63_violated_no_segments`, `C64_violated_again`, `C73_two_triangles`, `C73_two_cells`, `C77_violated`, `C81_violated_holes`, `C81_violated_blank`, `C82_violated_accepted`, `C82_violated_undefined`, `C86_violated_ids`, `C86_violated_lower`, `C88_violated_names`, `C88_violated_clash`, `C88_violated_renumbered`, `C88_violated_no_segment`, `C89_violated`, `C89_violated_all`, `C89_violated_erase`, `C94_size`, `C94_at`, `C94_push_back_list`, `C94_erase_at`, `C94_erase_at_outside`, `C94_erase_all`, `C94_reverse`, `C94_replace_at`, `C94_replace_at_outside_partial`, `C95_lookup`, `C95_insert`, `C95_modify`, `C95_insert_or_modify`, `C95_erase`, `C95_merge`, `C95_consistency`, `C95_query`, `C96_full`, `C96_thin`, `C96_full_boundary`, `C96_thin_boundary`, `C96_full_containers`, `C96_thin_containers`, `C96_full_storage`, `C96_violated_is_element_present`, `C96_elements_of_dim`, `C100_violated_const`, `C104_for_segment`, `C104_cleared`, `C107_equal`, `C107_less`, `C107_difference_partial`, `C107_get`, `C107_swap`, `C111_complete`

`propext` (27 theorems): `C01_ids_unique_violated`, `C03_keyLt_irrefl`, `C04_violated_with_duplicate_ids`, `C07_hex_facet_edges_are_cube_edges`, `C09_violated`, `C10_one_line_undefined`, `C10_violated`, `C22_needs_distinct_ids`, `C25_no_tolerance`, `C31_violated_dense`, `C31_violated_by_reading`, `C44_unique`, `C50_components_partial`, `C51_no_tag`, `C86_no_mesh`, `C86_violated_not_empty`, `C94_erase`, `C94_erase_absent`, `C94_replace`, `C94_replace_absent`, `C94_replace_all`, `C95_values_partial`, `C99_element_view_segment`, `C99_violated`, `C103_violated`, `C103_configurations_partial`, `C111_violated`
