{"id": "C01", "title": "Ids of one element type are never handed out twice", "statement": "After any history of element creations on one mesh, some with an id chosen by the caller and some without, two different elements of the same type never carry the same id, provided the caller never passes an id that is already in use.", "quantifier": "all finite histories of creations with and without explicit ids, for every id value", "why_tests_cant": "A test replays a few fixed histories; a collision needs one particular relation between the explicit id and the hidden generator state, so absence of collisions is a statement about every history.", "anchors": ["viennagrid/storage/id_generator.hpp: continuous_id_generator_layer::operator(), set_max_id", "viennagrid/storage/inserter.hpp: physical_inserter::physical_insert, set_id", "viennagrid/mesh/element_creation.hpp: make_vertex, make_vertex_with_id"]}
{"id": "C02", "title": "id_upper_bound is an exclusive bound on every id in the mesh", "statement": "id_upper_bound<Element>(mesh) is strictly larger than the id of every element of that type stored in the mesh, so an array of that size can be indexed by every id.", "quantifier": "all finite histories of creations with and without explicit ids", "why_tests_cant": "Users size arrays with this bound once and index them for all elements; a test only checks some meshes, the promise is for all reachable generator states.", "anchors": ["viennagrid/mesh/mesh.hpp: id_upper_bound", "viennagrid/storage/id_generator.hpp: max_id, set_max_id"]}
{"id": "C03", "title": "Element keys identify elements exactly up to vertex order", "statement": "Two elements get equal keys if and only if they have the same vertices regardless of the order in which the vertices were given, and the less-than of keys is a strict total order.", "quantifier": "all pairs and triples of vertex-id lists of any length", "why_tests_cant": "std::map needs a strict weak order on all keys; a finite number of compared keys cannot establish transitivity, totality or injectivity.", "anchors": ["viennagrid/element/element_key.hpp: element_key, operator<"]}
{"id": "C04", "title": "Shared faces and edges are stored exactly once", "statement": "After any sequence of vertex and cell creations, no two stored elements of the same intermediate dimension have the same vertex set, and each cell refers, for each of its faces and edges, to the one stored element with that vertex set.", "quantifier": "all finite sequences of vertex creations and simplex-cell creations on valid distinct vertices, every cell dimension, every vertex order; vertices have distinct ids (given or generated; see C01 for when this holds)", "why_tests_cant": "Sharing depends on the whole insertion history and on the vertex order of every cell; tests sample a few meshes.", "anchors": ["viennagrid/storage/hidden_key_map.hpp: hidden_key_map::insert", "viennagrid/storage/inserter.hpp: physical_insert", "viennagrid/element/element.hpp: create_boundary_elements, set_boundary_element", "viennagrid/topology/simplex.hpp: bndcell_generator"]}
{"id": "C05", "title": "A mesh contains no element that nobody asked for", "statement": "After any sequence of vertex and cell creations, each stored element of intermediate dimension is a face of some stored cell, and ids of each element type are exactly 0,1,...,n-1.", "quantifier": "all finite sequences of vertex creations and simplex-cell creations; vertices have distinct ids (given or generated; see C01 for when this holds)", "why_tests_cant": "A junk or missing element can appear only for certain overlaps of faces; the closure statement is over all histories.", "anchors": ["viennagrid/storage/inserter.hpp: physical_insert", "viennagrid/element/element.hpp: insert_callback, create_boundary_elements", "viennagrid/mesh/element_creation.hpp: make_element_impl"]}
{"id": "C06", "title": "The boundary elements of an n-simplex are all its vertex subsets, once each", "statement": "For an n-simplex the number of k-dimensional boundary elements is the binomial coefficient (n+1 choose k+1), and the enumerated edges and triangles are exactly the 2- and 3-subsets of its vertices, each listed once.", "quantifier": "all simplex dimensions n and all k, all vertex lists without repetition", "why_tests_cant": "The count and the enumeration loops are generic in n; tests instantiate a few n.", "anchors": ["viennagrid/topology/simplex.hpp: n_over_k, boundary_elements, bndcell_generator<simplex_tag<n>, simplex_tag<1>>, bndcell_generator<simplex_tag<n>, simplex_tag<2>>"]}
{"id": "C07", "title": "Boundary of quadrilaterals and hexahedra is the boundary of the reference cube", "statement": "The edges of a quadrilateral and the facets and edges of a hexahedron are exactly the edges and facets of the reference square/cube under the lexicographic vertex numbering: the endpoints of every edge differ in exactly one reference coordinate and every edge of a hexahedron is an edge of exactly two of its facets.", "quantifier": "all vertex lists (all labellings of the reference cell)", "why_tests_cant": "Index tables are copied by hand; the law relates two tables for each labelling instead of comparing counts.", "anchors": ["viennagrid/topology/hexahedron.hpp: bndcell_generator<hexahedron_tag, simplex_tag<1>>, bndcell_generator<hexahedron_tag, quadrilateral_tag>", "viennagrid/topology/quadrilateral.hpp: bndcell_generator"]}
{"id": "C08", "title": "local_vertex enumerates a shared face in the order of the asking cell", "statement": "For a cell and one of its boundary elements (possibly created earlier by another cell with another vertex order), local_vertex(cell, boundary, i) is the i-th vertex of that face in the cell's own reference orientation.", "quantifier": "all insertion histories, all vertex orders, every boundary element and index; vertices have distinct ids (given or generated; see C01 for when this holds)", "why_tests_cant": "The stored permutation depends on which cell created the face first; all pairs of orders have to be right.", "anchors": ["viennagrid/element/element.hpp: set_boundary_element, global_to_local_orientation", "viennagrid/element/element_orientation.hpp", "viennagrid/mesh/mesh.hpp: local_vertex"]}
{"id": "C09", "title": "Post-increment of element iterators returns the old position", "statement": "For every iterator obtained from a mesh, segment or element range, `it++` yields an iterator to the element `it` pointed at before the call and advances `it` by one.", "quantifier": "all ranges, all iterator positions", "why_tests_cant": "It is the iterator contract for every position and container kind; unit tests use only pre-increment loops.", "anchors": ["viennagrid/storage/container.hpp: container_base::iterator::operator++(int)", "viennagrid/storage/view.hpp: view::iterator::operator++(int)", "viennagrid/storage/static_array.hpp: static_array::iterator::operator++(int)"]}
{"id": "C10", "title": "Distance from a line to a segment is the minimum over all its lines", "statement": "distance(line, segment) equals the minimum of distance(line, l) over all lines l of the segment and is -1 for a segment without lines.", "quantifier": "all segments (all lists of lines) and all distance values", "why_tests_cant": "The omission of one list element only shows when that element is the unique minimiser; the empty/one-element cases are memory errors, not wrong values.", "anchors": ["viennagrid/algorithm/distance.hpp: distance(element<line_tag>, segment_handle)", "viennagrid/storage/view.hpp: operator++(int)"]}
{"id": "C11", "title": "Looking up an element by id returns that element", "statement": "After any history, find(mesh, id) returns the element carrying that id if there is one and end() otherwise; find(mesh, handle) returns the element of that handle.", "quantifier": "all histories with unique ids, all ids", "why_tests_cant": "A lookup must be right for all stored elements after every history.", "anchors": ["viennagrid/storage/container.hpp: find", "viennagrid/mesh/mesh.hpp: find, find_by_id"]}
{"id": "C12", "title": "Creating an element in a segment makes it visible in every enclosing container", "statement": "An element created through a segment is present afterwards in the segment, in the element set of the segmentation and in the mesh, exactly once in each; elements created elsewhere do not appear in the segment.", "quantifier": "all chains of views of any length, all histories of insertions at any level of the chain; vertices have distinct ids (given or generated; see C01 for when this holds)", "why_tests_cant": "The chain of inserters is recursive; the claim is about each chain length and each interleaving.", "anchors": ["viennagrid/storage/inserter.hpp: recursive_inserter::handle_insert, physical_insert", "viennagrid/storage/view.hpp: insert_unique_handle", "viennagrid/mesh/segmentation.hpp: segmentation::get_make_segment"]}
{"id": "C13", "title": "Coboundary iteration is exact and never stale", "statement": "At any moment, coboundary_elements(mesh, e) enumerates exactly the elements of the requested type having e on their boundary, each once, even if elements were created after an earlier coboundary query.", "quantifier": "all interleavings of element creations and coboundary queries, all elements; vertices have distinct ids (given or generated; see C01 for when this holds)", "why_tests_cant": "The result is cached and invalidated with a counter; only a statement over all interleavings excludes a stale answer.", "anchors": ["viennagrid/mesh/coboundary_iteration.hpp: create_coboundary_information, coboundary_elements", "viennagrid/mesh/mesh.hpp: change_counter, is_obsolete, update_change_counter", "viennagrid/storage/inserter.hpp: ++change_counter"]}
{"id": "C14", "title": "Neighbor iteration is symmetric, irreflexive, complete and never stale", "statement": "At any moment, neighbor_elements<E, C>(mesh, e) enumerates exactly the elements different from e which share a connector element of type C with e, each once; hence neighborship is symmetric.", "quantifier": "all interleavings of element creations and queries, all elements; vertices have distinct ids (given or generated; see C01 for when this holds)", "why_tests_cant": "Relates every pair of elements over every history including caches.", "anchors": ["viennagrid/mesh/neighbor_iteration.hpp: create_neighbor_information, neighbor_elements"]}
{"id": "C15", "title": "Cached queries on a view agree with the view's content", "statement": "For a mesh view filled with handles of a mesh, coboundary, neighbor and boundary queries on the view describe the elements in the view.", "quantifier": "all views and all contents; vertices have distinct ids (given or generated; see C01 for when this holds)", "why_tests_cant": "A cache that is never computed looks like a legal empty answer; the claim is over all ways of filling a view.", "anchors": ["viennagrid/mesh/mesh.hpp: handle_mesh, viennagrid::mesh view constructor, is_obsolete", "viennagrid/mesh/coboundary_iteration.hpp"]}
{"id": "C16", "title": "A facet is on the boundary iff exactly one cell uses it", "statement": "is_boundary(mesh, facet) holds if and only if the facet belongs to exactly one cell of the mesh, at each moment of any history.", "quantifier": "all meshes, including non-manifold ones, all interleavings of creations and queries; vertices have distinct ids (given or generated; see C01 for when this holds)", "why_tests_cant": "The flag is toggled per cell; wrong answers appear only for certain incidence counts and histories.", "anchors": ["viennagrid/algorithm/boundary.hpp: detect_boundary, is_boundary"]}
{"id": "C17", "title": "Lower-dimensional boundary is the closure of the boundary facets", "statement": "is_boundary(mesh, e) for an element e of dimension lower than facets holds iff e is a boundary element of some facet which is on the boundary.", "quantifier": "all meshes, all elements of all lower dimensions; vertices have distinct ids (given or generated; see C01 for when this holds)", "why_tests_cant": "Universally quantified over meshes.", "anchors": ["viennagrid/algorithm/boundary.hpp: transfer_boundary_information, detect_boundary"]}
{"id": "C18", "title": "Interface flags describe the current common boundary of two segments, symmetrically", "statement": "is_interface(A, B, facet) holds iff the facet currently lies in both segments and on the boundary of each; exchanging A and B does not change the answer and earlier queries do not influence it.", "quantifier": "all histories of segment modifications and queries, all pairs of segments, both argument orders; vertices have distinct ids (given or generated; see C01 for when this holds)", "why_tests_cant": "The flags are cached per unordered pair; staleness and asymmetry depend on the history of calls.", "anchors": ["viennagrid/algorithm/interface.hpp: detect_interface, is_interface", "viennagrid/mesh/segmentation.hpp: interface_information"]}
{"id": "C19", "title": "extract_boundary produces exactly the hull", "statement": "extract_boundary(volume_mesh, hull) creates in an empty hull mesh exactly one cell for each boundary facet of the volume mesh, with the same points in the same order, and exactly one vertex per boundary vertex used.", "quantifier": "all volume meshes; vertices have distinct ids (given or generated; see C01 for when this holds)", "why_tests_cant": "Bijection between two element sets for every mesh.", "anchors": ["viennagrid/algorithm/extract_boundary.hpp: extract_boundary", "viennagrid/mesh/mesh_operations.hpp: vertex_copy_map"]}
{"id": "C20", "title": "extract_seed_points yields one seed per connected part", "statement": "extract_seed_points(mesh) returns exactly one point for each class of cells connected through shared facets, and that point is the centroid of a cell in this class; with a segmentation the classes are taken inside each segment and paired with its id.", "quantifier": "all meshes and segmentations (all facet-adjacency graphs); vertices have distinct ids (given or generated; see C01 for when this holds)", "why_tests_cant": "It is a reachability statement about a recursive graph search on every graph.", "anchors": ["viennagrid/algorithm/extract_seed_points.hpp: neighbor_mark, extract_seed_points"]}
{"id": "C21", "title": "A copied mesh is isomorphic to and independent of the original", "statement": "Copy construction and assignment of a mesh give a mesh in which every boundary reference points to an element inside the copy with the same id; all ids, points and incidences agree, caches are recomputed, and the original is unaffected by later changes of the copy.", "quantifier": "all meshes reachable by creations; vertices have distinct ids (given or generated; see C01 for when this holds)", "why_tests_cant": "Handles are rewritten one by one; a single dangling handle is undefined behaviour that a test may not notice.", "anchors": ["viennagrid/mesh/mesh.hpp: mesh(mesh const &), operator=, fix_handles"]}
{"id": "C22", "title": "Copying selected cells creates each vertex once and nothing else", "statement": "copy(src, dst, predicate) creates in an empty dst one cell per accepted cell with the corresponding vertices in the same order; two copied cells share a vertex in dst iff the originals share it; dst has exactly the used vertices.", "quantifier": "all source meshes and predicates; vertices have distinct ids (given or generated; see C01 for when this holds)", "why_tests_cant": "Quantifies over all cell subsets.", "anchors": ["viennagrid/mesh/mesh_operations.hpp: vertex_copy_map, copy", "viennagrid/mesh/element_creation.hpp: copy_elements"]}
{"id": "C23", "title": "Erasing an element removes it and everything referring to it, and nothing else", "statement": "erase_element(mesh, e) removes exactly e and all elements having e (transitively) on their boundary; every remaining boundary reference points to a remaining element.", "quantifier": "all meshes and all sets of elements to erase", "why_tests_cant": "Erasure swaps with the last element and rewrites references; whether references stay right depends on positions of all victims.", "anchors": ["viennagrid/mesh/element_deletion.hpp: erase_functor, switch_handle_functor, erase_elements, mark_erase_elements, erase_element", "viennagrid/mesh/mesh_operations.hpp: mark_referencing_elements"]}
{"id": "C24", "title": "After erasing, creating elements still finds shared faces correctly", "statement": "After any erase, creating a cell again shares faces by vertex set: an existing face with that vertex set is reused and a new one is created otherwise.", "quantifier": "all meshes, all erased faces and all cells created afterwards", "why_tests_cant": "The lookup structure is changed behind its key; errors only show for particular later insertions.", "anchors": ["viennagrid/mesh/element_deletion.hpp: erase_functor::operator()", "viennagrid/storage/hidden_key_map.hpp: insert, find, erase"]}
{"id": "C25", "title": "make_unique_vertex never duplicates a point", "statement": "make_unique_vertex(mesh, p) returns an existing vertex at the location p if there is one and otherwise creates a new one; with a tolerance t the result is within t of p, and a new vertex is created only if every existing vertex is at least t away.", "quantifier": "all meshes, points and tolerances", "why_tests_cant": "For all points, including the origin and points at equal distances.", "anchors": ["viennagrid/mesh/element_creation.hpp: make_unique_vertex"]}
{"id": "C26", "title": "Membership in a segment is closed under boundary and consistent with the element's own record", "statement": "After any history of add(segment, element) and of element creations in segments: an element is listed in a segment iff is_in_segment says so, every boundary element of a listed element is listed, nothing else is listed, and segment_ids of the element are exactly those segments.", "quantifier": "all histories over any number of segments and elements; vertices have distinct ids (given or generated; see C01 for when this holds)", "why_tests_cant": "Two redundant records (view and per-element list) have to agree after every history.", "anchors": ["viennagrid/mesh/segmentation.hpp: add, is_in_segment, segment_ids, add_single_handle, push_element"]}
{"id": "C27", "title": "Erasing an element from a segment removes it from that segment", "statement": "After erase(segment, e), e is not in the segment any more, no element of the segment refers to e, and other segments and the mesh keep their elements.", "quantifier": "all segmentations and elements", "why_tests_cant": "Universally quantified post-condition; the memberships of all other elements have to be preserved.", "anchors": ["viennagrid/mesh/segmentation.hpp: erase(segment, element), non_recursive_erase_functor"]}
{"id": "C28", "title": "Segments are found under their id and their name, and names stay unique", "statement": "After any history of make_segment, get_make_segment(id), operator[](name) and set_name: each segment has a unique id and a unique name, lookup by id or by name returns that segment, and operator[](name) succeeds for each name.", "quantifier": "all histories of segment creations and renamings, with exceptions caught by the caller", "why_tests_cant": "Two maps and a counter have to agree for every history, also after a thrown exception.", "anchors": ["viennagrid/mesh/segmentation.hpp: get_make_segment, make_segment, operator[], set_name, segment_present, get_segment"]}
{"id": "C29", "title": "clear() returns a segmentation to its initial state", "statement": "After segmentation.clear() every operation behaves as on a freshly constructed segmentation of the mesh.", "quantifier": "all histories before clear and all operations afterwards", "why_tests_cant": "Left-over state only shows for certain names or ids used before.", "anchors": ["viennagrid/mesh/segmentation.hpp: segmentation::clear"]}
{"id": "C30", "title": "Equality of segment sets ignores order and counts multiplicity", "statement": "is_equal(segmentation, e1, e2) holds iff e1 and e2 are in the same segments.", "quantifier": "all segment id lists", "why_tests_cant": "Equivalence for every pair of lists.", "anchors": ["viennagrid/mesh/segmentation.hpp: is_equal"]}
{"id": "C31", "title": "Fields and accessors return the last value written, else the default", "statement": "Reading a field at an element returns the value last written for that element, or the field's default value if none was written; writing one element does not change the value read at another; reading does not change anything.", "quantifier": "all histories of reads and writes over all elements", "why_tests_cant": "History property of a growing array and of a map.", "anchors": ["viennagrid/accessor.hpp: dense_container_accessor, std_map_accessor, dense_container_field, std_map_field"]}
{"id": "C32", "title": "Triangle refinement tiles each triangle", "statement": "For each set of marked edges, the triangles created for a cell are non-overlapping in the sense that signed areas are positive multiples of the parent's and sum up to it, all marked edges are split at the new vertex and unmarked edges are kept.", "quantifier": "all triangles (all coordinates), all subsets of marked edges, all edge-length orders", "why_tests_cant": "Continuum of coordinates and all case branches.", "anchors": ["viennagrid/algorithm/detail/refine_tri.hpp: element_refinement<triangle_tag>"]}
{"id": "C33", "title": "Tetrahedron refinement preserves volume and never hits an assertion", "statement": "For every set of marked edges and every tie-free order of edge lengths, the refinement of a tetrahedron terminates without assertion failure and the absolute volumes of the children sum up to the parent's volume, no child being degenerate.", "quantifier": "all tetrahedra, all 64 subsets of marked edges, all edge-length orders", "why_tests_cant": "2000 lines of case tables; the number of (mask, order) combinations times a continuum of coordinates.", "anchors": ["viennagrid/algorithm/detail/refine_tet.hpp: element_refinement<tetrahedron_tag>, stable_line_is_longer"]}
{"id": "C34", "title": "Tetrahedron refinement is conforming across cells", "statement": "The triangulation induced on a face of a refined tetrahedron depends only on that face: its marked edges and the order of their lengths; so two cells sharing the face refine it identically.", "quantifier": "all tetrahedra, masks and orders; all faces", "why_tests_cant": "Compatibility of every two neighbouring case branches.", "anchors": ["viennagrid/algorithm/detail/refine_tet.hpp: apply1..apply6, stable_line_is_longer"]}
{"id": "C35", "title": "Tetrahedron refinement keeps the orientation", "statement": "Each child tetrahedron has a signed volume of the same sign as its parent.", "quantifier": "all tetrahedra, masks and orders", "why_tests_cant": "One wrong permutation in one branch of the tables is enough.", "anchors": ["viennagrid/algorithm/detail/refine_tet.hpp: apply3_3"]}
{"id": "C36", "title": "Longest-edge closure of marked edges terminates in the least closed superset", "statement": "ensure_longest_edge_refinement terminates and yields the smallest superset of the marked edges in which each cell having a marked edge has its longest edge marked.", "quantifier": "all meshes, all initial markings, all edge lengths", "why_tests_cant": "Fixpoint iteration on all meshes.", "anchors": ["viennagrid/algorithm/refine.hpp: ensure_longest_edge_refinement"]}
{"id": "C37", "title": "Refinement passes segment membership on to the children", "statement": "simple_refine(mesh_in, seg_in, mesh_out, seg_out, ...) puts each child cell into exactly the segments of its parent.", "quantifier": "all segmented meshes", "why_tests_cant": "All memberships.", "anchors": ["viennagrid/algorithm/refine.hpp: simple_refine"]}
{"id": "C38", "title": "Hyperplane refinement puts the new vertices on the plane", "statement": "mark_edges_for_hyperplane_refine marks exactly the edges with end points strictly on different sides (beyond the tolerance) and the vertex it assigns to a marked edge lies on the hyperplane and inside the edge.", "quantifier": "all planes, points and tolerances", "why_tests_cant": "Continuum of inputs.", "anchors": ["viennagrid/algorithm/refine.hpp: mark_edges_for_hyperplane_refine"]}
{"id": "C39", "title": "is_inside decides containment in a simplex exactly", "statement": "With exact arithmetic and zero tolerance, is_inside(element, p) for triangles and tetrahedra holds iff p is a convex combination of the vertices.", "quantifier": "all non-degenerate simplices and all points", "why_tests_cant": "Continuum of inputs.", "anchors": ["viennagrid/algorithm/inclusion.hpp: is_inside_impl(triangle), is_inside_impl(tetrahedron)"]}
{"id": "C40", "title": "closest_points of a point and a line, triangle, quadrilateral, tetrahedron or hexahedron returns the nearest point", "statement": "The first returned point is the query point, the second one lies in the element (line segment, triangle, quadrilateral, tetrahedron, hexahedron) and no point of the element is closer to the query point.", "quantifier": "all points and all non-degenerate elements in any dimension", "why_tests_cant": "Optimality over a continuum.", "anchors": ["viennagrid/algorithm/closest_points.hpp: closest_points_point_line, closest_points_point_triangle, closest_points_point_tetrahedron, closest_points_impl, point_pair_with_shortest_distance"]}
{"id": "C41", "title": "closest_points(line, line) returns a point of the first line first and is optimal", "statement": "The first returned point lies on the first line segment, the second on the second one, and their distance is minimal.", "quantifier": "all pairs of non-degenerate line segments in any dimension", "why_tests_cant": "Optimality over a continuum, several branches.", "anchors": ["viennagrid/algorithm/closest_points.hpp: closest_points_line_line"]}
{"id": "C42", "title": "orthogonalize returns pairwise orthogonal vectors with the same span", "statement": "After orthogonalize the first n vectors (n the returned number) are pairwise orthogonal, and the span is preserved.", "quantifier": "all vector lists", "why_tests_cant": "All inputs including dependent ones.", "anchors": ["viennagrid/algorithm/geometry.hpp: orthogonalize_vector, orthogonalize"]}
{"id": "C43", "title": "circumcenter is equidistant from all vertices", "statement": "In exact arithmetic circumcenter(element) of a non-degenerate line, triangle (2d and 3d) and tetrahedron has equal distance to all vertices and lies in the affine hull.", "quantifier": "all non-degenerate simplices", "why_tests_cant": "Continuum of inputs.", "anchors": ["viennagrid/algorithm/circumcenter.hpp: circumcenter"]}
{"id": "C44", "title": "bounding_box is the tightest box", "statement": "Every vertex lies in the box returned by bounding_box(mesh), and each face of the box is attained by a vertex.", "quantifier": "all non-empty meshes", "why_tests_cant": "All coordinate sets.", "anchors": ["viennagrid/algorithm/geometry.hpp: bounding_box"]}
{"id": "C45", "title": "volume of a planar element is its area", "statement": "volume() of a triangle is translation invariant, independent of the vertex order and scales quadratically; volume() of a quadrilateral is the sum of the areas of the two triangles into which one of its diagonals cuts it, in the library's vertex numbering.", "quantifier": "all convex quadrilaterals and triangles", "why_tests_cant": "Continuum; parallelograms used in tests hide numbering errors.", "anchors": ["viennagrid/algorithm/volume.hpp: volume_impl(triangle), volume_impl(quadrilateral)", "viennagrid/algorithm/spanned_volume.hpp"]}
{"id": "C46", "title": "volume of a hexahedron is the sum of its tetrahedra", "statement": "volume() of a hexahedron equals the volume of the polyhedron in the library's vertex numbering.", "quantifier": "all hexahedra with planar facets", "why_tests_cant": "Continuum; boxes used in tests hide numbering errors.", "anchors": ["viennagrid/algorithm/volume.hpp: volume_impl(hexahedron)"]}
{"id": "C47", "title": "centroid, scale and affine transforms commute", "statement": "centroid(element) is the mean of its vertices; scaling or an affine map of the mesh maps the centroid accordingly; scaling by f and then 1/f gives the original mesh; volumes scale by the determinant.", "quantifier": "all elements, all transforms", "why_tests_cant": "Algebraic laws over a continuum.", "anchors": ["viennagrid/algorithm/centroid.hpp", "viennagrid/algorithm/geometric_transform.hpp: scale, affine_transform"]}
{"id": "C48", "title": "Mesh volume and surface are additive and independent of order", "statement": "volume(mesh) is the sum of cell volumes, surface(mesh) the sum of the volumes of boundary facets, both independent of the insertion order. surface(cell) is the sum over the facets of the cell, and the surfaces of all cells together are the surface of the mesh and twice the facets between two cells. volume(segment) is the sum over the cells of the segment, surface(segment) the sum over its facets that belong to exactly one of its cells.", "quantifier": "all meshes and segments after any history", "why_tests_cant": "All sets of cells.", "anchors": ["viennagrid/algorithm/volume.hpp: volume_mesh", "viennagrid/algorithm/surface.hpp"]}
{"id": "C49", "title": "Writing a mesh with the VTK writer and reading it back gives the same mesh", "statement": "For a mesh without duplicate points and duplicate cells, the connectivity written by vtk_writer and read by vtk_reader describes the same cells with the same vertex order and the same points, the vertices not used by any cell being dropped.", "quantifier": "all meshes of simplices, quadrilaterals and hexahedra, any ids", "why_tests_cant": "Composition of two index mappings and a reordering for every mesh.", "anchors": ["viennagrid/io/vtk_writer.hpp: preparePoints, writePoints, writeCells", "viennagrid/io/vtk_reader.hpp: readNodeCoordinates, setupVertices, setupCells", "viennagrid/io/vtk_common.hpp: vtk_to_viennagrid_orientations"]}
{"id": "C50", "title": "Data arrays in VTK files are attached to the right elements", "statement": "Every scalar or 3-component data array of a file is read as such, for each element the value stored at its position, whatever other arrays precede it and whatever way it was registered.", "quantifier": "all sequences of data arrays, all lengths", "why_tests_cant": "State leaks between arrays and out-of-range reads depend on the sequence.", "anchors": ["viennagrid/io/vtk_reader.hpp: readPointCellData, setupDataVertex, setupDataCell"]}
{"id": "C51", "title": "XML tags are parsed into their name and attributes", "statement": "Parsing the text of an XML tag with any name and any attributes yields the name in lower case and for each attribute its lower-case name with the exact value.", "quantifier": "all tag names, attribute lists and values without quote characters", "why_tests_cant": "All strings.", "anchors": ["viennagrid/io/xml_tag.hpp: xml_tag::parse, get_value, has_attribute"]}
{"id": "C52", "title": "quantity_transfer averages exactly the values of adjacent accepted source elements", "statement": "quantity_transfer sets each accepted destination element having an accepted adjacent source element to the average of the source accessor's values on exactly those source elements and changes no other element.", "quantifier": "all meshes, values, filters; both directions", "why_tests_cant": "All incidence structures and filters.", "anchors": ["viennagrid/algorithm/quantity_transfer.hpp: quantity_transfer"]}
{"id": "C53", "title": "Coordinate systems convert back and forth without loss", "statement": "Converting a Cartesian point to polar, cylindrical or spherical coordinates and back gives the same point (exact arithmetic), and arithmetic of points in these systems corresponds to vector arithmetic.", "quantifier": "all points", "why_tests_cant": "Continuum including the axes and the origin.", "anchors": ["viennagrid/point.hpp: coordinate_converter, cs_base, polar_cs, spherical_cs, cylindrical_cs"]}
{"id": "C54", "title": "point_less is a strict weak order compatible with equality", "statement": "point_less is irreflexive, transitive and total on different points of equal dimension.", "quantifier": "all points", "why_tests_cant": "Order laws for all triples.", "anchors": ["viennagrid/point.hpp: point_less"]}
{"id": "C55", "title": "Polygon boundary is one closed cycle", "statement": "The edges of a polygon with n>=3 vertices are n edges forming a single cycle through its vertices, and creating a polygon without vertices has no undefined behaviour.", "quantifier": "all vertex lists of any length", "why_tests_cant": "Dynamic length.", "anchors": ["viennagrid/topology/polygon.hpp: bndcell_generator<polygon_tag, simplex_tag<1>>"]}
{"id": "C56", "title": "Polygon volume does not depend on the starting vertex, position or direction", "statement": "volume(polygon) in two dimensions is the absolute shoelace area and so invariant under rotation of the vertex list, reversal and translation.", "quantifier": "all polygons", "why_tests_cant": "All vertex lists.", "anchors": ["viennagrid/algorithm/volume.hpp: volume_impl(polygon)"]}
{"id": "C57", "title": "Tolerant comparison is symmetric and reflexive", "statement": "is_equal(nc, a, b) gives the same answer as is_equal(nc, b, a), and holds for a = b.", "quantifier": "all numbers and tolerances", "why_tests_cant": "Continuum.", "anchors": ["viennagrid/algorithm/detail/numeric.hpp: is_equal, relative_tolerance"]}
{"id": "C58", "title": "Cross product, inner product and norms satisfy their laws", "statement": "normal vectors are orthogonal to the element, |a x b|^2 = |a|^2|b|^2 - (a.b)^2, determinants are alternating, norms satisfy the triangle inequality and homogeneity.", "quantifier": "all vectors", "why_tests_cant": "Algebraic laws over a continuum.", "anchors": ["viennagrid/algorithm/cross_prod.hpp", "viennagrid/algorithm/inner_prod.hpp", "viennagrid/algorithm/norm.hpp", "viennagrid/algorithm/geometry.hpp: normal_vector, determinant"]}
{"id": "C59", "title": "Reading a Netgen file builds the described mesh", "statement": "For a well-formed file, netgen_reader creates the listed vertices with ids 0..n-1 in order, each cell with the listed 1-based vertices in the segment of its index; for a truncated file it throws.", "quantifier": "all files (token lists)", "why_tests_cant": "All inputs including truncated ones.", "anchors": ["viennagrid/io/netgen_reader.hpp: netgen_reader::operator()"]}
{"id": "C60", "title": "clear(segment) leaves no trace of the segment's elements", "statement": "After clear(segment) the segment lists no element, is_in_segment is false for every element, the element set of the segmentation only holds elements of other segments, and other segments are unchanged.", "quantifier": "all segmentations, segments and elements", "why_tests_cant": "The claim is about the records of all elements, which are separate from the list of the segment.", "anchors": ["viennagrid/mesh/segmentation.hpp: clear(segment_handle), is_in_segment", "viennagrid/mesh/mesh.hpp: mesh::clear"]}
{"id": "C61", "title": "Volume of a planar polygon in space is its area", "statement": "volume(polygon) of a polygon in a plane in three-dimensional space equals its area in the coordinates of the plane, whichever vertex the list starts with.", "quantifier": "all planar simple polygons in space with any number of vertices", "why_tests_cant": "Triangles and convex polygons, which tests use, give the right result; the fan of unsigned triangles is wrong only for polygons not star-shaped from their first vertex.", "anchors": ["viennagrid/algorithm/volume.hpp: volume_impl(polygon)", "viennagrid/algorithm/spanned_volume.hpp: signed_spanned_volume_impl<PointT, 3>"]}
{"id": "C62", "title": "closest_points_on_boundary(point, mesh) returns the nearest boundary point", "statement": "closest_points_on_boundary of a point and a mesh returns the point and a point of a facet for which is_boundary holds, and no point of such a facet is closer.", "quantifier": "all meshes after any sequence of creations, erasures, copies and queries; all points", "why_tests_cant": "All meshes and a continuum of points; the boundary flags are cached and may be stale.", "anchors": ["viennagrid/algorithm/closest_points.hpp: closest_points_on_boundary_point_to_any"]}
{"id": "C63", "title": "Copying a mesh with its segments keeps the segments", "statement": "After copy(mesh, segmentation, dst_mesh, dst_segmentation, predicate) and after assigning one segmented_mesh to another, the destination has exactly the accepted cells, every cell is in the same segments (same ids and names) as its original, segments contain exactly their cells and the boundary elements of these, and the old content of the destination is gone.", "quantifier": "all source meshes and segmentations, all predicates, all previous contents of the destination", "why_tests_cant": "The result depends on the whole history of both segmentations (names, ids, overlapping segments); tests copy one small mesh into a fresh object.", "anchors": ["viennagrid/mesh/mesh_operations.hpp: copy", "viennagrid/mesh/segmented_mesh.hpp: operator=, copy constructor", "viennagrid/mesh/segmentation.hpp: clear, get_make_segment"]}
{"id": "C64", "title": "extract_boundary of a segmentation gives the hulls of all segments", "statement": "extract_boundary(segmentation, hull_mesh, hull_segmentation) fills the hull mesh with each facet on the boundary of some segment exactly once, and the hull segment with id g consists of exactly the facets on the boundary of segment g; interface facets belong to several hull segments; old contents are discarded.", "quantifier": "all segmentations of all meshes with any history of additions and queries; all previous contents of the hull", "why_tests_cant": "Facets shared by arbitrary many segments, stale boundary caches and reuse of the hull objects cannot be enumerated.", "anchors": ["viennagrid/algorithm/extract_boundary.hpp: extract_boundary (segmentation)", "viennagrid/mesh/mesh_operations.hpp: vertex_copy_map"]}
{"id": "C65", "title": "angle and dihedral_angle give the geometric angle", "statement": "angle(v0, v1) of two vectors other than zero is the number in [0, pi] given by the cosine law, angle(p0, p1, origin) is the angle at the origin whatever the order of p0 and p1; dihedral_angle of two planes given by a common edge and a further point each is the angle between the two half-planes.", "quantifier": "all vectors and points in any dimension (three for half-planes)", "why_tests_cant": "A continuum of inputs; tests check a few angles with nice values.", "anchors": ["viennagrid/algorithm/angle.hpp: angle, dihedral_angle"]}
{"id": "C66", "title": "solid_angle is the solid angle", "statement": "solid_angle(a, b, c) of three directions in general position equals the sum of the three angles between the faces of the cone minus pi (area of the spherical triangle); it does not depend on the order or the lengths of the vectors and lies in [0, 2 pi]. For three directions in a plane it is zero, or 2 pi if they go around the point so that no half of the plane contains them all.", "quantifier": "all triples of vectors in space", "why_tests_cant": "A continuum of inputs in several branches of atan2 (large cones have a negative denominator); tests check an octant.", "anchors": ["viennagrid/algorithm/angle.hpp: solid_angle"]}
{"id": "C67", "title": "distance is the least distance", "statement": "distance(x, y) is the least Euclidean distance of a point of x and a point of y, boundary_distance(point, mesh) that of the point and the boundary facets; distance of points is a metric.", "quantifier": "all points, segments, triangles, tetrahedra, convex quadrilaterals, boxes without degeneration; all pairs of line segments; all meshes reached by any history", "why_tests_cant": "A minimum over infinitely many points for a continuum of inputs.", "anchors": ["viennagrid/algorithm/distance.hpp: distance, boundary_distance", "viennagrid/algorithm/closest_points.hpp"]}
{"id": "C68", "title": "apply_voronoi for triangles gives the Voronoi boxes", "statement": "apply_voronoi on a triangle mesh: the vertex boxes together have the area of the mesh; the interface of an edge is the sum of half edge length times cotangent of the opposite angle over its triangles, which for a Delaunay pair is the distance of the circumcenters; boxes are made of edge length times interface; each total is the sum of the contributions recorded for the cells, and a cell is recorded at most once per element.", "quantifier": "all triangle meshes in the plane reached by any history, without triangles of area zero (also: surfaces in space)", "why_tests_cant": "A statement about all meshes and coordinates; obtuse triangles send contributions across edges into other cells, in combinations tests only sample.", "anchors": ["viennagrid/algorithm/voronoi.hpp: apply_voronoi, write_voronoi_info for triangle_tag"]}
{"id": "C69", "title": "apply_voronoi for lines halves each line", "statement": "apply_voronoi on a mesh of lines: the interface of a line is one point (measure 1), its box is the line, each end vertex gets half of it; the vertex boxes together have the length of the mesh; every total is the sum of the contributions recorded for the lines, and a line is recorded exactly once per element it belongs to.", "quantifier": "all meshes of lines in any dimension, reached by any history, any contents of the accessors before", "why_tests_cant": "A statement about all meshes, coordinates and dimensions, including branching lines.", "anchors": ["viennagrid/algorithm/voronoi.hpp: apply_voronoi, write_voronoi_info for line_tag"]}
{"id": "C70", "title": "apply_voronoi for quadrilaterals divides the cells among their corners", "statement": "apply_voronoi on a mesh of quadrilaterals: the vertex boxes together have the area of the mesh; a corner gets the part between it, the middles of the two sides meeting there and the mean of the corners (a quarter of a parallelogram); the interface of an edge is the line from its middle to the mean of the corners of each of its cells (half the length of the sides of a parallelogram meeting the edge), the edge box the triangles spanned by the edge and these means; every total is the sum of the recorded contributions, and a cell is recorded once per element.", "quantifier": "all plane meshes of convex quadrilaterals (interfaces and edge boxes: of any quadrilaterals), reached by any history", "why_tests_cant": "Holds for a continuum of coordinates and all ways cells share edges; contributions go through a map of cells to lists.", "anchors": ["viennagrid/algorithm/voronoi.hpp: apply_voronoi, write_voronoi_info for quadrilateral_tag"]}
{"id": "C71", "title": "apply_voronoi for hexahedra divides the cells among their corners", "statement": "apply_voronoi on a mesh of hexahedra: the vertex boxes together have the volume of the mesh; a corner gets the part made of a tetrahedron for each facet at the corner and each edge of that facet at the corner, with the corner, the middle of the edge, the mean of the facet and the mean of the cell as its corners (an eighth of a parallelepiped); an edge gets as interface the triangles of its middle, the mean of the cell and the means of the two facets at the edge (a quarter of the parallelogram spanned by the other two directions), and as box the two tetrahedra spanned with these means (a twelfth); lines which are no edges of the hexahedra get nothing; every total is the sum of the recorded contributions, and a cell is recorded once per element.", "quantifier": "all conforming meshes of hexahedra (for the total: convex ones), reached by any history", "why_tests_cant": "Holds for a continuum of coordinates and all ways cells share facets and edges; the facet loops visit each edge of a cell twice, so what is recorded depends on the whole table of facets.", "anchors": ["viennagrid/algorithm/voronoi.hpp: apply_voronoi, write_voronoi_info for hexahedron_tag"]}
{"id": "C72", "title": "apply_voronoi for tetrahedra gives the Voronoi boxes of a Delaunay mesh", "statement": "apply_voronoi on a mesh of tetrahedra: it returns unless a cell is (nearly) flat, a triangle belongs to no cell or more than two, or an edge to no triangle; for a Delaunay mesh conforming to its boundary the interface of an edge has the area of the polygon of the circumcenters around it, the box of the edge is the double pyramid over it, a vertex gets half the boxes of its edges, and the vertex boxes together have the volume of the mesh; every total is the sum of the recorded contributions, no cell is recorded twice, and what is recorded for a cell is the part of the interface in this cell.", "quantifier": "all meshes of tetrahedra reached by any history, any coordinates, any contents of the accessors before", "why_tests_cant": "Holds for a continuum of coordinates and all ways cells share facets and edges; that unsigned triangle areas around an arbitrary inner point add up to the polygon needs the empty-sphere property at every edge.", "anchors": ["viennagrid/algorithm/voronoi.hpp: apply_voronoi, write_voronoi_info for tetrahedron_tag", "viennagrid/algorithm/circumcenter.hpp: circumcenter"]}
{"id": "C73", "title": "The cells of a refined mesh fit together", "statement": "After viennagrid::refine of a mesh of tetrahedra, every triangle of a new cell is either inside of an old cell and then belongs to exactly two new cells, or it is on one triangle of the old mesh: its corners are corners or edge midpoints of that triangle and it belongs to as many new cells as that to old ones. The new triangles on an old triangle have together its area. So there are no hanging nodes or cracks: no triangle gets more than two cells if none had, is_boundary holds for the new triangles on old boundary triangles and no others, and surface(mesh) is unchanged. The same holds for meshes of triangles with edges for triangles: every edge of a new cell is inside of an old cell with two new cells, or on one old edge with as many cells as that; the new edges on an old edge have together its length; and so for is_boundary and for surface(mesh), the length of the boundary.", "quantifier": "all meshes of tetrahedra (no two cells with the same four vertices) or triangles (no two with the same three) reached by any history, with segments, all marked edges, distances (symmetric for tetrahedra), coordinates", "why_tests_cant": "Each cell is refined on its own, by a case analysis of 64 patterns of marked edges with tie-breaks by lengths and vertex ids; that neighbours agree has to hold for every pair of patterns and every order of lengths.", "anchors": ["viennagrid/algorithm/refine.hpp: refine, simple_refine", "viennagrid/algorithm/detail/refine_tet.hpp: element_refinement<tetrahedron_tag>", "viennagrid/algorithm/boundary.hpp: is_boundary", "viennagrid/algorithm/surface.hpp: surface", "viennagrid/algorithm/detail/refine_tri.hpp: element_refinement<triangle_tag>"]}
{"id": "C74", "title": "The Comsol writer writes the mesh and the segments of the cells", "statement": "mphtxt_writer on a mesh of tetrahedra with a segmentation: line v of the points holds the coordinates of vertex v; line c of the tetrahedra names the points of the vertices of cell c; the triangles in the file are exactly those on the boundary of some segment, each once, in order of their ids; line c of the domains holds the number of the segment of cell c, counted from one, zero for a cell in no segment.", "quantifier": "all meshes of tetrahedra and segments reached by any history with any element ids, any state of the caches of the segments", "why_tests_cant": "Vertex ids, handles and file positions coincide in every small test mesh; which triangles are written depends on boundary caches per segment after arbitrary histories.", "anchors": ["viennagrid/io/mphtxt_writer.hpp: mphtxt_writer::operator()"]}
{"id": "C75", "title": "Contacts in a Comsol file are the connected flat regions of the boundary", "statement": "The contact indices written by mphtxt_writer are 0, ..., n-1, all used. Two triangles have the same index exactly if they are connected by triangles on the boundary of a common segment, each sharing a vertex with the next, belonging to the same segments, and lying in one plane.", "quantifier": "all meshes of tetrahedra and segments reached by any history, any coordinates, any order of triangles", "why_tests_cant": "The regions are found by a recursive flood fill over neighbor queries which marks as it goes, segment after segment; that it never misses, splits or joins regions has to hold for every mesh and order.", "anchors": ["viennagrid/io/mphtxt_writer.hpp: mark_planar_neighbors, mark_segment_hull_contacts"]}
{"id": "C76", "title": "The sides of triangles in a Comsol file", "statement": "For each triangle mphtxt_writer writes two numbers: the segment (counted from one) of the tetrahedron on the side from which the normal of the triangle points away, and the segment of the tetrahedron on the other side; zero where there is no tetrahedron of a segment.", "quantifier": "all meshes of tetrahedra without flat or overlapping tetrahedra, all segments with each cell in at most one, any history, any coordinates", "why_tests_cant": "Orientation depends on the stored vertex order of shared triangles and on real coordinates; two loop iterations for different segments fill the two numbers.", "anchors": ["viennagrid/io/mphtxt_writer.hpp: mphtxt_writer::operator(), triangle_information"]}
{"id": "C77", "title": "Handles, views and segments after erasing elements of the mesh", "statement": "After erase_elements a handle of an element which is not erased still refers to this element, and a view or segment lists the elements it listed before without the erased ones.", "quantifier": "all meshes of simplices, lines or quadrilaterals, any history of creations, queries and erasures, any set of erased elements, all handles and views", "why_tests_cant": "Elements are moved between storage cells when others are erased; whether a particular handle is affected depends on the position of its element and on the number of erased elements, and reading through a dangling handle often gives plausible data.", "anchors": ["viennagrid/mesh/element_deletion.hpp: erase_functor, erase_elements", "viennagrid/storage/view.hpp: view iterators, dereference_handle", "viennagrid/storage/hidden_key_map.hpp"]}
{"id": "C78", "title": "The mesh in an OpenDX file", "statement": "A file written by opendx_writer describes the mesh: the array of points has the coordinates of all vertices, each cell is given by the positions of its corners in that array, the announced number of entries per cell and the element type are those of the cells, and every object the file refers to is in it.", "quantifier": "all meshes, any history of creations, erasures of cells and queries, with or without explicit ids, any registered quantities", "why_tests_cant": "Ids and positions agree in small meshes built in the usual way, and OpenDX itself is not part of the tests.", "anchors": ["viennagrid/io/opendx_writer.hpp: opendx_writer::operator(), DXHelper", "viennagrid/io/helper.hpp: PointWriter"]}
{"id": "C79", "title": "Which quantity opendx_writer writes", "statement": "Of several quantities registered at an opendx_writer the first on vertices is written, or the first on cells if there is none on vertices; those announced as ignored are ignored.", "quantifier": "all sequences of registrations on vertices and cells with any names", "why_tests_cant": "Depends on the order of names in a map for all sequences of registrations.", "anchors": ["viennagrid/io/opendx_writer.hpp: add_scalar_data_on_vertices, add_scalar_data_on_cells, add_to_container"]}
{"id": "C80", "title": "The numbers of a quantity in an OpenDX file", "statement": "opendx_writer writes the values of the quantity in the order of the elements, up to 1.5e-5, and no number is printed with only zeros after the point (what DXfixer is for).", "quantifier": "all values", "why_tests_cant": "The claim is about all real values; the ones where it fails are rare.", "anchors": ["viennagrid/io/opendx_writer.hpp: DXfixer, opendx_writer::operator()"]}
{"id": "C81", "title": "tetgen_poly_reader reads what is in the file", "statement": "Reading a TetGen .poly file which is well-formed according to the description of the format gives exactly the vertices of the file with their ids and points, one piecewise linear complex per facet whose lines are the sides of its polygons and whose vertices are all their corners (each once, lines with the same ends being one element shared by the facets), the hole points of the facets, the hole points of the file and the seed points with their segment ids; comments and blank lines do not matter.", "quantifier": "all well-formed files: any number of vertices with any ids, facets, polygons with one, two or more corners, holes, regions, comments", "why_tests_cant": "The claim is about all files; the repository has one example file.", "anchors": ["viennagrid/io/tetgen_poly_reader.hpp: tetgen_poly_reader::operator(), get_valid_line", "viennagrid/mesh/element_creation.hpp: make_plc, make_line", "viennagrid/topology/plc.hpp"]}
{"id": "C82", "title": "tetgen_poly_reader rejects files which are cut off or malformed", "statement": "A .poly file which ends too early or is malformed is rejected with an exception; the lists of holes and regions at the end may be missing, and then there are no hole points or seed points.", "quantifier": "all files obtained by cutting a well-formed file, and files with wrong entries", "why_tests_cant": "There are as many ways to cut a file as it has lines, for every file; reading uninitialised variables may go unnoticed in a test.", "anchors": ["viennagrid/io/tetgen_poly_reader.hpp: tetgen_poly_reader::operator()"]}
{"id": "C83", "title": "bnd_reader builds the triangulated boundaries of the polyhedra", "statement": "Reading a .bnd file gives a mesh with one vertex for each point of the file which is a corner of a face of a polyhedron, and one triangle for each face, faces with the same corners being one triangle; segment i consists of exactly the triangles which are faces of polyhedron i, their edges and their vertices, so a triangle between two polyhedra is in both segments.", "quantifier": "all well-formed files: any numbers of points, edges, faces, polyhedra, contacts and regions, edges and faces used in either direction, any distribution over lines", "why_tests_cant": "The claim is about all files; the repository has no test for this reader.", "anchors": ["viennagrid/io/bnd_reader.hpp: bnd_helper::operator(), bnd_reader::operator()"]}
{"id": "C84", "title": "bnd_helper gives names, materials and contacts of the file", "statement": "After reading a .bnd file with bnd_helper, segment_name and segment_material of a segment are those of the region it is listed in, and the contacts are the regions of material Contact in the order of the file, with their names (blanks removed) and triangles. In a file of dimension 2, bnd_helper has for each segment the end points of the listed edges, and the contact lines as they are listed.", "quantifier": "all well-formed files", "why_tests_cant": "The claim is about all files and all distributions of elements over regions.", "anchors": ["viennagrid/io/bnd_reader.hpp: bnd_helper::operator(), segment_name, segment_material, contact_name, contact_faces, remove_begin_end_chars"]}
{"id": "C85", "title": "bnd_reader rejects files it cannot read", "statement": "A .bnd file which is malformed, is of another dimension than the mesh, or has faces which are no triangles is rejected with an exception.", "quantifier": "all files", "why_tests_cant": "There are infinitely many malformed files; a reader which does not return or uses memory out of range may go unnoticed.", "anchors": ["viennagrid/io/bnd_reader.hpp: bnd_helper::operator(), bnd_reader::operator()"]}
{"id": "C86", "title": "Saving and loading a mesh gives the same mesh", "statement": "A mesh which is saved with the serializer and loaded into an empty mesh is the same afterwards: vertices with ids and points, elements of all dimensions with ids, vertices and boundary elements. An archive which ends too early is rejected with an exception.", "quantifier": "all meshes of simplices, quadrilaterals and hexahedra, all numbers of coordinates, all prefixes of archives", "why_tests_cant": "The ids written are looked up in another mesh; that they mean the same there depends on the whole history of the mesh saved.", "anchors": ["viennagrid/io/serialization.hpp: mesh_serializer::save, load"]}
{"id": "C87", "title": "neper_tess_reader reads what the file describes", "statement": "Reading a .tess file gives the vertices with the points of the file in order, for each face a piecewise linear complex whose lines are the sides of the face, a side shared by faces being one line, and for each polyhedron a seed point with its id. Files which are malformed are rejected.", "quantifier": "all files with sections for vertices, faces and polyhedra, any ids, any other lines between the sections", "why_tests_cant": "Files have any number of entries with any ids; sides are shared through a map over pairs of ids.", "anchors": ["viennagrid/io/neper_tess_reader.hpp: neper_tess_reader::operator()"]}
{"id": "C88", "title": "copy_segmentation gives elements the segments of the elements with the same ids", "statement": "After copy_segmentation(src_mesh, src_segmentation, dst_mesh, dst_segmentation) an element of the destination is in a segment if it was before or if the element of the source with the same id is in the segment with the same id; segments present before stay, and the segments of the source exist in the destination with their ids and names.", "quantifier": "all meshes of simplices and quadrilaterals with any segments, and all destinations whose elements have ids and boundaries of elements of the source", "why_tests_cant": "Adding an element also adds its boundary; that nothing is added which the source does not have is a statement about all elements of all segments.", "anchors": ["viennagrid/mesh/segmentation.hpp: copy_segmentation, copy_segmentation_functor"]}
{"id": "C89", "title": "unchecked_add puts the same elements into a segment as add", "statement": "unchecked_add(segment, element) puts the element and its boundary elements into the segment; each element is present only once within the segment and within the list of all segmented elements; records agree with those made by add.", "quantifier": "all segmentations, segments and elements", "why_tests_cant": "Whether an element is listed twice depends on what all other segments contain.", "anchors": ["viennagrid/mesh/segmentation.hpp: unchecked_add, simple_unchecked_add"]}
{"id": "C90", "title": "Files written by vtk_writer are read back with all their contents", "statement": "The text files written by vtk_writer for a mesh, its segments and quantities are read by vtk_reader with the numbers of points and cells, points, cells, segments, names and values that were written, whatever names the quantities have.", "quantifier": "all meshes of lines, triangles, quadrilaterals, tetrahedra and hexahedra with any segments and quantities", "why_tests_cant": "The text depends on all names, numbers and counts; that the reader finds every number of every such text again is a statement about all texts the writer can produce.", "anchors": ["viennagrid/io/vtk_writer.hpp: vtk_writer", "viennagrid/io/vtk_reader.hpp: parse_vtu_segment"]}
{"id": "C91", "title": "The .pvd file leads to the files of the segments, also after moving them", "statement": "For every file name given to vtk_writer the segments are written to different files, the .pvd file names exactly these files by their segments, and reading the .pvd file finds them relative to its own directory, also after all files were moved to another directory.", "quantifier": "all file names with and without directories, all sets of segment ids, all target directories", "why_tests_cant": "Names are composed and decomposed by searching for separators; a test sees only the names it uses.", "anchors": ["viennagrid/io/vtk_writer.hpp: operator()", "viennagrid/io/vtk_reader.hpp: process_pvd"]}
{"id": "C92", "title": "Missing and malformed VTK files are reported", "statement": "vtk_reader throws an exception if a file cannot be opened or does not follow the format; a call which returns has read all files completely.", "quantifier": "all file names and all contents of the files", "why_tests_cant": "There are infinitely many malformed files.", "anchors": ["viennagrid/io/vtk_reader.hpp: parse_vtu_segment, process_pvd, operator()"]}
{"id": "C93", "title": ".vmesh files describe the mesh and its segments", "statement": "For every mesh, segmentation and output name, vmesh_writer writes a file named with the extension .vmesh from which can be read: the name of the file with the mesh, the geometric dimension, the type of the cells, the numbers of vertices and cells, the number of segments, and for each segment its id, its name, and the numbers of vertices and cells which belong to it.", "quantifier": "all meshes of simplices, quadrilaterals and hexahedra, all segmentations and segment names, all file names", "why_tests_cant": "The content depends on the whole history of the mesh and its segments and on the characters of arbitrary names; a test compares a few files.", "anchors": ["viennagrid/io/vmesh_writer.hpp: operator()"]}
{"id": "C94", "title": "Typelist operations do what their names say", "statement": "For every typelist: size, at, index_of, push_back, push_back_list, erase_at, erase, erase_all, reverse, no_duplicates, replace_at, replace, replace_all and intersection give the lengths, positions, concatenations, removals, replacements, reversals and intersections of lists; types outside of the list and indices outside of its range leave it unchanged.", "quantifier": "all lists of types, all types and indices", "why_tests_cant": "The metafunctions recurse over lists of any length; a test instantiates a few lists.", "anchors": ["viennagrid/meta/typelist.hpp: detail::result_of::size, at, index_of, push_back, push_back_list, erase_at, erase, erase_all, reverse, no_duplicates, replace_at, replace, replace_all, intersection"]}
{"id": "C95", "title": "Typemaps and configurations behave as maps", "statement": "A typemap with distinct keys is a map: lookup gives the value of the entry or not_found, insert, modify and erase compile exactly if the key is absent or present and change this entry only, insert_or_modify and the three merges give the entries of both maps with the stated preference, consistency compiles exactly for distinct keys, key_typelist and value_typelist are the keys and values; the query of a configuration gives the value at the path of tags, or the default if there is none.", "quantifier": "all typemaps, keys, values and nested configurations", "why_tests_cant": "Compile errors and results over all maps and nestings cannot be enumerated; a test compiles a few configurations.", "anchors": ["viennagrid/meta/typemap.hpp: detail::result_of::find, lookup, insert, modify, insert_or_modify, erase, merge, merge_ignore, merge_overwrite, consistency, key_typelist, value_typelist", "viennagrid/config/config.hpp: result_of::query"]}
{"id": "C96", "title": "Mesh configurations define the stored elements", "statement": "A mesh of the full configuration of a cell type stores exactly the cells and the elements of all types of their faces, vertices and cells in the given containers and all others in maps by key; each element stores its faces of all types, with orientations except for vertices; a mesh of the thin configuration stores cells and vertices only, and its cells store their vertices only. Presence queries answer whether a type is stored, boundary information is available for all stored types except the cells, and the cell type of a list of types is the first type of the highest dimension, as documented.", "quantifier": "all cell types: simplices of any dimension, quadrilaterals, hexahedra, polygons, PLCs; all lists of element types", "why_tests_cant": "Simplices of every dimension and all lists of types are instances of the recursive metafunctions; a test instantiates a few.", "anchors": ["viennagrid/config/mesh_config.hpp: full_topology_config, thin_topology_config, topologic_cell_dimension, elements_of_topologic_dim, cell_tag_from_typelist, boundary_information_collection_typemap", "viennagrid/config/element_config.hpp: is_element_present, has_boundary, has_orientation, element_boundary_element_container_typelist"]}
{"id": "C97", "title": "copy_elements adds exactly the given elements", "statement": "copy_elements and copy_elements_by_handle change nothing that is in the output mesh, and add each given element once with its vertices renamed, cells in the order given, together with elements on their boundaries only. With a positive tolerance each vertex goes to the first vertex of the output closer than the tolerance, so copies in several calls are the same as in one and neighbors stay joined; without one each source vertex goes to a new vertex of its own at the same point. Copied elements are proper if the vertices of each are at least twice the tolerance apart.", "quantifier": "all source and output meshes (of the same or of different types), lists of elements of any dimension, tolerances, and distances which satisfy the triangle inequality", "why_tests_cant": "The result depends on the contents of both meshes, on the order of the elements and on how close vertices are; there are infinitely many of each.", "anchors": ["viennagrid/mesh/element_creation.hpp: copy_elements, copy_elements_by_handle, detail::copy_elements_impl, make_unique_vertex"]}
{"id": "C98", "title": "Copying piecewise linear complexes keeps lines, vertices and holes", "statement": "copy_elements for PLCs gives in the output mesh, for each PLC, one with the same lines, the same vertices (loose ones too) and the same hole points, vertices and lines renamed; lines and vertices common to several PLCs are copied once.", "quantifier": "all meshes of PLCs, lists of PLCs, output meshes and tolerances", "why_tests_cant": "PLCs have any number of lines, loose vertices and holes and share them in any way.", "anchors": ["viennagrid/mesh/element_creation.hpp: detail::copy_elements_impl<plc_tag>, make_plc"]}
{"id": "C99", "title": "Ranges and element views list each element once in a fixed order", "statement": "The range of the elements of a type visits each element of the mesh exactly once; size() is the number of elements, and access by position gives the elements in the order of the iteration. Vertices and cells come in the order of creation, so the element at a position stays there when further elements are created; the same holds for edges and faces. element_view(mesh, f) lists exactly the elements which satisfy f, each once, in the order of the range, and element_view(segment, f) those of the segment.", "quantifier": "all meshes reached by creations, all element dimensions, all predicates, all further creations", "why_tests_cant": "The order of edges and faces depends on the ids of their vertices, which are given by the whole history; a test looks at a few meshes in which ids happen to increase with creation.", "anchors": ["viennagrid/storage/range.hpp", "viennagrid/storage/hidden_key_map.hpp", "viennagrid/storage/container_collection.hpp", "viennagrid/element/element_view.hpp"]}
{"id": "C100", "title": "The information stored for a segment and an element is kept", "statement": "segment_element_info(segment, element) is a null pointer exactly if the element is not in the segment; otherwise it points to a value with a defined initial content. Writing through it changes the value of this segment and element only, and the value stays until it is written again or the element leaves the segment.", "quantifier": "all histories of creations, additions to segments, erasures from segments and assignments of values", "why_tests_cant": "The values are kept in maps which are changed by every operation on segments, also for the boundary of the element; the statement is about all later operations.", "anchors": ["viennagrid/mesh/segmentation.hpp: segment_element_info, add, erase, element_segment_mapping_type", "viennagrid/mesh/segmentation.hpp: oriented_3d_hull_segmentation", "examples/tutorial/segments.cpp: segment_element_info"]}
{"id": "C101", "title": "hyperplane_refine cuts the cells along the plane", "statement": "hyperplane_refine replaces each cell cut by the plane by cells with vertices which are vertices of the cell or points of the plane inside its cut edges; no cell of the result is cut by the plane (with tolerance zero each one lies on one side), the children of a cell fill it (volumes or areas add up, none is degenerate if the cell is not), cells not cut are kept, and each cell is in the segments of its parent.", "quantifier": "all meshes of triangles in any dimension and of tetrahedra with any segments, all planes and tolerances, all orders of the edges", "why_tests_cant": "Continuum of planes and meshes; which template of children is used depends on the marks and on distances, and the vertices of different edges may be merged far away from the origin.", "anchors": ["viennagrid/algorithm/refine.hpp: hyperplane_refine, mark_edges_for_hyperplane_refine, simple_refine", "viennagrid/algorithm/detail/refine_tri.hpp", "viennagrid/algorithm/detail/refine_tet.hpp"]}
{"id": "C102", "title": "cell_refine_uniformly halves every cell", "statement": "cell_refine_uniformly replaces each triangle by exactly four triangles (one at each corner of half the size, and the one in the middle, turned) and each tetrahedron by exactly eight, each with an eighth of its volume and among them the half-size copies at its four corners. The vertices of the result are those of the cells and one for each edge, so vertices in no cell are left out. After k refinements there are 4^k (8^k) cells for each cell. A mesh of triangles in which no two triangles have the same vertices and every edge and vertex is in a triangle gets two edges for each edge and three for each triangle, stays such a mesh, and vertices minus edges plus triangles do not change however often it is refined. Likewise for tetrahedra (facets too in a cell): two edges for each edge, three for each facet and one for each cell; four facets for each facet and eight for each cell; vertices minus edges plus facets minus cells do not change. For each edge (facet) of only one cell there are two (four) such edges (facets). With a segmentation in which every cell has a record, each cell is in the segments of its parent.", "quantifier": "all meshes of triangles in any dimension and of tetrahedra after any history of creations and additions, all numbers of refinements", "why_tests_cant": "All meshes and all depths; which diagonal of the inner octahedron of a tetrahedron is used depends on distances and ids of the vertices.", "anchors": ["viennagrid/algorithm/refine.hpp: cell_refine_uniformly, refine_uniformly, mark_all_edge_refinement", "viennagrid/algorithm/detail/refine_tri.hpp: apply3", "viennagrid/algorithm/detail/refine_tet.hpp: apply6"]}
{"id": "C103", "title": "Handles refer to the same element while others are created", "statement": "The handle returned when an element is created dereferences to that element, and keeps doing so however many elements are created later, for each kind of handle (pointer, iterator, id) and each container of elements (vector, deque, list, set or map) a mesh configuration can choose. A handle that refers to an element is never reported as invalid by is_handle_invalid, and the handle made by set_handle_invalid always is.", "quantifier": "all containers and kinds of handles, all sequences of insertions, all growth rules of vectors", "why_tests_cant": "A dangling pointer or iterator often still reads the old memory; when a vector or deque reallocates depends on the library and the number of elements.", "anchors": ["viennagrid/storage/handle.hpp: handle, dereference_handle, set_handle_invalid, is_handle_invalid", "viennagrid/storage/container.hpp: container_base::insert", "viennagrid/storage/hidden_key_map.hpp: insert", "viennagrid/config/mesh_config.hpp: full_mesh_config"]}
{"id": "C104", "title": "Quantities registered at a vtk_writer are found again at the vtk_reader under name and segment", "statement": "Quantities are registered at a vtk_writer on vertices or cells, for all segments or for one segment, under a name; a later registration in the same place replaces an earlier one. When mesh and segmentation are written and read, every vertex and cell of a segment gets the value of the quantity its segment has under the name: the one registered for the segment, or else the one registered for all segments. The value is found at the accessor registered at the vtk_reader for the segment and at the one registered for all segments, or, if none is registered, at the field the reader offers for name and segment. Elements for which nothing was registered keep their values. Each name occurs once in a file. After writing, the writer holds no quantities.", "quantifier": "all meshes and segmentations that are built, all sequences of registrations at writer and reader, all values", "why_tests_cant": "Eight containers at the writer and twelve at the reader are chosen by element type, shape, segment and name; combinations of registrations for all segments and for single ones, and segments sharing vertices, are unlimited.", "anchors": ["viennagrid/io/vtk_writer.hpp: add_scalar_data_on_vertices, add_vector_data_on_cells, operator(), clear", "viennagrid/io/vtk_reader.hpp: register_vertex_scalar, register_cell_vector, setupDataVertex, setupDataCell, vertex_scalar_field"]}
{"id": "C105", "title": "mesh_size bounds the distances in a mesh", "statement": "mesh_size is the length of the diagonal of the bounding box: no two vertices are further apart, some two vertices have a distance of at least mesh_size divided by the square root of the dimension, it is zero exactly if all vertices are in one point, it does not change when the mesh is moved, and grows with the factor when the mesh is scaled. A mesh without vertices has the size zero.", "quantifier": "all meshes in all dimensions, all positions of the vertices with representable coordinates", "why_tests_cant": "The bounds speak about all pairs of vertices of all meshes, and the special case is the mesh without vertices, for which the loop never runs.", "anchors": ["viennagrid/algorithm/geometry.hpp: bounding_box, mesh_size"]}
{"id": "C106", "title": "Outward normal vectors close every cell and every mesh and give its volume", "statement": "The normal vector of a line in the plane, a triangle in space or a plane quadrilateral in space is orthogonal to the element and not zero unless the element has no area; its direction does not depend on which corner comes first, up to the direction in which the corners are listed. Turned away from a cell with the help of the centroids, the normal vector of a facet of a triangle or tetrahedron points away from the opposite vertex; the normal vectors of all facets of a cell have the sum zero, and so have those of all boundary facets of a mesh, whatever the order of the vertices in the stored facets. The sum of the inner products of the outward normal vectors with points of the facets is twice the area of a triangle or a plane mesh, and six times the volume of a tetrahedron or a mesh of tetrahedra (divergence theorem). The same holds for meshes of convex quadrilaterals in the plane and of parallelepipeds in space, there with three times the volume.", "quantifier": "all meshes of triangles or convex quadrilaterals in the plane and of tetrahedra or parallelepipeds in space built through the API whose cells are not flat and do not overlap, all quadrilaterals in a plane in space", "why_tests_cant": "Facets are shared and keep the vertex order of the cell that created them; that contributions of inner facets cancel and only the boundary found by is_boundary remains has to hold for every mesh and every order of insertion.", "anchors": ["viennagrid/algorithm/geometry.hpp: normal_vector", "viennagrid/algorithm/boundary.hpp: is_boundary", "viennagrid/algorithm/volume.hpp: volume", "viennagrid/algorithm/centroid.hpp: centroid"]}
{"id": "C107", "title": "Arrays of fixed length and points: comparison, iteration, exchange and the difference of iterators", "statement": "Two static_array objects (in particular points) are equal exactly if all entries are, and are ordered by the first entry in which they differ: <, >, <=, >=, ==, != are those of one total order. A loop from begin() to end() visits every entry once in order, a loop from rbegin() to rend() in the opposite order; it + n and it - n are the iterators n steps away, postfix ++ and -- return the iterator from before. it2 - it1 is the number of steps from it1 to it2, negative if it2 comes first, and it1 + (it2 - it1) is it2. swap exchanges two arrays, fill sets every entry, the assignment from an array of another type converts every entry, operator[] and at() never read outside.", "quantifier": "all lengths from one on (below 2^63), all entries of an ordered type, all pairs of iterators of one array", "why_tests_cant": "The comparison has to be a total order for all arrays, and the difference of iterators is stored in an unsigned type, which is right in one direction and wrong in the other; a test of end() - begin() passes.", "anchors": ["viennagrid/storage/static_array.hpp: static_array", "viennagrid/point.hpp: spatial_point"]}
{"id": "C108", "title": "Coordinates and values in VTK files keep 15 decimal digits", "statement": "A coordinate or value written by vtk_writer and read by vtk_reader changes at most by a relative error of 6e-15: the text is the closest number with 15 decimal digits, and what is read is the double closest to it. A double that stands for a number with at most 15 decimal digits is read back unchanged, and so is every number which comes from such a file, so that writing a mesh that was read, and reading it again, changes nothing. Different vertices stay different if their points differ in some coordinate by more than 6e-15 of the sum of the absolute values; then the mesh that is read has the same cells and segments.", "quantifier": "all numbers within the normal range of double, all meshes of lines, triangles, quadrilaterals, tetrahedra and hexahedra with any history, segments and quantities", "why_tests_cant": "Whether 15 digits are enough, and what becomes of numbers at powers of ten, where the number of digits before the point changes by the rounding, has to hold for all doubles; a test tries a few.", "anchors": ["viennagrid/io/helper.hpp: PointWriter", "viennagrid/io/vtk_writer.hpp: writePoints", "viennagrid/io/vtk_reader.hpp: readNodeCoordinates"]}
{"id": "C109", "title": "cell_refine refines the marked cells and closes the mesh", "statement": "cell_refine on a mesh of triangles or tetrahedra, with any cells marked, succeeds. A marked triangle becomes four triangles (one half as large at each corner, and the one in the middle), a marked tetrahedron eight, each with an eighth of its volume, among them the half as large one at each corner. A cell no edge of which belongs to a marked cell is copied unchanged. From every other triangle come one more triangles than it has edges of marked triangles. The new cells are stored in the order of the cells they come from, are in the same segments, have together the same area or volume, and no volume is zero if the cell's is not. Every corner is a corner of the cell or the middle of one of its edges that belong to marked cells. There is exactly one new vertex for each edge of a marked cell, and vertices of no cell are left out. Neighbouring cells fit together without hanging nodes if no two cells have the same vertices. With segmentations the result is the same if every cell has a segment record; otherwise the call is undefined. However often the mesh is refined, with whatever cells marked each time, the cells that come from a cell have together its area or volume and are in its segments, no two cells get the same vertices if no two had at first, and no edge (facet) belongs to more than two triangles (tetrahedra) if none did.", "quantifier": "all meshes of triangles in any dimension and of tetrahedra after any history of creations and additions to segments, all choices of marked cells, any number of refinements", "why_tests_cant": "How an unmarked cell next to marked ones is divided depends on which of its edges are marked, on lengths and on ids of vertices; the combinations for all meshes and choices cannot be enumerated.", "anchors": ["viennagrid/algorithm/refine.hpp: cell_refine, element_refine, cell_refinement_to_edge_refinement", "viennagrid/algorithm/detail/refine_tri.hpp", "viennagrid/algorithm/detail/refine_tet.hpp"]}
{"id": "C110", "title": "A vtk_reader can be used for several files", "statement": "A vtk_reader that has been used before reads from a file what a new reader reads, whatever has been read before and whichever fields are registered, also after calls that threw an exception. Registered fields are used by one call that returns; after an exception they are still registered.", "quantifier": "all sequences of calls of one reader with any files, existing or not, well-formed or not", "why_tests_cant": "The behaviour depends on everything the object has been used for before, over unboundedly many calls and arbitrary file contents.", "anchors": ["viennagrid/io/vtk_reader.hpp: operator(), pre_clear, post_clear, openFile, closeFile, parse_vtu_segment, process_pvd"]}
{"id": "C111", "title": "A vtk_writer can be used for several files", "statement": "A vtk_writer that has been used before writes what a new one writes with the quantities registered since the last call, whichever meshes and segments were written before and whether these calls returned or threw an exception. A call throws exactly if not all of its files were written; those written before are complete.", "quantifier": "all sequences of registrations and calls of one writer, with any meshes, segments and quantities, and any set of files that cannot be opened", "why_tests_cant": "The output depends on all registrations and calls before, and on which of the files of each call could be opened.", "anchors": ["viennagrid/io/vtk_writer.hpp: operator(), clear, add_to_container"]}
