{
 "claims": [
  {
   "property": "C01",
   "status": "partial",
   "theorems": [
    "VG.C01_ids_unique_violated",
    "VG.C01_collision_from_any_state",
    "VG.C01_ids_unique_partial",
    "VG.C01_generated_ids",
    "VG.C01_create_after_reading",
    "VG.C01_mesh_partial",
    "VG.C01_mesh_violated"
   ],
   "note": "The code violates the claim: an explicit id equal to the next id to be generated does not advance the generator (C01_ids_unique_violated, C01_collision_from_any_state, C01_create_after_reading). Proved: uniqueness for all histories in which no explicit id equals the current bound, and for histories without explicit ids; the same for the vertices of whole meshes, with elements created in between (C01_mesh_partial, C01_mesh_violated)."
  },
  {
   "property": "C02",
   "status": "partial",
   "theorems": [
    "VG.C02_upper_bound_violated",
    "VG.C02_upper_bound_partial",
    "VG.C02_reader_bound"
   ],
   "note": "Violated for the same reason (C02_upper_bound_violated, C02_reader_bound). Proved for all histories avoiding the defect."
  },
  {
   "property": "C03",
   "status": "proved",
   "theorems": [
    "VG.C03_key_eq_iff_perm",
    "VG.C03_keyLt_irrefl",
    "VG.C03_keyLt_trans",
    "VG.C03_keyLt_total",
    "VG.C03_map_equivalence_iff_same_vertices",
    "VG.C03_vector_key_depends_on_order"
   ],
   "note": "Key equality iff same vertices up to order, strict total order, equivalence used by std::map. The vector constructor does not sort (C03_vector_key_depends_on_order)."
  },
  {
   "property": "C04",
   "status": "partial",
   "theorems": [
    "VG.C04_no_two_elements_with_same_vertices",
    "VG.C04_refers_to_the_shared_element",
    "VG.C04_create_reuses",
    "VG.C04_violated_with_duplicate_ids"
   ],
   "note": "Proved for every history in which vertex ids are unique and the vertices of each created element are distinct. Violated with duplicate vertex ids, which the id generator permits (C04_violated_with_duplicate_ids)."
  },
  {
   "property": "C05",
   "status": "proved",
   "theorems": [
    "VG.C05_quad_no_junk",
    "VG.C05_no_unreferenced_element",
    "VG.C05_simplex_no_junk",
    "VG.C05_ids_are_positions",
    "VG.C05_polygon_no_junk",
    "VG.C05_thin"
   ],
   "note": "All histories of vertex and cell creations. For simplex meshes each intermediate element lies on a cell; in general on a stored element of higher dimension. Thin meshes, which store no edges and faces, are covered by C05_thin. Meshes of polygons are covered by C05_polygon_no_junk. For meshes of quadrilaterals C05_quad_no_junk says that every line is an edge of a cell."
  },
  {
   "property": "C06",
   "status": "proved",
   "theorems": [
    "VG.C06_simplex_count",
    "VG.C06_edges_are_pairs",
    "VG.C06_triangles_are_triples",
    "VG.C06_edges_nodup",
    "VG.C06_triangles_nodup",
    "VG.C06_edges_count",
    "VG.C06_triangles_count"
   ],
   "note": "All n: counts, exact sets, no duplicates."
  },
  {
   "property": "C07",
   "status": "partial",
   "theorems": [
    "VG.C07_hex_coboundary_partial",
    "VG.C07_hex_no_junk_partial",
    "VG.C07_violated_in_mesh",
    "VG.C07_quad_edges",
    "VG.C07_hex_facets",
    "VG.C07_hex_facet_edges_are_cube_edges",
    "VG.C07_hex_edges_violated",
    "VG.C07_hex_edges_partial",
    "VG.C07_hex_thirteen_lines"
   ],
   "note": "Quadrilateral edges and hexahedron facets proved. The hexahedron edge table violates the claim: (2,5) instead of (2,6) (C07_hex_edges_violated, C07_hex_thirteen_lines). What this means for meshes: C07_violated_in_mesh (a stored diagonal which is no boundary element, an edge without its hexahedron); C07_hex_coboundary_partial and C07_hex_no_junk_partial say that nothing else is wrong."
  },
  {
   "property": "C08",
   "status": "proved",
   "theorems": [
    "VG.C08_local_vertex"
   ],
   "note": "All histories with unique vertex ids; simplex and hypercube topologies."
  },
  {
   "property": "C09",
   "status": "partial",
   "theorems": [
    "VG.C09_violated",
    "VG.C09_every_position_wrong",
    "VG.C09_decrement_violated",
    "VG.C09_static_array_partial"
   ],
   "note": "Violated by all container and view iterators at every position (C09_violated, C09_every_position_wrong); proved for static_array iterators."
  },
  {
   "property": "C10",
   "status": "partial",
   "theorems": [
    "VG.C10_distance_skips_first_line",
    "VG.C10_one_line_undefined",
    "VG.C10_violated",
    "VG.C10_distance_partial",
    "VG.C10_right_with_contract_partial"
   ],
   "note": "Violated: the first line is skipped (C10_violated, C10_distance_skips_first_line) and one-line segments are undefined behaviour (C10_one_line_undefined). Proved when a later line is at most as far as the first."
  },
  {
   "property": "C11",
   "status": "proved",
   "theorems": [
    "VG.C11_find_by_id",
    "VG.C11_find_by_id_end",
    "VG.C11_find_by_handle",
    "VG.C11_handles_are_stable"
   ],
   "note": "Given unique ids; lookup by id, by handle, and stability of handles."
  },
  {
   "property": "C12",
   "status": "proved",
   "theorems": [
    "VG.C12_view_content",
    "VG.C12_created_visible"
   ],
   "note": "All chains of views of any length, all interleavings of creations at any level; content characterised exactly."
  },
  {
   "property": "C13",
   "status": "proved",
   "theorems": [
    "VG.C13_coboundary_quad",
    "VG.C13_coboundary_hex_facet",
    "VG.C13_coboundary_polygon",
    "VG.C13_coboundary_exact",
    "VG.C13_coboundary_simplex",
    "VG.C13_inverse_of_boundary",
    "VG.C13_query_keeps_mesh",
    "VG.C13_thin"
   ],
   "note": "All interleavings of creations, erasures of cells, copies of the mesh, and coboundary, neighbor and boundary queries, with the change counters and caches modelled. Thin meshes are covered by C13_thin. Meshes of polygons are covered; C13_coboundary_polygon says which polygons meet at a line. C13_coboundary_quad and C13_coboundary_hex_facet say the same in terms of the corners of the reference square and cube."
  },
  {
   "property": "C14",
   "status": "proved",
   "theorems": [
    "VG.C14_neighbors_polygon",
    "VG.C14_neighbors_exact",
    "VG.C14_neighbors_symmetric",
    "VG.C14_neighbors_irreflexive",
    "VG.C14_thin"
   ],
   "note": "Same histories as C13; exact, each once, symmetric, irreflexive. Thin meshes are covered by C14_thin. Meshes of polygons are covered; see C14_neighbors_polygon."
  },
  {
   "property": "C15",
   "status": "partial",
   "theorems": [
    "VG.C15_coboundary_partial",
    "VG.C15_coboundary_answers_partial",
    "VG.C15_neighbors_partial",
    "VG.C15_boundary_partial",
    "VG.C15_lower_boundary_partial",
    "VG.C15_violated_handle_mesh",
    "VG.C15_violated_missing_faces"
   ],
   "note": "Violated: handle_mesh fills a view without bumping its counter (queries then see an empty view), and a coboundary query throws when a boundary element of an element is not in the view. Proved for all histories of inserting, removing, creating and asking without handle_mesh."
  },
  {
   "property": "C16",
   "status": "partial",
   "theorems": [
    "VG.C16_boundary_iff_odd",
    "VG.C16_boundary_iff_one_cell_partial",
    "VG.C16_violated"
   ],
   "note": "The code computes the parity of the number of cells (C16_boundary_iff_odd). Violated for facets used by three cells (C16_violated); proved for facets used by at most two."
  },
  {
   "property": "C17",
   "status": "proved",
   "theorems": [
    "VG.C17_lower_boundary_is_closure"
   ],
   "note": "Same histories as C13."
  },
  {
   "property": "C18",
   "status": "partial",
   "theorems": [
    "VG.C18_facets_partial",
    "VG.C18_lower_partial",
    "VG.C18_symmetric_partial",
    "VG.C18_violated_stale",
    "VG.C18_violated_asymmetric",
    "VG.C18_violated_removed"
   ],
   "note": "Violated three ways (flag kept after a segment grows, after it shrinks, and answers depending on argument order). Proved for all histories that only add cells, at facets where no cell is in both segments and at most two cells meet."
  },
  {
   "property": "C19",
   "status": "proved",
   "theorems": [
    "VG.C19_hull",
    "VG.C19_manifold"
   ],
   "note": "For all simplex, quadrilateral and hexahedral meshes with distinct vertex ids, any visiting order of facets; combined with C16 for the meaning of boundary. The variant with a segmentation is C64."
  },
  {
   "property": "C20",
   "status": "proved",
   "theorems": [
    "VG.C20_seed_points",
    "VG.C20_seed_points_of_segment",
    "VG.C20_seed_points_of_segmentation",
    "VG.C20_no_segments"
   ],
   "note": "Mesh, segment and segmentation variants; the search is proved to terminate and to find exactly one cell of each part."
  },
  {
   "property": "C21",
   "status": "proved",
   "theorems": [
    "VG.C21_copy",
    "VG.C21_references",
    "VG.C21_queries",
    "VG.C21_needs_distinct_ids"
   ],
   "note": "On a model with explicit mesh objects: after fix_handles every reference is into the copy at the element with the same id, orientations and id generators are kept, and with caches copied the queries on the copy agree with the original (C21_copy, C21_references, C21_queries); copies may occur anywhere in the histories of C13-C17. Distinct vertex ids are needed (C21_needs_distinct_ids)."
  },
  {
   "property": "C22",
   "status": "proved",
   "theorems": [
    "VG.C22_copy_selected",
    "VG.C22_sharing",
    "VG.C22_needs_distinct_ids"
   ],
   "note": "For source meshes with distinct vertex ids (needed: C22_needs_distinct_ids). The variant with a segmentation is C63."
  },
  {
   "property": "C23",
   "status": "partial",
   "theorems": [
    "VG.C23_erase_elements",
    "VG.C23_erase_element",
    "VG.C23_remaining_ids",
    "VG.C23_violated_hexahedron"
   ],
   "note": "Proved for simplex meshes of any dimension and for line and quadrilateral meshes, for any sequence of erasures of element sets of any dimension after any history (C23_erase_elements, C23_erase_element, C23_remaining_ids). Violated for hexahedra (C23_violated_hexahedron): erasing the edge missing in the table of hexahedra leaves dangling face references. Handles, views and segments after the erasure: C77. Thin meshes of simplices and of hypercubes of any dimension are covered."
  },
  {
   "property": "C24",
   "status": "partial",
   "theorems": [
    "VG.C24_after_cell_erasures_partial",
    "VG.C24_faces_shared_partial",
    "VG.C24_violated"
   ],
   "note": "Violated: erasing an edge leaves the map of edges with stale keys (C24_violated). Proved for all interleavings of creations and erasures of cells (C24_after_cell_erasures_partial, C24_faces_shared_partial)."
  },
  {
   "property": "C25",
   "status": "partial",
   "theorems": [
    "VG.C25_tolerance",
    "VG.C25_separated",
    "VG.C25_no_tolerance",
    "VG.C25_default_partial",
    "VG.C25_violated_at_origin",
    "VG.C25_violated_nearby"
   ],
   "note": "With a tolerance: proved in full (C25_tolerance, C25_separated, C25_no_tolerance). Without a tolerance argument the claim is violated: at the origin the tolerance is zero and a duplicate is created (C25_violated_at_origin), and the first vertex within the tolerance is preferred to one exactly at the location (C25_violated_nearby). C25_default_partial is what remains. Exact arithmetic instead of floating point."
  },
  {
   "property": "C26",
   "status": "partial",
   "theorems": [
    "VG.C26_after_erase_partial",
    "VG.C26_content_partial",
    "VG.C26_is_in_segment_partial",
    "VG.C26_segment_ids_partial",
    "VG.C26_queries_partial",
    "VG.C26_closed_partial",
    "VG.C26_all_elements_partial",
    "VG.C26_violated_query",
    "VG.C26_violated_hexahedron",
    "VG.C26_hexahedra_partial"
   ],
   "note": "Proved for simplex meshes and quadrilateral meshes, all histories of creations, add and erase(segment, element). Violated for edges of hexahedra because of the wrong hexahedron edge (C26_violated_hexahedron); vertices, facets and cells of hexahedra are covered by C26_hexahedra_partial. unchecked_add is the subject of C89. Thin meshes of simplices and of hypercubes of any dimension are covered. is_in_segment and segment_ids are undefined for elements without a record, that is with an id larger than the ids of all elements of that type ever added to or erased from segments (C26_violated_query); C26_queries_partial says exactly when they are defined, and that they then give the right answer."
  },
  {
   "property": "C27",
   "status": "partial",
   "theorems": [
    "VG.C27_after_erase_partial",
    "VG.C27_element_stays",
    "VG.C27_referencing_elements_partial"
   ],
   "note": "Violated: the element itself is never removed (C27_element_stays, for all states). The rest of the claim is proved, from every state reached by creations, add and erase."
  },
  {
   "property": "C28",
   "status": "partial",
   "theorems": [
    "VG.C28_ids_unique",
    "VG.C28_lookup_by_id",
    "VG.C28_violated_first_name",
    "VG.C28_violated_unique_names",
    "VG.C28_violated_lookup",
    "VG.C28_names_partial"
   ],
   "note": "Violated for names which are numbers (three witnesses); ids are proved for all histories, names for all histories in which the caller does not use numbers as names."
  },
  {
   "property": "C29",
   "status": "partial",
   "theorems": [
    "VG.C29_violated_make",
    "VG.C29_violated_name",
    "VG.C29_clear_partial",
    "VG.C29_violated_all_elements"
   ],
   "note": "Violated (make_segment throws after clear, dangling name entries, element set kept); proved for later calls avoiding registered names."
  },
  {
   "property": "C30",
   "status": "proved",
   "theorems": [
    "VG.C30_equal_iff_count",
    "VG.C30_same_segments"
   ],
   "note": "For arbitrary lists (multiset equality), and for elements of simplex and quadrilateral meshes in terms of the lists of the segments."
  },
  {
   "property": "C31",
   "status": "partial",
   "theorems": [
    "VG.C31_dense_exact",
    "VG.C31_dense_partial",
    "VG.C31_dense_written",
    "VG.C31_dense_missing",
    "VG.C31_dense_others_partial",
    "VG.C31_violated_dense",
    "VG.C31_violated_by_reading",
    "VG.C31_mapped_partial",
    "VG.C31_mapped_reads_partial",
    "VG.C31_mapped_others"
   ],
   "note": "Violated: dense fields with a default read as a default constructed value below the greatest id written (C31_violated_dense), and reading through a non-const field inserts such values (C31_violated_by_reading). Exact behaviour for all histories in C31_dense_exact; the claim is proved for fields whose default is a default constructed value, and for map fields with any default when reads are const. find, at and assignments through at of dense containers: C31_dense_missing."
  },
  {
   "property": "C32",
   "status": "proved",
   "theorems": [
    "VG.C32_refine_mesh",
    "VG.C32_area",
    "VG.C32_edges",
    "VG.C32_longer_edge"
   ],
   "note": "All mark patterns, all lengths, all positions of the new vertices on their edges, points with any number of coordinates: the areas of the children have the sign of the triangle and add up (C32_area); each edge of the result is used once on the boundary and twice inside (C32_edges). Exact arithmetic. C32_refine_mesh: for whole meshes, the children of each cell have corners and midpoints of the cell as vertices."
  },
  {
   "property": "C33",
   "status": "proved",
   "theorems": [
    "VG.C33_refine_mesh",
    "VG.C33_mesh_volume",
    "VG.C33_volume"
   ],
   "note": "All 64 mark patterns, all lengths and ids, all positions of the new vertices on their edges: no branch without children is reached, child volumes are nonzero and add up to that of the tetrahedron. Exact arithmetic. C33_refine_mesh and C33_mesh_volume: the same for whole meshes, whose volume is kept."
  },
  {
   "property": "C34",
   "status": "proved",
   "theorems": [
    "VG.C34_face",
    "VG.C34_two_cells",
    "VG.C34_inside"
   ],
   "note": "The triangles on a face are given by ids, marks and lengths on the face alone (C34_face), so two neighboring tetrahedra agree (C34_two_cells); inside, each facet belongs to two children (C34_inside). Lengths are any symmetric function into a linear order."
  },
  {
   "property": "C35",
   "status": "partial",
   "theorems": [
    "VG.C35_orientation_partial",
    "VG.C35_at_most_one_partial",
    "VG.C35_violated"
   ],
   "note": "Violated: with three marked edges forming a path of one handedness one child can be inverted (C35_violated). Proved for the other 58 mark patterns, and at most one child is inverted in any case."
  },
  {
   "property": "C36",
   "status": "partial",
   "theorems": [
    "VG.C36_least_closed_partial",
    "VG.C36_violated",
    "VG.C36_mesh_partial",
    "VG.C36_cell_marks"
   ],
   "note": "Violated: a marked cell whose edges all have length zero makes the code dereference a null pointer (C36_violated). Proved for all meshes in which each cell has an edge of positive length: termination with a bound on the passes, closedness, and minimality; ties go to the first longest edge."
  },
  {
   "property": "C37",
   "status": "partial",
   "theorems": [
    "VG.C37_tetrahedra_partial",
    "VG.C37_triangles_partial",
    "VG.C37_segment_volume_partial",
    "VG.C37_violated"
   ],
   "note": "Violated: simple_refine reads segment_ids of every cell, which is undefined if there is a cell with an id larger than those of all cells ever put in segments, for example if no cell is in a segment (C37_violated). Proved for all segmented meshes of triangles and of tetrahedra where each cell has a record (C37_tetrahedra_partial, C37_triangles_partial), all marks and all orders of the edges, refine into an empty mesh: each cell made is in exactly the segments of its parent, and the volume of each segment is kept (C37_segment_volume_partial). Exact arithmetic; the new vertices are at midpoints as in refine."
  },
  {
   "property": "C38",
   "status": "partial",
   "theorems": [
    "VG.C38_marks",
    "VG.C38_point",
    "VG.C38_call_partial",
    "VG.C38_violated"
   ],
   "note": "Violated: the vertex goes through make_unique_vertex, so far away from the origin points of different edges are merged (C38_violated). Proved: marks exact, the point computed is on the plane and inside the edge, the vertex assigned is within a millionth of the norm of that point. Exact arithmetic."
  },
  {
   "property": "C39",
   "status": "partial",
   "theorems": [
    "VG.C39_triangle_partial",
    "VG.C39_triangle_accepts",
    "VG.C39_triangle_projection",
    "VG.C39_violated",
    "VG.C39_tetrahedron",
    "VG.C39_tetrahedron_accepts"
   ],
   "note": "Exact with zero tolerance for tetrahedra (C39_tetrahedron) and triangles in the plane (C39_triangle_partial); positive tolerances accept all inside points. Violated for triangles in space: points above the triangle are accepted (C39_violated); what is decided is containment of the orthogonal projection (C39_triangle_projection). Exact arithmetic."
  },
  {
   "property": "C40",
   "status": "proved",
   "theorems": [
    "VG.C40_line",
    "VG.C40_triangle",
    "VG.C40_tetrahedron",
    "VG.C40_quadrilateral",
    "VG.C40_quadrilateral_convex",
    "VG.C40_hexahedron",
    "VG.C40_box"
   ],
   "note": "Exact arithmetic in any dimension: the result is a point of the element and no point of it is closer (squares of distances are compared). Quadrilaterals: nearest point of the two triangles, of the convex hull if the diagonals meet; hexahedra: nearest point of the six tetrahedra, of the whole box if faces are parallel."
  },
  {
   "property": "C41",
   "status": "partial",
   "theorems": [
    "VG.C41_optimal_partial",
    "VG.C41_members_partial",
    "VG.C41_violated_order",
    "VG.C41_violated_distance"
   ],
   "note": "The code violates the claim: in the branches using end points the returned points may be in the wrong order (C41_violated_order), and crossing segments with an angle whose squared sine is below 1e-6 get end points instead of the crossing (C41_violated_distance). Proved: the points belong to the two segments up to order, and the distance is minimal for parallel lines, for lines which are not nearly parallel, and whenever the common perpendicular is outside."
  },
  {
   "property": "C42",
   "status": "proved",
   "theorems": [
    "VG.C42_orthogonalize",
    "VG.C42_span_first",
    "VG.C42_violated_zero_tolerance"
   ],
   "note": "All lists of vectors, any dimension, any positive tolerance, including absence of division by zero. With tolerance zero the function divides by zero on dependent vectors (C42_violated_zero_tolerance). Exact arithmetic."
  },
  {
   "property": "C43",
   "status": "partial",
   "theorems": [
    "VG.C43_line",
    "VG.C43_triangle2",
    "VG.C43_triangle3",
    "VG.C43_tetrahedron_partial",
    "VG.C43_no_exception",
    "VG.C43_violated"
   ],
   "note": "Lines, triangles in the plane and in space: proved in full. Tetrahedra: proved when the code does not throw; it throws below an absolute threshold, so small non-degenerate tetrahedra violate the claim (C43_violated). Exact arithmetic."
  },
  {
   "property": "C44",
   "status": "proved",
   "theorems": [
    "VG.C44_bounding_box",
    "VG.C44_unique"
   ],
   "note": "Any non-empty list of points with representable coordinates."
  },
  {
   "property": "C45",
   "status": "partial",
   "theorems": [
    "VG.C45_triangle",
    "VG.C45_violated",
    "VG.C45_trapezoid_partial",
    "VG.C45_cyclic_partial",
    "VG.C45_triangle_space"
   ],
   "note": "Triangles in the plane and in space: proved. Quadrilaterals: violated, the formula assumes a cyclic numbering of corners (C45_violated); right for trapezoids with the edges 0-1 and 2-3 parallel, and for cyclically numbered convex ones. Exact arithmetic."
  },
  {
   "property": "C46",
   "status": "partial",
   "theorems": [
    "VG.C46_violated",
    "VG.C46_parallelepiped_partial",
    "VG.C46_cyclic_partial"
   ],
   "note": "Violated (C46_violated, a prism over the quadrilateral of C45). Proved for parallelepipeds, and for cyclically numbered hexahedra with planar facets. The volume is specified by the divergence theorem. Exact arithmetic."
  },
  {
   "property": "C47",
   "status": "proved",
   "theorems": [
    "VG.C47_transform",
    "VG.C47_centroid_mean",
    "VG.C47_scale_back",
    "VG.C47_scale_origin",
    "VG.C47_affine_back",
    "VG.C47_centroid_affine",
    "VG.C47_centroid_scale",
    "VG.C47_volume",
    "VG.C47_volume_scale",
    "VG.C47_centroid_mesh",
    "VG.C47_centroid_mesh_affine"
   ],
   "note": "Mesh level (C47_transform), centroids of elements and of meshes, inverse scaling and inverse affine maps, volumes of triangles, quadrilaterals, polygons, tetrahedra and hexahedra. Exact arithmetic; elements without vertices are excluded."
  },
  {
   "property": "C48",
   "status": "partial",
   "theorems": [
    "VG.C48_cell_surface",
    "VG.C48_cell_surfaces_partial",
    "VG.C48_volume",
    "VG.C48_volume_order",
    "VG.C48_volume_additive",
    "VG.C48_surface",
    "VG.C48_surface_one_cell_partial",
    "VG.C48_surface_order_partial",
    "VG.C48_segment_volume",
    "VG.C48_segment_surface_partial",
    "VG.C48_violated_segment",
    "VG.C48_surface_order_cells_partial",
    "VG.C48_violated",
    "VG.C48_violated_erase"
   ],
   "note": "Volume: sum, additive, order independent. Surface: sum over the facets reported by is_boundary after any history. The surface is order independent for facets whose volume does not depend on vertex order (lines, triangles) after any history, and for all facets if only vertices and cells are created and no facet belongs to more than two cells (C48_surface_order_cells_partial). Violated otherwise for hexahedra: a facet created before its cell, or left by an erased cell, has another corner order and another computed area (C48_violated, C48_violated_erase). Surfaces of cells: C48_cell_surface, and C48_cell_surfaces_partial for meshes in which no facet belongs to more than two cells. Segments: C48_segment_volume, C48_segment_surface_partial; violated after handle_mesh, where the surface is empty (C48_violated_segment). Exact arithmetic."
  },
  {
   "property": "C49",
   "status": "partial",
   "theorems": [
    "VG.C49_segments_partial",
    "VG.C49_standard",
    "VG.C49_mesh_partial",
    "VG.C49_violated_digits",
    "VG.C49_violated_ids"
   ],
   "note": "Proved for lines, triangles, tetrahedra, quadrilaterals and hexahedra, any history of creating and segmenting, any ids: read mesh has the same points, cells, vertex order and segments (C49_segments_partial; with fewer than two segments everything goes to segment 0, C49_mesh_partial). Needed: different points stay different as 15-digit text (C49_violated_digits) and vertex ids are different (C49_violated_ids). Without these hypotheses each file is a VTK file of the right cells with the standard order of points (C49_standard). Text layout of the file is not modelled here, number formatting is a function txt; C108 has the texts of doubles and replaces the hypothesis on 15-digit texts by a distance of the points."
  },
  {
   "property": "C50",
   "status": "partial",
   "theorems": [
    "VG.C50_components_partial",
    "VG.C50_violated_components",
    "VG.C50_scalar_values",
    "VG.C50_vector_values_partial",
    "VG.C50_violated_segment_vector",
    "VG.C50_written_partial",
    "VG.C50_mesh_partial"
   ],
   "note": "The code violates the claim: a scalar array without NumberOfComponents after a vector array is read as vector (C50_violated_components); vector quantities registered for one segment are read out of bounds (C50_violated_segment_vector). Proved for the other cases, for all files; and for written files end to end, with segments (C50_written_partial) and as one file (C50_mesh_partial)."
  },
  {
   "property": "C51",
   "status": "partial",
   "theorems": [
    "VG.C51_name",
    "VG.C51_attributes_partial",
    "VG.C51_violated_empty",
    "VG.C51_violated_bracket",
    "VG.C51_violated_skipws",
    "VG.C51_queries",
    "VG.C51_no_tag",
    "VG.C51_consumes"
   ],
   "note": "The code violates the claim: a tag with an empty attribute value is rejected (C51_violated_empty), a value with a closing bracket ends the tag (C51_violated_bracket). Proved for all other tags (C51_name, C51_attributes_partial), with arbitrary text before and after; attributes are separated by blanks. For every input, what is consumed ends with a bracket or is the whole stream (C51_consumes). C51_violated_skipws: a tag without attributes leaves the stream with another setting than one with attributes."
  },
  {
   "property": "C52",
   "status": "partial",
   "theorems": [
    "VG.C52_boundary",
    "VG.C52_coboundary_partial",
    "VG.C52_coboundary_actual",
    "VG.C52_violated",
    "VG.C52_violated_empty"
   ],
   "note": "Higher to lower dimension proved for all reachable meshes, ranges, filters, values and averages (C52_boundary). Lower to higher dimension violated: the accessor is called for the destination element (C52_violated), elements without accepted source are set as well (C52_violated_empty); proved when values agree and every accepted element has an accepted source, and what happens in general (C52_coboundary_actual)."
  },
  {
   "property": "C53",
   "status": "partial",
   "theorems": [
    "VG.C53_polar",
    "VG.C53_cylindrical",
    "VG.C53_spherical",
    "VG.C53_polar_range",
    "VG.C53_polar_back",
    "VG.C53_cylindrical_back",
    "VG.C53_spherical_back",
    "VG.C53_polar_arithmetic",
    "VG.C53_cylindrical_arithmetic",
    "VG.C53_spherical_arithmetic",
    "VG.C53_spherical_to_cylindrical",
    "VG.C53_cylindrical_to_spherical_partial",
    "VG.C53_violated",
    "VG.C53_polar_norm"
   ],
   "note": "Over the real numbers. Proved: Cartesian to polar, cylindrical, spherical coordinates and back for all points, also the other way for coordinates in the usual ranges, vector arithmetic with negative factors, spherical to cylindrical. The code violates cylindrical to spherical for negative rho (C53_violated), proved for rho >= 0 (C53_cylindrical_to_spherical_partial)."
  },
  {
   "property": "C54",
   "status": "proved",
   "theorems": [
    "VG.C54_meaning",
    "VG.C54_strict_total"
   ],
   "note": "Any dimension, any linearly ordered coordinates; no NaN."
  },
  {
   "property": "C55",
   "status": "partial",
   "theorems": [
    "VG.C55_mesh_cycle",
    "VG.C55_empty_polygon_undefined",
    "VG.C55_polygon_cycle",
    "VG.C55_polygon_edges_distinct"
   ],
   "note": "Proved for at least one vertex (cycle) and at least three (distinct edges); the empty polygon runs into undefined behaviour (C55_empty_polygon_undefined). C55_mesh_cycle proves the cycle for each polygon stored in a mesh, with shared lines and orientations."
  },
  {
   "property": "C56",
   "status": "proved",
   "theorems": [
    "VG.C56_shoelace",
    "VG.C56_invariant"
   ],
   "note": "Any number of vertices, any position of the origin used. Exact arithmetic."
  },
  {
   "property": "C57",
   "status": "partial",
   "theorems": [
    "VG.C57_violated",
    "VG.C57_reflexive_partial",
    "VG.C57_symmetric_partial"
   ],
   "note": "Violated: not symmetric near the tolerance, not reflexive with tolerance zero (C57_violated). Reflexive for positive tolerances, symmetric with an absolute tolerance. Exact arithmetic."
  },
  {
   "property": "C58",
   "status": "proved",
   "theorems": [
    "VG.C58_determinant",
    "VG.C58_cross",
    "VG.C58_inner",
    "VG.C58_inner_definite",
    "VG.C58_normal_line",
    "VG.C58_normal_triangle",
    "VG.C58_norm1",
    "VG.C58_normInf",
    "VG.C58_norm2"
   ],
   "note": "Exact arithmetic (any ordered field; the Euclidean norm over the reals)."
  },
  {
   "property": "C59",
   "status": "partial",
   "theorems": [
    "VG.C59_mesh",
    "VG.C59_segments",
    "VG.C59_truncated_partial",
    "VG.C59_violated_cell",
    "VG.C59_violated_no_cells",
    "VG.C59_violated_undefined",
    "VG.C59_violated_empty"
   ],
   "note": "Well-formed files: vertices, cells, ids and segments proved for simplices and quadrilaterals (C59_mesh, C59_segments). Truncated files: exception proved for files ending right after a word (C59_truncated_partial); violated for files with a line break at the end (C59_violated_cell, C59_violated_no_cells, C59_violated_undefined) and for empty files (C59_violated_empty). Files are lists of words; the text of numbers is not modelled."
  },
  {
   "property": "C60",
   "status": "partial",
   "theorems": [
    "VG.C60_violated",
    "VG.C60_clear_segment_partial"
   ],
   "note": "Violated for every element of the cleared segment (C60_violated); the effect on lists, other segments and the mesh is proved."
  },
  {
   "property": "C61",
   "status": "partial",
   "theorems": [
    "VG.C61_violated",
    "VG.C61_star_partial"
   ],
   "note": "Violated for non-convex polygons (C61_violated). Proved for polygons in any plane whose fan triangles at the first vertex have one orientation. Over the reals."
  },
  {
   "property": "C62",
   "status": "proved",
   "theorems": [
    "VG.C62_triangle_mesh",
    "VG.C62_quadrilateral_mesh",
    "VG.C62_tetrahedron_mesh",
    "VG.C62_hexahedron_mesh",
    "VG.C62_closest_on_boundary"
   ],
   "note": "For every reachable mesh state of triangles, quadrilaterals, tetrahedra and hexahedra with the routines of the library for lines, triangles and quadrilaterals (C62_triangle_mesh, C62_quadrilateral_mesh, C62_tetrahedron_mesh, C62_hexahedron_mesh, the last with plane convex faces); C62_closest_on_boundary for any routine correct on single facets. Facets counted as boundary are those for which is_boundary holds (C16)."
  },
  {
   "property": "C63",
   "status": "partial",
   "theorems": [
    "VG.C63_copy_partial",
    "VG.C63_violated_names",
    "VG.C63_violated_again",
    "VG.C63_violated_all",
    "VG.C63_violated_self",
    "VG.C63_violated_no_segment",
    "VG.C63_violated_no_segments"
   ],
   "note": "Proved for simplices and quadrilaterals, any source history of creations and additions, any predicate, and a destination segmentation that never listed an element and has the needed names free (C63_copy_partial). Violated otherwise: names and segments without cells are lost (C63_violated_names), assigning twice to the same object throws (C63_violated_again), the view of all segmented elements keeps elements that no longer exist (C63_violated_all). Assigning a segmented mesh to itself removes everything (C63_violated_self). Copying is undefined if an accepted cell has no record in the segmentation, in particular for all meshes with cells where no cell was ever put in a segment (C63_violated_no_segment, C63_violated_no_segments); C63_copy_partial asks for the records."
  },
  {
   "property": "C64",
   "status": "partial",
   "theorems": [
    "VG.C64_hull_partial",
    "VG.C64_manifold",
    "VG.C64_violated_again"
   ],
   "note": "Proved for any history in which cells are added to segments and any queries, any list of segments, and a fresh hull segmentation (C64_hull_partial; in terms of one cell per facet for manifold segments, C64_manifold). Violated: a second extraction into the same hull throws although both objects are cleared (C64_violated_again)."
  },
  {
   "property": "C65",
   "status": "proved",
   "theorems": [
    "VG.C65_angle",
    "VG.C65_zero_vector",
    "VG.C65_angle_at",
    "VG.C65_dihedral",
    "VG.C65_dihedral_reversed"
   ],
   "note": "All vectors other than zero in all dimensions; for a zero vector the code divides zero by zero (C65_zero_vector). Exchanging two points of one plane gives the supplementary angle (C65_dihedral_reversed). Exact real arithmetic."
  },
  {
   "property": "C66",
   "status": "proved",
   "theorems": [
    "VG.C66_solid_angle",
    "VG.C66_invariant",
    "VG.C66_solid_angle_at",
    "VG.C66_flat"
   ],
   "note": "All triples with determinant other than zero by the formula of Girard for the spherical excess (C66_solid_angle), also in terms of dihedral_angle (C66_solid_angle_at); all triples with determinant zero in C66_flat. Exact real arithmetic."
  },
  {
   "property": "C67",
   "status": "partial",
   "theorems": [
    "VG.C67_triangle_mesh",
    "VG.C67_tetrahedron_mesh",
    "VG.C67_quadrilateral_mesh",
    "VG.C67_hexahedron_mesh",
    "VG.C67_points",
    "VG.C67_point_element",
    "VG.C67_lines_partial",
    "VG.C67_boundary",
    "VG.C67_violated"
   ],
   "note": "Proved for points, point to element and point to mesh boundary. For two line segments violated when they cross nearly parallel (C67_violated), proved otherwise (C67_lines_partial). distance(line, segment) of a segmentation is C10."
  },
  {
   "property": "C68",
   "status": "partial",
   "theorems": [
    "VG.C68_total_volume",
    "VG.C68_interface_partial",
    "VG.C68_boxes_partial",
    "VG.C68_contributions",
    "VG.C68_interface_contributions_partial",
    "VG.C68_boxes_from_interfaces_partial",
    "VG.C68_delaunay_partial",
    "VG.C68_violated",
    "VG.C68_violated_in_space",
    "VG.C68_surface_partial",
    "VG.C68_surface_contributions_partial"
   ],
   "note": "The vertex boxes add up to the area of the mesh for all plane meshes without flat triangles (C68_total_volume), and box totals are the sums of the recorded contributions (C68_contributions). Interfaces are right when the edge opposite each obtuse angle belongs to another triangle (C68_interface_partial and the following). Otherwise the interface total contains a part outside the mesh that no cell contributes (C68_violated); for surfaces in space with obtuse triangles boxes are wrong (C68_violated_in_space). For surfaces in space without obtuse triangles interfaces, boxes, totals and contributions are right (C68_surface_partial, C68_surface_contributions_partial), also for upright triangles, where the local coordinates are not numbers."
  },
  {
   "property": "C69",
   "status": "proved",
   "theorems": [
    "VG.C69_boxes",
    "VG.C69_contributions",
    "VG.C69_total_volume"
   ],
   "note": "All meshes of lines in all dimensions. Interface and line box are set, vertex boxes are added to what the accessor held before. Exact real arithmetic."
  },
  {
   "property": "C70",
   "status": "partial",
   "theorems": [
    "VG.C70_boxes",
    "VG.C70_interface",
    "VG.C70_total_volume",
    "VG.C70_boxes_partial",
    "VG.C70_interface_partial",
    "VG.C70_contributions",
    "VG.C70_once_at_edges",
    "VG.C70_violated_twice"
   ],
   "note": "The vertex boxes add up to the area for convex quadrilaterals (C70_total_volume), each vertex having the parts of its cells next to it (C70_boxes); interfaces and edge boxes for any quadrilaterals (C70_interface); the totals are the sums of the contributions for every mesh (C70_contributions), a cell is recorded once at each of its edges (C70_once_at_edges). Violated: each cell is recorded twice at each of its vertices (C70_violated_twice). The shares of parallelograms are in C70_boxes_partial and C70_interface_partial. For other quadrilaterals the mean of the corners is not equidistant, so these boxes are no Voronoi boxes in the usual sense."
  },
  {
   "property": "C71",
   "status": "partial",
   "theorems": [
    "VG.C71_boxes",
    "VG.C71_interface",
    "VG.C71_total_volume",
    "VG.C71_boxes_partial",
    "VG.C71_interface_partial",
    "VG.C71_contributions",
    "VG.C71_violated_twice"
   ],
   "note": "The vertex boxes add up to the volume for conforming meshes of convex hexahedra (C71_total_volume); the boxes and interfaces are made of the tetrahedra and triangles of the statement for conforming meshes of any hexahedra (C71_boxes, C71_interface); the totals are the sums of the contributions for every mesh (C71_contributions). Violated: each cell is recorded twice at each of its edges and six times at each of its vertices (C71_violated_twice). The shares of parallelepipeds are in C71_boxes_partial and C71_interface_partial. For other hexahedra the means of the corners are not equidistant, so these boxes are no Voronoi boxes in the usual sense."
  },
  {
   "property": "C72",
   "status": "partial",
   "theorems": [
    "VG.C72_returns",
    "VG.C72_boxes",
    "VG.C72_contributions",
    "VG.C72_cells",
    "VG.C72_interface_partial",
    "VG.C72_total_volume_partial",
    "VG.C72_violated",
    "VG.C72_violated_cells"
   ],
   "note": "When the function returns, throws or reads outside a vector is decided for every mesh (C72_returns); boxes as double pyramids (C72_boxes), totals as sums of contributions (C72_contributions) and what each cell contributes (C72_cells) are proved for every mesh. That the interfaces consist of the pieces in the cells (C72_interface_partial) and the boxes add up to the volume (C72_total_volume_partial) is proved for Delaunay meshes which conform to their boundary, with a boundary convex at each of its edges. Violated otherwise: a single cell with its circumcenter outside has boxes larger than itself (C72_violated). Violated even for cells with circumcenters inside: the connection of two circumcenters is split in the middle and not where it crosses the facet, so contributions go to the wrong cell (C72_violated_cells). Missing: boundaries not convex at their edges."
  },
  {
   "property": "C73",
   "status": "proved",
   "theorems": [
    "VG.C73_edges",
    "VG.C73_two_triangles",
    "VG.C73_edge_boundary",
    "VG.C73_perimeter",
    "VG.C73_facets",
    "VG.C73_two_cells",
    "VG.C73_boundary",
    "VG.C73_surface"
   ],
   "note": "The relation of new to old triangles is C73_facets; C73_two_cells, C73_boundary and C73_surface follow from it. C73_edges, C73_two_triangles, C73_edge_boundary and C73_perimeter say the same of meshes of triangles. Facets which belong to no cell are left out. Exact arithmetic; new vertices at midpoints."
  },
  {
   "property": "C74",
   "status": "partial",
   "theorems": [
    "VG.C74_geometry",
    "VG.C74_domains",
    "VG.C74_written_partial",
    "VG.C74_undefined",
    "VG.C74_violated"
   ],
   "note": "Points, tetrahedra and triangles of a written file are right for every history (C74_geometry), and each cell has the number of one of its segments (C74_domains; with several segments only one is written). A file is written if every cell is in a segment (C74_written_partial). Violated otherwise: for a cell in no segment the first of an empty list is read (C74_undefined, C74_violated), although the comment reserves zero for it."
  },
  {
   "property": "C75",
   "status": "partial",
   "theorems": [
    "VG.C75_contacts_partial",
    "VG.C75_flat_partial",
    "VG.C75_violated_plane",
    "VG.C75_violated_several"
   ],
   "note": "For every mesh the indices are 0..n-1 and triangles with the same index are connected (C75_contacts_partial); the converse, and so that the contacts are exactly the connected regions, if triangles side by side are on the boundary of the same segments, in particular if no cell is in two segments and triangles have at most two cells (same theorem); exactly coplanar neighbours share a contact under the same condition (C75_flat_partial). Violated otherwise: with cells in several segments the half of a square which is also on the boundary of an earlier segment gets another index (C75_violated_several); normals are compared with a tolerance, so a flat tetrahedron is one contact (C75_violated_plane)."
  },
  {
   "property": "C76",
   "status": "proved",
   "theorems": [
    "VG.C76_sides"
   ],
   "note": "For meshes of tetrahedra without flat or overlapping tetrahedra, each cell in at most one segment, after any history (C76_sides). Exact arithmetic."
  },
  {
   "property": "C77",
   "status": "partial",
   "theorems": [
    "VG.C77_cells_left",
    "VG.C77_handle",
    "VG.C77_view_partial",
    "VG.C77_last_dangle_partial",
    "VG.C77_violated"
   ],
   "note": "Violated (C77_violated): erasing the first of two triangles leaves the view of the second with a dangling handle and makes the view of the first list the second. Proved for all histories: which storage cells are left (C77_cells_left), what each handle refers to afterwards (C77_handle, an equivalence), and exactly which views still list their elements or cannot be read (C77_view_partial, C77_last_dangle_partial). Hexahedra are excluded, see C23."
  },
  {
   "property": "C78",
   "status": "partial",
   "theorems": [
    "VG.C78_mesh_partial",
    "VG.C78_ids_needed",
    "VG.C78_generated_ids",
    "VG.C78_violated_ids",
    "VG.C78_violated_shape",
    "VG.C78_violated_no_data"
   ],
   "note": "Proved for meshes of simplices in space of the same dimension whose vertex ids are positions, with a quantity registered (C78_mesh_partial); ids are positions if none were given (C78_generated_ids), and this is needed (C78_ids_needed). Violated for other ids, for triangles in space, and without a quantity (C78_violated_ids, C78_violated_shape, C78_violated_no_data)."
  },
  {
   "property": "C79",
   "status": "partial",
   "theorems": [
    "VG.C79_written",
    "VG.C79_first_partial",
    "VG.C79_announced",
    "VG.C79_violated"
   ],
   "note": "What is written is determined for all sequences of registrations (C79_written): the alphabetically first name, its last registration. The claim holds if the first quantity has the alphabetically first name and no other has the same (C79_first_partial) and is violated otherwise (C79_violated). C79_announced: which names are announced as ignored."
  },
  {
   "property": "C80",
   "status": "partial",
   "theorems": [
    "VG.C80_always_changed",
    "VG.C80_near",
    "VG.C80_printed_integer",
    "VG.C80_not_integer_partial",
    "VG.C80_violated",
    "VG.C80_defined",
    "VG.C80_undefined"
   ],
   "note": "The condition in DXfixer is always true: 1/100000 is added to every value (C80_always_changed, C80_near). Violated for 0.99999, which is printed as 1.00000 because of that (C80_violated, C80_printed_integer); proved for values with at most four digits (C80_not_integer_partial). Values from 9.3e14 on have an undefined cast (C80_defined, C80_undefined). Exact arithmetic."
  },
  {
   "property": "C81",
   "status": "partial",
   "theorems": [
    "VG.C81_read_partial",
    "VG.C81_violated_holes",
    "VG.C81_violated_blank"
   ],
   "note": "Proved for all files in which each facet states its number of holes and blank lines have only blanks (C81_read_partial, from the characters of the file; splitting a line into words is a parameter). Violated if the number of holes is left out, as the format allows: an uninitialised variable is used (C81_violated_holes); and if a line has only a tab or a carriage return (C81_violated_blank)."
  },
  {
   "property": "C82",
   "status": "partial",
   "theorems": [
    "VG.C82_cut_partial",
    "VG.C82_optional",
    "VG.C82_violated_accepted",
    "VG.C82_violated_undefined"
   ],
   "note": "Proved for every file cut off after a line (C82_cut_partial) and for the optional lists (C82_optional). Violated: missing coordinates are accepted as zero (C82_violated_accepted), unknown corners, polygons without corners and missing corners are undefined behaviour (C82_violated_undefined)."
  },
  {
   "property": "C83",
   "status": "partial",
   "theorems": [
    "VG.C83_mesh_partial",
    "VG.C83_violated_2d",
    "VG.C83_violated_order",
    "VG.C83_violated_regions"
   ],
   "note": "Proved for all files of dimension 3 whose polyhedra are triangulated and come before the contacts (C83_mesh_partial). Violated: files of dimension 2 cannot be read at all (C83_violated_2d); contacts before polyhedra (C83_violated_order) and regions of several polyhedra together with a contact (C83_violated_regions) make the reader use lists beyond their ends."
  },
  {
   "property": "C84",
   "status": "partial",
   "theorems": [
    "VG.C84_helper_partial",
    "VG.C84_violated",
    "VG.C84_flat_partial"
   ],
   "note": "Proved for the files of C83, triangulated or not, with at least as many regions as polyhedra (C84_helper_partial). Files of dimension 2: the part with the elements gives the ends of the listed edges and the contact lines (C84_flat_partial); the ends are in the stored order also for edges used backwards, and regions of such files are not covered. Violated for fewer regions: an exception is swallowed and all names and materials are empty (C84_violated)."
  },
  {
   "property": "C85",
   "status": "partial",
   "theorems": [
    "VG.C85_rejected_partial",
    "VG.C85_violated_hangs",
    "VG.C85_violated_type",
    "VG.C85_violated_index"
   ],
   "note": "Proved for the files of C84: another dimension, or a face which is no triangle, is rejected with an exception (C85_rejected_partial). Violated: the reader does not return for files without an expected word, for example an empty file (C85_violated_hangs); element types which are not supported are accepted (C85_violated_type); indices are not checked (C85_violated_index)."
  },
  {
   "property": "C86",
   "status": "partial",
   "theorems": [
    "VG.C86_same_mesh_partial",
    "VG.C86_cells_partial",
    "VG.C86_truncated",
    "VG.C86_no_mesh",
    "VG.C86_violated_ids",
    "VG.C86_violated_lower",
    "VG.C86_violated_not_empty"
   ],
   "note": "Proved for meshes made of vertices without given ids and of cells (C86_same_mesh_partial); for elements of any dimension the vertices and cells are the same (C86_cells_partial). Violated: ids given by the user mix up corners or are undefined behaviour (C86_violated_ids), elements which belong to no cell are lost (C86_violated_lower), and a mesh which is not empty gets cells with the wrong corners (C86_violated_not_empty). Truncated archives: C86_truncated; the Boost archive, which gives back what was written and throws at its end, is trusted. Meshes of polygons are excluded: the number of vertices of a polygon is no constant of its type."
  },
  {
   "property": "C87",
   "status": "partial",
   "theorems": [
    "VG.C87_read_partial",
    "VG.C87_violated_cut",
    "VG.C87_violated_unknown",
    "VG.C87_violated_short"
   ],
   "note": "Proved for all files which make sense (C87_read_partial). Violated for malformed files: files cut off are accepted or undefined behaviour (C87_violated_cut), missing ids are taken to be zero (C87_violated_short), and unknown corners are undefined behaviour for every file (C87_violated_unknown). Faces with one corner are outside of the theorem."
  },
  {
   "property": "C88",
   "status": "partial",
   "theorems": [
    "VG.C88_copy_partial",
    "VG.C88_same_mesh_partial",
    "VG.C88_violated_missing",
    "VG.C88_violated_names",
    "VG.C88_violated_clash",
    "VG.C88_violated_renumbered",
    "VG.C88_violated_no_segment"
   ],
   "note": "Proved for simplices and quadrilaterals, any source, any destination whose elements have the ids and the boundaries of elements of the source, and names which are not taken (C88_copy_partial); for a copy of the mesh the segments have the same elements (C88_same_mesh_partial). Violated: names and segments without elements are not copied (C88_violated_names), names taken throw (C88_violated_clash), ids missing in the source are undefined behaviour for every destination (C88_violated_missing), and meshes copied by copy() get segments of other cells (C88_violated_renumbered). Undefined if the element of the source has no record (C88_violated_no_segment); the partial theorems ask for the records."
  },
  {
   "property": "C89",
   "status": "partial",
   "theorems": [
    "VG.C89_same_elements_partial",
    "VG.C89_once_partial",
    "VG.C89_violated",
    "VG.C89_violated_all",
    "VG.C89_violated_erase"
   ],
   "note": "The elements and records are those of add for every state (C89_same_elements_partial). That each element is present once holds exactly if none of the elements was listed before (C89_once_partial); violated otherwise (C89_violated, C89_violated_all), and elements listed twice stay listed after they are erased (C89_violated_erase)."
  },
  {
   "property": "C90",
   "status": "partial",
   "theorems": [
    "VG.C90_file_partial",
    "VG.C90_segments_partial",
    "VG.C90_mesh_partial",
    "VG.C90_violated_names"
   ],
   "note": "Proved for all meshes and quantities of C49 and C50 whose quantity names are not empty and have no quotes and closing brackets (C90_file_partial for the text of one file, C90_segments_partial and C90_mesh_partial for writing and reading whole meshes through files); how a floating point number is printed and read is a parameter with the hypothesis Prints, which C108 satisfies for double. Violated for the other names (C90_violated_names)."
  },
  {
   "property": "C91",
   "status": "partial",
   "theorems": [
    "VG.C91_names_partial",
    "VG.C91_moved_partial",
    "VG.C91_violated_names",
    "VG.C91_violated_backslash"
   ],
   "note": "Proved for all file names without quotes and closing brackets in the last component (C91_names_partial), and for files moved to another directory (C91_moved_partial). Violated for names with these characters (C91_violated_names) and for names with backslashes (C91_violated_backslash)."
  },
  {
   "property": "C92",
   "status": "partial",
   "theorems": [
    "VG.C92_pvd_partial",
    "VG.C92_violated_missing",
    "VG.C92_violated_stuck",
    "VG.C92_violated_cut"
   ],
   "note": "Proved for the .pvd file and for unknown extensions (C92_pvd_partial). Violated for .vtu files: missing files are read as empty (C92_violated_missing), files cut off lead to undefined behaviour (C92_violated_cut), and all files after a bad one are ignored (C92_violated_stuck)."
  },
  {
   "property": "C93",
   "status": "partial",
   "theorems": [
    "VG.C93_info_partial",
    "VG.C93_violated_names",
    "VG.C93_file_name_partial",
    "VG.C93_violated_file_name"
   ],
   "note": "Proved for all meshes and segments with ids of at least 0 and for names of mesh files without < which are not blank (C93_info_partial); the name of the file ends with the extension for every name other than vmesh (C93_file_name_partial). Violated: names of segments are never written (C93_violated_names), and the output name \"vmesh\" gets no extension (C93_violated_file_name)."
  },
  {
   "property": "C94",
   "status": "partial",
   "theorems": [
    "VG.C94_size",
    "VG.C94_at",
    "VG.C94_index_of",
    "VG.C94_push_back",
    "VG.C94_push_back_list",
    "VG.C94_erase_at",
    "VG.C94_erase_at_outside",
    "VG.C94_erase",
    "VG.C94_erase_absent",
    "VG.C94_erase_all",
    "VG.C94_reverse",
    "VG.C94_no_duplicates",
    "VG.C94_replace_at",
    "VG.C94_replace_at_outside_partial",
    "VG.C94_violated_replace_at",
    "VG.C94_replace",
    "VG.C94_replace_absent",
    "VG.C94_replace_all",
    "VG.C94_intersection"
   ],
   "note": "Proved for all lists, except that replace_at with the index -1 (the result of index_of for an absent type) gives the empty list (C94_violated_replace_at)."
  },
  {
   "property": "C95",
   "status": "partial",
   "theorems": [
    "VG.C95_lookup",
    "VG.C95_insert",
    "VG.C95_modify",
    "VG.C95_insert_or_modify",
    "VG.C95_erase",
    "VG.C95_merge",
    "VG.C95_consistency",
    "VG.C95_keys",
    "VG.C95_values_partial",
    "VG.C95_violated_values",
    "VG.C95_query"
   ],
   "note": "Proved for all typemaps with distinct keys and all configurations; value_typelist is right for at most one entry (C95_values_partial) and otherwise lists the keys after the first value (C95_violated_values)."
  },
  {
   "property": "C96",
   "status": "partial",
   "theorems": [
    "VG.C96_full",
    "VG.C96_thin",
    "VG.C96_full_boundary",
    "VG.C96_thin_boundary",
    "VG.C96_full_containers",
    "VG.C96_thin_containers",
    "VG.C96_full_storage",
    "VG.C96_violated_is_element_present",
    "VG.C96_elements_of_dim",
    "VG.C96_cell_tag_partial",
    "VG.C96_violated_first_cell_tag",
    "VG.C96_full_boundary_information",
    "VG.C96_thin_boundary_information"
   ],
   "note": "Proved for all cell types (C96_full, C96_thin and the theorems on boundary containers, orientations, storage and boundary information). Violated: config::result_of::is_element_present is true for every type (C96_violated_is_element_present), and with several cell types the last is taken, not the first as documented (C96_violated_first_cell_tag; C96_cell_tag_partial covers lists in which the taken type is the last of the highest dimension, in particular all with one cell type)."
  },
  {
   "property": "C97",
   "status": "proved",
   "theorems": [
    "VG.C97_copy_elements",
    "VG.C97_in_several_calls",
    "VG.C97_needs_apart",
    "VG.C97_several_calls_no_tolerance"
   ],
   "note": "The distance is any function with the laws of a metric (zero on equal points, symmetric, triangle inequality). C97_needs_apart shows that twice the tolerance is needed: two vertices further apart than the tolerance can go to one vertex. C97_several_calls_no_tolerance shows that copies of two calls with the default tolerance are not joined. The output is a mesh, not a segment, and not the mesh copied from."
  },
  {
   "property": "C98",
   "status": "partial",
   "theorems": [
    "VG.C98_copy_plcs_partial",
    "VG.C98_violated"
   ],
   "note": "Violated by the code: loose vertices and hole points are dropped (C98_violated). Proved: lines and their ends are copied, common ones once, so PLCs without loose vertices and holes are copied completely."
  },
  {
   "property": "C99",
   "status": "partial",
   "theorems": [
    "VG.C99_each_once",
    "VG.C99_creation_order",
    "VG.C99_by_vertices",
    "VG.C99_order_kept_partial",
    "VG.C99_element_view",
    "VG.C99_element_view_segment",
    "VG.C99_violated"
   ],
   "note": "Violated: edges and faces are ordered by the ids of their vertices, so the element at a position changes when others are created (C99_violated). Proved: each element once, creation order for vertices and cells, the order of edges and faces (C99_by_vertices), and that elements there before keep their relative order (C99_order_kept_partial)."
  },
  {
   "property": "C100",
   "status": "partial",
   "theorems": [
    "VG.C100_pointer_partial",
    "VG.C100_write",
    "VG.C100_kept",
    "VG.C100_last_written",
    "VG.C100_violated_fresh",
    "VG.C100_violated_const"
   ],
   "note": "Violated: the value is not initialised when an element gets into a segment (C100_violated_fresh, for every operation that puts an element in a segment), and the call for a constant segment is undefined for elements without a record (C100_violated_const). Proved for simplices and quadrilaterals, all histories of creations, add, erase and assignments: the pointer is null iff the element is not in the segment (C100_pointer_partial), assignments change this pair only (C100_write), values are kept (C100_kept) and the last value assigned is read (C100_last_written)."
  },
  {
   "property": "C101",
   "status": "partial",
   "theorems": [
    "VG.C101_tetrahedra_partial",
    "VG.C101_triangles_partial",
    "VG.C101_one_side",
    "VG.C101_segmentation",
    "VG.C101_violated",
    "VG.C101_violated_unrecorded"
   ],
   "note": "Violated: far away from the origin the points of two cut edges of a triangle are merged; the result has a triangle with a vertex twice and half of the area is lost (C101_violated); with a segmentation the call is undefined if a cell has no record (C101_violated_unrecorded). Proved for all segmented meshes of tetrahedra and of triangles in any dimension if the points of different cut edges are not closer than the merging tolerance: parents, points, sides, segments, kept cells, sums of volumes and areas, no degenerate children (C101_tetrahedra_partial, C101_triangles_partial); C101_one_side: with tolerance zero each cell lies on one side; C101_segmentation: the variant with segmentations. Exact arithmetic."
  },
  {
   "property": "C102",
   "status": "proved",
   "theorems": [
    "VG.C102_triangles",
    "VG.C102_tetrahedra",
    "VG.C102_times_triangles",
    "VG.C102_times_tetrahedra",
    "VG.C102_segmentation",
    "VG.C102_edges",
    "VG.C102_euler",
    "VG.C102_euler_times",
    "VG.C102_euler_tetrahedra",
    "VG.C102_euler_tetrahedra_times"
   ],
   "note": "All meshes of triangles and tetrahedra, any history, any number of refinements. With a segmentation the call is undefined if a cell has no record (second half of C102_segmentation; see C37). Floating point is not modelled: volumes and midpoints are those of an ordered field."
  },
  {
   "property": "C103",
   "status": "partial",
   "theorems": [
    "VG.C103_kept_partial",
    "VG.C103_violated",
    "VG.C103_inserted",
    "VG.C103_invalid_partial",
    "VG.C103_violated_invalid",
    "VG.C103_configurations_partial"
   ],
   "note": "Holds for pointers except in vectors, iterators in lists, sets and maps, and ids that are unique (C103_kept_partial); false in all other cases (C103_violated), among them iterator handles with the default containers (C103_configurations_partial). An element with the id -1 has a handle reported as invalid (C103_violated_invalid). Which insertions invalidate pointers and iterators is taken from the C++ standard."
  },
  {
   "property": "C104",
   "status": "partial",
   "theorems": [
    "VG.C104_values_partial",
    "VG.C104_mesh_partial",
    "VG.C104_for_all",
    "VG.C104_for_segment",
    "VG.C104_cleared",
    "VG.C104_violated_one_segment",
    "VG.C104_violated_twice",
    "VG.C104_violated_reader"
   ],
   "note": "Proved for two and more segments (C104_values_partial) and for the mesh as a whole (C104_mesh_partial), without vector quantities at accessors registered for one segment (C50_violated_segment_vector). Violated: with less than two segments quantities registered for a segment are not written (C104_violated_one_segment); a name registered for all segments and for one is written twice to the file of that segment (C104_violated_twice); an accessor registered at the reader for a segment gets nothing if one is registered for all segments under the same name (C104_violated_reader)."
  },
  {
   "property": "C105",
   "status": "partial",
   "theorems": [
    "VG.C105_diagonal_partial",
    "VG.C105_diameter_partial",
    "VG.C105_zero_partial",
    "VG.C105_translate_partial",
    "VG.C105_scale_partial",
    "VG.C105_violated"
   ],
   "note": "For meshes with vertices whose coordinates are representable: the diagonal (C105_diagonal_partial), the bounds (C105_diameter_partial), zero (C105_zero_partial), moving (C105_translate_partial), scaling (C105_scale_partial). A mesh without vertices has a size above twice the largest number (C105_violated). Real numbers; rounding is not modelled."
  },
  {
   "property": "C106",
   "status": "partial",
   "theorems": [
    "VG.C106_outward",
    "VG.C106_cell",
    "VG.C106_mesh",
    "VG.C106_outward_line",
    "VG.C106_cell_line",
    "VG.C106_mesh_line",
    "VG.C106_quad_partial",
    "VG.C106_violated",
    "VG.C106_outward_box",
    "VG.C106_mesh_box",
    "VG.C106_outward_quad",
    "VG.C106_mesh_quad"
   ],
   "note": "Lines and triangles: proved for every reachable mesh whose cells are not flat and do not overlap (C106_mesh, C106_mesh_line, C106_cell, C106_cell_line, C106_outward, C106_outward_line), also for meshes of convex quadrilaterals in the plane (C106_mesh_quad, C106_outward_quad) and of parallelepipeds (C106_mesh_box, C106_outward_box). Quadrilaterals in space: orthogonal and not zero if the first three corners are not on a line (C106_quad_partial); a quadrilateral of area one can have the normal vector zero, and the side depends on which corner is first (C106_violated)."
  },
  {
   "property": "C107",
   "status": "partial",
   "theorems": [
    "VG.C107_equal",
    "VG.C107_less",
    "VG.C107_order",
    "VG.C107_traverse",
    "VG.C107_move",
    "VG.C107_round_trip",
    "VG.C107_difference_partial",
    "VG.C107_violated",
    "VG.C107_get",
    "VG.C107_swap",
    "VG.C107_assign"
   ],
   "note": "Proved for all lengths: comparison (C107_equal, C107_less, C107_order), iteration (C107_traverse, C107_move), access and assignment (C107_get, C107_swap, C107_assign). The difference of iterators is right if the second does not come after the first (C107_difference_partial) and survives it1 + (it2 - it1) (C107_round_trip); in the other direction it is a large positive number (C107_violated). Entries of a linear order, so no NaN."
  },
  {
   "property": "C108",
   "status": "proved",
   "theorems": [
    "VG.C108_error",
    "VG.C108_double",
    "VG.C108_exact",
    "VG.C108_again",
    "VG.C108_different",
    "VG.C108_segments_exact",
    "VG.C108_mesh_exact",
    "VG.C108_segments_near",
    "VG.C108_mesh_near"
   ],
   "note": "Numbers: C108_error, C108_double, C108_exact, C108_again, C108_different. Whole meshes through the text of the files, in continuation of C90 (with its conditions on names): exactly the same points for coordinates of at most 15 digits (C108_segments_exact, C108_mesh_exact), points within the error for others whose points are far enough apart (C108_segments_near, C108_mesh_near, which also say that each element gets its values of the quantities, within the same error). Closer points can be merged (C49_violated_digits). Infinite, NaN and subnormal numbers and negative zero are not modelled."
  },
  {
   "property": "C109",
   "status": "proved",
   "theorems": [
    "VG.C109_triangles",
    "VG.C109_tetrahedra",
    "VG.C109_fit_triangles",
    "VG.C109_fit_tetrahedra",
    "VG.C109_segmentation",
    "VG.C109_single_triangles",
    "VG.C109_single_tetrahedra",
    "VG.C109_times_triangles",
    "VG.C109_times_tetrahedra"
   ],
   "note": "Triangles (C109_triangles) and tetrahedra (C109_tetrahedra), the new cells fit together (C109_fit_triangles, C109_fit_tetrahedra, with EdgeMap and FacetMap of C73), with segmentations the same result if every cell has a record, undefined otherwise (C109_segmentation; the undefined call is the violation of C37). Adaptive refinement, any number of times with any marks (C109_times_triangles, C109_times_tetrahedra): no two cells get the same vertices (C109_single_triangles, C109_single_tetrahedra), so the cells fit together each time. Into an empty mesh, default point accessor; numbers of an ordered field, for tetrahedra a symmetric distance."
  },
  {
   "property": "C110",
   "status": "partial",
   "theorems": [
    "VG.C110_closed_partial",
    "VG.C110_sequence_partial",
    "VG.C110_registered",
    "VG.C110_violated",
    "VG.C110_violated_no_tag"
   ],
   "note": "As long as the files that were opened could be read (or are missing), any number of calls, returning or not, leaves the reader as good as new (C110_closed_partial, C110_sequence_partial); registered fields (C110_registered). Violated after a file that cannot be read: the stream is not closed, so every later .vtu file gives nothing, without exception, and every .pvd file an exception (C110_violated, C110_violated_no_tag)."
  },
  {
   "property": "C111",
   "status": "partial",
   "theorems": [
    "VG.C111_sequence_partial",
    "VG.C111_complete",
    "VG.C111_violated",
    "VG.C111_violated_written"
   ],
   "note": "Any sequence of registrations and calls, also with exceptions of calls with segments (C111_sequence_partial); an exception exactly if not all files were written (C111_complete). Violated: the call for a whole mesh throws without clear, so the quantities get into the next files (C111_violated, C111_violated_written), unlike the call with segments."
  }
 ]
}