{
 "claims": [
  {
   "property": "C01",
   "status": "proved",
   "theorems": [
    "Volmdlr.C01_rotation2d_isometry",
    "Volmdlr.C01_rotation2d_dot_cross",
    "Volmdlr.C01_rotation2d_center",
    "Volmdlr.C01_rotation2d_add",
    "Volmdlr.C01_rotation2d_full_turn",
    "Volmdlr.C01_rotation2d_inverse",
    "Volmdlr.C01_rotation2d_quarter",
    "Volmdlr.C01_rotation3d_isometry",
    "Volmdlr.C01_rotation3d_axis",
    "Volmdlr.C01_rotation3d_add",
    "Volmdlr.C01_rotation3d_inverse",
    "Volmdlr.C01_rotation3d_full_turn",
    "Volmdlr.C01_rotation3d_quarter"
   ],
   "note": ""
  },
  {
   "property": "C02",
   "status": "partial",
   "theorems": [
    "Volmdlr.C02_counterexample",
    "Volmdlr.C02_axis_rotations_partial"
   ],
   "note": "x/y/z_rotation turn by minus the angle given to rotation about the same axis (counterexample); the true law is C02_axis_rotations_partial."
  },
  {
   "property": "C03",
   "status": "proved",
   "theorems": [
    "Volmdlr.C03_frame2d_roundtrip",
    "Volmdlr.C03_localToGlobal_coord",
    "Volmdlr.C03_globalToLocal_coord",
    "Volmdlr.C03_frame3d_roundtrip",
    "Volmdlr.C03_frame3d_roundtrip_bound",
    "Volmdlr.C03_frame3d_singular",
    "Volmdlr.C03_frameMapping_side",
    "Volmdlr.C03_frameMapping_undo",
    "Volmdlr.C03_pointMapping_side",
    "Volmdlr.C03_frame3d_isometry"
   ],
   "note": ""
  },
  {
   "property": "C04",
   "status": "partial",
   "theorems": [
    "Volmdlr.C04_add_composition",
    "Volmdlr.C04_add_sub_left",
    "Volmdlr.C04_counterexample",
    "Volmdlr.C04_neg_partial",
    "Volmdlr.C04_basis",
    "Volmdlr.C04_add2d_composition"
   ],
   "note": "+ is composition and (f+g) is undone on the left; -f and (f+g)-g are wrong when the frame has a non-zero origin / is not orthonormal (counterexample)."
  },
  {
   "property": "C05",
   "status": "proved",
   "theorems": [
    "Volmdlr.C05_inverse22",
    "Volmdlr.C05_det22_mul",
    "Volmdlr.C05_inverse33",
    "Volmdlr.C05_det33_mul",
    "Volmdlr.C05_det33_triple"
   ],
   "note": ""
  },
  {
   "property": "C06",
   "status": "proved",
   "theorems": [
    "Volmdlr.C06_to3d_to2d",
    "Volmdlr.C06_point_to3d_to2d",
    "Volmdlr.C06_to2d_to3d",
    "Volmdlr.C06_planeProjection3d",
    "Volmdlr.C06_deterministic_normal"
   ],
   "note": ""
  },
  {
   "property": "C07",
   "status": "proved",
   "theorems": [
    "Volmdlr.C07_linesegment2d_distance",
    "Volmdlr.C07_linesegment3d_distance"
   ],
   "note": ""
  },
  {
   "property": "C08",
   "status": "partial",
   "theorems": [
    "Volmdlr.C08_counterexample",
    "Volmdlr.C08_points_on_segments_partial"
   ],
   "note": "CLineSegment3DDistance has a wrong determinant and is not the minimum (counterexample); proved: the returned points are on the segments."
  },
  {
   "property": "C09",
   "status": "partial",
   "theorems": [
    "Volmdlr.C09_lineIntersection",
    "Volmdlr.C09_segment_counterexample",
    "Volmdlr.C09_segmentIntersection_partial"
   ],
   "note": "Line intersection proved; segment_intersection tests with `or` (counterexample), true part partial."
  },
  {
   "property": "C10",
   "status": "proved",
   "theorems": [
    "Volmdlr.C10_lineProjection",
    "Volmdlr.C10_axialSymmetry"
   ],
   "note": ""
  },
  {
   "property": "C11",
   "status": "proved",
   "theorems": [
    "Volmdlr.C11_nearest_point2d",
    "Volmdlr.C11_nearest_point3d"
   ],
   "note": ""
  },
  {
   "property": "C12",
   "status": "partial",
   "theorems": [
    "Volmdlr.C12_in_list",
    "Volmdlr.C12_in_list2d",
    "Volmdlr.C12_index_in_list",
    "Volmdlr.C12_delete_double_point",
    "Volmdlr.C12_delete_double_point_exact",
    "Volmdlr.C12_remove_duplicate_partial",
    "Volmdlr.C12_remove_duplicate_counterexample",
    "Volmdlr.C12_approx_hash",
    "Volmdlr.C12_remove_duplicate_points"
   ],
   "note": "delete_double_point, in_list, index_in_list proved; remove_duplicate keeps one point per approx_hash and loses distinct points (counterexample)."
  },
  {
   "property": "C13",
   "status": "partial",
   "theorems": [
    "Volmdlr.C13_points",
    "Volmdlr.C13_nodes_counterexample",
    "Volmdlr.C13_nodes_partial",
    "Volmdlr.C13_node_hash",
    "Volmdlr.C13_polygons_partial",
    "Volmdlr.C13_polygons_counterexample"
   ],
   "note": "Points/vectors proved; Node2D/Node3D and ClosedPolygon2D violate the contract (counterexamples), true parts partial."
  },
  {
   "property": "C14",
   "status": "proved",
   "theorems": [
    "Volmdlr.C14_corners",
    "Volmdlr.C14_rect_fromPoints",
    "Volmdlr.C14_box_fromPoints",
    "Volmdlr.C14_fromBoundingBoxes",
    "Volmdlr.C14_add",
    "Volmdlr.C14_order_independent"
   ],
   "note": ""
  },
  {
   "property": "C15",
   "status": "partial",
   "theorems": [
    "Volmdlr.C15_rect_distance",
    "Volmdlr.C15_bbox_counterexample",
    "Volmdlr.C15_bbox_distance_partial",
    "Volmdlr.C15_box_point_partial",
    "Volmdlr.C15_box_point_counterexample",
    "Volmdlr.C15_rect_point_partial",
    "Volmdlr.C15_rect_point_counterexample"
   ],
   "note": "Rectangle distance exact; box distance exact outside the tolerance band; distance_to_point inside the box returns the distance to the boundary (box) or a wrong value (rectangle), counterexamples given."
  },
  {
   "property": "C16",
   "status": "partial",
   "theorems": [
    "Volmdlr.C16_isIntersecting",
    "Volmdlr.C16_isIntersecting_mono",
    "Volmdlr.C16_rect_isIntersecting",
    "Volmdlr.C16_isInside",
    "Volmdlr.C16_volume_counterexample",
    "Volmdlr.C16_intersectionVolume_partial",
    "Volmdlr.C16_intersectionArea_partial",
    "Volmdlr.C16_area_counterexample",
    "Volmdlr.C16_scale"
   ],
   "note": "Predicates characterised exactly; intersection_volume/area wrong inside the tolerance band (negative volume), counterexamples given."
  },
  {
   "property": "C17",
   "status": "proved",
   "theorems": [
    "Volmdlr.C17_points_inside",
    "Volmdlr.C17_octree_partition"
   ],
   "note": ""
  },
  {
   "property": "C18",
   "status": "partial",
   "theorems": [
    "Volmdlr.C18_box_counterexample",
    "Volmdlr.C18_box_partial",
    "Volmdlr.C18_model_counterexample",
    "Volmdlr.C18_model_partial"
   ],
   "note": "Stale caches after attribute mutation (counterexamples); histories that reset the cache after each change proved."
  },
  {
   "property": "C19",
   "status": "partial",
   "theorems": [
    "Volmdlr.C19_linear",
    "Volmdlr.C19_binsearch",
    "Volmdlr.C19_binsearch_end",
    "Volmdlr.C19_agree_counterexample",
    "Volmdlr.C19_binsearch_diverges"
   ],
   "note": "find_span_linear and the binary search proved against the defining inequalities on the domain; they disagree / the binary search does not terminate outside it (counterexample)."
  },
  {
   "property": "C20",
   "status": "proved",
   "theorems": [
    "Volmdlr.C20_coxDeBoor",
    "Volmdlr.C20_support",
    "Volmdlr.C20_nonneg_sum_one",
    "Volmdlr.C20_one",
    "Volmdlr.C20_one_left"
   ],
   "note": ""
  },
  {
   "property": "C21",
   "status": "proved",
   "theorems": [
    "Volmdlr.C21_eval_spec",
    "Volmdlr.C21_convex_hull",
    "Volmdlr.C21_bounds",
    "Volmdlr.C21_affine",
    "Volmdlr.C21_end_points",
    "Volmdlr.C21_equal_weights",
    "Volmdlr.C21_rational_convex",
    "Volmdlr.C21_rational_end_points"
   ],
   "note": ""
  },
  {
   "property": "C22",
   "status": "partial",
   "theorems": [
    "Volmdlr.C22_insert_partial",
    "Volmdlr.C22_refused",
    "Volmdlr.C22_insert_before_partial",
    "Volmdlr.C22_counterexample"
   ],
   "note": "Insertion up to full multiplicity proved to keep the curve (all lengths); when num + multiplicity < degree one extra control point is produced (counterexample); the part of the curve before the knot is proved."
  },
  {
   "property": "C23",
   "status": "proved",
   "theorems": [
    "Volmdlr.C23_split",
    "Volmdlr.C23_split_ends"
   ],
   "note": ""
  },
  {
   "property": "C24",
   "status": "partial",
   "theorems": [
    "Volmdlr.C24_reverse_partial",
    "Volmdlr.C24_counterexample",
    "Volmdlr.C24_twice"
   ],
   "note": "Non-rational curves proved; the weights are not reversed for rational ones (counterexample)."
  },
  {
   "property": "C25",
   "status": "proved",
   "theorems": [
    "Volmdlr.Fit.C25_pivots",
    "Volmdlr.C25_lu",
    "Volmdlr.C25_square",
    "Volmdlr.C25_zero_pivot",
    "Volmdlr.C25_forward",
    "Volmdlr.C25_backward",
    "Volmdlr.C25_solve"
   ],
   "note": ""
  },
  {
   "property": "C26",
   "status": "partial",
   "theorems": [
    "Volmdlr.C26_linspace_partial",
    "Volmdlr.C26_linspace_counterexample",
    "Volmdlr.C26_linspace_close",
    "Volmdlr.C26_generate_clamped",
    "Volmdlr.C26_generate_unclamped",
    "Volmdlr.C26_generate_refused",
    "Volmdlr.C26_standardize"
   ],
   "note": "linspace returns a single value when its ends are within 1e-7 (counterexample); everything else proved."
  },
  {
   "property": "C27",
   "status": "proved",
   "theorems": [
    "Volmdlr.C27_binomial"
   ],
   "note": ""
  },
  {
   "property": "C28",
   "status": "partial",
   "theorems": [
    "Volmdlr.C28_insert_partial",
    "Volmdlr.C28_insert_counterexample",
    "Volmdlr.C28_insert_dropped",
    "Volmdlr.C28_multiplicity_countP",
    "Volmdlr.C28_multiplicity_count",
    "Volmdlr.C28_round_trip",
    "Volmdlr.C28_round_trip_counterexample"
   ],
   "note": "Knots closer than 1e-15 break the multiplicity round trip; insert_knots_and_mutiplicity drops a knot not smaller than the last one (counterexamples); otherwise proved."
  },
  {
   "property": "C29",
   "status": "partial",
   "theorems": [
    "Volmdlr.C29_merge",
    "Volmdlr.C29_merge_triangles",
    "Volmdlr.C29_from_meshes",
    "Volmdlr.C29_from_meshes_triangles",
    "Volmdlr.C29_merge_nodup",
    "Volmdlr.C29_operators",
    "Volmdlr.C29_dedup_counterexample",
    "Volmdlr.C29_check"
   ],
   "note": "Geometry and validity proved for merge, +, | and from_meshes; the clean-up promised by merge_vertices=True is skipped for a single mesh (counterexample)."
  },
  {
   "property": "C30",
   "status": "proved",
   "theorems": [
    "Volmdlr.C30_merge_vertices_geom",
    "Volmdlr.C30_merge_vertices_nodup",
    "Volmdlr.C30_merge_vertices_idem",
    "Volmdlr.C30_merge_triangles",
    "Volmdlr.C30_merge_triangles_geom",
    "Volmdlr.C30_merge_triangles_idem",
    "Volmdlr.C30_split",
    "Volmdlr.C30_remove_degenerate",
    "Volmdlr.C30_remove_degenerate_default"
   ],
   "note": ""
  },
  {
   "property": "C31",
   "status": "partial",
   "theorems": [
    "Volmdlr.C31_border_partial",
    "Volmdlr.C31_closed",
    "Volmdlr.C31_counterexample"
   ],
   "note": "Proved for triangles with three different corners; a degenerate triangle hides its edge (counterexample)."
  },
  {
   "property": "C32",
   "status": "partial",
   "theorems": [
    "Volmdlr.C32_round_trip_partial",
    "Volmdlr.C32_counterexample",
    "Volmdlr.C32_two_dim",
    "Volmdlr.C32_from_dict"
   ],
   "note": "3D proved; a 2D mesh never comes back (counterexample)."
  },
  {
   "property": "C33",
   "status": "partial",
   "theorems": [
    "Volmdlr.C33_round_trip",
    "Volmdlr.C33_read_filters",
    "Volmdlr.C33_name_counterexample"
   ],
   "note": "Triangles proved; the name comes back padded with NULs (counterexample)."
  },
  {
   "property": "C34",
   "status": "partial",
   "theorems": [
    "Volmdlr.C34_refs_resolve",
    "Volmdlr.C34_ids_unique_partial",
    "Volmdlr.C34_ids_positive",
    "Volmdlr.C34_ids_counterexample"
   ],
   "note": "Every writer of the export (points, frames, edges, contours, surfaces, faces, shells, compounds, assemblies, model) modelled; all references resolve for every nesting; identifiers are unique exactly when no assembly directly contains a compound or an assembly (the text of such a component is written twice, core.py:1117 and 1123), hence partial with a counterexample."
  },
  {
   "property": "C35",
   "status": "proved",
   "theorems": [
    "Volmdlr.C35_terminates",
    "Volmdlr.C35_result",
    "Volmdlr.C35_key_error",
    "Volmdlr.C35_not_dependency_order"
   ],
   "note": "Work list with fuel; termination on every finite graph, exact characterisation of the result and of the KeyError. The list is not a dependency order, contrary to the docstring (C35_not_dependency_order)."
  },
  {
   "property": "C36",
   "status": "partial",
   "theorems": [
    "Volmdlr.C36_order",
    "Volmdlr.C36_terminates_iff",
    "Volmdlr.C36_all",
    "Volmdlr.C36_dangling_counterexample",
    "Volmdlr.C36_counterexample",
    "Volmdlr.C36_example_run"
   ],
   "note": "Instantiation ends if and only if nothing needed is missing and there is no cycle; order of instantiation proved. A dangling reference makes the code loop for ever (counterexample), so the unrestricted property is false."
  },
  {
   "property": "C37",
   "status": "partial",
   "theorems": [
    "Volmdlr.C37_split_arguments_partial",
    "Volmdlr.C37_split_body_partial",
    "Volmdlr.C37_split_arguments_counterexample",
    "Volmdlr.C37_spaces_counterexample",
    "Volmdlr.C37_comma_counterexample",
    "Volmdlr.C37_depth_counterexample",
    "Volmdlr.C37_special_partial",
    "Volmdlr.C37_special_counterexample",
    "Volmdlr.C37_set_to_list",
    "Volmdlr.C37_set_to_list_length",
    "Volmdlr.C37_parse_arguments",
    "Volmdlr.C37_subfunctions"
   ],
   "note": "step_split_arguments (regular expressions with backtracking order), step_split_arguments_special, set_to_list, parse_arguments and step_subfunctions modelled. Partial: false for strings with parentheses, spaces, final commas and for lists nested three times (counterexamples)."
  },
  {
   "property": "C38",
   "status": "partial",
   "theorems": [
    "Volmdlr.C38_boolean_operations_partial",
    "Volmdlr.C38_different_sizes",
    "Volmdlr.C38_large_voxels_counterexample",
    "Volmdlr.C38_full_statement_counterexample"
   ],
   "note": "Set operations proved when the voxel size is at most 1 (the size is used as a tolerance in building the joint grid); counterexample for larger voxels. Sizes must be equal, otherwise ValueError (proved)."
  },
  {
   "property": "C39",
   "status": "proved",
   "theorems": [
    "Volmdlr.C39_flood_fill_3d",
    "Volmdlr.C39_flood_fill_2d",
    "Volmdlr.C39_index_error",
    "Volmdlr.C39_index_error_2d"
   ],
   "note": "Stack DFS exactly as coded, in 2D and 3D, arbitrary matrices; result is exactly the connected component. IndexError for a seed outside is proved."
  },
  {
   "property": "C40",
   "status": "partial",
   "theorems": [
    "Volmdlr.C40_fill_outer_voxels",
    "Volmdlr.C40_fill_outer_pixels",
    "Volmdlr.C40_fill_enclosed_voxels_partial",
    "Volmdlr.C40_fill_enclosed_pixels_partial",
    "Volmdlr.C40_fill_enclosed_large_voxels_counterexample",
    "Volmdlr.C40_is_hollow_means_not_hollow",
    "Volmdlr.C40_is_hollow_counterexample"
   ],
   "note": "fill_outer exact; fill_enclosed exact for voxel size at most 1 (goes through the boolean difference); is_hollow returns the negation (counterexample to its documentation, exact behaviour proved)."
  },
  {
   "property": "C41",
   "status": "proved",
   "theorems": [
    "Volmdlr.C41_boolean_operations",
    "Volmdlr.C41_different_sizes"
   ],
   "note": "All octrees rooted at the origin, all depths; both equal-depth and different-depth cases. Rounding to 6 decimals is not modelled."
  },
  {
   "property": "C42",
   "status": "proved",
   "theorems": [
    "Volmdlr.C42_increment_depth",
    "Volmdlr.C42_from_points",
    "Volmdlr.C42_from_points_good"
   ],
   "note": "Increasing depth and building from points keep exactly the centres."
  },
  {
   "property": "C43",
   "status": "proved",
   "theorems": [
    "Volmdlr.Voxel.C43_parity",
    "Volmdlr.Voxel.C43_iteration_order",
    "Volmdlr.Voxel.C43_faces_between_inside_and_outside",
    "Volmdlr.Voxel.C43_surface_is_boundary"
   ],
   "note": "Proved for every voxelization: parity, order independence, the faces kept, and that the triangles cover exactly the boundary of the solid."
  },
  {
   "property": "C44",
   "status": "proved",
   "theorems": [
    "Volmdlr.Voxel.C44_never_misses",
    "Volmdlr.Voxel.C44_converse_false",
    "Volmdlr.Voxel.C44_not_cubic_misses"
   ],
   "note": "Proved for all cubic voxels through the public function. The converse and the non cubic case are shown false (remarks, outside of the claim)."
  },
  {
   "property": "C45",
   "status": "proved",
   "theorems": [
    "Volmdlr.C45_crop",
    "Volmdlr.C45_crop_idempotent",
    "Volmdlr.C45_expand",
    "Volmdlr.C45_reduce_expand",
    "Volmdlr.C45_reduce",
    "Volmdlr.C45_to_point",
    "Volmdlr.C45_to_matrix",
    "Volmdlr.C45_round_trip"
   ],
   "note": "Crop, expand/reduce and matrix/point conversions."
  },
  {
   "property": "C46",
   "status": "partial",
   "theorems": [
    "Volmdlr.C46_addressing_counterexample",
    "Volmdlr.C46_addressing_full_statement_counterexample",
    "Volmdlr.C46_addressing_partial",
    "Volmdlr.C46_flood_fill_counterexample",
    "Volmdlr.C46_bounding_box_partial",
    "Volmdlr.C46_bounding_box_counterexample"
   ],
   "note": "Addressing is off by half a voxel (counterexamples), bounding box too large by half a voxel (counterexample); what holds is proved as partial."
  },
  {
   "property": "C47",
   "status": "proved",
   "theorems": [
    "Volmdlr.C47_area_shoelace",
    "Volmdlr.C47_area_affine",
    "Volmdlr.C47_area_translation",
    "Volmdlr.C47_area_rotation",
    "Volmdlr.C47_area_scale",
    "Volmdlr.C47_area_renumbering",
    "Volmdlr.C47_area_triangle",
    "Volmdlr.C47_area_chord"
   ],
   "note": ""
  },
  {
   "property": "C48",
   "status": "partial",
   "theorems": [
    "Volmdlr.C48_edge_schedule_partial",
    "Volmdlr.C48_batch_eq_single_partial",
    "Volmdlr.C48_counterexample"
   ],
   "note": "Proved for every interleaving at the granularity of one edge (includes every order of whole points and the sequential build). The full claim is false (C48_counterexample): the C arrays u, v, projection_point are shared between prange threads."
  },
  {
   "property": "C49",
   "status": "proved",
   "theorems": [
    "Volmdlr.C49_even_odd",
    "Volmdlr.C49_perm_aux",
    "Volmdlr.C49_renumbering",
    "Volmdlr.C49_translation"
   ],
   "note": ""
  },
  {
   "property": "C50",
   "status": "proved",
   "theorems": [
    "Volmdlr.C50_center_formula",
    "Volmdlr.C50_center_equivariant",
    "Volmdlr.C50_center_renumbering",
    "Volmdlr.C50_barycenter",
    "Volmdlr.C50_second_moment",
    "Volmdlr.C50_parallel_axis"
   ],
   "note": ""
  },
  {
   "property": "C51",
   "status": "proved",
   "theorems": [
    "Volmdlr.Wire.C51_contour_is_ordered",
    "Volmdlr.Wire.C51_ordering_primitives",
    "Volmdlr.Wire.C51_order_wire",
    "Volmdlr.Wire.C51_is_ordered",
    "Volmdlr.Wire.C51_exceptions",
    "Volmdlr.Wire.C51_succeeds",
    "Volmdlr.Wire.C51_closed_contour",
    "Volmdlr.Wire.C51_order_contour",
    "Volmdlr.Wire.C51_orderable_but_refused"
   ],
   "note": "Proved over an abstract kit of edges (start, end, length, reverse, distance between points), for lists of any length: chain, each non degenerate edge used once up to orientation, which exception when, success on every path or closed contour whatever the order and orientations given, and closedness."
  },
  {
   "property": "C52",
   "status": "proved",
   "theorems": [
    "Volmdlr.Wire.C52_length",
    "Volmdlr.Wire.C52_point_at_abscissa",
    "Volmdlr.Wire.C52_end",
    "Volmdlr.Wire.C52_out_of_wire",
    "Volmdlr.Wire.C52_discretization",
    "Volmdlr.Wire.C52_discretization_start",
    "Volmdlr.Wire.C52_one_point",
    "Volmdlr.Wire.C52_round_trip",
    "Volmdlr.Wire.C52_negative_abscissa"
   ],
   "note": "Proved for lists of edges of any length over the same abstract kit; includes the tolerance band at the end and the discretization."
  },
  {
   "property": "C53",
   "status": "partial",
   "theorems": [
    "Volmdlr.Surface.C53_cylinder_parameters",
    "Volmdlr.Surface.C53_cone_parameters_partial",
    "Volmdlr.Surface.C53_sphere_parameters",
    "Volmdlr.Surface.C53_torus_parameters_partial",
    "Volmdlr.Surface.C53_sphere_box",
    "Volmdlr.Surface.C53_torus_box",
    "Volmdlr.Surface.C53_cylinder_on_surface",
    "Volmdlr.Surface.C53_cone_on_surface",
    "Volmdlr.Surface.C53_sphere_on_surface",
    "Volmdlr.Surface.C53_torus_on_surface",
    "Volmdlr.Surface.C53_periodic",
    "Volmdlr.Surface.C53_sphere_period_counterexample",
    "Volmdlr.Surface.C53_cylinder_roundtrip",
    "Volmdlr.Surface.C53_cone_roundtrip_partial",
    "Volmdlr.Surface.C53_cone_roundtrip_counterexample",
    "Volmdlr.Surface.C53_sphere_roundtrip",
    "Volmdlr.Surface.C53_torus_roundtrip_partial",
    "Volmdlr.Surface.C53_torus_roundtrip_counterexample"
   ],
   "note": "Surface/Props, Surface/MoreProps. On-surface, periodicity, round trips with explicit bounds in both directions for cylinders, spheres, cones above the apex, tori with r < 2R (self-intersecting ones included), bounding boxes. Counterexamples: cone below the apex, torus with r > 2R, declared y_periodicity of the sphere."
  },
  {
   "property": "C54",
   "status": "partial",
   "theorems": [
    "Volmdlr.Angle.C54_sin_cos_angle",
    "Volmdlr.Angle.C54_sin_cos_angle_eq",
    "Volmdlr.Angle.C54_sin_cos_angle_range",
    "Volmdlr.Angle.C54_sin_cos_angle_close",
    "Volmdlr.Angle.C54_vectors3d_angle",
    "Volmdlr.Angle.C54_clockwise_angle",
    "Volmdlr.Angle.C54_clockwise_angle_zero",
    "Volmdlr.Angle.C54_clockwise_angle_same",
    "Volmdlr.Angle.C54_principal_measure_counterexample",
    "Volmdlr.Angle.C54_principal_measure_partial",
    "Volmdlr.Angle.C54_principal_measure_zero_partial"
   ],
   "note": "sin_cos_angle (exact outside a 1e-9 relative band below 2*pi, where it returns 0) and clockwise_angle proved; angle_principal_measure with the default minimum does not land in [-pi, pi] (3*pi/2 is returned unchanged, counterexample); what it does return is proved partial."
  },
  {
   "property": "C55",
   "status": "proved",
   "theorems": [
    "Volmdlr.Angle.C55_cos_image",
    "Volmdlr.Angle.C55_sin_image"
   ],
   "note": "Both functions return exactly the minimum and maximum on the closed interval (they are attained and bound every value)."
  },
  {
   "property": "C56",
   "status": "partial",
   "theorems": [
    "Volmdlr.Intersect.C56_circles_partial",
    "Volmdlr.Intersect.C56_circles_counterexample",
    "Volmdlr.Intersect.C56_circle_line",
    "Volmdlr.Intersect.C56_circle_line_counterexample",
    "Volmdlr.Intersect.C56_circle_line_partial",
    "Volmdlr.Intersect.C56_plane_line_sound",
    "Volmdlr.Intersect.C56_plane_line_partial",
    "Volmdlr.Intersect.C56_plane_line_parallel",
    "Volmdlr.Intersect.C56_plane_line_counterexample",
    "Volmdlr.Intersect.C56_plane_segment_total",
    "Volmdlr.Intersect.C56_plane_segment_sound",
    "Volmdlr.Intersect.C56_plane_segment_complete_partial",
    "Volmdlr.Intersect.C56_two_planes_point",
    "Volmdlr.Intersect.C56_two_planes_total",
    "Volmdlr.Intersect.C56_two_planes_partial",
    "Volmdlr.Intersect.C56_two_planes_parallel",
    "Volmdlr.Intersect.C56_two_planes_counterexample",
    "Volmdlr.Intersect.C56_plane_point_distance_partial"
   ],
   "note": "Planes, segments, two planes, two circles, circle and line: exact outside the tolerance bands; counterexamples inside them (a line given by two close points, planes at 2e-5 rad, circles of very different radii, a line parallel to the plane of the circle divides by zero)."
  },
  {
   "property": "C57",
   "status": "partial",
   "theorems": [
    "Volmdlr.Arc.C57_angle_range2",
    "Volmdlr.Arc.C57_angle_range3",
    "Volmdlr.Arc.C57_start2",
    "Volmdlr.Arc.C57_start3",
    "Volmdlr.Arc.C57_point_at_abscissa",
    "Volmdlr.Arc.C57_end",
    "Volmdlr.Arc.C57_end_exact",
    "Volmdlr.Arc.C57_on_circle",
    "Volmdlr.Arc.C57_split_partial",
    "Volmdlr.Arc.C57_split_counterexample",
    "Volmdlr.Arc.C57_straight_line_area"
   ],
   "note": "Angle range, length, start, end, membership of the circle, straight_line_area proved for all circles with an orthonormal frame (both orientations); the end is exact outside the band of sin_cos_angle and within radius*2*pi*1e-9 always. Split proved when the three points are outside of the band; false inside it (counterexample: the piece becomes a full turn)."
  },
  {
   "property": "C58",
   "status": "partial",
   "theorems": [
    "Volmdlr.C58_array_range_search",
    "Volmdlr.C58_verify_repeated",
    "Volmdlr.C58_nearest_neighbor_partial",
    "Volmdlr.C58_nearest_neighbor_counterexample",
    "Volmdlr.C58_grid_indices_partial",
    "Volmdlr.C58_grid_indices_counterexample"
   ],
   "note": "array_range_search and verify_repeated proved; nearest-neighbour ordering loses all-zero points at the end (counterexample), exact description partial; grid index 0 never deleted."
  },
  {
   "property": "C59",
   "status": "partial",
   "theorems": [
    "Volmdlr.Fem.C59_small_triangle_counterexample",
    "Volmdlr.Fem.C59_large_triangle_counterexample",
    "Volmdlr.Fem.C59_triangle_partial",
    "Volmdlr.Fem.C59_triangle_exact_partial",
    "Volmdlr.Fem.C59_triangle_center",
    "Volmdlr.Fem.C59_tetrahedron",
    "Volmdlr.Fem.C59_faces",
    "Volmdlr.Fem.C59_interior_normals"
   ],
   "note": "Tetrahedron form functions, faces, volume, triangle interior normals proved. Triangles: small elements (twice the area <= 1e-12) are refused although not flat, and coefficients below 1e-16 are flushed (counterexamples); within 1e-16(1+|x|+|y|) of a nodal basis otherwise, exact when nothing is flushed."
  },
  {
   "property": "C60",
   "status": "partial",
   "theorems": [
    "Volmdlr.Grid.C60_from_points",
    "Volmdlr.Grid.C60_direction_refused",
    "Volmdlr.Grid.C60_from_properties",
    "Volmdlr.Grid.C60_limits",
    "Volmdlr.Grid.C60_displacement",
    "Volmdlr.Grid.C60_pattern_counterexample",
    "Volmdlr.Grid.C60_pattern_full_counterexample",
    "Volmdlr.Grid.C60_pattern_partial"
   ],
   "note": "from_points, from_properties (all eight directions), limits_xy, points_xy, displacement proved; grid_pattern raises IndexError for every non-square grid of at least 2x2 (counterexample); square grids proved."
  },
  {
   "property": "C61",
   "status": "proved",
   "theorems": [
    "Volmdlr.C61_abscissa_inverse",
    "Volmdlr.C61_split",
    "Volmdlr.C61_split_ends",
    "Volmdlr.C61_middle",
    "Volmdlr.C61_pointProjection"
   ],
   "note": ""
  },
  {
   "property": "C62",
   "status": "proved",
   "theorems": [
    "Volmdlr.C62_convex",
    "Volmdlr.C62_affine",
    "Volmdlr.C62_corners",
    "Volmdlr.C62_equal_weights"
   ],
   "note": ""
  },
  {
   "property": "C63",
   "status": "partial",
   "theorems": [
    "Volmdlr.C63_fromTwoVectors_partial",
    "Volmdlr.C63_fromTwoVectors_counterexample",
    "Volmdlr.C63_from3Points",
    "Volmdlr.C63_fromPointAndNormal",
    "Volmdlr.C63_basis_rotation",
    "Volmdlr.C63_euler_rotation",
    "Volmdlr.C63_fromPointAndVector_partial",
    "Volmdlr.C63_fromPointAndVector_counterexample",
    "Volmdlr.Surface.C63_plane_from3Points",
    "Volmdlr.Surface.C63_plane_fromPlaneVectors",
    "Volmdlr.Surface.C63_plane_fromNormal_partial",
    "Volmdlr.Surface.C63_plane_fromNormal_counterexample",
    "Volmdlr.Surface.C63_plane_fromPoints"
   ],
   "note": "Frame/Props and Surface/MoreProps (Plane3D constructors: from_3_points, from_points, from_plane_vectors, from_normal; the frame of from_normal is left-handed: counterexample)."
  },
  {
   "property": "C64",
   "status": "proved",
   "theorems": [
    "Volmdlr.C64_translation",
    "Volmdlr.C64_translation_exact"
   ],
   "note": "Rounding of centres to 6/9 decimals is not modelled."
  },
  {
   "property": "C65",
   "status": "proved",
   "theorems": [
    "Volmdlr.Wire.C65_invert",
    "Volmdlr.Wire.C65_invert_invert",
    "Volmdlr.Wire.C65_invert_point"
   ],
   "note": "Proved for every list of edges; the point correspondence inside of edges, from the same fact about single edges."
  },
  {
   "property": "C66",
   "status": "proved",
   "theorems": [
    "Volmdlr.Wire.C66_reorder_from_step"
   ],
   "note": "Proved for every list of edges."
  },
  {
   "property": "C67",
   "status": "proved",
   "theorems": [
    "Volmdlr.Angle.C67_euler_rotation",
    "Volmdlr.Angle.C67_matrix_euler_matrix",
    "Volmdlr.Angle.C67_euler_matrix_euler"
   ],
   "note": "Proved for all rotation matrices, degenerate ones included (exact arithmetic)."
  },
  {
   "property": "C68",
   "status": "proved",
   "theorems": [
    "Volmdlr.Angle.C68_clockwise_interior"
   ],
   "note": "Stated in the local coordinates of the circle frame (the change of frame is C03); outside of the 1e-9 band of sin_cos_angle."
  },
  {
   "property": "C69",
   "status": "proved",
   "theorems": [
    "Volmdlr.Arc.C69_point_belongs",
    "Volmdlr.Arc.C69_point_belongs_far",
    "Volmdlr.Arc.C69_abscissa",
    "Volmdlr.Arc.C69_circle_abscissa"
   ],
   "note": "Proved; near the extremities abscissa returns 0 or the length as documented by its tolerance."
  },
  {
   "property": "C70",
   "status": "proved",
   "theorems": [
    "Volmdlr.Arc.C70_circle_from_3_points",
    "Volmdlr.Arc.C70_arc_from_3_points"
   ],
   "note": "Proved (second point on the arc, or within 1e-6 of an extremity as allowed by point_belongs)."
  },
  {
   "property": "C71",
   "status": "proved",
   "theorems": [
    "Volmdlr.Fem.C71_elements_per_node",
    "Volmdlr.Fem.C71_nodes",
    "Volmdlr.Fem.C71_node_to_index",
    "Volmdlr.Fem.C71_point_to_element",
    "Volmdlr.Fem.C71_bounding_rectangle"
   ],
   "note": "Proved for points with exact equality (equality and hash of Node2D/Node3D are C13)."
  },
  {
   "property": "C72",
   "status": "partial",
   "theorems": [
    "Volmdlr.Fem.C72_delete_duplicated_partial",
    "Volmdlr.Fem.C72_no_gmsh_counterexample",
    "Volmdlr.Fem.C72_stale_counterexample",
    "Volmdlr.Fem.C72_full_counterexample",
    "Volmdlr.Fem.C72_copy_partial"
   ],
   "note": "False: meshes without a gmsh parser raise an error (the setter refuses None), and a second call with another reference reuses the corrections of the first (counterexamples). Proved for gmsh meshes with no or matching cached corrections."
  },
  {
   "property": "C73",
   "status": "partial",
   "theorems": [
    "Volmdlr.Conic.C73_line_intersections_2d",
    "Volmdlr.Intersect.C73_projection",
    "Volmdlr.Intersect.C73_abscissa_inverse",
    "Volmdlr.Intersect.C73_point_distance3",
    "Volmdlr.Intersect.C73_point_distance2",
    "Volmdlr.Intersect.C73_line_distance_partial",
    "Volmdlr.Intersect.C73_line_distance_counterexample",
    "Volmdlr.Intersect.C73_intersection_partial",
    "Volmdlr.Intersect.C73_intersection_on_line",
    "Volmdlr.Intersect.C73_intersection_counterexample",
    "Volmdlr.Intersect.C73_line_distance_2d_counterexample"
   ],
   "note": "Projection, abscissa and point distances proved; line_distance and intersection proved outside the tolerance bands, with counterexamples in them (nearly parallel crossing lines have distance 1; nearly orthogonal lines return a wrong point); Line2D.line_distance returns a point for parallel lines."
  },
  {
   "property": "C74",
   "status": "partial",
   "theorems": [
    "Volmdlr.Intersect.C74_sound_partial",
    "Volmdlr.Intersect.C74_complete_partial",
    "Volmdlr.Intersect.C74_counterexample",
    "Volmdlr.Intersect.C74_vertical_counterexample",
    "Volmdlr.Intersect.C74_vertical",
    "Volmdlr.Intersect.C74_general_partial"
   ],
   "note": "Sound for non-vertical lines, complete when the two points are more than 1e-6 apart, exact for vertical crossing lines; a tangent gives no point and a vertical line within tolerance outside the ellipse raises ValueError."
  },
  {
   "property": "C75",
   "status": "partial",
   "theorems": [
    "Volmdlr.Surface.C75_plane_point_belongs",
    "Volmdlr.Surface.C75_plane_coincident_sound",
    "Volmdlr.Surface.C75_plane_coincident_complete",
    "Volmdlr.Surface.C75_cylinder_point_belongs_complete",
    "Volmdlr.Surface.C75_cylinder_point_belongs_sound",
    "Volmdlr.Surface.C75_torus_coincident_counterexample",
    "Volmdlr.Surface.C75_reflexive",
    "Volmdlr.Surface.C75_cylinder_coincident_sound"
   ],
   "note": "Surface/MoreProps. Planes and cylinders sound and complete with explicit bounds; ToroidalSurface3D.is_coincident ignores the centres: counterexample."
  },
  {
   "property": "C76",
   "status": "proved",
   "theorems": [
    "Volmdlr.C76_basis_ders",
    "Volmdlr.C76_curve",
    "Volmdlr.C76_curve_interior",
    "Volmdlr.C76_curve_rational",
    "Volmdlr.C76_surface",
    "Volmdlr.C76_surface_rational",
    "Volmdlr.C76_basis_ders_one",
    "Volmdlr.C76_basis_all",
    "Volmdlr.C76_recursive_basis"
   ],
   "note": "Nurbs/{DerivModel,Deriv,DerivProps}: A2.3, A2.5, A3.2, A3.6, A4.2, A4.4 against Mathlib iteratedDeriv. The number of derivatives is cut at the degree by the callers as in the code."
  },
  {
   "property": "C77",
   "status": "partial",
   "theorems": [
    "Volmdlr.C77_blending_partial",
    "Volmdlr.C77_blending_counterexample"
   ],
   "note": "Nurbs/DerivProps: true on the half-open domain; at the last parameter every entry is zero (counterexample)."
  },
  {
   "property": "C78",
   "status": "partial",
   "theorems": [
    "Volmdlr.C78_tangent",
    "Volmdlr.C78_normal2_counterexample",
    "Volmdlr.C78_normal2_partial",
    "Volmdlr.C78_normal3",
    "Volmdlr.C78_curvature_partial",
    "Volmdlr.C78_curvature_counterexample"
   ],
   "note": "Nurbs/CurveFrame. BSplineCurve2D.normal rotates the tangent about the point of the curve: counterexample, with the exact error in the partial theorem. Curvature is invariant when the derivative passes the 1e-6 test in both parametrisations; counterexample otherwise."
  },
  {
   "property": "C79",
   "status": "partial",
   "theorems": [
    "Volmdlr.Solid.C79_vertices",
    "Volmdlr.Solid.C79_hull",
    "Volmdlr.Solid.C79_edges",
    "Volmdlr.Solid.C79_faceContours_counterexample",
    "Volmdlr.Solid.C79_facesCenter",
    "Volmdlr.Solid.C79_boundingBox_counterexample",
    "Volmdlr.Solid.C79_boundingBox_partial",
    "Volmdlr.Solid.C79_fromBoundingBox",
    "Volmdlr.Solid.C79_volume_partial",
    "Volmdlr.Solid.C79_volume_counterexample",
    "Volmdlr.Solid.C79_shellFaces",
    "Volmdlr.Solid.C79_translation",
    "Volmdlr.Solid.C79_rotation",
    "Volmdlr.Solid.C79_frameMapping_old",
    "Volmdlr.Solid.C79_subdivide_counterexample",
    "Volmdlr.Solid.C79_subdivide_partial",
    "Volmdlr.Solid.C79_subdivide_disjoint",
    "Volmdlr.Solid.C79_cut_counterexample",
    "Volmdlr.Solid.C79_cut_partial"
   ],
   "note": "Proved for all frames: vertices, convex hull, edges, centres, faces = boundary, motion, from_bounding_box. Counterexamples proved: face_contours3d always raises IndexError; bounding box, volume, subdivision, orthogonal cut fail on some frames; partial theorems give the frames for which they hold."
  },
  {
   "property": "C80",
   "status": "partial",
   "theorems": [
    "Volmdlr.Solid.C80_fromEndPoints",
    "Volmdlr.Solid.C80_fromEndPoints_degenerate",
    "Volmdlr.Solid.C80_fromCenterPointAndAxis_partial",
    "Volmdlr.Solid.C80_fromCenterPointAndAxis_counterexample",
    "Volmdlr.Solid.C80_cylinder_side",
    "Volmdlr.Solid.C80_cylinder_side_onto",
    "Volmdlr.Solid.C80_cone_side",
    "Volmdlr.Solid.C80_cylinder_box",
    "Volmdlr.Solid.C80_hollow_box",
    "Volmdlr.Solid.C80_zero_length",
    "Volmdlr.Solid.C80_cone_box"
   ],
   "note": "Boxes proved tight for all orientations; from_end_points exact. from_center_point_and_axis proved for unit axes and refuted for others (the axis is not normalised)."
  },
  {
   "property": "C81",
   "status": "proved",
   "theorems": [
    "Volmdlr.Solid.C81_pointBelongs",
    "Volmdlr.Solid.C81_samplePoint",
    "Volmdlr.Solid.C81_translation",
    "Volmdlr.Solid.C81_rotation",
    "Volmdlr.Solid.C81_interference",
    "Volmdlr.Solid.C81_sphere_belongs",
    "Volmdlr.Solid.C81_skinPoints",
    "Volmdlr.Solid.C81_skinPoints_cover",
    "Volmdlr.Solid.C81_innerPoints"
   ],
   "note": "The sampled numbers are parameters of the model (any values in their ranges). The floor of skin_points nearest to the pole can be empty, which the covering bound accounts for."
  },
  {
   "property": "C82",
   "status": "partial",
   "theorems": [
    "Volmdlr.Solid.C82_cylinder",
    "Volmdlr.Solid.C82_hollow",
    "Volmdlr.Solid.C82_cone",
    "Volmdlr.Solid.C82_sphere",
    "Volmdlr.Solid.C82_block",
    "Volmdlr.Solid.C82_block_volume_partial"
   ],
   "note": "Cylinder, hollow cylinder, cone and sphere for all parameters; block for orthogonal edges (false for oblique ones, C79). RevolvedProfile.volume is not modelled: it reads self.axis.vector, which does not exist, so it raises AttributeError."
  },
  {
   "property": "C83",
   "status": "partial",
   "theorems": [
    "Volmdlr.Fillet.C83_fillet3",
    "Volmdlr.Fillet.C83_fillet3_iff",
    "Volmdlr.Fillet.C83_fillet3_counterexample",
    "Volmdlr.Fillet.C83_fillet2_partial",
    "Volmdlr.Fillet.C83_flat",
    "Volmdlr.Fillet.C83_fillet2_counterexample",
    "Volmdlr.Fillet.C83_repeated"
   ],
   "note": "Exact in the plane for corners not within 1e-6 of straight (C83_fillet2_partial), and shown false for every flatter corner (C83_flat, counterexample). In space: exact characterisation of the corners and radii for which the result is a fillet (C83_fillet3_iff), and for all corners the end points are exact and the interior point within 1e-6/sine (C83_fillet3)."
  },
  {
   "property": "C84",
   "status": "proved",
   "theorems": [
    "Volmdlr.Fillet.C84_open",
    "Volmdlr.Fillet.C84_closed",
    "Volmdlr.Fillet.C84_arcs",
    "Volmdlr.Fillet.C84_lines",
    "Volmdlr.Fillet.C84_only_lines",
    "Volmdlr.Fillet.C84_closed_neighbours",
    "Volmdlr.Fillet.C84_open_neighbours",
    "Volmdlr.Fillet.C84_gap",
    "Volmdlr.Fillet.C84_primitives"
   ],
   "note": "Proved for any arcs and any closeness test, then instantiated for RoundedLineSegments2D with distances. Hypothesis for open polylines: no rounding at the end points (index 0 would use points[-1])."
  },
  {
   "property": "C85",
   "status": "partial",
   "theorems": [
    "Volmdlr.Fillet.C85_adapt_partial",
    "Volmdlr.Fillet.C85_adapt_counterexample",
    "Volmdlr.Fillet.C85_radii_iff",
    "Volmdlr.Fillet.C85_forward_partial",
    "Volmdlr.Fillet.C85_forward_counterexample"
   ],
   "note": "Exact condition of the ValueError proved (C85_radii_iff); the property holds for sides with both ends rounded and is false for the others (counterexample: a single too large radius is accepted) and for the closing side. adapt_radius: proved for consecutive corners and isolated corners for every feasible answer of linprog; false for the outer sides of a group (counterexample with every optimal answer)."
  },
  {
   "property": "C86",
   "status": "partial",
   "theorems": [
    "Volmdlr.Fillet.C86_corner_partial",
    "Volmdlr.Fillet.C86_corner",
    "Volmdlr.Fillet.C86_corner_counterexample",
    "Volmdlr.Fillet.C86_radius",
    "Volmdlr.Fillet.C86_concentric",
    "Volmdlr.Fillet.C86_open",
    "Volmdlr.Fillet.C86_closed",
    "Volmdlr.Fillet.C86_open_total"
   ],
   "note": "Relative error at most 1e-12 for every corner that is not folded; exact when the corner is not within 1e-6 of straight (the exact statement is false otherwise: counterexample)."
  },
  {
   "property": "C87",
   "status": "partial",
   "theorems": [
    "Volmdlr.Hull.C87_convex_hull_partial",
    "Volmdlr.Hull.C87_few",
    "Volmdlr.Hull.C87_lost_point",
    "Volmdlr.Hull.C87_counterexample"
   ],
   "note": "Proved with IsHull (vertices among the points, distinct, every other point strictly on the left of each side, same convexHull in Mathlib's sense, termination of the loop) for points in general position (more than 1e-6 apart, no three within 1e-6 of a line). False with aligned points: a point straight ahead of a side is thrown away, even when it is a vertex of the hull (C87_counterexample, with the exact result of the function in C87_lost_point)."
  },
  {
   "property": "C88",
   "status": "partial",
   "theorems": [
    "Volmdlr.Hull.C88_left_turns_partial",
    "Volmdlr.Hull.C88_right_turns_partial",
    "Volmdlr.Hull.C88_counterexample"
   ],
   "note": "Proved for polygons that never turn right (True) and for those that never turn left (False). False in general: normal_vector() of a segment is not normalised, so the angle of a corner is atan2(|side| sin, cos), and a small polygon (a heart of 6 mm) with a sharp re-entrant corner is declared clockwise (C88_counterexample)."
  },
  {
   "property": "C89",
   "status": "partial",
   "theorems": [
    "Volmdlr.Hull.C89_corner_partial",
    "Volmdlr.Hull.C89_offset_partial",
    "Volmdlr.Hull.C89_counterexample"
   ],
   "note": "The exact law is proved: each vertex of the result is at the distance d·2cos(γ/2) of the two sides (γ the corner angle), d when they are aligned, on the right for d > 0; so the distance is d only for corners of 120 degrees. The claim is false for a square (C89_counterexample)."
  },
  {
   "property": "C90",
   "status": "proved",
   "theorems": [
    "Volmdlr.Hull.C90_point_border_distance"
   ],
   "note": "Full: the minimum is attained at the returned point, which is on the border, and no point of the border is nearer."
  },
  {
   "property": "C91",
   "status": "proved",
   "theorems": [
    "Volmdlr.Conic.C91_trim",
    "Volmdlr.Conic.C91_points",
    "Volmdlr.Conic.C91_focus",
    "Volmdlr.Conic.C91_points_default",
    "Volmdlr.Conic.C91_point_belongs",
    "Volmdlr.Conic.C91_tangent"
   ],
   "note": "Proved against the focus-directrix definition."
  },
  {
   "property": "C92",
   "status": "partial",
   "theorems": [
    "Volmdlr.Conic.C92_secant_partial",
    "Volmdlr.Conic.C92_missing_partial",
    "Volmdlr.Conic.C92_tangent_partial",
    "Volmdlr.Conic.C92_tangent_counterexample",
    "Volmdlr.Conic.C92_axis_counterexample"
   ],
   "note": "Proved for secant and missing lines; for tangents only the local coordinates are right (the point is returned in the local frame: counterexample), and a line parallel to the axis raises TypeError (counterexample)."
  },
  {
   "property": "C93",
   "status": "partial",
   "theorems": [
    "Volmdlr.Conic.C93_eq_counterexample",
    "Volmdlr.Conic.C93_points",
    "Volmdlr.Conic.C93_point_belongs_partial",
    "Volmdlr.Conic.C93_point_belongs_counterexample",
    "Volmdlr.Conic.C93_tangent_partial",
    "Volmdlr.Conic.C93_tangent_counterexample",
    "Volmdlr.Conic.C93_line_partial",
    "Volmdlr.Conic.C93_line_counterexample",
    "Volmdlr.Conic.C93_vertical_counterexample"
   ],
   "note": "get_points is right; point_belongs only when the minor half axis is 1 (not squared: counterexample); tangent only in the standard frame (global ordinate used: counterexample); line_intersections for lines neither parallel to the imaginary axis (TypeError) nor to an asymptote (lost point); __eq__ is never true of a hyperbola and itself (counterexample)."
  },
  {
   "property": "C94",
   "status": "partial",
   "theorems": [
    "Volmdlr.Conic.C94_conic_arc",
    "Volmdlr.Conic.C94_trim_partial",
    "Volmdlr.Conic.C94_trim_counterexample"
   ],
   "note": "The conic arc theorem is proved for every conic; trim is proved in the standard frame for points that are not close and whose tangents are not colinear within the tolerances (otherwise a segment is returned: counterexample)."
  },
  {
   "property": "C95",
   "status": "partial",
   "theorems": [
    "Volmdlr.Conic.C95_line_partial",
    "Volmdlr.Conic.C95_tangent_counterexample",
    "Volmdlr.Conic.C95_vertical_counterexample"
   ],
   "note": "Proved away from tangency and from the tolerance bands; at tangency the abscissa is computed as -b/2*a and the point is not on the circle (counterexample); a vertical line missing the circle by less than the tolerance raises ValueError (counterexample)."
  },
  {
   "property": "C96",
   "status": "partial",
   "theorems": [
    "Volmdlr.Conic.C96_point_symmetric_partial",
    "Volmdlr.Conic.C96_point_symmetric_counterexample",
    "Volmdlr.Conic.C96_axial_symmetry",
    "Volmdlr.Conic.C96_point_distance",
    "Volmdlr.Conic.C96_point_belongs",
    "Volmdlr.Conic.C96_discretization",
    "Volmdlr.Conic.C96_rectangle",
    "Volmdlr.Conic.C96_ellipse_rectangle_partial",
    "Volmdlr.Conic.C96_ellipse_counterexample",
    "Volmdlr.Conic.C96_circle3_box_partial",
    "Volmdlr.Conic.C96_circle3_counterexample"
   ],
   "note": "axial_symmetry, point_distance, point_belongs, discretisation and the rectangle of Circle2D are proved; point_symmetric is right only for a circle centred at the origin (counterexample); the boxes of ellipses and of circles of space contain them exactly when no axis is turned (iff theorem, counterexamples), and always within a factor sqrt 2."
  },
  {
   "property": "C97",
   "status": "partial",
   "theorems": [
    "Volmdlr.Arc.C97_point_at_abscissa",
    "Volmdlr.Arc.C97_end",
    "Volmdlr.Arc.C97_abscissa",
    "Volmdlr.Arc.C97_split",
    "Volmdlr.Arc.C97_from_angle_partial",
    "Volmdlr.Arc.C97_from_angle_counterexample"
   ],
   "note": "from_angle builds the frame of its circle with start - center, not normalised: the angles are wrong unless the radius is one (counterexample: a quarter of turn of (2,0,0) gives an arc of angle pi/6); the rest is proved."
  },
  {
   "property": "C98",
   "status": "partial",
   "theorems": [
    "Volmdlr.Arc.C98_rectangle_partial",
    "Volmdlr.Arc.C98_rectangle_counterexample",
    "Volmdlr.Arc.C98_box_partial",
    "Volmdlr.Arc.C98_box_counterexample"
   ],
   "note": "The boxes are those of sampled points: they are tight but miss the extreme points between the samples (counterexamples: upper half of the unit circle, arc from 30 to 150 degrees); proved: every point is in the box enlarged by radius*angle/38 (plane) or radius/10 (space)."
  },
  {
   "property": "C99",
   "status": "proved",
   "theorems": [
    "Volmdlr.Triangles.C99_area",
    "Volmdlr.Triangles.C99_area_order",
    "Volmdlr.Triangles.C99_area_isometry",
    "Volmdlr.Triangles.C99_height",
    "Volmdlr.Triangles.C99_normal",
    "Volmdlr.Triangles.C99_reversed",
    "Volmdlr.Triangles.C99_middle"
   ],
   "note": "Real arithmetic; the ValueError branch of area is the square root of a negative number, which exact arithmetic never meets."
  },
  {
   "property": "C100",
   "status": "proved",
   "theorems": [
    "Volmdlr.Triangles.C100_ends",
    "Volmdlr.Triangles.C100_sides",
    "Volmdlr.Triangles.C100_cover",
    "Volmdlr.Triangles.C100_no_overlap"
   ],
   "note": "Real arithmetic. The loop has a bound on its turns in the model; C100_ends gives a bound that suffices and shows that the result does not depend on it."
  },
  {
   "property": "C101",
   "status": "proved",
   "theorems": [
    "Volmdlr.Triangles.C101_points"
   ],
   "note": "Real arithmetic; the removal of equal points by a set is dropped (the theorem is about membership)."
  },
  {
   "property": "C102",
   "status": "partial",
   "theorems": [
    "Volmdlr.Triangles.C102_attributes_counterexample",
    "Volmdlr.Triangles.C102_triangle_partial",
    "Volmdlr.Triangles.C102_equality"
   ],
   "note": "Attributes: false of the code, PlaneFace3D.__init__ called last resets color, alpha and name (counterexample theorem). Also copy, frame_mapping and dict_to_object pass the name in the place of the transparency, with no effect for the same reason."
  },
  {
   "property": "C103",
   "status": "partial",
   "theorems": [
    "Volmdlr.Shells.C103_signed_volume",
    "Volmdlr.Shells.C103_volume_partial",
    "Volmdlr.Shells.C103_order",
    "Volmdlr.Shells.C103_translation",
    "Volmdlr.Shells.C103_volume_counterexample",
    "Volmdlr.Shells.C103_box"
   ],
   "note": "False of the code: the sum of absolute values of the tetrahedra seen from the centre of the bounding box. Proved equal to the volume when all tetrahedra have the same orientation from that centre (star shaped around it); counterexample: the corner tetrahedron of volume 1/6 gets 1/3."
  },
  {
   "property": "C104",
   "status": "partial",
   "theorems": [
    "Volmdlr.Shells.C104_exact",
    "Volmdlr.Shells.C104_rounded",
    "Volmdlr.Shells.C104_from_mesh_data",
    "Volmdlr.Shells.C104_dict_round_trip",
    "Volmdlr.Shells.C104_rounded_counterexample"
   ],
   "note": "Without rounding exact. With rounding to 1e-6 the positions are the rounded ones, and triangles which become flat are dropped or refused (counterexample: triangle of size 1e-10 lost)."
  },
  {
   "property": "C105",
   "status": "partial",
   "theorems": [
    "Volmdlr.Shells.C105_equality_partial",
    "Volmdlr.Shells.C105_symmetry_counterexample",
    "Volmdlr.Shells.C105_hash_counterexample",
    "Volmdlr.Shells.C105_equality_counterexample",
    "Volmdlr.Shells.C105_data_partial",
    "Volmdlr.Shells.C105_data_prefix",
    "Volmdlr.Shells.C105_data_counterexample",
    "Volmdlr.Shells.C105_color_counterexample"
   ],
   "note": "False of the code, counterexamples: equality is not symmetric with repeated faces; the hash depends on the order of faces; _data_eq compares zipped prefixes; the default color is overwritten with None. Proved for shells without repeated faces, of the same length."
  },
  {
   "property": "C106",
   "status": "partial",
   "theorems": [
    "Volmdlr.Shells.C106_outwards_partial",
    "Volmdlr.Shells.C106_inwards_partial",
    "Volmdlr.Shells.C106_tests",
    "Volmdlr.Shells.C106_inwards_counterexample"
   ],
   "note": "point_belongs is a parameter of the model. The tests probe at 1e-4, the repair at 1e-5: a slab of thickness 5e-5 turned inwards fails the test (counterexample). Proved at the probing distance of the repair."
  },
  {
   "property": "C107",
   "status": "proved",
   "theorems": [
    "Volmdlr.Shells.C107_concatenate"
   ],
   "note": "Exact positions."
  },
  {
   "property": "C108",
   "status": "proved",
   "theorems": [
    "Volmdlr.Fit.C108_params",
    "Volmdlr.Fit.C108_knots",
    "Volmdlr.Fit.C108_approximation_knots"
   ],
   "note": "proved for all degrees, numbers of points and spacings"
  },
  {
   "property": "C109",
   "status": "partial",
   "theorems": [
    "Volmdlr.Fit.C109_interpolation_partial",
    "Volmdlr.Fit.C109_repeated",
    "Volmdlr.Fit.C109_interpolation_counterexample",
    "Volmdlr.Fit.C109_enough",
    "Volmdlr.Fit.C109_distinct_counterexample"
   ],
   "note": "partial: needs distinct successive points, each gap more than 1e-15 of the total. Counterexamples: two equal successive points pass the check but the system is singular (C109_repeated shows this always happens); distinct points whose knots are less than 1e-15 apart give a curve with too many knots which does not end at the last point."
  },
  {
   "property": "C110",
   "status": "partial",
   "theorems": [
    "Volmdlr.Fit.C110_approximation_partial",
    "Volmdlr.Fit.C110_two_control_points_counterexample",
    "Volmdlr.Fit.C110_default_size_counterexample",
    "Volmdlr.Fit.C110_interpolates"
   ],
   "note": "partial: needs at least 3 control points, and gaps above the tolerance of the multiplicities. Counterexamples: 2 control points raise IndexError; the default number of control points equals the degree for degree+1 points, and the result is no B-spline of that degree."
  },
  {
   "property": "C111",
   "status": "partial",
   "theorems": [
    "Volmdlr.Fit.C111_interpolation_partial",
    "Volmdlr.Fit.C111_interpolation_counterexample"
   ],
   "note": "partial: every line of the grid must have distinct neighbours (gap more than 1e-15 of its length). Counterexample: a line reduced to one point (a pole) raises ValueError."
  },
  {
   "property": "C112",
   "status": "partial",
   "theorems": [
    "Volmdlr.Fit.C112_approximation_partial",
    "Volmdlr.Fit.C112_approximation_counterexample"
   ],
   "note": "partial: proved when as many control points as data points are asked for. Counterexample: otherwise the constructor is given size_u, size_v (numbers of data points) and the surface has fewer control points than its sizes say."
  },
  {
   "property": "C113",
   "status": "partial",
   "theorems": [
    "Volmdlr.Scene.C113_placement_partial",
    "Volmdlr.Scene.C113_rigid",
    "Volmdlr.Scene.C113_counterexample"
   ],
   "note": "Partial: the origin of the initial frame is forgotten by map_primitive_with_initial_and_final_frames (C113_counterexample); proved when it is (0,0,0)."
  },
  {
   "property": "C114",
   "status": "partial",
   "theorems": [
    "Volmdlr.Scene.C114_get_shells",
    "Volmdlr.Scene.C114_frame_mapping_old_partial",
    "Volmdlr.Scene.C114_frame_mapping_undo_partial",
    "Volmdlr.Scene.C114_counterexample",
    "Volmdlr.Scene.C114_translation"
   ],
   "note": "Partial: assemblies whose frame has another origin do not follow the model (C114_counterexample)."
  },
  {
   "property": "C115",
   "status": "partial",
   "theorems": [
    "Volmdlr.Scene.C115_primitive_box_partial",
    "Volmdlr.Scene.C115_model_box_partial",
    "Volmdlr.Scene.C115_counterexample"
   ],
   "note": "Partial: points beside primitives that have a box are forgotten (C115_counterexample)."
  },
  {
   "property": "C116",
   "status": "proved",
   "theorems": [
    "Volmdlr.Scene.C116_eq",
    "Volmdlr.Scene.C116_equivalence",
    "Volmdlr.Scene.C116_volume"
   ],
   "note": ""
  },
  {
   "property": "C117",
   "status": "proved",
   "theorems": [
    "Volmdlr.Scene.C117_to_mesh"
   ],
   "note": ""
  },
  {
   "property": "C118",
   "status": "partial",
   "theorems": [
    "Volmdlr.Scene.C118_display",
    "Volmdlr.Scene.C118_moving_steps",
    "Volmdlr.Scene.C118_moving_meshes_partial",
    "Volmdlr.Scene.C118_moving_meshes_counterexample"
   ],
   "note": "Partial: a primitive without mesh shifts the frames of the others (C118_moving_meshes_counterexample)."
  },
  {
   "property": "C119",
   "status": "partial",
   "theorems": [
    "Volmdlr.Gmsh.C119_sections_partial",
    "Volmdlr.Gmsh.C119_unclosed",
    "Volmdlr.Gmsh.C119_counterexample"
   ],
   "note": "Proved for files without a blank line between sections. A blank line between two sections stops the reading silently (counterexample); a section that is never closed makes the reader loop forever (C119_unclosed)."
  },
  {
   "property": "C120",
   "status": "proved",
   "theorems": [
    "Volmdlr.Gmsh.C120_nodes"
   ],
   "note": "Proved in full."
  },
  {
   "property": "C121",
   "status": "partial",
   "theorems": [
    "Volmdlr.Gmsh.C121_elements_partial",
    "Volmdlr.Gmsh.C121_empty_block",
    "Volmdlr.Gmsh.C121_counterexample"
   ],
   "note": "Proved when no block is empty. An empty first block raises UnboundLocalError, another empty block makes the parser loop forever (C121_empty_block, counterexample)."
  },
  {
   "property": "C122",
   "status": "partial",
   "theorems": [
    "Volmdlr.Gmsh.C122_mesh_partial",
    "Volmdlr.Gmsh.C122_missing",
    "Volmdlr.Gmsh.C122_counterexample"
   ],
   "note": "Proved when the node tags are 1, 2, 3… in the order of the file. The tags are otherwise ignored and the wrong points are taken (counterexample). A file without element of the kind raises KeyError (C122_missing)."
  },
  {
   "property": "C123",
   "status": "partial",
   "theorems": [
    "Volmdlr.Gmsh.C123_cells_partial",
    "Volmdlr.Gmsh.C123_points",
    "Volmdlr.Gmsh.C123_counterexample",
    "Volmdlr.Gmsh.C123_not_full",
    "Volmdlr.Gmsh.C123_quadratic_partial",
    "Volmdlr.Gmsh.C123_quadratic_counterexample"
   ],
   "note": "Points, counts and the cells of the six supported types proved. Counterexamples: no node on a dimension-0 entity raises KeyError, other element types are forgotten, the last two nodes of quadratic tetrahedra are not exchanged between gmsh's and VTK's conventions."
  },
  {
   "property": "C124",
   "status": "partial",
   "theorems": [
    "Volmdlr.Gmsh.C124_names_partial",
    "Volmdlr.Gmsh.C124_counterexample",
    "Volmdlr.Gmsh.C124_name_counterexample"
   ],
   "note": "The grouping by dimension and the names are proved for one-digit tags; the tag given to every name is the dimension of the first name of the section (counterexample), and names with two-digit tags are wrong (counterexample)."
  },
  {
   "property": "C125",
   "status": "partial",
   "theorems": [
    "Volmdlr.Gmsh.C125_entities_partial",
    "Volmdlr.Gmsh.C125_two_groups",
    "Volmdlr.Gmsh.C125_counterexample"
   ],
   "note": "Proved when each curve, surface and volume has at most one physical group; with two or more, the entity read is always wrong (C125_two_groups)."
  },
  {
   "property": "C126",
   "status": "partial",
   "theorems": [
    "Volmdlr.Geo.C126_describes_partial",
    "Volmdlr.Geo.C126_edges_once",
    "Volmdlr.Geo.C126_circle_counterexample",
    "Volmdlr.Geo.C126_arc_counterexample",
    "Volmdlr.Geo.C126_same_file_counterexample",
    "Volmdlr.Geo.C126_spline_counterexample",
    "Volmdlr.Geo.C126_well_formed"
   ],
   "note": "Well-formedness proved for every model. The description and the sharing are proved for segments and arcs shorter than a half circle whose points are separated by more than the tolerance. Counterexamples: a full circle is written as a loop {t, -t} that bounds nothing, an arc longer than a half circle gives the same file as the complementary arc, a B-spline is written as the segment between its first two sample points."
  },
  {
   "property": "C127",
   "status": "partial",
   "theorems": [
    "Volmdlr.Geo.C127_surface2d_partial",
    "Volmdlr.Geo.C127_face3d_partial",
    "Volmdlr.Geo.C127_repeated_counterexample",
    "Volmdlr.Geo.C127_circle_counterexample"
   ],
   "note": "Proved for polygons without a point repeated consecutively. Counterexamples: after a repeated consecutive point the following contours use the wrong lines; a circle is written as two arcs of exactly half a turn, which gmsh's Circle cannot describe."
  },
  {
   "property": "C128",
   "status": "partial",
   "theorems": [
    "Volmdlr.Geo.C128_fields_partial",
    "Volmdlr.Geo.C128_counterexample",
    "Volmdlr.Geo.C128_min_points"
   ],
   "note": "Definedness proved for every model; right volumes when the closed shells come first. Counterexample: after an open shell or another primitive the field is restricted to a volume that does not exist. With min_points every model with a closed shell raises AttributeError (C128_min_points)."
  },
  {
   "property": "C129",
   "status": "proved",
   "theorems": [
    "Volmdlr.Profile.C129_area",
    "Volmdlr.Profile.C129_measure"
   ],
   "note": "Proved for every closed contour of line segments and arcs (starts of consecutive primitives farther apart than the 1e-6 tolerance, is_trigo giving the direction of the polygon of the starts). C129_measure: for contours seen from a point, with the Lebesgue measure of the region (change of variables)."
  },
  {
   "property": "C130",
   "status": "partial",
   "theorems": [
    "Volmdlr.Profile.C130_centre_partial",
    "Volmdlr.Profile.C130_opposite",
    "Volmdlr.Profile.C130_counterexample",
    "Volmdlr.Profile.C130_measure_partial"
   ],
   "note": "Partial: proved when the contour turns as the polygon of the starts of its primitives; otherwise the result is the opposite point (C130_opposite). Counterexample: the disc of centre (2, 0) as two clockwise halves has the centre of mass (-2, 0). The tolerances (chord of an arc above 1e-15, polygon not flat) are hypotheses."
  },
  {
   "property": "C131",
   "status": "partial",
   "theorems": [
    "Volmdlr.Profile.C131_measure_partial",
    "Volmdlr.Profile.C131_circle_partial",
    "Volmdlr.Profile.C131_circle_sign",
    "Volmdlr.Profile.C131_circle_counterexample",
    "Volmdlr.Profile.C131_contour_partial",
    "Volmdlr.Profile.C131_contour_counterexample"
   ],
   "note": "Partial: right for the two axes of a circle, and for a contour about the common centre of its arcs. False otherwise: huygens2d has the wrong sign for the product of inertia (C131_circle_counterexample) and is applied from the centre of the circle as if it were the centre of mass (C131_contour_counterexample: the half disc of centre (0, 1) about the origin)."
  },
  {
   "property": "C132",
   "status": "proved",
   "theorems": [
    "Volmdlr.Profile.C132_area",
    "Volmdlr.Profile.C132_centre"
   ],
   "note": "Proved with the Lebesgue measure, for contours seen from a point; the centre of mass from those of the contours (C130)."
  },
  {
   "property": "C133",
   "status": "partial",
   "theorems": [
    "Volmdlr.Profile.C133_volume_signed",
    "Volmdlr.Profile.C133_volume_partial",
    "Volmdlr.Profile.C133_counterexample"
   ],
   "note": "Partial: proved for lengths that are not negative; for a negative length the value is the opposite of the measure (C133_volume_signed, C133_counterexample)."
  },
  {
   "property": "C134",
   "status": "partial",
   "theorems": [
    "Volmdlr.C134_matrix_never_misses_partial",
    "Volmdlr.C134_point_never_misses_partial",
    "Volmdlr.C134_degenerate_counterexample",
    "Volmdlr.C134_full_statement_counterexample"
   ],
   "note": "Partial because triangles with two equal vertices are skipped by the code (C134_degenerate_counterexample). For triangles with three different vertices (collinear ones included) it is proved for both classes. Roundings to 6 and 9 digits and the overflow of C ints are not modelled."
  },
  {
   "property": "C135",
   "status": "partial",
   "theorems": [
    "Volmdlr.C135_no_far_voxels_partial",
    "Volmdlr.C135_grid_planes_exact",
    "Volmdlr.C135_spurious_voxel_counterexample"
   ],
   "note": "Partial because the separating-axis test uses a radius that is too large on the edge axes (C44_converse_false): C135_spurious_voxel_counterexample."
  },
  {
   "property": "C136",
   "status": "proved",
   "theorems": [
    "Volmdlr.C136_order_irrelevant",
    "Volmdlr.C136_append_is_union",
    "Volmdlr.C136_subdivided_triangles_cover",
    "Volmdlr.C136_no_triangles"
   ],
   "note": ""
  },
  {
   "property": "C137",
   "status": "proved",
   "theorems": [
    "Volmdlr.C137_line_segment",
    "Volmdlr.C137_closed_polygon",
    "Volmdlr.C137_point_has_no_pixels"
   ],
   "note": "Roundings to 6 and 9 digits and the overflow of C ints are not modelled."
  },
  {
   "property": "C138",
   "status": "proved",
   "theorems": [
    "Volmdlr.C138_octree_never_misses",
    "Volmdlr.C138_octree_no_far_voxels",
    "Volmdlr.C138_octree_good",
    "Volmdlr.C138_octree_order_irrelevant"
   ],
   "note": "`math.ceil(math.log2(n))` is the exact ceiling; rounding to 9 digits is not modelled."
  },
  {
   "property": "C139",
   "status": "partial",
   "theorems": [
    "Volmdlr.C139_never_misses_partial",
    "Volmdlr.C139_no_far_faces",
    "Volmdlr.C139_shared_triangle_counterexample"
   ],
   "note": "Partial: the triangles are the keys of a dictionary, so a face whose triangles all occur in later faces of the shell is never reported (C139_shared_triangle_counterexample). Proved for shells in which no triangle belongs to two faces; that no far faces are reported is proved for all shells. Two shells without triangles raise an error."
  },
  {
   "property": "C140",
   "status": "proved",
   "theorems": [
    "Volmdlr.C140_is_intersecting",
    "Volmdlr.C140_same_grid"
   ],
   "note": "Exact arithmetic."
  },
  {
   "property": "C141",
   "status": "proved",
   "theorems": [
    "Volmdlr.C141_same_points",
    "Volmdlr.C141_all_merged"
   ],
   "note": "Exact arithmetic; the dictionary from sizes to sets of centres is a set of pairs."
  },
  {
   "property": "C142",
   "status": "proved",
   "theorems": [
    "Volmdlr.C142_layers",
    "Volmdlr.C142_inner_growing",
    "Volmdlr.C142_inner_growing_complete"
   ],
   "note": "Exact arithmetic. One step of growing; the loop of to_inner_growing_voxelizations (lines 2468-2504) is not modelled: with a minimal thickness that is not positive the old entry of a size all of whose voxels were merged is not overwritten, so its result can overlap."
  },
  {
   "property": "C143",
   "status": "partial",
   "theorems": [
    "Volmdlr.StepGeo.C143_point",
    "Volmdlr.StepGeo.C143_vertex",
    "Volmdlr.StepGeo.C143_direction",
    "Volmdlr.StepGeo.C143_vector_partial",
    "Volmdlr.StepGeo.C143_vector_counterexample",
    "Volmdlr.StepGeo.C143_frame_partial",
    "Volmdlr.StepGeo.C143_frame_counterexample",
    "Volmdlr.StepGeo.C143_line"
   ],
   "note": "Partial: a vector written with vector=True that is not of length 1 is read as v times its norm (C143_vector_counterexample); a left-handed frame is read with the other second axis (C143_frame_counterexample). Numbers are exact; the text of a number is not modelled."
  },
  {
   "property": "C144",
   "status": "partial",
   "theorems": [
    "Volmdlr.StepGeo.C144_same_circle",
    "Volmdlr.StepGeo.C144_weights_counterexample",
    "Volmdlr.StepGeo.C144_short_arc_counterexample",
    "Volmdlr.StepGeo.C144_edge_counterexample",
    "Volmdlr.StepGeo.C144_contour_partial",
    "Volmdlr.StepGeo.C144_edge_partial"
   ],
   "note": "Partial: the weights of rational B-spline curves are not written (C144_weights_counterexample); an arc whose ends are at most 1e-7 apart is read as a full circle (C144_short_arc_counterexample, C144_edge_counterexample). A B-spline curve of degree 1 with two points becomes the segment. Closed B-spline curves, reversed edges and contours that have to be reordered (C66) are not modelled here; that two edges of a contour are not the same one (direction_independent_is_close) is a parameter. C144_same_circle says what the same oriented circle means. ArcEllipse3D has no to_step."
  },
  {
   "property": "C145",
   "status": "partial",
   "theorems": [
    "Volmdlr.StepGeo.C145_surface_partial",
    "Volmdlr.StepGeo.C145_radius_counterexample"
   ],
   "note": "Partial: radii are written with four digits in millimetres; a cylinder of radius 1e-8 is read with radius 0 (C145_radius_counterexample). Weights of rational B-spline surfaces are not written. The simplification of revolution and B-spline surfaces after reading is not modelled."
  },
  {
   "property": "C146",
   "status": "proved",
   "theorems": [
    "Volmdlr.StepGeo.C146_face",
    "Volmdlr.StepGeo.C146_shell"
   ],
   "note": "The face is what Face3D.from_contours3d is called with; its parametric contour is not modelled. Numbers are exact. The flag of FACE_BOUND is ignored by the reader."
  },
  {
   "property": "C147",
   "status": "partial",
   "theorems": [
    "Volmdlr.StepGeo.C147_shared_partial",
    "Volmdlr.StepGeo.C147_apex_cones",
    "Volmdlr.StepGeo.C147_shared_counterexample"
   ],
   "note": "Partial: ConicalSurface3D.from_step moves the shared frame in place (surfaces.py:4157), so a cylinder at the placement of a cone with a radius is moved to its apex (C147_shared_counterexample). Proved when a shared placement is not the one of a cone with a radius; in particular for the files of the exporter (C147_apex_cones)."
  },
  {
   "property": "C148",
   "status": "proved",
   "theorems": [
    "Volmdlr.StepGeo.C148_entity",
    "Volmdlr.StepGeo.C148_units"
   ],
   "note": "Edges, loops, faces (read with tolerances) and VECTOR, LINE, extrusions (a vector may be a direction or a length) are not in the class. Exact arithmetic."
  },
  {
   "property": "C149",
   "status": "proved",
   "theorems": [
    "Volmdlr.C149_decompose_curve"
   ],
   "note": "Exact arithmetic; the knots are farther apart than the tolerance. number_max_patches is not modelled."
  },
  {
   "property": "C150",
   "status": "partial",
   "theorems": [
    "Volmdlr.C150_insert_partial",
    "Volmdlr.C150_insert_one_partial",
    "Volmdlr.C150_refused",
    "Volmdlr.C150_counterexample"
   ],
   "note": "Partial: proved when the knot is inserted up to the multiplicity of the degree (as split, extraction and refinement do). For fewer insertions the surface changes: knot_insertion returns arrays with wrong numbers of points for these and the net is read with the wrong stride (C150_counterexample)."
  },
  {
   "property": "C151",
   "status": "proved",
   "theorems": [
    "Volmdlr.C151_split_u",
    "Volmdlr.C151_split_v",
    "Volmdlr.C151_refused"
   ],
   "note": "Exact arithmetic; the parameter is a knot or farther than the tolerance from all knots."
  },
  {
   "property": "C152",
   "status": "proved",
   "theorems": [
    "Volmdlr.C152_decompose_u",
    "Volmdlr.C152_decompose_v",
    "Volmdlr.C152_decompose_surface"
   ],
   "note": "number_max_patches is not modelled. Exact arithmetic."
  },
  {
   "property": "C153",
   "status": "partial",
   "theorems": [
    "Volmdlr.C153_surface_curves",
    "Volmdlr.C153_extract_partial",
    "Volmdlr.C153_extract_counterexample",
    "Volmdlr.C153_extract_single_counterexample"
   ],
   "note": "Partial: the extracted curves are given the degree and the knots of the wrong direction, so it holds only for surfaces with the same degree and knots in both directions (C153_extract_counterexample); a list of one parameter gives its curve twice (C153_extract_single_counterexample)."
  },
  {
   "property": "C154",
   "status": "partial",
   "theorems": [
    "Volmdlr.C154_merge_partial",
    "Volmdlr.C154_refused",
    "Volmdlr.C154_degree_counterexample",
    "Volmdlr.C154_weights_counterexample"
   ],
   "note": "Partial: proved for curves of the same degree which join exactly with equal weights. With another degree (C154_degree_counterexample) or another weight at a joint (C154_weights_counterexample) the merged curve is another one; neither is refused."
  },
  {
   "property": "C155",
   "status": "partial",
   "theorems": [
    "Volmdlr.C155_refine_partial",
    "Volmdlr.C155_refused",
    "Volmdlr.C155_counterexample"
   ],
   "note": "Partial: every round of the u loop starts again from the given surface, so only the last u parameter is inserted (C155_counterexample). Exact arithmetic."
  },
  {
   "property": "C156",
   "status": "partial",
   "theorems": [
    "Volmdlr.Surface.C156_translation",
    "Volmdlr.Surface.C156_rotation_partial",
    "Volmdlr.Surface.C156_rotation_counterexample",
    "Volmdlr.Surface.C156_y_periodicity",
    "Volmdlr.Surface.C156_parametric_length",
    "Volmdlr.Surface.C156_frame",
    "Volmdlr.Surface.C156_total",
    "Volmdlr.Surface.C156_rotates",
    "Volmdlr.Surface.C156_points",
    "Volmdlr.Surface.C156_parametric",
    "Volmdlr.Surface.C156_roundtrip_partial",
    "Volmdlr.Surface.C156_roundtrip_segment",
    "Volmdlr.Surface.C156_roundtrip_line",
    "Volmdlr.Surface.C156_roundtrip_counterexample"
   ],
   "note": "Partial: frame, points, vectorised version and translation proved in full; the round trip for an edge in a half plane bounded by the axis (C156_roundtrip_counterexample: it fails on the hyperboloid of a line that does not meet the axis); the rotation about an axis through the origin (C156_rotation_counterexample: otherwise the axis of the surface, a vector, is turned like a point)."
  },
  {
   "property": "C157",
   "status": "partial",
   "theorems": [
    "Volmdlr.Surface.C157_frame",
    "Volmdlr.Surface.C157_points",
    "Volmdlr.Surface.C157_covers",
    "Volmdlr.Surface.C157_periodic",
    "Volmdlr.Surface.C157_parametric",
    "Volmdlr.Surface.C157_roundtrip_partial",
    "Volmdlr.Surface.C157_roundtrip_straight",
    "Volmdlr.Surface.C157_roundtrip_counterexample",
    "Volmdlr.Surface.C157_input_counterexample"
   ],
   "note": "Partial: the points, their coverage, the period and the vectorised version are proved up to the tolerances of the code (2e-7, 1.1e-6); the round trip for edges whose line_intersections finds a facing point, and for straight edges not almost parallel to the direction (C157_roundtrip_counterexample: inclined by a thousandth, point3d_to_2d raises). C157_input_counterexample: parametric_points_to_3d changes the array of the caller."
  },
  {
   "property": "C158",
   "status": "partial",
   "theorems": [
    "Volmdlr.Surface.C158_cone_line_partial",
    "Volmdlr.Surface.C158_cone_segment_partial",
    "Volmdlr.Surface.C158_cylinder_line",
    "Volmdlr.Surface.C158_cylinder_segment_partial",
    "Volmdlr.Surface.C158_sphere_partial",
    "Volmdlr.Surface.C158_cylinder_counterexample",
    "Volmdlr.Surface.C158_plane_counterexample",
    "Volmdlr.Surface.C158_sphere_counterexample"
   ],
   "note": "Partial: exact sets of points for lines that are oblique (not within tolerance of parallel or orthogonal) or parallel; inclusion for segments, and for arcs centred at the axis point. False in general: a segment parallel to the axis but not in front of the axis point gives a cylinder of a wrong radius (C158_cylinder_counterexample), a segment orthogonal to the axis a cone of half angle pi/2 (C158_plane_counterexample), an arc centred elsewhere on the axis a sphere at the axis point (C158_sphere_counterexample)."
  },
  {
   "property": "C159",
   "status": "partial",
   "theorems": [
    "Volmdlr.Shared.C159_disjoint",
    "Volmdlr.Shared.C159_oblique",
    "Volmdlr.Shared.C159_delete_partial",
    "Volmdlr.Shared.C159_delete_none",
    "Volmdlr.Shared.C159_shared_counterexample",
    "Volmdlr.Shared.C159_shared_partial"
   ],
   "note": "Partial: segments of one line whose ends are equal or more than the tolerance apart, plus oblique and clearly disjoint segments. False without these bounds: an overlap shorter than the tolerance is handled as a common end (C159_shared_counterexample)."
  },
  {
   "property": "C160",
   "status": "proved",
   "theorems": [
    "Volmdlr.TriCircle.C160_degenerate",
    "Volmdlr.TriCircle.C160_circumcircle",
    "Volmdlr.TriCircle.C160_incircle",
    "Volmdlr.TriCircle.C160_aspect_ratio",
    "Volmdlr.TriCircle.C160_ratios"
   ],
   "note": "Exact arithmetic. Proved in full."
  },
  {
   "property": "C161",
   "status": "proved",
   "theorems": [
    "Volmdlr.Display.C161_area",
    "Volmdlr.Display.C161_area_additive",
    "Volmdlr.Display.C161_resize",
    "Volmdlr.Display.C161_area_rigid",
    "Volmdlr.Display.C161_area2",
    "Volmdlr.Display.C161_remove_large",
    "Volmdlr.Display.C161_minimum_distance",
    "Volmdlr.Display.C161_closest_points",
    "Volmdlr.Display.C161_bounding_box"
   ],
   "note": "cKDTree.query is specified (one nearest row each), not modelled."
  },
  {
   "property": "C162",
   "status": "partial",
   "theorems": [
    "Volmdlr.Display.C162_to_triangles_partial",
    "Volmdlr.Display.C162_counterexample"
   ],
   "note": "Partial: triangles with sides over one thousandth. False in general: the tolerance 1e-6 is compared with squared distances, so every triangle with a side of a millimetre or less is dropped (C162_counterexample)."
  },
  {
   "property": "C163",
   "status": "partial",
   "theorems": [
    "Volmdlr.Wire.C163_every_edge_once",
    "Volmdlr.Wire.C163_chains",
    "Volmdlr.Wire.C163_maximal",
    "Volmdlr.Wire.C163_length",
    "Volmdlr.Wire.C163_one_wire",
    "Volmdlr.Wire.C163_list_emptied_counterexample",
    "Volmdlr.Wire.C163_maximal_counterexample"
   ],
   "note": "The last sentence is false: the caller's list is emptied as soon as it has two edges (C163_list_emptied_counterexample). A later wire may end in the middle of an earlier one (C163_maximal_counterexample). Everything else is proved."
  },
  {
   "property": "C164",
   "status": "proved",
   "theorems": [
    "Volmdlr.Wire.C164_split_with_two_points",
    "Volmdlr.Wire.C164_symmetric",
    "Volmdlr.Wire.C164_no_exception",
    "Volmdlr.Wire.C164_extract"
   ],
   "note": "The methods split and trim of the edges are specified (the part before a point is absent when it is the start), not modelled here. Proved in full."
  },
  {
   "property": "C165",
   "status": "partial",
   "theorems": [
    "Volmdlr.Wire.C165_open_wire",
    "Volmdlr.Wire.C165_contour",
    "Volmdlr.Wire.C165_points_changed_counterexample"
   ],
   "note": "The last sentence is false: the end of an open wire is appended to the caller's list when this contains its start and not its end (C165_points_changed_counterexample). For a contour, the last section is proved when its ordering succeeds."
  },
  {
   "property": "C166",
   "status": "partial",
   "theorems": [
    "Volmdlr.Wire.C166_every_edge_once",
    "Volmdlr.Wire.C166_simple_contours",
    "Volmdlr.Wire.C166_closed_contours",
    "Volmdlr.Wire.C166_simple_counterexample"
   ],
   "note": "Simplicity needs edges whose two extremities differ: with a closed edge in the list a contour can be a closed edge followed by an open chain (C166_simple_counterexample). It is proved for the default tolerance and when closeness is transitive on the extremities; is_superposing and direction_independent_is_close are parameters, the latter with the property of its extremities."
  },
  {
   "property": "C167",
   "status": "partial",
   "theorems": [
    "Volmdlr.Hull.C167_point_raises",
    "Volmdlr.Hull.C167_is_convex_iff",
    "Volmdlr.Hull.C167_convex_accepted",
    "Volmdlr.Hull.C167_convex_if_turns_once_partial",
    "Volmdlr.Hull.C167_quadrilateral",
    "Volmdlr.Hull.C167_star_counterexample"
   ],
   "note": "False: only the turns at the vertices are tested, so that a star with five branches is found convex (C167_star_counterexample). Proved: what the answer means in terms of the turns (C167_is_convex_iff); every polygon in convex position is accepted; a polygon accepted which turns once is in convex position; the equivalence for at most four vertices."
  },
  {
   "property": "C168",
   "status": "partial",
   "theorems": [
    "Volmdlr.Hull.C168_never_false_counterexample",
    "Volmdlr.Hull.C168_index_error",
    "Volmdlr.Hull.C168_true_partial",
    "Volmdlr.Hull.C168_self_intersects_counterexample",
    "Volmdlr.Hull.C168_polygon_distance_partial",
    "Volmdlr.Hull.C168_polygon_distance_raises",
    "Volmdlr.Hull.C168_polygon_distance_counterexample"
   ],
   "note": "False: self_intersects takes indices in the sorted list for neighbours in the polygon and tests segments with a common end: for points of which no three are aligned it never answers False (C168_never_false_counterexample), and it raises IndexError exactly when the last point from left to right is not the last of the list. polygon_distance only looks at the first vertex. Proved: the two segments given do meet; polygon_distance is the distance of the first vertex to the nearest vertex of the other."
  },
  {
   "property": "C169",
   "status": "partial",
   "theorems": [
    "Volmdlr.Unwrap.C169_discontinuities_partial",
    "Volmdlr.Unwrap.C169_counterexample"
   ],
   "note": "False for half a turn (C169_counterexample: from pi to -pi/2, a quarter of a turn, is missed). Proved when successive points are less than 10/21 of half a turn apart."
  },
  {
   "property": "C170",
   "status": "partial",
   "theorems": [
    "Volmdlr.Unwrap.C170_counterexample",
    "Volmdlr.Unwrap.C170_second_coordinate_counterexample",
    "Volmdlr.Unwrap.C170_unwrap_partial"
   ],
   "note": "False for a curve which winds twice, such as a helix: the second jump is not seen after the first one is repaired (C170_counterexample); and for the second coordinate of a torus, whose indices are searched again among the first coordinates (C170_second_coordinate_counterexample). Proved, with termination of the loop, when the angle stays within one turn of the first period, with any number of jumps."
  },
  {
   "property": "C171",
   "status": "partial",
   "theorems": [
    "Volmdlr.Unwrap.C171_repair_partial",
    "Volmdlr.Unwrap.C171_counterexample"
   ],
   "note": "False: pi/2 is sent to -pi/2 when the reference is negative (C171_counterexample). Proved: if the reference is the angle of a point of the edge less than a quarter of a turn away, and the edge leaves the period at the end itself or not at all, the angle returned is the one continuous with the reference."
  },
  {
   "property": "C172",
   "status": "proved",
   "theorems": [
    "Volmdlr.Unwrap.C172_arc",
    "Volmdlr.Unwrap.C172_toroidal_arc"
   ],
   "note": "Proved from the reduced angles of the ends and of the reference points, and from the exact flags (an end is on the seam; the seam is inside the arc). Tolerances of the flags (1e-6) are not modelled."
  },
  {
   "property": "C173",
   "status": "proved",
   "theorems": [
    "Volmdlr.Unwrap.C173_full_arc"
   ],
   "note": "Exact in the positive direction; within the tolerance 1e-6 of the test in the negative one."
  },
  {
   "property": "C174",
   "status": "proved",
   "theorems": [
    "Volmdlr.Iso.C174_cylinder_rule",
    "Volmdlr.Iso.C174_cylinder_arc",
    "Volmdlr.Iso.C174_cylinder_full",
    "Volmdlr.Iso.C174_cone_rule",
    "Volmdlr.Iso.C174_cone_arc",
    "Volmdlr.Iso.C174_cone_full"
   ],
   "note": "Proved in a direct orthonormal frame for angles outside of the tolerance bands. On a cone the test of belonging of the arc is a parameter, assumed to accept the points of the arc. Oblique segments (a curve through ten points, or the intersection of the cone with a plane) are not covered."
  },
  {
   "property": "C175",
   "status": "partial",
   "theorems": [
    "Volmdlr.Iso.C175_meridian_arc",
    "Volmdlr.Iso.C175_parallel_arc",
    "Volmdlr.Iso.C175_full_turn_partial",
    "Volmdlr.Iso.C175_full_turn_counterexample"
   ],
   "note": "Proved for less than a turn, off the axis (also where the parallel of a spindle torus is on the other side of the axis). False for whole turns (C175_full_turn_counterexample: at the top of the torus the full arc starts at a point which is not on its circle); proved for whole turns from the angle zero."
  },
  {
   "property": "C176",
   "status": "partial",
   "theorems": [
    "Volmdlr.Iso.C176_half_turn_partial",
    "Volmdlr.Iso.C176_sixth_counterexample",
    "Volmdlr.Iso.C176_counterexample"
   ],
   "note": "False: the frame of the circle is made of the directions of the start and of the middle, which are not perpendicular: the sixth of a meridian gives an arc of half a turn (C176_sixth_counterexample, whatever the test of belonging answers). Proved for half turns of meridians and of the equator."
  },
  {
   "property": "C177",
   "status": "proved",
   "theorems": [
    "Volmdlr.SetOps.C177_union_list",
    "Volmdlr.SetOps.C177_points",
    "Volmdlr.SetOps.C177_empty"
   ],
   "note": "The union of two shells and merge_faces are parameters, assumed to do their work (shells apart are given back, shells that share a point give one shell of the points of both)."
  },
  {
   "property": "C178",
   "status": "partial",
   "theorems": [
    "Volmdlr.SetOps.C178_union",
    "Volmdlr.SetOps.C178_intersection",
    "Volmdlr.SetOps.C178_subtract_to_closed",
    "Volmdlr.SetOps.C178_subtract_partial",
    "Volmdlr.SetOps.C178_subtract_counterexample",
    "Volmdlr.SetOps.C178_disjoint_boxes"
   ],
   "note": "Proved for union, intersection and subtract_to_closed_shell, given tests that are right and a cut of the faces that is right when no case is settled; the test of the boxes is proved sound. False for subtract, which uses the cases of the union: proved wrong in exactly these cases (C178_subtract_partial, C178_subtract_counterexample)."
  },
  {
   "property": "C179",
   "status": "partial",
   "theorems": [
    "Volmdlr.SetOps.C179_point_belongs_partial",
    "Volmdlr.SetOps.C179_counterexample"
   ],
   "note": "Proved when one of the rays does not meet the shell twice at the same place, given the parity of clean rays. False when all the rays meet an edge: the count cut short is used (C179_counterexample)."
  },
  {
   "property": "C180",
   "status": "partial",
   "theorems": [
    "Volmdlr.SetOps.C180_valid_faces_partial",
    "Volmdlr.SetOps.C180_order",
    "Volmdlr.SetOps.C180_counterexample"
   ],
   "note": "Proved except that a face lying in a later one is kept (C180_counterexample); proved in full for lists where lying in goes with the order (C180_order)."
  },
  {
   "property": "C181",
   "status": "proved",
   "theorems": [
    "Volmdlr.SetOps.C181_merge_faces",
    "Volmdlr.SetOps.C181_points",
    "Volmdlr.SetOps.C181_clean_error"
   ],
   "note": "Given that being coincident is an equivalence, that lying in needs coincident surfaces and that merging stays on the surface. clean_faces on its own fails on a face lying in two others (C181_clean_error)."
  },
  {
   "property": "C182",
   "status": "partial",
   "theorems": [
    "Volmdlr.SetOps.C182_merge_coplanar_partial",
    "Volmdlr.SetOps.C182_counterexample"
   ],
   "note": "Proved when two faces are attached exactly when they share a point. False with the tests of the code: a face lying in another without a common edge is sorted before it and not attached (C182_counterexample)."
  },
  {
   "property": "C183",
   "status": "partial",
   "theorems": [
    "Volmdlr.Motion.C183_points",
    "Volmdlr.Motion.C183_circle_partial",
    "Volmdlr.Motion.C183_arc_partial",
    "Volmdlr.Motion.C183_full_arc_partial",
    "Volmdlr.Motion.C183_near_centre",
    "Volmdlr.Motion.C183_counterexample"
   ],
   "note": "Proved where no coordinate of the moved frame and ends is rounded to zero (SharpFrame, SharpPoint) and the centre of rotation is the centre of the circle or not within 1e-6 of it. Otherwise false: a rotation about a point within 1e-6 of the centre turns the ends but leaves the centre (C183_counterexample; C183_near_centre bounds the gap by 2e-6)."
  },
  {
   "property": "C184",
   "status": "partial",
   "theorems": [
    "Volmdlr.Motion.C184_surfaces_partial"
   ],
   "note": "Proved where no coordinate of the moved frame is rounded to zero, and with the centre condition of C183."
  },
  {
   "property": "C185",
   "status": "partial",
   "theorems": [
    "Volmdlr.Motion.C185_points",
    "Volmdlr.Motion.C185_circle_points",
    "Volmdlr.Motion.C185_circle_partial",
    "Volmdlr.Motion.C185_circle_counterexample",
    "Volmdlr.Motion.C185_arc_turned",
    "Volmdlr.Motion.C185_arc_partial"
   ],
   "note": "Arcs: proved for translations, mappings and rotations about the own centre for all ends (C185_arc_turned), and for other centres when the angles are not in the snapping zone of sin_cos_angle (C185_arc_partial). Circles as curves: false for a rotation about another centre, the start of the circle is not turned (C185_circle_counterexample); as sets of points carried along always (C185_circle_points)."
  },
  {
   "property": "C186",
   "status": "partial",
   "theorems": [
    "Volmdlr.Motion.C186_ellipse2",
    "Volmdlr.Motion.C186_ellipse3_partial"
   ],
   "note": "Plane: proved without restriction. Space: where nothing of the frame is rounded to zero."
  },
  {
   "property": "C187",
   "status": "partial",
   "theorems": [
    "Volmdlr.Motion.C187_curve_affine",
    "Volmdlr.Motion.C187_surface_affine",
    "Volmdlr.Motion.C187_moves",
    "Volmdlr.Motion.C187_curve_partial",
    "Volmdlr.Motion.C187_symmetry_partial",
    "Volmdlr.Motion.C187_symmetry_counterexample"
   ],
   "note": "Moves: proved for every affine map of well-formed splines (C187_curve_affine, C187_surface_affine), and for the moves of points of the code where nothing is rounded. axial_symmetry reads the knots from the end but not the control points: proved for knots that read the same from the end (C187_symmetry_partial), false otherwise (C187_symmetry_counterexample)."
  },
  {
   "property": "C188",
   "status": "proved",
   "theorems": [
    "Volmdlr.Search.C188_discretization",
    "Volmdlr.Search.C188_coverage"
   ],
   "note": "An edge is its length, its points by abscissa and its abscissas by points; point_at_abscissa never fails in the model."
  },
  {
   "property": "C189",
   "status": "partial",
   "theorems": [
    "Volmdlr.Search.C189_ends",
    "Volmdlr.Search.C189_answer",
    "Volmdlr.Search.C189_unbound",
    "Volmdlr.Search.C189_counterexample"
   ],
   "note": "The end of the search and what is answered are proved; the exception for equal ends of an edge that is not periodic too (C189_unbound). False: a point of the edge can be much nearer than the answer, only chords of the first turn are looked at (C189_counterexample)."
  },
  {
   "property": "C190",
   "status": "partial",
   "theorems": [
    "Volmdlr.Search.C190_distance_reached",
    "Volmdlr.Search.C190_distance_partial",
    "Volmdlr.Search.C190_distance_counterexample",
    "Volmdlr.Search.C190_line_partial",
    "Volmdlr.Search.C190_line_counterexample",
    "Volmdlr.Search.C190_line_end_counterexample"
   ],
   "note": "Always: points within the tolerance of the segments, and their distance (C190_distance_reached). Right when the common perpendicular meets both (C190_distance_partial, C190_line_partial). False for overlapping collinear segments (C190_distance_counterexample), a parallel line (C190_line_counterexample) and when an end is the nearest point (C190_line_end_counterexample)."
  },
  {
   "property": "C191",
   "status": "partial",
   "theorems": [
    "Volmdlr.Search.C191_answer",
    "Volmdlr.Search.C191_points_distance",
    "Volmdlr.Search.C191_counterexample",
    "Volmdlr.Search.C191_partial"
   ],
   "note": "Proved: the distance is that of the points answered, which are points of the edges or within the tolerance of chords. False: the points come in the other order when the starts of the parts are the nearest (C191_counterexample)."
  },
  {
   "property": "C192",
   "status": "partial",
   "theorems": [
    "Volmdlr.Search.C192_partial",
    "Volmdlr.Search.C192_small",
    "Volmdlr.Search.C192_counterexample"
   ],
   "note": "Assumption: the clustering of scikit-learn meets its specification. Proved for at least two points, none the origin. False for one point, an exception (C192_counterexample, C192_small)."
  },
  {
   "property": "C193",
   "status": "proved",
   "theorems": [
    "Volmdlr.Search.C193_center_of_mass",
    "Volmdlr.Search.C193_order",
    "Volmdlr.Search.C193_empty",
    "Volmdlr.Search.C193_convex"
   ],
   "note": "An empty list is a division by zero (C193_empty)."
  },
  {
   "property": "C194",
   "status": "proved",
   "theorems": [
    "Volmdlr.Topo.C194_vertices"
   ],
   "note": "Points, edges and closeness are abstract (a kit); the tolerance is any symmetric and reflexive relation."
  },
  {
   "property": "C195",
   "status": "partial",
   "theorems": [
    "Volmdlr.Topo.C195_faces_graph_partial",
    "Volmdlr.Topo.C195_empty_face",
    "Volmdlr.Topo.C195_counterexample"
   ],
   "note": "Proved for closed contours and vertices either within the tolerance or well apart (C195_faces_graph_partial). False otherwise: near vertices can have different indices (C195_counterexample)."
  },
  {
   "property": "C196",
   "status": "partial",
   "theorems": [
    "Volmdlr.Topo.C196_bridges_partial",
    "Volmdlr.Topo.C196_counterexample"
   ],
   "note": "Proved: the edges kept and added, and that at least one bridge is made when a face of a component touches one of a later component. False that faces that touch are joined: only the vertices of later components are tested (C196_counterexample). nx.connected_components is a function with the specification IsComponents."
  },
  {
   "property": "C197",
   "status": "partial",
   "theorems": [
    "Volmdlr.Topo.C197_open_partial",
    "Volmdlr.Topo.C197_counterexample"
   ],
   "note": "Proved for the faces that share a vertex with another one, over the contours of those faces (C197_open_partial, same hypotheses as C195). False for a face alone, which is said to be closed (C197_counterexample)."
  },
  {
   "property": "C198",
   "status": "partial",
   "theorems": [
    "Volmdlr.Topo.C198_from_faces_partial",
    "Volmdlr.Topo.C198_counterexample"
   ],
   "note": "Proved for the faces that share a vertex with another one (C198_from_faces_partial). False for a face alone: it is in no shell (C198_counterexample)."
  },
  {
   "property": "C199",
   "status": "partial",
   "theorems": [
    "Volmdlr.Topo.C199_history_partial",
    "Volmdlr.Topo.C199_counterexample",
    "Volmdlr.Topo.C199_flag_counterexample"
   ],
   "note": "Proved when vertices_graph is asked before faces_graph and the flag of faces_graph is always the same (C199_history_partial). False otherwise: vertices_graph looks at _faces_graph and gives None after faces_graph (C199_counterexample), and the flag of the first call is kept (C199_flag_counterexample)."
  },
  {
   "property": "C200",
   "status": "proved",
   "theorems": [
    "Volmdlr.Near.C200_groups",
    "Volmdlr.Near.C200_kept",
    "Volmdlr.Near.C200_lost"
   ],
   "note": "A face is what has a bounding box."
  },
  {
   "property": "C201",
   "status": "partial",
   "theorems": [
    "Volmdlr.Near.C201_shells_partial",
    "Volmdlr.Near.C201_counterexample"
   ],
   "note": "Proved (C201_shells_partial): the answer is the distance of the faces of two groups whose sampled points are the nearest, realized by points of the two shells; the distance of the shells when each has one group. False in general: a large face is sampled on its border only (C201_counterexample). face_minimum_distance is a parameter, supposed right."
  },
  {
   "property": "C202",
   "status": "partial",
   "theorems": [
    "Volmdlr.Near.C202_face_point_partial",
    "Volmdlr.Near.C202_counterexample"
   ],
   "note": "Proved for one group: in general the nearest triangle of one group (C202_face_point_partial). False: the group is the nearest to (x, x, x) instead of (x, y, z) (C202_counterexample)."
  },
  {
   "property": "C203",
   "status": "partial",
   "theorems": [
    "Volmdlr.Near.C203_shell_point_partial",
    "Volmdlr.Near.C203_counterexample"
   ],
   "note": "Proved for a point out of the box of the shell (C203_shell_point_partial). False for a point in the box, whose distance to the border of the box is used as if it was a lower bound (C203_counterexample)."
  },
  {
   "property": "C204",
   "status": "partial",
   "theorems": [
    "Volmdlr.Near.C204_plane_face_point_partial",
    "Volmdlr.Near.C204_outside",
    "Volmdlr.Near.C204_counterexample"
   ],
   "note": "In the frame of the plane. Proved for faces without holes (C204_plane_face_point_partial), and for projections out of the outer contour (C204_outside). False above a hole (C204_counterexample)."
  },
  {
   "property": "C205",
   "status": "partial",
   "theorems": [
    "Volmdlr.Near.C205_plane_faces_partial",
    "Volmdlr.Near.C205_counterexample"
   ],
   "note": "Proved: the answer is a common point of the first face and the border of the second, or the distance of the borders (C205_plane_faces_partial). False that it is the distance of the faces: a small face above the inside of a large one (C205_counterexample). Distances of edges and intersections are parameters, supposed right."
  },
  {
   "property": "C206",
   "status": "partial",
   "theorems": [
    "Volmdlr.Near.C206_segments_partial",
    "Volmdlr.Near.C206_counterexample"
   ],
   "note": "Proved (C206_segments_partial): the distance, and two points at this distance, up to their order. False for the order: when an end of the first segment is the nearest, the point of the second comes first (C206_counterexample). linesegment_intersections is a parameter, supposed right."
  },
  {
   "property": "C207",
   "status": "proved",
   "theorems": [
    "Volmdlr.Near.C207_segment_line"
   ],
   "note": "line_intersections and point_belongs are parameters, supposed right."
  },
  {
   "property": "C208",
   "status": "proved",
   "theorems": [
    "Volmdlr.Arc.C208_angles",
    "Volmdlr.Arc.C208_points"
   ],
   "note": "The angles add up for ends out of the tolerance band of sin_cos_angle (C54)."
  },
  {
   "property": "C209",
   "status": "partial",
   "theorems": [
    "Volmdlr.Arc.C209_infinite_primitive_partial",
    "Volmdlr.Arc.C209_none",
    "Volmdlr.Arc.C209_counterexample"
   ],
   "note": "Proved when the new radius is positive (C209_infinite_primitive_partial), and None exactly beyond the centre for the clockwise direction (C209_none). False in the direct direction: a circle of negative radius is built (C209_counterexample)."
  },
  {
   "property": "C210",
   "status": "partial",
   "theorems": [
    "Volmdlr.Arc.C210_axial_symmetry_partial",
    "Volmdlr.Arc.C210_counterexample"
   ],
   "note": "False: the circle is kept with its direction (C210_counterexample). For a line by the centre the answer is exactly the symmetric of the complementary arc (C210_axial_symmetry_partial); for other lines the ends are not on the circle."
  },
  {
   "property": "C211",
   "status": "partial",
   "theorems": [
    "Volmdlr.Wire.C211_contour_offset_partial",
    "Volmdlr.Wire.C211_counterexample"
   ],
   "note": "Proved when successive sides are not parallel (C211_contour_offset_partial), with the refusal exactly when two successive points are the same. False for open wires: the last side is cut with the first one, so a wire of two sides is always refused (C211_counterexample). Contours with arcs are not modelled: Arc2D.cut_between_two_points mostly raises NotImplementedError."
  },
  {
   "property": "C212",
   "status": "partial",
   "theorems": [
    "Volmdlr.Surface.C212_cone_partial",
    "Volmdlr.Surface.C212_two_cones_partial",
    "Volmdlr.Surface.C212_cylinder_partial",
    "Volmdlr.Surface.C212_ring_partial",
    "Volmdlr.Surface.C212_two_sectors_partial",
    "Volmdlr.Surface.C212_counterexample"
   ],
   "note": "Proved for a cone, also with an end on the axis (C212_cone_partial), for a segment through the axis (C212_two_cones_partial), a cylinder (C212_cylinder_partial), a part of a ring (C212_ring_partial) and two sectors (C212_two_sectors_partial). False: a segment orthogonal to the axis that starts on it gives the sector on the other side of the axis (C212_counterexample). The intersection of the line with the axis, point_belongs and is_colinear_to are parameters given by their meaning; planar faces are sets of points instead of contours."
  },
  {
   "property": "C213",
   "status": "partial",
   "theorems": [
    "Volmdlr.Surface.C213_extrusion_partial",
    "Volmdlr.Surface.C213_area_partial",
    "Volmdlr.Surface.C213_counterexample"
   ],
   "note": "The points are proved for each vector (C213_extrusion_partial). The area is the right one exactly for a vector orthogonal to the segment, and too large else (C213_area_partial, C213_counterexample): the frame of the plane is not orthonormal."
  },
  {
   "property": "C214",
   "status": "partial",
   "theorems": [
    "Volmdlr.Surface.C214_extrusion_partial"
   ],
   "note": "Proved for vectors exactly along the normal (C214_extrusion_partial); is_colinear_to is a parameter, and vectors along the normal only within its tolerance are not covered."
  },
  {
   "property": "C215",
   "status": "partial",
   "theorems": [
    "Volmdlr.Surface.C215_revolution_partial",
    "Volmdlr.Surface.C215_counterexample"
   ],
   "note": "Proved when the axis is in the plane of the circle (C215_revolution_partial). False else: the test is only that the normal is orthogonal to the radius from the axis, so a circle in a plane orthogonal to the axis gives a part of a torus (C215_counterexample)."
  },
  {
   "property": "C216",
   "status": "partial",
   "theorems": [
    "Volmdlr.Surface.C216_revolution_partial"
   ],
   "note": "Proved for arcs in a plane with the axis (C216_revolution_partial); the angle of the start on the torus (point3d_to_2d) is a parameter given by its meaning. Arcs in other planes with the normal orthogonal to the radius are not refused, as in C215."
  },
  {
   "property": "C217",
   "status": "partial",
   "theorems": [
    "Volmdlr.Surface.C217_sphere_partial",
    "Volmdlr.Surface.C217_half_circle_counterexample",
    "Volmdlr.Surface.C217_side_counterexample"
   ],
   "note": "False: the sign of the angle of the arc is opposite to the one used for the torus, so the face is on the wrong side of the start (C217_side_counterexample): it is exactly the part swept by the arc of the opposite direction (C217_sphere_partial). A half circle with its ends on the axis raises, as middle_point is used without call (C217_half_circle_counterexample)."
  },
  {
   "property": "C218",
   "status": "partial",
   "theorems": [
    "Volmdlr.Surface.C218_extrusion_partial"
   ],
   "note": "Proved for vectors exactly along the normal and an orthonormal frame (C218_extrusion_partial). is_colinear_to, which has a tolerance, and the two angles of the arc of the plane are parameters; angles are compared exactly."
  },
  {
   "property": "C219",
   "status": "partial",
   "theorems": [
    "Volmdlr.Scene.C219_first_edges",
    "Volmdlr.Scene.C219_volume_partial",
    "Volmdlr.Scene.C219_bounded",
    "Volmdlr.Scene.C219_volume_counterexample"
   ],
   "note": "False in general: only the first edge of the first wire of the intersection of two faces is read (C219_volume_counterexample); C219_first_edges says what the box is for every pair, and C219_volume_partial proves the claim when two faces cross along at most one edge. The bound C219_bounded holds for every pair. face_intersections, discretization_points and point_belongs are parameters; a wire without edges (IndexError) is modelled but excluded."
  },
  {
   "property": "C220",
   "status": "partial",
   "theorems": [
    "Volmdlr.Arc.C220_residual",
    "Volmdlr.Arc.C220_points",
    "Volmdlr.Arc.C220_distance_partial",
    "Volmdlr.Arc.C220_distance_counterexample"
   ],
   "note": "False even with an ideal least_squares: the first candidate mixes the point of the segment of one solution with the point of the circle of another, and the later solutions replace it only when they are nearer than v.dot(v) = 1 (C220_distance_counterexample). C220_points: the points are always on the segment and on the circle. C220_distance_partial: the pair is a closest one when the distance is less than one or the solutions agree. C220_residual: the residual is the square of the distance. least_squares is a parameter, reals for floats; arcs, which share the function, are not covered."
  }
 ]
}