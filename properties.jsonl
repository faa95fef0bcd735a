{"id": "C01", "title": "Rotations are rigid motions", "statement": "Point/Vector rotation (2D about a centre, 3D about a unit axis through a centre) preserves every distance and dot product, fixes the centre (and the axis), is undone by the opposite angle, and two successive rotations about the same centre/axis equal one rotation by the sum of the angles.", "quantifier": "all points, all centres, all unit axes, all real angles", "why_tests_cant": "distances and compositions range over a continuum of points and angles; tests sample a handful", "anchors": ["volmdlr/core_compiled.pyx: Vector2D.rotation_parameters, Vector2D.rotation, vector3d_rotation, Vector3D.rotation"]}
{"id": "C02", "title": "x/y/z_rotation agree with rotation about the coordinate axes", "statement": "Vector3D.x_rotation / y_rotation / z_rotation by an angle about the origin gives the same point as Vector3D.rotation about the X, Y or Z axis by the same angle.", "quantifier": "all vectors and all real angles", "why_tests_cant": "two independent code paths must agree for every angle; tests at 0 and pi cannot tell the sense of rotation apart", "anchors": ["volmdlr/core_compiled.pyx: Vector3D.x_rotation, y_rotation, z_rotation, rotation"]}
{"id": "C03", "title": "Frames: local/global coordinates are inverse to each other", "statement": "For every frame whose basis is invertible in the sense accepted by the library, local_to_global_coordinates(global_to_local_coordinates(p)) = p and the converse; frame_mapping(frame,'new') undoes frame_mapping(frame,'old'); for orthonormal bases the mapping preserves distances; any other side raises ValueError.", "quantifier": "all frames (origin and three basis vectors), all points, all side strings", "why_tests_cant": "the frame space is 12-dimensional and the accept/reject threshold on the determinant matters at its boundary", "anchors": ["volmdlr/core_compiled.pyx: Frame3D.local_to_global_coordinates, global_to_local_coordinates, Vector3D.frame_mapping, Matrix33.inverse"]}
{"id": "C04", "title": "Frame algebra: +, - and unary minus are composition, decomposition and inverse", "statement": "frame1 + frame2 is the frame whose local-to-global map is the composition of both; (frame1 + frame2) - frame2 gives back frame1; -frame is the inverse transformation.", "quantifier": "all pairs of frames with invertible basis, all points", "why_tests_cant": "algebraic laws over a 24-dimensional space of pairs of frames", "anchors": ["volmdlr/core_compiled.pyx: Frame3D.__add__, __sub__, __neg__, Basis3D.__add__, __sub__, __neg__"]}
{"id": "C05", "title": "Matrix inverse is a two-sided inverse or an error", "statement": "Matrix22/Matrix33.inverse either raises ValueError exactly when |det| is below the documented threshold or returns a matrix whose product with the original on both sides is the identity; the determinant is multiplicative.", "quantifier": "all 2x2 and 3x3 matrices", "why_tests_cant": "determinant thresholds and 9 free coefficients", "anchors": ["volmdlr/core_compiled.pyx: Matrix22, Matrix33"]}
{"id": "C06", "title": "Projection on a plane and 2D/3D round trip", "statement": "plane_projection3d of a point lies in the plane spanned at the origin by x and y, the difference to the point is orthogonal to the plane (orthonormal x,y), projecting twice changes nothing, and Point2D.to_3d then to_2d is the identity.", "quantifier": "all points, all origins, all orthonormal pairs x,y", "why_tests_cant": "continuum of planes", "anchors": ["volmdlr/core_compiled.pyx: Vector3D.plane_projection3d, plane_projection2d, Point3D.to_2d, Point2D.to_3d"]}
{"id": "C07", "title": "Point to line segment distance is the minimum over the segment", "statement": "linesegment2d_point_distance / linesegment3d_point_distance return a point of the segment and its distance to the query point, and no point of the segment is closer.", "quantifier": "all non-degenerate segments and all query points, in 2D and 3D", "why_tests_cant": "a minimum over a continuum of segment points", "anchors": ["volmdlr/core_compiled.pyx: c_linesegment2d_point_distance, c_linesegment3d_point_distance"]}
{"id": "C08", "title": "Distance between two 3D line segments is the minimum", "statement": "LineSegment3DDistance returns one point on each segment, the distance between them, and no pair of points of the two segments is closer.", "quantifier": "all pairs of 3D segments", "why_tests_cant": "minimum over a two-parameter continuum, with degenerate (parallel, zero-length) cases", "anchors": ["volmdlr/core_compiled.pyx: CLineSegment3DDistance, LineSegment3DDistance"]}
{"id": "C09", "title": "2D line intersection lies on both lines; segment intersection lies on both segments", "statement": "Point2D.line_intersection returns a point on both lines exactly when they are not parallel, and that point is the only common one; Point2D.segment_intersection returns a point only if it belongs to both segments.", "quantifier": "all pairs of 2D lines / segments", "why_tests_cant": "quantifies over all quadruples of points", "anchors": ["volmdlr/core_compiled.pyx: Point2D.line_intersection, Point2D.segment_intersection"]}
{"id": "C10", "title": "Line projection and axial symmetry", "statement": "Point2D.line_projection gives the closest point of the line; axial_symmetry is an involution, preserves distances and fixes exactly the points of the line.", "quantifier": "all lines and points of the plane", "why_tests_cant": "continuum of lines and points", "anchors": ["volmdlr/core_compiled.pyx: Point2D.line_projection, Point2D.axial_symmetry"]}
{"id": "C11", "title": "nearest_point returns an element of the list at minimum distance", "statement": "nearest_point on a non-empty list returns one of the given points, no other element is strictly closer; the documented tie-breaking is the first one found.", "quantifier": "all points and all lists of any length", "why_tests_cant": "unbounded lists", "anchors": ["volmdlr/core_compiled.pyx: Point2D.nearest_point, Point3D.nearest_point"]}
{"id": "C12", "title": "Removing duplicates loses no distinct point", "statement": "remove_duplicate / delete_double_point return a sublist in which every input point still has an equal (or close) representative and no two kept points are equal.", "quantifier": "all lists of points", "why_tests_cant": "a hash collision between different points is found only by adversarial inputs", "anchors": ["volmdlr/core_compiled.pyx: Vector.remove_duplicate, approx_hash", "volmdlr/core.py: delete_double_point, point_in_list, element_in_list"]}
{"id": "C13", "title": "Equality and hashing agree", "statement": "Objects that compare equal have the same hash and equality is an equivalence relation for points, FE nodes and closed polygons.", "quantifier": "all pairs/triples of points, nodes, polygons", "why_tests_cant": "a contract over all pairs and triples of values", "anchors": ["volmdlr/core_compiled.pyx: Point3D.__eq__, __hash__", "volmdlr/mesh.py: Node3D.__eq__, __hash__", "volmdlr/wires.py: ClosedPolygon2D.__eq__, __hash__"]}
{"id": "C14", "title": "Bounding boxes contain their generators and are minimal", "statement": "BoundingBox.from_points / BoundingRectangle.from_points contain every given point and are included in every other axis-aligned box containing them; from_bounding_boxes and + give the smallest box containing all given boxes.", "quantifier": "all non-empty lists of points / boxes of any length", "why_tests_cant": "lists of unbounded length; minimality quantifies over all other boxes", "anchors": ["volmdlr/core.py: BoundingBox.from_points, from_bounding_boxes, __add__, BoundingRectangle.from_points"]}
{"id": "C15", "title": "Box distances are true minimum distances", "statement": "distance_to_bbox, distance_to_point, distance_to_b_rectangle and BoundingRectangle.distance_to_point return the minimum of the distance between a point of one set and a point of the other (0 when they meet).", "quantifier": "all pairs of boxes/points", "why_tests_cant": "infimum over a 6-dimensional continuum per pair of boxes", "anchors": ["volmdlr/core.py: BoundingBox.distance_to_bbox, distance_to_point, BoundingRectangle.distance_to_b_rectangle, distance_to_point"]}
{"id": "C16", "title": "Box predicates: intersection, inclusion, intersection volume", "statement": "With zero tolerance is_intersecting holds iff the boxes share a point and is symmetric; with tolerance it is monotone; is_inside_bbox is inclusion; intersection_volume/intersection_area is the volume/area of the common box and 0 when there is none.", "quantifier": "all pairs of boxes, all tolerances", "why_tests_cant": "pairs of boxes and the tolerance form a continuum with boundary cases", "anchors": ["volmdlr/core.py: BoundingBox.is_intersecting, is_inside_bbox, intersection_volume, point_belongs, BoundingRectangle.is_intersecting, intersection_area", "volmdlr/core_compiled.pyx: bbox_is_intersecting"]}
{"id": "C17", "title": "Octree subdivision of a bounding box is a partition", "statement": "The eight boxes returned by BoundingBox.octree cover the box, are included in it, have disjoint interiors and their volumes add up to the volume.", "quantifier": "all bounding boxes and all points of them", "why_tests_cant": "coverage quantifies over all points of a box", "anchors": ["volmdlr/core.py: BoundingBox.octree"]}
{"id": "C18", "title": "Cached values stay consistent along every history of updates", "statement": "After any sequence of mutations and reads through the public API, the cached bounding box of a VolumeModel / cached size of a BoundingBox equals the value recomputed from the current content.", "quantifier": "all finite histories of reads and updates", "why_tests_cant": "the failure needs a particular interleaving of read and update", "anchors": ["volmdlr/core.py: VolumeModel.bounding_box, BoundingBox.size"]}
{"id": "C19", "title": "Knot span search is correct", "statement": "find_span_linear and find_span_binsearch return, for every clamped non-decreasing knot vector and every parameter of the domain, the index i with U[i] <= u < U[i+1] (the last non-empty span at the right end); both functions agree; the binary search terminates.", "quantifier": "all degrees, all non-decreasing knot vectors of any length, all parameters", "why_tests_cant": "unbounded knot vectors with repeated knots; termination of a loop", "anchors": ["volmdlr/nurbs/core.pyx: find_span_binsearch, find_span_linear"]}
{"id": "C20", "title": "B-spline basis functions are non-negative and sum to one", "statement": "basis_function(degree, U, span, u) returns degree+1 non-negative numbers adding up to 1, equal to the Cox-de Boor basis functions N_{span-degree..span}.", "quantifier": "all degrees, all knot vectors, all parameters in the span", "why_tests_cant": "induction on the degree and a continuum of knots and parameters", "anchors": ["volmdlr/nurbs/core.pyx: basis_function_c"]}
{"id": "C21", "title": "B-spline curves interpolate end points and stay in the convex hull", "statement": "Evaluating a clamped B-spline curve at the domain ends gives the first/last control point; every evaluated point is a convex combination of the control points (hence in their bounding box); evaluation commutes with affine maps; a rational curve with all weights equal equals the non-rational one.", "quantifier": "all degrees, knot vectors, control polygons of any size, parameters, positive weights", "why_tests_cant": "unbounded number of control points and degrees", "anchors": ["volmdlr/nurbs/core.pyx: evaluate_curve_c, evaluate_curve_rational", "volmdlr/edges.py: BSplineCurve.evaluate_single"]}
{"id": "C22", "title": "Knot insertion does not change the curve", "statement": "insert_knot on a B-spline curve yields a curve with the inserted knot that has the same point at every parameter.", "quantifier": "all curves, all knots of the domain, all multiplicities up to the degree, all parameters", "why_tests_cant": "identity between two functions of a continuous parameter for unbounded degree and size", "anchors": ["volmdlr/nurbs/operations.py: knot_insertion, knot_insertion_kv, insert_knot_curve"]}
{"id": "C23", "title": "Splitting or decomposing a curve keeps it", "statement": "split_curve at a parameter gives two curves which meet at the curve point and trace the original on each side.", "quantifier": "all curves and interior parameters", "why_tests_cant": "identity of functions", "anchors": ["volmdlr/nurbs/operations.py: split_curve, helper_split_knot_vectors, decompose_curve"]}
{"id": "C24", "title": "Reversing a curve reverses its parametrisation", "statement": "BSplineCurve.reverse() evaluated at u is the original at 1-u (knots standardised to [0,1]), for rational and non-rational curves; reversing twice is the identity.", "quantifier": "all curves and parameters", "why_tests_cant": "identity of functions for all knot vectors and weights", "anchors": ["volmdlr/edges.py: BSplineCurve.get_reverse", "volmdlr/nurbs/helpers.pyx: standardize_knot_vector"]}
{"id": "C25", "title": "LU decomposition and the triangular solvers solve the linear system", "statement": "lu_decomposition(A) = (L,U) with L unit lower triangular, U upper triangular and L*U = A whenever no zero pivot occurs; forward_substitution then backward_substitution returns x with A x = b.", "quantifier": "all square systems of any size with non-zero pivots", "why_tests_cant": "matrix size is unbounded", "anchors": ["volmdlr/nurbs/helpers.pyx: doolittle, lu_decomposition, forward_substitution, backward_substitution"]}
{"id": "C26", "title": "Knot vector helpers", "statement": "generate_knot_vector gives a clamped non-decreasing vector of length n+p+1 on [0,1]; standardize_knot_vector maps affinely onto [0,1], preserves order and is idempotent; linspace is evenly spaced from start to stop with the requested number of values.", "quantifier": "all degrees, numbers of control points, knot vectors, sample counts", "why_tests_cant": "sizes are unbounded", "anchors": ["volmdlr/nurbs/helpers.pyx: generate_knot_vector, standardize_knot_vector, linspace"]}
{"id": "C27", "title": "Binomial coefficient", "statement": "binomial_coefficient(k, i) equals the binomial coefficient for all k, i, being 0 when i > k.", "quantifier": "all natural numbers", "why_tests_cant": "unbounded integers", "anchors": ["volmdlr/nurbs/helpers.pyx: binomial_coefficient"]}
{"id": "C28", "title": "Knot multiplicity bookkeeping", "statement": "get_knots_and_multiplicities followed by repeating each knot gives the knot vector back; find_multiplicity counts the knots within tolerance; inserting a knot with its multiplicity keeps the list sorted and adds exactly that many copies.", "quantifier": "all sorted knot vectors and all knots", "why_tests_cant": "unbounded lists", "anchors": ["volmdlr/nurbs/operations.py: get_knots_and_multiplicities", "volmdlr/nurbs/helpers.pyx: insert_knots_and_mutiplicity", "volmdlr/nurbs/core.pyx: find_multiplicity"]}
{"id": "C29", "title": "Merging meshes keeps every triangle's geometry", "statement": "Mesh.merge / from_meshes / + produce a valid mesh (all indices in range) whose list of geometric triangles is the concatenation of those of the operands, with or without vertex merging (as sets of triangles).", "quantifier": "all valid meshes, any number of them", "why_tests_cant": "unbounded vertex and triangle arrays and index arithmetic", "anchors": ["volmdlr/display.py: MeshMixin.merge, merge_meshes/from_meshes, merge_vertices"]}
{"id": "C30", "title": "Vertex/triangle clean-up keeps geometry", "statement": "merge_vertices, split_shared_vertices, merge_triangles and remove_degenerate_triangles keep the set of non-degenerate geometric triangles and keep the mesh valid; merge_vertices leaves no duplicate vertex; each is idempotent.", "quantifier": "all valid meshes", "why_tests_cant": "unbounded arrays", "anchors": ["volmdlr/display.py: merge_vertices, merge_triangles, split_shared_vertices, remove_degenerate_triangles"]}
{"id": "C31", "title": "Mesh border", "statement": "get_mesh_border returns exactly the edges used by one triangle only; a closed mesh has an empty border.", "quantifier": "all meshes", "why_tests_cant": "unbounded triangle lists", "anchors": ["volmdlr/display.py: Mesh3D.get_edges_triangles, get_mesh_border"]}
{"id": "C32", "title": "Mesh serialisation round trip", "statement": "dict_to_object(to_dict(mesh)) is the same mesh.", "quantifier": "all meshes, 2D and 3D", "why_tests_cant": "all vertex arrays", "anchors": ["volmdlr/display.py: MeshMixin.to_dict, dict_to_object"]}
{"id": "C33", "title": "Binary STL round trip", "statement": "Reading back the bytes written by Stl.save_to_stream gives the same number of triangles with the same vertices in the same order.", "quantifier": "all lists of triangles whose coordinates are 32-bit representable", "why_tests_cant": "byte layout must be right for every count and every content", "anchors": ["volmdlr/stl.py: Stl.save_to_stream, Stl.from_binary_stream"]}
{"id": "C34", "title": "STEP export: ids are unique and references resolve", "statement": "In the text written by VolumeModel.to_step every entity id is defined exactly once and every #reference points to a defined id.", "quantifier": "all volume models, any nesting of assemblies", "why_tests_cant": "recursion over arbitrary assembly trees", "anchors": ["volmdlr/core.py: VolumeModel.to_step_stream, Assembly.to_step, Compound.to_step", "volmdlr/utils/step_writer.py", "volmdlr/core_compiled.pyx: Point3D.to_step, Frame3D.to_step, Vector3D.to_step"]}
{"id": "C35", "title": "STEP import work list visits each reachable entity exactly once", "statement": "Step.create_node_list terminates on every reference graph (also cyclic) and returns exactly the supported entities reachable through supported entities from the initial ones, each once, leaf entities first.", "quantifier": "all reference graphs and all initial lists", "why_tests_cant": "graphs of unbounded size, with cycles", "anchors": ["volmdlr/step.py: Step.create_node_list"]}
{"id": "C36", "title": "STEP import instantiation order", "statement": "Instantiating a node creates all entities it depends on first, and terminates, whatever the order of entities in the file.", "quantifier": "all reference graphs and file orders", "why_tests_cant": "needs all dependency graphs; a cyclic or dangling reference is never in the test files", "anchors": ["volmdlr/step.py: Step._helper_instantiate"]}
{"id": "C37", "title": "STEP argument splitting", "statement": "Splitting the argument text of an entity into its top-level arguments is inverse to joining them with commas, for arguments with balanced nested parentheses and quoted strings containing any characters.", "quantifier": "all argument lists", "why_tests_cant": "unbounded nesting and arbitrary strings", "anchors": ["volmdlr/utils/step_reader.py: step_split_arguments, step_split_arguments_special, set_to_list", "volmdlr/step.py: Step.step_subfunctions"]}
{"id": "C38", "title": "Boolean operations on matrix voxelizations are set operations", "statement": "union, intersection, difference and symmetric_difference of two matrix based voxelizations/pixelizations on the same grid give exactly the set operation on their voxel centres, whatever their origins and shapes.", "quantifier": "all pairs of matrices of any shape, all offsets, all voxel sizes", "why_tests_cant": "shapes, offsets and contents are unbounded", "anchors": ["volmdlr/discrete_representation.py: MatrixBasedVoxelization._logical_operation, crop_matrix, MatrixBasedPixelization._logical_operation"]}
{"id": "C39", "title": "Flood fill fills exactly the connected component", "statement": "flood_fill(start, value) changes exactly the cells connected to start by face-adjacent cells of the same value, terminates, and raises IndexError iff start is outside.", "quantifier": "all matrices of any shape, all starts, both values", "why_tests_cant": "reachability in unbounded grids", "anchors": ["volmdlr/discrete_representation_compiled.py: _flood_fill_matrix_2d, _flood_fill_matrix_3d", "volmdlr/discrete_representation.py: MatrixBasedVoxelization.flood_fill"]}
{"id": "C40", "title": "Filling outer and enclosed voxels", "statement": "fill_outer_voxels adds exactly the empty cells connected to the outside; fill_enclosed_voxels adds exactly the empty cells not connected to the outside; is_hollow is true iff there is such an enclosed cell.", "quantifier": "all matrices", "why_tests_cant": "reachability in unbounded grids", "anchors": ["volmdlr/discrete_representation.py: _fill_outer_elements, _fill_enclosed_elements, is_hollow, _expand, _reduce"]}
{"id": "C41", "title": "Boolean operations on octree voxelizations are set operations", "statement": "union, intersection, difference and symmetric_difference of octrees, of equal or different depths, give exactly the set operation on the voxel centres.", "quantifier": "all octrees of all depths rooted at the origin, as every class method builds them", "why_tests_cant": "recursive trees of unbounded depth", "anchors": ["volmdlr/discrete_representation.py: OctreeBasedVoxelization._recursive_union, _recursive_intersection, _recursive_difference, _recursive_symmetric_difference, _make_octrees_same_depth, _increment_octree_depth"]}
{"id": "C42", "title": "Octree construction from voxel centres loses nothing", "statement": "from_point_based_voxelization followed by get_voxel_centers gives back the same set of centres; increasing the octree depth changes no centre.", "quantifier": "all sets of voxel centres of the implicit grid", "why_tests_cant": "unbounded depth", "anchors": ["volmdlr/discrete_representation.py: OctreeBasedVoxelization._subdivide_from_points, _get_homogeneous_leaf_centers, _increment_octree_depth"]}
{"id": "C43", "title": "Voxel surface is the boundary, independent of iteration order", "statement": "to_triangles returns exactly the triangles belonging to an odd number of voxels, so a face shared by two voxels disappears, whatever the iteration order of the set of voxels.", "quantifier": "all voxel sets and all iteration orders", "why_tests_cant": "all permutations of an unbounded set", "anchors": ["volmdlr/discrete_representation.py: Voxelization.to_triangles", "volmdlr/discrete_representation_compiled.py: _voxel_triangular_faces"]}
{"id": "C44", "title": "Triangle/voxel test never misses an intersection", "statement": "triangle_intersects_voxel returns True whenever the triangle and the (cubic) voxel share a point.", "quantifier": "all triangles and all cubic voxels", "why_tests_cant": "continuum of triangles and common points", "anchors": ["volmdlr/discrete_representation_compiled.py: _triangle_intersects_voxel, _calculate_axis_values"]}
{"id": "C45", "title": "Cropping, expanding and converting voxelizations keep the voxels", "statement": "crop_matrix, _expand and the conversions between point-based and matrix-based voxelizations keep the set of voxel centres; _reduce undoes _expand; the cropped matrix is minimal.", "quantifier": "all matrices and offsets, all finite centre sets of the grid", "why_tests_cant": "unbounded shapes", "anchors": ["volmdlr/discrete_representation.py: crop_matrix, _expand, _reduce, to_matrix_based_voxelization, to_point_based_voxelization"]}
{"id": "C46", "title": "Voxel addressing", "statement": "flood_fill on a point-based voxelization starts in the voxel which contains the given start point; bounding_box of a voxelization is the union of its voxels' boxes.", "quantifier": "all voxelizations and all points in them", "why_tests_cant": "off-by-one errors appear for any grid offset", "anchors": ["volmdlr/discrete_representation.py: PointBasedVoxelization._point_to_local_grid_index, Voxelization.bounding_box"]}
{"id": "C47", "title": "Polygon area is a rigid-motion and numbering invariant", "statement": "ClosedPolygon2D.area is unchanged by translation, rotation, reversal and cyclic renumbering of the points, scales quadratically, equals Triangle2D.area for three points and is additive when a polygon is cut along a chord between two vertices (signed area).", "quantifier": "all polygons with any number of points", "why_tests_cant": "unbounded number of points and a continuum of motions", "anchors": ["volmdlr/wires.py: ClosedPolygon2D.area, Triangle2D.area"]}
{"id": "C48", "title": "Point in polygon: single and batch versions agree under every schedule", "statement": "points_in_polygon gives for every point the same answer as polygon_point_belongs, whatever the order in which the parallel loop processes the points.", "quantifier": "all polygons, all point lists, all schedules", "why_tests_cant": "schedules cannot be enumerated by tests", "anchors": ["volmdlr/core_compiled.pyx: polygon_point_belongs, points_in_polygon"]}
{"id": "C49", "title": "Even-odd rule", "statement": "For a point that is on no horizontal line through a vertex, polygon_point_belongs returns the parity of the number of edges crossed by a horizontal ray; the result does not depend on the starting vertex or orientation.", "quantifier": "all polygons and points", "why_tests_cant": "unbounded polygons", "anchors": ["volmdlr/core_compiled.pyx: polygon_point_belongs"]}
{"id": "C50", "title": "Centre of mass and moments follow the polygon", "statement": "center_of_mass is translated/rotated with the polygon, and is independent of orientation; second_moment_area about a point is translation invariant.", "quantifier": "all polygons of non-zero area", "why_tests_cant": "unbounded polygons", "anchors": ["volmdlr/wires.py: ClosedPolygon2D.center_of_mass, second_moment_area, barycenter"]}
{"id": "C51", "title": "Ordering the primitives of a wire", "statement": "order_wire returns a chain in which each primitive starts where the previous one ends, made of exactly the given non-degenerate primitives each used once (possibly reversed), or raises NotImplementedError.", "quantifier": "all lists of edges of any length, any order and orientation", "why_tests_cant": "all permutations and orientations of unbounded lists", "anchors": ["volmdlr/wires.py: WireMixin.ordering_primitives, order_wire, is_ordered"]}
{"id": "C52", "title": "Wire abscissa", "statement": "point_at_abscissa(s) picks the primitive containing the curvilinear abscissa s, with local abscissa s minus the lengths of the previous ones; every s in [0, length] is accepted and s beyond the length (plus tolerance) raises ValueError; discretization starts at the start and ends at the end.", "quantifier": "all wires and abscissas", "why_tests_cant": "unbounded lists of primitives", "anchors": ["volmdlr/wires.py: WireMixin.point_at_abscissa, length, discretization_points"]}
{"id": "C53", "title": "Cylinder, sphere, torus and cone parametrisations", "statement": "point2d_to_3d and parametric_points_to_3d give a point of the surface (right distance to axis/centre/tube) and are periodic with the declared periodicities; point3d_to_2d then point2d_to_3d gives back every point of the surface, and point2d_to_3d then point3d_to_2d gives parameters of the same point; the bounding boxes of spheres and tori contain them.", "quantifier": "all frames, radii, angles", "why_tests_cant": "continuum of points incl. poles and seams", "anchors": ["volmdlr/surfaces.py: CylindricalSurface3D, SphericalSurface3D, ToroidalSurface3D, ConicalSurface3D point2d_to_3d/point3d_to_2d"]}
{"id": "C54", "title": "Angle helpers", "statement": "sin_cos_angle(cos t, sin t) returns the angle in [0, 2*pi) with that cosine and sine; clockwise_angle(v1,v2) is the angle by which v1 must be turned clockwise to be aligned with v2; angle_principal_measure returns an equivalent angle in [min_angle, min_angle+2*pi].", "quantifier": "all angles and vectors", "why_tests_cant": "branch boundaries over a continuum", "anchors": ["volmdlr/geometry.py: sin_cos_angle, clockwise_angle, angle_principal_measure"]}
{"id": "C55", "title": "Image of an interval by cosine and sine", "statement": "cos_image(x1,x2) and sin_image(x1,x2) return exactly the minimum and maximum of cos / sin on [x1,x2].", "quantifier": "all intervals", "why_tests_cant": "extremum over a continuum with case analysis on the position of multiples of pi", "anchors": ["volmdlr/geometry.py: cos_image, sin_image"]}
{"id": "C56", "title": "Plane, line and circle intersections", "statement": "Points returned by get_plane_line_intersections, get_plane_linesegment_intersections, get_two_planes_intersections, get_circle_intersections and the circle-line intersection lie on both objects; when none is returned (outside tolerance bands) there is no common point.", "quantifier": "all planes, lines, circles", "why_tests_cant": "continuum, degenerate positions", "anchors": ["volmdlr/utils/intersections.py: get_plane_line_intersections, get_plane_linesegment_intersections, get_two_planes_intersections, get_circle_intersections, get_planar_circle3d_line_intersections"]}
{"id": "C57", "title": "Arc angles, length and splitting", "statement": "An arc's angle is in (0, 2*pi]; point_at_abscissa(0) is the start and point_at_abscissa(length) the end; splitting an arc at one of its points gives two arcs whose angles and lengths add up.", "quantifier": "all circles, start and end points on it and split points on the arc", "why_tests_cant": "continuum and wrap-around", "anchors": ["volmdlr/edges.py: ArcMixin.get_start_end_angles, point_at_abscissa, split, length"]}
{"id": "C58", "title": "Nearest-neighbour ordering and parametric point helpers keep all points", "statement": "order_points_list_for_nearest_neighbor returns a permutation of its input; verify_repeated_parametric_points removes only repeated points and keeps order; array_range_search returns exactly the indices of the values within the range.", "quantifier": "all lists", "why_tests_cant": "unbounded lists", "anchors": ["volmdlr/utils/common_operations.py: order_points_list_for_nearest_neighbor", "volmdlr/utils/parametric.py: verify_repeated_parametric_points, array_range_search"]}
{"id": "C59", "title": "Finite-element shape functions", "statement": "The form functions of TriangularElement2D and TetrahedralElement equal 1 at their own node, 0 at the others (after division by 6 volumes for the tetrahedron) and sum to one everywhere; a flat element raises FlatElementError.", "quantifier": "all non-flat elements and all points", "why_tests_cant": "continuum of elements", "anchors": ["volmdlr/mesh.py: TriangularElement._form_functions, TetrahedralElement._form_functions"]}
{"id": "C60", "title": "Grid construction", "statement": "Grid2D.from_points cuts the list of points into rows without loss, and grid points listed direction-wise are a permutation of the same points.", "quantifier": "all dimensions and lists", "why_tests_cant": "unbounded sizes", "anchors": ["volmdlr/grid.py: Grid2D.from_points, points, grid_pattern"]}
{"id": "C61", "title": "Line segments", "statement": "A 2D/3D line segment's point_at_abscissa and abscissa are inverse to each other on the segment, split gives two segments whose lengths add up, middle_point is equidistant from both ends, and point_projection is the foot of the perpendicular.", "quantifier": "all segments and points of them", "why_tests_cant": "continuum", "anchors": ["volmdlr/edges.py: LineSegment.abscissa, point_at_abscissa, split, middle_point, point_projection"]}
{"id": "C62", "title": "B-spline surfaces", "statement": "A B-spline surface point is a convex combination of the control points, corners of a clamped surface are the corner control points, and evaluation is affine invariant.", "quantifier": "all degrees, sizes and parameters", "why_tests_cant": "unbounded sizes", "anchors": ["volmdlr/nurbs/core.pyx: evaluate_surface_c"]}
{"id": "C63", "title": "Frame and basis constructions give direct orthonormal frames", "statement": "Frame3D.from_point_and_vector, from_point_and_normal, from_3_points, Basis3D.from_two_vectors, Basis3D.rotation and Basis3D.euler_rotation return direct orthonormal bases with the requested axis.", "quantifier": "all non-degenerate inputs", "why_tests_cant": "continuum of inputs", "anchors": ["volmdlr/core_compiled.pyx: Basis3D.from_two_vectors, Frame3D.from_3_points, from_point_and_normal, from_point_and_vector, Basis3D.rotation, euler_rotation"]}
{"id": "C64", "title": "Translating a point-based voxelization", "statement": "After translation by an offset every resulting voxel lies on the implicit grid and contains a moved voxel centre, every moved centre lies in a resulting voxel, and an offset of whole voxels moves every voxel exactly.", "quantifier": "all voxelizations and all offsets", "why_tests_cant": "rounding of arbitrary centres over arbitrarily many voxels", "anchors": ["volmdlr/discrete_representation.py: PointBasedVoxelization.translation, Voxelization rotation/translation re-gridding"]}
{"id": "C65", "title": "Inverting a wire", "statement": "Inverting a wire keeps its length, exchanges its extremities, keeps it ordered if and only if it was, gives back the wire when done twice, and the point at abscissa s of the inverted wire is the point at abscissa length - s of the wire.", "quantifier": "all lists of edges, all abscissas", "why_tests_cant": "unbounded lists of edges and a continuum of abscissas", "anchors": ["volmdlr/wires.py: WireMixin.inverted_primitives, WireMixin.invert, point_at_abscissa"]}
{"id": "C66", "title": "Reordering STEP contour edges", "statement": "When reorder_contour3d_edges_from_step returns a list, each edge starts within 1e-3 of the end of the previous one, and the edges are the given ones in the given order (or all in the opposite order) up to orientation, only repeated edges being left out.", "quantifier": "all lists of edges in any orientation", "why_tests_cant": "unbounded lists, all orientations", "anchors": ["volmdlr/wires.py: reorder_contour3d_edges_from_step"]}
{"id": "C67", "title": "Euler angles and transfer matrices", "statement": "euler_angles_to_transfer_matrix always gives a rotation matrix; transfer_matrix_to_euler_angles of a rotation matrix gives angles whose transfer matrix is the matrix; the angles are recovered when the nutation is strictly between 0 and pi.", "quantifier": "all angles and all rotation matrices, gimbal-lock ones included", "why_tests_cant": "continuum of matrices and exact degenerate positions", "anchors": ["volmdlr/geometry.py: euler_angles_to_transfer_matrix, transfer_matrix_to_euler_angles"]}
{"id": "C68", "title": "Interior point of a clockwise arc", "statement": "clockwise_interior_from_circle3d returns a point of the circle, strictly inside the arc turning clockwise from the start to the end.", "quantifier": "all pairs of points of a circle", "why_tests_cant": "continuum and wrap-around of angles", "anchors": ["volmdlr/geometry.py: clockwise_interior_from_circle3d"]}
{"id": "C69", "title": "Membership and abscissa on an arc", "statement": "Arc2D.point_belongs is true for a point of the circle exactly when it is on the arc or within the tolerance of an extremity, and false for points away from the circle; abscissa(point_at_abscissa(s)) = s on arcs and circles.", "quantifier": "all circles of both orientations, extremities, points and abscissas", "why_tests_cant": "continuum, orientation and wrap-around", "anchors": ["volmdlr/edges.py: Arc2D.point_belongs, Arc2D.abscissa", "volmdlr/curves.py: CircleMixin.abscissa, point_at_abscissa"]}
{"id": "C70", "title": "Circle and arc through three points", "statement": "Circle2D.from_3_points fails exactly on aligned points and otherwise gives a circle through the three; Arc2D.from_3_points starts at the first, ends at the third and passes through the second.", "quantifier": "all triples of points of the plane", "why_tests_cant": "continuum of triples, both orientations", "anchors": ["volmdlr/curves.py: Circle2D.from_3_points, find_circle_center_from_3_points", "volmdlr/edges.py: Arc2D.from_3_points"]}
{"id": "C71", "title": "Node bookkeeping of finite-element meshes", "statement": "Mesh.nodes has each point of the elements exactly once, node_to_index is its inverse, elements_per_node lists for each node exactly the elements having it, point_to_element returns an element containing the point iff there is one, bounding_rectangle bounds the nodes tightly.", "quantifier": "all meshes, groups and enumeration orders of the Python sets", "why_tests_cant": "unbounded sizes and unspecified set iteration order", "anchors": ["volmdlr/mesh.py: ElementsGroup.elements_per_node, point_to_element, Mesh._set_nodes_number, node_to_index, point_to_element, bounding_rectangle"]}
{"id": "C72", "title": "Merging duplicated mesh nodes along every history", "statement": "delete_duplicated_nodes(ref, tol) leaves the reference group as it is and replaces each point of the other groups by a reference node at a distance in (1e-8, tol) if there is one, whatever calls were made before; copy gives a mesh with the same groups.", "quantifier": "all meshes, references, tolerances and previous calls", "why_tests_cant": "unbounded meshes and histories of calls", "anchors": ["volmdlr/mesh.py: Mesh.nodes_correction, delete_duplicated_nodes, copy, gmsh setter"]}
{"id": "C73", "title": "Lines: projection, abscissa, distances and intersection", "statement": "Line.point_projection / closest_point_on_line give the nearest point of the line, abscissa and point_at_abscissa are inverse of each other, point_distance is the minimum distance to the line, Line3D.line_distance is the minimum distance between two lines and Line3D.intersection is the common point of two crossing lines.", "quantifier": "all lines given by two different points, all points", "why_tests_cant": "continuum of lines; tolerance tests make near-parallel and near-orthogonal lines special", "anchors": ["volmdlr/curves.py: Line.point_projection, abscissa, point_at_abscissa, closest_point_on_line, Line2D.point_distance, Line2D.line_distance, Line3D.point_distance, line_distance, intersection"]}
{"id": "C74", "title": "Ellipse and line intersection", "statement": "ellipse2d_line_intersections returns exactly the common points of an ellipse and a line.", "quantifier": "all half axes, frames, lines", "why_tests_cant": "continuum; tangent and vertical lines are special", "anchors": ["volmdlr/utils/intersections.py: ellipse2d_line_intersections, _get_local_ellise2d_line_intersections, _get_ellipse2d_vertical_line_intersectioons"]}
{"id": "C75", "title": "Membership and coincidence of surfaces", "statement": "point_belongs accepts the points of a plane or cylinder and only points close to it; is_coincident accepts a surface and itself, and two planes, cylinders or tori it accepts are close to each other.", "quantifier": "all pairs of surfaces, all points, all tolerances", "why_tests_cant": "continuum of frames and points", "anchors": ["volmdlr/surfaces.py: Plane3D.point_belongs/is_coincident/is_parallel, CylindricalSurface3D.point_belongs/is_coincident, ToroidalSurface3D.is_coincident, ConicalSurface3D.is_coincident"]}
{"id": "C76", "title": "The derivative algorithms return the derivatives", "statement": "Whenever the parameter is not a knot (or the curve is considered on the knot span selected), the k-th entry of the derivatives of a B-spline or NURBS curve is the k-th derivative of the evaluated curve, and entry (k,l) for a surface is the mixed partial derivative; the basis-function derivative tables (all functions, one function) are the derivatives of the Cox-de Boor functions.", "quantifier": "every degree, clamped knot vector, set of control points and positive weights, every parameter of the domain and every requested order", "why_tests_cant": "continuum of parameters and knot vectors, unbounded degrees and orders; the two-row table of A2.3 is only right if the index bounds are right for every (r, k, j)", "anchors": ["volmdlr/nurbs/core.pyx: basis_function_ders, basis_function_ders_one, basis_function_all, derivatives_curve, derivatives_curve_rational, derivatives_surface, derivatives_surface_rational"]}
{"id": "C77", "title": "Blending vectors", "statement": "The blending vector used for interpolation constraints holds the values of all basis functions at the parameter.", "quantifier": "every degree, clamped knot vector and parameter in the closed domain", "why_tests_cant": "continuum of parameters", "anchors": ["volmdlr/surfaces.py: BSplineSurface3D.blending_vector_u, blending_vector_v, blending_matrix_u, blending_matrix_v"]}
{"id": "C78", "title": "Tangent, normal and curvature of B-spline curves", "statement": "tangent is the first derivative (normalised on request), normal is orthogonal to it, and curvature does not depend on the parametrisation.", "quantifier": "every curve with given first and second derivatives, every regular reparametrisation", "why_tests_cant": "continuum of curves and parametrisations", "anchors": ["volmdlr/edges.py: BSplineCurve.tangent, BSplineCurve2D.normal, BSplineCurve3D.normal, BSplineCurve3D.curvature"]}
{"id": "C79", "title": "A block is the parallelepiped of its frame", "statement": "The vertices, edges, face centres and faces of a Block are those of the set of points origin + a\u00b7u + b\u00b7v + c\u00b7w with |a|,|b|,|c| \u2264 1/2; its bounding box contains it tightly; volume() is the volume of that set; from_bounding_box gives back the box; rotation, translation and frame_mapping move the set; subdivide_block covers the block by interior-disjoint sub-blocks; cut_by_orthogonal_plane returns the section.", "quantifier": "all frames (orthonormal, scaled or oblique), all boxes, all points, all rotations and translations, all subdivision counts", "why_tests_cant": "The claims quantify over all frames (including oblique ones, which the docstring allows) and over all points of a continuum.", "anchors": ["volmdlr/primitives3d.py:Block"]}
{"id": "C80", "title": "Cylinders, hollow cylinders and cones: bounding boxes, construction and side faces", "statement": "The bounding box of a cylinder, hollow cylinder or cone is the smallest box containing it, for every orientation; a cylinder built from two end points has its axis exactly from the first to the second; from_center_point_and_axis gives a cylinder with the given centre, axis direction, radius and length; the side faces are exactly the boundary points.", "quantifier": "all unit axes, centres, radii, lengths; all pairs of end points; all parameters of the side face", "why_tests_cant": "Tightness and containment range over all orientations and all points of a curved solid.", "anchors": ["volmdlr/primitives3d.py:Cylinder.get_bounding_box, HollowCylinder.get_bounding_box, Cone.get_bounding_box, Cylinder.from_end_points, Cylinder.from_center_point_and_axis, Cylinder.shell_faces, Cone.shell_faces"]}
{"id": "C81", "title": "Membership, sampling and motion of cylinders and spheres", "statement": "point_belongs of a cylinder accepts every point of the cylinder and only points within 2e-16 of it; sampled points are inside; rotation and translation move the set of points; the interference volume estimate is between zero and the smaller volume; point_belongs of a sphere is membership in the ball; skin_points are on the sphere, never fail for 0 < resolution \u2264 2\u00b7radius and cover the sphere to within 3.1\u00b7resolution; inner_points are in the ball.", "quantifier": "all cylinders with unit axis, all spheres, all points, all resolutions, all samplings", "why_tests_cant": "Covering and membership are claims about all points of a surface or solid and all resolutions.", "anchors": ["volmdlr/primitives3d.py:Cylinder.point_belongs, Cylinder.random_point_inside, Cylinder.lhs_points_inside, Cylinder.interference_volume_with_other_cylinder, Cylinder.rotation, Cylinder.translation, Sphere.point_belongs, Sphere.skin_points, Sphere.inner_points"]}
{"id": "C82", "title": "The volumes returned for solids are Lebesgue measures", "statement": "volume() of Cylinder, HollowCylinder, Cone, Sphere and Block is the Lebesgue measure of the set of points of the solid.", "quantifier": "all radii, lengths, centres and unit axes; all blocks", "why_tests_cant": "A formula for a measure for all orientations cannot be settled by sampling.", "anchors": ["volmdlr/primitives3d.py:Cylinder.volume, HollowCylinder.volume, Cone.volume, Sphere.volume, Block.volume"]}
{"id": "C83", "title": "The arc of a rounded corner is tangent to both sides and has the given radius", "statement": "For every proper corner (three points not aligned) and every positive radius, the arc built by RoundedLineSegments2D/3D starts on the first side and ends on the second side of the corner, both at the returned tangent length, is tangent to both sides, has the given radius, and passes through the point of its circle nearest to the corner; the returned angle is half the angle of the corner.", "quantifier": "all triples of points not aligned in the plane and in space, all positive radii", "why_tests_cant": "Continuum of corners and radii; the failures are at thresholds (nearly straight corners in the plane, radius or 1-radius times the sine of the corner below 1e-6 in space).", "anchors": ["volmdlr/primitives2d.py:RoundedLineSegments2D.arc_features", "volmdlr/primitives3d.py:RoundedLineSegments3D.arc_features", "volmdlr/core_compiled.pyx:get_minimum_distance_points_lines", "volmdlr/core_compiled.pyx:line_point_belongs_with_points"]}
{"id": "C84", "title": "A rounded polyline is one connected chain", "statement": "The primitives of RoundedLineSegments form a chain: each starts where the previous one ends (up to twice the tolerance 1e-6), an open polyline goes from its first to its last point, a closed one ends where it starts; each rounded corner contributes exactly its arc, in order, and each side contributes its straight part unless it is shorter than the tolerance; nothing else is added.", "quantifier": "all numbers of points, all sets of rounded corners, open and closed polylines, any arcs", "why_tests_cant": "The cases (rounded or not at both ends of a side, side dropped or not, wrap-around) combine over an unbounded number of corners.", "anchors": ["volmdlr/primitives.py:RoundedLineSegments.primitives_from_arcs", "volmdlr/primitives.py:RoundedLineSegments._primitives"]}
{"id": "C85", "title": "Radii that do not fit are rejected, or reduced with adapt_radius", "statement": "Without adapt_radius, RoundedLineSegments raises ValueError when roundings do not fit in the sides, so that the straight parts of an accepted polyline run forward along its sides; with adapt_radius the radii are reduced (never increased) so that the roundings fit.", "quantifier": "all polylines, all dictionaries of radii, every answer of the linear program solver", "why_tests_cant": "Ranges over all polylines and radii and over the answers of an external optimiser.", "anchors": ["volmdlr/primitives.py:RoundedLineSegments._primitives", "volmdlr/primitives.py:RoundedLineSegments.get_points"]}
{"id": "C86", "title": "The offset of a rounded polyline is parallel to it at the given distance", "statement": "The offset of a polyline has as many points and each of its sides lies at the signed distance `offset` (left of the direction of travel when positive) from the side it comes from, in open and closed polylines; the new radius of a rounded corner is that of the concentric arc, and roundings whose radius would not be positive are removed (1e-6 with adapt_radius).", "quantifier": "all polylines without repeated points or folded corners, all offsets, all radii", "why_tests_cant": "Continuum of corners; a branch with a tolerance for nearly straight corners.", "anchors": ["volmdlr/primitives2d.py:RoundedLineSegments2D.offset", "volmdlr/primitives2d.py:RoundedLineSegments2D._helper_offset_points_and_radii"]}
{"id": "C87", "title": "The convex hull of a list of points", "statement": "ClosedPolygon2D.points_convex_hull returns a polygon whose vertices are among the given points, that is convex and counter-clockwise, and whose convex hull is that of the points (None for fewer than three points).", "quantifier": "every list of at least three points of the plane that are not all on a line", "why_tests_cant": "the gift-wrapping loop depends on the order and the relative position of all the points, with angle comparisons and two early exits; tests try a few point sets", "anchors": ["volmdlr/wires.py: ClosedPolygon2D.points_convex_hull, argmin, argmax", "volmdlr/geometry.py: clockwise_angle"]}
{"id": "C88", "title": "Orientation of a polygon", "statement": "ClosedPolygon2D.is_trigo is True for a polygon whose border turns counter-clockwise around a point, False for a clockwise one.", "quantifier": "every polygon whose sides all turn around a point", "why_tests_cant": "the sum of the angles at all corners for polygons of any shape and size", "anchors": ["volmdlr/wires.py: ClosedPolygon2D.is_trigo, get_line_segments"]}
{"id": "C89", "title": "Offset of a polygon", "statement": "ClosedPolygon2D.offset(d) moves each side by the distance d.", "quantifier": "every polygon without degenerate corner, every offset above minus half the smallest side of the bounding rectangle", "why_tests_cant": "ranges over all corner angles; the test only looks at one area", "anchors": ["volmdlr/wires.py: ClosedPolygon2D.offset"]}
{"id": "C90", "title": "Distance from a point to the border of a polygon", "statement": "ClosedPolygon2D.point_border_distance(point, return_other_point=True) returns the smallest distance from the point to the border, and a point of the border at that distance.", "quantifier": "every polygon with two different vertices, every point", "why_tests_cant": "minimum over all the points of all the sides", "anchors": ["volmdlr/wires.py: ClosedPolygon2D.point_border_distance", "volmdlr/core_compiled.pyx: LineSegment2DPointDistance"]}
{"id": "C91", "title": "Parabola2D: points, membership, tangent and trim", "statement": "The points of get_points are points of the parabola (equidistant from the focus and the directrix) at equally spaced abscissas; point_belongs accepts every point of the parabola and only points within the tolerance of one; tangent is a non-zero direction along which every differentiable motion on the parabola moves; trim between two points gives a curve that starts and ends there and describes exactly the arc between them.", "quantifier": "every parabola in an orthonormal frame of positive focal length, every pair of bounds, number of points, point, and pair of distinct points", "why_tests_cant": "the claims range over all frames, focal lengths and points, and the tangent one over every differentiable motion on the curve", "anchors": ["volmdlr/curves.py: Parabola2D.get_points, point_belongs, tangent, ParabolaMixin.trim, get_y", "volmdlr/edges.py: BezierCurve2D"]}
{"id": "C92", "title": "Parabola2D.line_intersections gives the common points", "statement": "line_intersections returns exactly the points common to the line and to the parabola.", "quantifier": "every parabola, every line through two distinct points", "why_tests_cant": "all lines, including tangent ones and lines parallel to the axis", "anchors": ["volmdlr/curves.py: Parabola2D.line_intersections"]}
{"id": "C93", "title": "Hyperbola2D: points, membership, tangent, lines and equality", "statement": "get_points gives points of the branch (difference of distances to the foci is twice the major half axis); point_belongs accepts the points of the branch; tangent is tangent; line_intersections returns exactly the common points; a hyperbola is equal to itself.", "quantifier": "every hyperbola in an orthonormal frame with positive half axes, every point, every line", "why_tests_cant": "all frames, axes, points and lines", "anchors": ["volmdlr/curves.py: Hyperbola2D.get_points, point_belongs, tangent, line_intersections, HyperbolaMixin.__eq__"]}
{"id": "C94", "title": "Rational arcs of conics: control point, weight, Hyperbola2D.trim", "statement": "The control point and weight computed from two points of a conic, their tangents and an intermediate point define a rational quadratic curve that joins the two points, passes through the intermediate point and stays on the conic; trim of a hyperbola between two points gives the arc of the branch between them.", "quantifier": "every conic, every pair of its points with crossing tangents, every intermediate point inside the triangle of the tangents; every hyperbola and pair of points of its branch", "why_tests_cant": "every conic and every parameter of the curve", "anchors": ["volmdlr/curves.py: hyperbola_parabola_control_point_and_weight, HyperbolaMixin.trim"]}
{"id": "C95", "title": "Circle2D.line_intersections gives the common points", "statement": "line_intersections returns exactly the points common to the circle and to the line.", "quantifier": "every circle, every line through two distinct points", "why_tests_cant": "all circles and lines, including tangent and grazing ones", "anchors": ["volmdlr/curves.py: Circle2D.line_intersections, _helper_line_intersections, Line2D.get_slope, get_y_intersection, point_distance"]}
{"id": "C96", "title": "Symmetries, distance, disk, discretisation and boxes of circles and ellipses", "statement": "point_symmetric and axial_symmetry give the circle of the symmetric points; point_distance is the distance to the circle; point_belongs accepts exactly the points within the tolerance of the disk; discretization_points gives equally spaced points of the circle, closed; the bounding rectangle of a circle is the smallest one; those of an ellipse and of a circle of space contain them.", "quantifier": "every circle, ellipse, point, line, number of points and angle", "why_tests_cant": "all centres, radii, frames and angles", "anchors": ["volmdlr/curves.py: Circle2D.point_symmetric, axial_symmetry, point_distance, point_belongs, get_bounding_rectangle, CircleMixin.discretization_points, Ellipse2D.get_bounding_rectangle, Circle3D._bounding_box"]}
{"id": "C97", "title": "Arcs of circles in space are consistent with their circle", "statement": "For an Arc3D of a circle given by a direct orthonormal frame, point_at_abscissa(s) is the point of the circle at the start angle plus s/radius for every s up to length + 1e-6 and raises ValueError beyond; start and end are the points at abscissas 0 and length; every point is at distance radius from the centre and in its plane; abscissa inverts point_at_abscissa; split gives two arcs from start to point and point to end whose angles and lengths add up; from_angle(start, angle, axis_point, axis) gives the arc from start to its rotated image, of the given angle.", "quantifier": "all circles in direct orthonormal frames, all start, end and split points outside of the documented tolerance bands, all abscissas, all rotation axes and angles", "why_tests_cant": "The angles are real numbers; a test samples a few arcs, and the existing ones use unit radius for from_angle, where the missing normalisation of the frame does not show.", "anchors": ["volmdlr/edges.py: ArcMixin, Arc3D.point_at_abscissa, Arc3D.abscissa, ArcMixin.split, Arc3D.from_angle", "volmdlr/curves.py: Circle3D"]}
{"id": "C98", "title": "Bounding boxes of arcs contain the arcs", "statement": "The bounding_rectangle of an Arc2D and the bounding_box of an Arc3D contain every point of the arc and are tight: each side is reached by a point of the arc.", "quantifier": "all arcs of positive angle of circles in orthonormal frames, all points of the arc", "why_tests_cant": "The arc has infinitely many points and the box is computed from a finite sample of them; a test compares the box of one arc with a recorded value.", "anchors": ["volmdlr/edges.py: Arc2D.bounding_rectangle, Arc3D.get_bounding_box, ArcMixin.discretization_points"]}
{"id": "C99", "title": "Area, height, middle and normal of a triangle", "statement": "Triangle3D.area() is half the norm of the cross product of two sides, whatever the order of the points, and is kept by translations and rotations about unit axes; height() is the distance from the third point to the line of the first two; middle() is the point for which the sum of squared distances to the three points is least; normal() is the unit vector orthogonal to the triangle given by the right hand rule, a flat triangle is refused, and reversing the points reverses the normal and keeps the middle.", "quantifier": "all triples of points of space, all offsets, centres, unit axes and angles", "why_tests_cant": "Heron's formula goes through square roots and products of differences; agreement with the cross product is an identity over all triples", "anchors": ["volmdlr/faces.py: Triangle3D.area, height, middle, normal"]}
{"id": "C100", "title": "Subdivision of a triangle by its longest sides", "statement": "Triangle3D.subdescription_to_triangles(resolution) ends for every triangle and every positive resolution; no side of a triangle returned is longer than the resolution; a point is in the triangle exactly when it is in one of the triangles returned; the sum of their areas is the area of the triangle; when the triangle is not flat no point is inside two of them and none is flat.", "quantifier": "all triangles, all positive resolutions", "why_tests_cant": "termination of the loop `while True` and the exact covering hold for all shapes and resolutions; tests sample a few", "anchors": ["volmdlr/faces.py: Triangle3D.subdescription_to_triangles"]}
{"id": "C101", "title": "Description of a triangle by points", "statement": "Triangle3D.subdescription(resolution) of a triangle which is not flat, with a positive resolution, returns points of the triangle, its three points among them, such that every point of the triangle is at most the resolution away from one of them.", "quantifier": "all triangles which are not flat, all positive resolutions", "why_tests_cant": "the covering distance concerns every point of every triangle, for every resolution", "anchors": ["volmdlr/faces.py: Triangle3D.subdescription, get_subdescription_points"]}
{"id": "C102", "title": "Triangle objects: attributes, copies, equality", "statement": "A Triangle3D keeps the transparency, color and name it is given; it is built exactly when its points are not on a line; copies, dictionaries, translations and rotations give a triangle with the points expected and the same area; two triangles are equal exactly when they have the same points in any order, and then have the same hash.", "quantifier": "all triples of points, all attributes, all movements", "why_tests_cant": "equality/hash agreement and success of construction range over all triples; attributes over all values", "anchors": ["volmdlr/faces.py: Triangle3D.__init__, copy, to_dict, dict_to_object, translation, rotation, _data_eq, _data_hash", "volmdlr/core.py: Primitive3D.__init__"]}
{"id": "C103", "title": "Volume of a closed triangulated shell", "statement": "ClosedTriangleShell3D.volume() / ClosedShell3D.volume() is the volume enclosed by the shell: the absolute value of the sum of the signed volumes of the tetrahedra over its triangles; it does not depend on the order of the triangles or on a translation of the shell. The bounding box of a triangle shell is the least box holding its points.", "quantifier": "all lists of triangles (closed surfaces for the volume), all reference points, all translations", "why_tests_cant": "the formula sums absolute values, right for shells seen from inside the centre only; which shells give a wrong volume is a statement over all shells", "anchors": ["volmdlr/shells.py: ClosedShell3D.volume, TriangleShell / ClosedTriangleShell3D.volume, _bounding_box"]}
{"id": "C104", "title": "Mesh data and dictionary of a triangle shell", "statement": "ClosedTriangleShell3D.to_mesh_data returns arrays in which row indices are in range, no position is repeated, and which describe the triangles of the shell in their order; from_mesh_data inverts it; to_dict / dict_to_object give back the triangles, name, alpha and color.", "quantifier": "all lists of triangles, both settings of round_vertices", "why_tests_cant": "np.unique, rounding and reshaping interact over all inputs; rounding can merge points only on some", "anchors": ["volmdlr/shells.py: OpenTriangleShell3D.to_mesh_data, from_mesh_data, to_dict, dict_to_object"]}
{"id": "C105", "title": "Equality, hash and color of shells", "statement": "Two shells are equal exactly when they have the same faces; equality is symmetric; equal shells have the same hash; data equality compares all faces one to one; a shell built without a color gets the default color.", "quantifier": "all lists of faces, all face equalities", "why_tests_cant": "symmetry, hash agreement and prefix comparison are laws over all pairs of shells", "anchors": ["volmdlr/shells.py: Shell3D.__init__, __eq__, __hash__, _data_eq, _data_hash", "volmdlr/core.py: Primitive3D.__init__"]}
{"id": "C106", "title": "Turning the normals of a closed triangle shell", "statement": "turn_normals_outwards (inwards) returns the same triangles, some reversed, such that are_normals_pointing_outwards (inwards) answers True.", "quantifier": "all lists of triangles which are not flat, all inside tests", "why_tests_cant": "ranges over all shells, down to sizes at which the two probing distances 1e-5 and 1e-4 disagree", "anchors": ["volmdlr/shells.py: ClosedTriangleShell3D.are_normals_pointing_outwards, are_normals_pointing_inwards, turn_normals_outwards, turn_normals_inwards"]}
{"id": "C107", "title": "Concatenation of display shells", "statement": "DisplayTriangleShell3D.concatenate (and +) of two shells with indices in range keeps indices in range, holds the triangles of both and no others, repeats no position and no triangle, and returns the other shell when one is empty.", "quantifier": "all pairs of display shells with indices in range", "why_tests_cant": "duplicates may arise within and across shells for all sizes", "anchors": ["volmdlr/shells.py: DisplayTriangleShell3D.concatenate, __add__"]}
{"id": "C108", "title": "Parameters and knot vectors of a fit", "statement": "For every list of points with two different successive points, the parameters given to the points go from 0 to 1 and advance in proportion to the distances between successive points (or to their square roots, for the centripetal method); they increase strictly exactly where successive points differ. The knot vector of an interpolation, or of an approximation with at most as many control points as data points, has degree+1 zeros and degree+1 ones at its ends, never decreases, has distinct inner knots, and each inner basis function has its own data parameter inside its support.", "quantifier": "all lists of points in any dimension, all degrees and numbers of control points with 1 <= degree < number of control points <= number of points, both parametrisations", "why_tests_cant": "The solvability of the fit rests on an interlacing of parameters and knots that has to hold for every number of points, degree and spacing.", "anchors": ["volmdlr/nurbs/fitting.py", "volmdlr/nurbs/fitting.py:compute_params_curve", "compute_knot_vector", "compute_knot_vector2"]}
{"id": "C109", "title": "Interpolation by a curve passes through the points", "statement": "When there are more points than the degree and at most one point is repeated, BSplineCurve.from_points_interpolation returns a curve of the asked degree with as many control points as points, which passes through every point in order at its parameter, and whose control points are the only ones doing so with its knot vector.", "quantifier": "all lists of points in any dimension, all degrees >= 1, both parametrisations", "why_tests_cant": "Non-singularity of the interpolation matrix (Schoenberg-Whitney) must hold for every number of points, degree and spacing.", "anchors": ["volmdlr/edges.py:BSplineCurve.from_points_interpolation", "volmdlr/nurbs/fitting.py:interpolate_curve", "volmdlr/nurbs/core.pyx:build_coeff_matrix"]}
{"id": "C110", "title": "Least-squares approximation by a curve", "statement": "For distinct successive points and a number of control points more than the degree and at most the number of points, BSplineCurve.from_points_approximation returns a curve with that degree and number of control points which starts at the first point, ends at the last, and among all B-splines with its knot vector and these ends is the unique one with the least sum of squared distances to the data points; with as many control points as points it passes through all of them.", "quantifier": "all lists of points in any dimension, all degrees >= 1, all numbers of control points, both parametrisations", "why_tests_cant": "Optimality is over all control polygons; absence of null pivots in the LU decomposition without pivoting must hold for every data set.", "anchors": ["volmdlr/edges.py:BSplineCurve.from_points_approximation", "volmdlr/nurbs/fitting.py:approximate_curve", "volmdlr/nurbs/helpers.pyx:lu_decomposition"]}
{"id": "C111", "title": "Interpolation of a grid by a surface", "statement": "BSplineSurface3D.from_points_interpolation returns, for every grid of points with more points than the degree in both directions and without two equal successive lines, a surface with the asked degrees and sizes that passes through every point of the grid, at parameters increasing from 0 to 1 in both directions.", "quantifier": "all grids of points, all sizes and degrees >= 1", "why_tests_cant": "Both directional systems must be solvable for every grid and the index arithmetic of the two passes must be right for every size.", "anchors": ["volmdlr/surfaces.py:BSplineSurface3D.from_points_interpolation", "volmdlr/nurbs/fitting.py:interpolate_surface", "compute_params_surface"]}
{"id": "C112", "title": "Approximation of a grid by a surface", "statement": "BSplineSurface3D.from_points_approximation returns, for numbers of control points between the degree and the number of points in each direction, a surface whose number of control points is the product of its sizes and whose corners are the corners of the grid; with as many control points as data points it passes through every point of the grid.", "quantifier": "all grids of points, all sizes, degrees >= 1 and numbers of control points", "why_tests_cant": "It must hold for every size; the tests of the repository only look at a few sizes.", "anchors": ["volmdlr/surfaces.py:BSplineSurface3D.from_points_approximation", "volmdlr/nurbs/fitting.py:approximate_surface"]}
{"id": "C113", "title": "Placement of components in an assembly", "statement": "Assembly places the i-th component in the i-th position: every point of the component gets, in its position, the coordinates it had in the frame of the assembly; with orthonormal frames this keeps all distances. (The code forgets the origin of the assembly's frame; proved for an origin at (0,0,0), refuted in general.)", "quantifier": "all trees of components (compounds and assemblies at any depth), all positions, all invertible frames", "why_tests_cant": "The placement goes through a change of basis that must be right for every pair of frames and every nested structure; the tests use one or two identity frames.", "anchors": ["volmdlr/core.py:Assembly.__init__", "map_primitive_with_initial_and_final_frames", "Compound.frame_mapping", "Assembly.frame_mapping"]}
{"id": "C114", "title": "Moving volume models", "statement": "VolumeModel.get_shells returns exactly the shells found at any depth; frame_mapping moves every shell of the model by the change of frame and the two sides undo each other; translation moves every shell by the offset, and raises when a primitive is a compound or an assembly.", "quantifier": "all volume models, frames and offsets", "why_tests_cant": "It must hold for every nesting of compounds and assemblies and every frame.", "anchors": ["volmdlr/core.py:VolumeModel.frame_mapping", "VolumeModel.translation", "VolumeModel.get_shells", "Compound", "Assembly"]}
{"id": "C115", "title": "Bounding boxes of compounds, assemblies and volume models", "statement": "The bounding box of a compound, an assembly or a volume model is the smallest box that contains all its points, at any depth. (Points beside boxed primitives are ignored by the code; proved without them, refuted with them.)", "quantifier": "all trees of primitives", "why_tests_cant": "Containment and minimality must hold for every depth and every mixture of primitives.", "anchors": ["volmdlr/core.py:Assembly.bounding_box", "Compound.bounding_box", "VolumeModel.bounding_box", "BoundingBox.from_bounding_boxes"]}
{"id": "C116", "title": "Equality, hash and volume of volume models", "statement": "Two volume models are equal exactly when they have the same class and their primitives are equal in order; this is an equivalence relation and equal models have equal hashes whenever that holds for primitives; the volume is additive and does not depend on the order of primitives.", "quantifier": "all lists of primitives, all equalities and hashes of primitives", "why_tests_cant": "Laws over all pairs and triples of models.", "anchors": ["volmdlr/core.py:VolumeModel.__eq__", "VolumeModel.__hash__", "VolumeModel.volume"]}
{"id": "C117", "title": "Mesh of a volume model", "statement": "to_mesh3d raises exactly for a model without primitives; otherwise it is a valid mesh whose triangles are, up to turning and without repetition, the triangles of the meshes of the primitives.", "quantifier": "all lists of valid meshes", "why_tests_cant": "The merges renumber vertices; the result must be right for every list of meshes.", "anchors": ["volmdlr/core.py:VolumeModel.to_mesh3d", "volmdlr/display.py:Mesh3D.merge"]}
{"id": "C118", "title": "Display data and moving volume models", "statement": "The centre and length given to the viewer are those of the smallest box around everything drawn, an error exactly when nothing is drawn; MovingVolumeModel accepts exactly steps with one frame per primitive, step_volume_model places each primitive in its own frame, and the frame announced for a mesh in the animation is the frame of the primitive it comes from. (False for the last when a primitive yields no mesh.)", "quantifier": "all nested meshes, lines and points; all primitives, steps and frames", "why_tests_cant": "Index bookkeeping between meshes and primitives must be right for every list; nothing in the tests looks at it.", "anchors": ["volmdlr/core.py:helper_babylon_data", "_extract_positions", "MovingVolumeModel", "VolumeModel.babylon_data"]}
{"id": "C119", "title": "Sections of a .msh file", "statement": "Reading a .msh file gives, for every section name, the lines of all the sections of that name in the order of the file, whatever the sections, their order and the text between them.", "quantifier": "all files made of named sections with any content, in any order and number", "why_tests_cant": "quantifies over every file; sample files never have blank lines between sections or an unfinished last section", "anchors": ["volmdlr/gmsh_vm.py:GmshParser.read_file"]}
{"id": "C120", "title": "Nodes of a .msh file", "statement": "For every list of node blocks the parsed nodes are, in the order of the file, the points of the blocks, overall and per dimension of the entity; when all have z = 0 they are given as 2D points, otherwise as the same 3D points.", "quantifier": "all node sections made of any number of blocks of any size", "why_tests_cant": "any number and size of blocks, empty blocks included", "anchors": ["volmdlr/gmsh_vm.py:GmshParser.from_file_nodes", "volmdlr/gmsh_vm.py:GmshParser.check_2d", "volmdlr/gmsh_vm.py:GmshParser.to_2d"]}
{"id": "C121", "title": "Elements of a .msh file", "statement": "For every list of element blocks the parsed elements of each type are, in the order of the file, the elements of the blocks of that type, each with its node tags lowered by one.", "quantifier": "all element sections made of any number of blocks", "why_tests_cant": "any number and size of blocks", "anchors": ["volmdlr/gmsh_vm.py:GmshParser.from_file_elements"]}
{"id": "C122", "title": "Meshes from a .msh file", "statement": "The triangles, tetrahedra and quadratic tetrahedra of the mesh made from a .msh file are those of the file: each element's nodes are the points carrying the node tags the file gives it, in the same order.", "quantifier": "all .msh files", "why_tests_cant": "the numbering of nodes is free in the format; tests use contiguous numbering", "anchors": ["volmdlr/gmsh_vm.py:GmshParser.define_triangular_element_mesh", "volmdlr/gmsh_vm.py:GmshParser.define_tetrahedron_element_mesh", "volmdlr/gmsh_vm.py:GmshParser.define_quadratic_tetrahedron_element_mesh"]}
{"id": "C123", "title": "Writing a .vtk file", "statement": "The .vtk lines of a parsed mesh describe the mesh: the points are those of the file in order, the announced counts are the real ones, there is one cell and one cell type per element, and every element is written as a cell of its VTK type with the same nodes.", "quantifier": "all parsed meshes with any number of elements of any type", "why_tests_cant": "consistency of counts for every mesh", "anchors": ["volmdlr/gmsh_vm.py:GmshParser.get_lines_nodes", "volmdlr/gmsh_vm.py:GmshParser.get_lines_cells", "volmdlr/gmsh_vm.py:GmshParser.get_lines_cells_type"]}
{"id": "C124", "title": "Physical names of a .msh file", "statement": "The physical names read from a .msh file are, for every dimension, the pairs of tag and name given in the file for that dimension.", "quantifier": "all lists of physical names", "why_tests_cant": "any number of names, tags of any number of digits", "anchors": ["volmdlr/gmsh_vm.py:GmshParser.from_file_physical_names"]}
{"id": "C125", "title": "Entities of a .msh file", "statement": "The points, curves, surfaces and volumes read from the entities section are those of the file, with their tags, boxes, physical groups and bounding entities.", "quantifier": "all entities sections", "why_tests_cant": "any number of entities and groups", "anchors": ["volmdlr/gmsh_vm.py:GmshParser.from_file_entities"]}
{"id": "C126", "title": "Geometry written to a .geo file", "statement": "The .geo statements written for a shell or a volume model form a file gmsh can read (every tag is positive and defined once per kind, every reference is to an entity defined earlier) and describe the model: each face is a surface whose loops draw its contours in order, each closed shell is a volume bounded by exactly its faces, and an edge shared by two faces is written once.", "quantifier": "all models made of any number of shells with any faces and contours", "why_tests_cant": "tag bookkeeping over any number of shells and shared edges; tests compare one file", "anchors": ["volmdlr/shells.py:OpenShell3D.get_geo_lines", "volmdlr/core.py:VolumeModel.get_geo_lines", "volmdlr/faces.py:Face3D.get_geo_lines", "volmdlr/wires.py:Contour3D.get_geo_lines", "volmdlr/edges.py:LineSegment.get_geo_lines", "volmdlr/edges.py:Arc3D.get_geo_lines"]}
{"id": "C127", "title": ".geo file of a face or 2D surface", "statement": "The .geo statements of a 2D surface or of a planar face describe its outer contour and its holes, with consecutive tags starting from the given ones.", "quantifier": "all surfaces with polygonal or circular contours and any number of holes", "why_tests_cant": "any number of contours and points", "anchors": ["volmdlr/surfaces.py:Surface2D.geo_lines", "volmdlr/faces.py:Face3D.geo_lines", "volmdlr/wires.py:Contour2D.line_segments"]}
{"id": "C128", "title": "Mesh fields of a .geo file", "statement": "The mesh fields written for a model are defined once and before being used, and each closed shell's volume, and no other, is given the mesh size of that shell.", "quantifier": "all models, all size functions, with or without a least number of points", "why_tests_cant": "numbering over any mix of primitives", "anchors": ["volmdlr/core.py:VolumeModel.get_mesh_lines", "volmdlr/surfaces.py:Surface2D.get_mesh_lines_with_transfinite_curves"]}
{"id": "C129", "title": "Area of a contour with arcs", "statement": "The area of a closed contour made of line segments and arcs of circle is the area of what it bounds: the absolute value of half the line integral of x dy - y dx, which is the Lebesgue measure of the region.", "quantifier": "all closed contours of line segments and arcs of any angle and direction, in any position", "why_tests_cant": "a continuum of shapes; arcs below and above a half turn, both directions", "anchors": ["volmdlr/wires.py:Contour2D.area", "volmdlr/wires.py:Contour2D._get_edge_polygon", "volmdlr/edges.py:Arc2D.straight_line_area", "volmdlr/edges.py:LineSegment2D.straight_line_area"]}
{"id": "C130", "title": "Centre of mass of a contour with arcs", "statement": "The centre of mass of a closed contour made of line segments and arcs is that of the region it bounds.", "quantifier": "all closed contours of line segments and arcs", "why_tests_cant": "a continuum of shapes", "anchors": ["volmdlr/wires.py:Contour2D.center_of_mass", "volmdlr/edges.py:Arc2D.straight_line_center_of_mass", "volmdlr/edges.py:Arc2D.center_of_mass"]}
{"id": "C131", "title": "Second moments of area of contours and circles", "statement": "The second moments of area of a contour or of a circle about a point are the integrals of y\u00b2, x\u00b2 and xy over the region.", "quantifier": "all contours of segments and arcs, all circles, all points", "why_tests_cant": "a continuum of shapes and points", "anchors": ["volmdlr/wires.py:Contour2D.second_moment_area", "volmdlr/edges.py:Arc2D.straight_line_second_moment_area", "volmdlr/curves.py:Circle2D.second_moment_area", "volmdlr/geometry.py:huygens2d"]}
{"id": "C132", "title": "Area and centre of mass of a surface with holes", "statement": "The area of a 2D surface with holes is the measure of what is left of the outline, and its centre of mass is that of what is left.", "quantifier": "all outlines and all lists of holes inside it that do not overlap", "why_tests_cant": "any number of holes", "anchors": ["volmdlr/surfaces.py:Surface2D.area", "volmdlr/surfaces.py:Surface2D.center_of_mass"]}
{"id": "C133", "title": "Volume of an extruded profile", "statement": "The volume of an extruded profile is the Lebesgue measure of the prism over the outline minus the holes.", "quantifier": "all orthonormal frames, all outlines and lists of holes, all lengths", "why_tests_cant": "a continuum of frames, shapes and lengths", "anchors": ["volmdlr/primitives3d.py:ExtrudedProfile.volume", "volmdlr/primitives3d.py:ExtrudedProfile.area"]}
{"id": "C134", "title": "Voxelization of triangles never misses a voxel", "statement": "MatrixBasedVoxelization.from_triangles and PointBasedVoxelization.from_triangles return, for any non-empty list of triangles and any positive voxel size, a voxelization that has every voxel of the implicit grid sharing a point with a triangle; no array is accessed out of its bounds. Fails for triangles with two equal vertices, which are skipped: their voxels are missing.", "quantifier": "all non-empty lists of triangles, all positive voxel sizes, all voxels of the grid", "why_tests_cant": "the triangles, their position relative to the grid and the voxel sizes are unbounded; a missed voxel opens a hole in the voxelized surface only for particular positions", "anchors": ["volmdlr/discrete_representation.py:MatrixBasedVoxelization.from_triangles", "volmdlr/discrete_representation.py:PointBasedVoxelization.from_triangles", "volmdlr/discrete_representation_compiled.py:triangles_to_voxel_matrix", "volmdlr/discrete_representation_compiled.py:_triangles_to_voxel_matrix"]}
{"id": "C135", "title": "Voxelization of triangles has no far voxels and is exact in planes of the grid", "statement": "Every voxel of from_triangles is a voxel of the implicit grid that shares a point with the bounding box of one of the triangles; if the triangles lie in planes between voxels, the voxels are exactly those sharing a point with a triangle (both sides). Exactness fails in general: a voxel near an edge of a triangle may be included without sharing a point with it.", "quantifier": "all non-empty lists of triangles, all positive voxel sizes", "why_tests_cant": "needs all positions of triangles relative to the grid; filling the inside of a planar triangle must be right for every shape", "anchors": ["volmdlr/discrete_representation_compiled.py:_triangles_to_voxel_matrix", "volmdlr/discrete_representation_compiled.py:_pixel_centers_to_filled_pixel_matrix", "volmdlr/discrete_representation_compiled.py:_triangle_2d_to_pixels"]}
{"id": "C136", "title": "Voxelization of triangles depends on the set of triangles only", "statement": "The voxels of from_triangles do not depend on the order or repetition of the triangles; the voxels of two lists together are the union of the voxels of the lists; replacing a triangle by triangles that cover it loses no voxel the triangle meets; an empty list is an error.", "quantifier": "all lists of triangles, all positive voxel sizes", "why_tests_cant": "quantifies over all lists and all orders", "anchors": ["volmdlr/discrete_representation.py:MatrixBasedVoxelization.from_triangles", "volmdlr/discrete_representation_compiled.py:_triangles_to_voxel_matrix"]}
{"id": "C137", "title": "Pixelization of segments and polygons is exact", "statement": "The pixels of PointBasedPixelization.from_line_segment are exactly the pixels of the grid that share a point with the segment; those of from_closed_polygon exactly the pixels that share a point with one of the sides joining consecutive points, the last with the first. A segment reduced to a point has no pixels.", "quantifier": "all segments with different ends, all polygons whose consecutive points differ, all positive pixel sizes", "why_tests_cant": "all positions relative to the grid, all directions and all sizes", "anchors": ["volmdlr/discrete_representation.py:PointBasedPixelization.from_line_segment", "volmdlr/discrete_representation.py:PointBasedPixelization.from_closed_polygon", "volmdlr/discrete_representation_compiled.py:line_segments_to_pixels"]}
{"id": "C138", "title": "Octrees of triangles never miss a voxel and have no far voxels", "statement": "OctreeBasedVoxelization.from_triangles has every voxel of the implicit grid that shares a point with a triangle (also a degenerate one), only voxels of the grid sharing a point with the bounding box of a triangle, is an octree the Boolean operations accept, and its voxels do not depend on the order of the triangles.", "quantifier": "all non-empty lists of triangles, all positive voxel sizes", "why_tests_cant": "recursion of unbounded depth over unbounded lists of triangles; the root voxel must be large enough for every position", "anchors": ["volmdlr/discrete_representation.py:OctreeBasedVoxelization.from_triangles", "volmdlr/discrete_representation.py:OctreeBasedVoxelization._subdivide_from_triangles"]}
{"id": "C139", "title": "The octree never misses a pair of intersecting faces", "statement": "OctreeBasedVoxelization.intersecting_faces_combinations of two shells has, for each pair of faces with triangles sharing a point, an entry with a voxel containing this point; each voxel listed for a pair of faces shares a point with the bounding box of a triangle of each of them.", "quantifier": "all shells with at least one triangle, all positive voxel sizes", "why_tests_cant": "unbounded shells and recursion depths; a missed pair is a wrong Boolean operation that appears only for some positions of the grid", "anchors": ["volmdlr/discrete_representation.py:OctreeBasedVoxelization.intersecting_faces_combinations", "volmdlr/discrete_representation.py:OctreeBasedVoxelization.get_intersecting_faces_combinations", "volmdlr/discrete_representation.py:OctreeBasedVoxelization._get_intersections_locations"]}
{"id": "C140", "title": "is_intersecting of two octrees is exact", "statement": "OctreeBasedVoxelization.is_intersecting ends for any two non-empty octrees, of any depths, voxel sizes and positions, and is true exactly if a voxel of the first and a voxel of the second share a point that is not on their borders; for octrees of triangles with the same voxel size exactly if their intersection is not empty.", "quantifier": "all pairs of non-empty octrees", "why_tests_cant": "unbounded depths and arbitrary relative positions; the stack loop must end for each of them", "anchors": ["volmdlr/discrete_representation.py:OctreeBasedVoxelization.is_intersecting", "volmdlr/discrete_representation.py:OctreeBasedVoxelization._subdivide_voxel"]}
{"id": "C141", "title": "Merged voxels cover the same points", "statement": "The voxels of different sizes made by merging full sub-voxels (get_non_homogeneous_voxel_centers) cover exactly the points of the octree's voxels, do not overlap, have a size that is the voxel size times a power of two, and never leave eight full sub-voxels of a voxel unmerged.", "quantifier": "all good octrees (those made by from_triangles and by the Boolean operations)", "why_tests_cant": "recursion of unbounded depth over 8-ary trees", "anchors": ["volmdlr/discrete_representation.py:OctreeBasedVoxelization._get_non_homogeneous_leaf_centers", "volmdlr/discrete_representation.py:OctreeBasedVoxelization.get_non_homogeneous_voxel_centers"]}
{"id": "C142", "title": "Layers around voxels and inner growing voxels", "statement": "layers_thickness_by_voxel_centers gives each voxel the largest number of complete layers of voxels around it (times the voxel size); get_inner_growing_voxel_centers covers exactly the points of the voxelization, without overlaps, and merges exactly the octets of voxels whose eight thicknesses are at least the minimal one.", "quantifier": "all voxelizations, all octrees, all thicknesses", "why_tests_cant": "unbounded grids; the largest number of layers is a statement about every cube around every voxel", "anchors": ["volmdlr/discrete_representation.py:MatrixBasedVoxelization.layers_thickness_by_voxel_centers", "volmdlr/discrete_representation.py:MatrixBasedVoxelization._layers_matrix", "volmdlr/discrete_representation.py:OctreeBasedVoxelization.get_inner_growing_voxel_centers", "volmdlr/discrete_representation.py:OctreeBasedVoxelization._get_inner_growing_leaf_centers"]}
{"id": "C143", "title": "Points, directions, frames and lines survive a STEP file", "statement": "What Point3D, Vector3D, Frame3D and Line3D write with to_step is read by from_step, whatever was read before and wherever in the file, as the same point, the same direction, the same frame, and the same line with the same direction; nothing read before is overwritten.", "quantifier": "all points, directions, direct orthonormal frames, lines; all identifiers; all dictionaries of objects read before", "why_tests_cant": "infinitely many coordinates and positions in the file", "anchors": ["volmdlr/core_compiled.pyx:Point3D.to_step", "volmdlr/core_compiled.pyx:Point3D.from_step", "volmdlr/core_compiled.pyx:Vector3D.to_step", "volmdlr/core_compiled.pyx:Vector3D.from_step", "volmdlr/core_compiled.pyx:Frame3D.to_step", "volmdlr/core_compiled.pyx:Frame3D.from_step", "volmdlr/curves.py:Line3D.to_step", "volmdlr/curves.py:Line3D.from_step"]}
{"id": "C144", "title": "Edges and contours survive a STEP file", "statement": "An edge (line segment, arc, full circle, B-spline curve) written to a STEP file is read as the same edge: same ends, same line, same oriented circle, same control points, degree, knots and multiplicities; an ordered contour is read as the contour of the same edges in the same order.", "quantifier": "all edges whose ends differ, all ordered contours of any length", "why_tests_cant": "unbounded numbers of edges and control points; identifiers must never collide", "anchors": ["volmdlr/edges.py:LineSegment3D.to_step", "volmdlr/edges.py:Arc3D.to_step", "volmdlr/edges.py:FullArc3D.to_step", "volmdlr/edges.py:BSplineCurve3D.to_step", "volmdlr/edges.py:BSplineCurve3D.from_step", "volmdlr/edges.py:Edge.from_step", "volmdlr/curves.py:Circle3D.from_step", "volmdlr/curves.py:Circle3D.trim", "volmdlr/wires.py:Contour3D.to_step", "volmdlr/wires.py:Contour3D.from_step"]}
{"id": "C145", "title": "Surfaces survive a STEP file", "statement": "A plane, cylinder, torus, cone, sphere, extrusion, revolution or B-spline surface written to a STEP file is read (before the simplification) as the same surface: same frame, semi-angle, edge, direction, axis, control points in the same rows, degrees, knots and multiplicities; radii up to 5e-8.", "quantifier": "all surfaces with direct orthonormal frames, sound edges, any number of control points", "why_tests_cant": "arbitrary tables of control points; rounding of radii for all values", "anchors": ["volmdlr/surfaces.py:Plane3D.to_step", "volmdlr/surfaces.py:CylindricalSurface3D.to_step", "volmdlr/surfaces.py:ToroidalSurface3D.to_step", "volmdlr/surfaces.py:ConicalSurface3D.to_step", "volmdlr/surfaces.py:SphericalSurface3D.to_step", "volmdlr/surfaces.py:ExtrusionSurface3D.to_step", "volmdlr/surfaces.py:RevolutionSurface3D.to_step", "volmdlr/surfaces.py:BSplineSurface3D.to_step", "volmdlr/surfaces.py:BSplineSurface3D.from_step", "volmdlr/surfaces.py:BSplineSurface3D.control_points_table"]}
{"id": "C146", "title": "Faces and shells survive a STEP file", "statement": "A face written to a STEP file is read with the same surface, the same outer contour and the same inner contours in the same order; a shell, open or closed, is read with the same faces in the same order.", "quantifier": "all faces whose surface, edges and contours are in the classes of C144 and C145, all shells of such faces", "why_tests_cant": "unbounded numbers of faces, contours and edges in one file", "anchors": ["volmdlr/faces.py:Face3D.to_step", "volmdlr/faces.py:Face3D.from_step", "volmdlr/shells.py:Shell3D.to_step", "volmdlr/shells.py:Shell3D.from_step", "volmdlr/utils/step_reader.py:face_outer_bound", "volmdlr/utils/step_reader.py:face_bound", "volmdlr/utils/step_reader.py:manifold_solid_brep", "volmdlr/utils/step_reader.py:shell_based_surface_model"]}
{"id": "C147", "title": "Surfaces of a STEP file do not disturb each other", "statement": "Surfaces of a STEP file that refer to the same placement are all read with their meaning, in any order.", "quantifier": "all lists of surfaces and placements", "why_tests_cant": "any number of surfaces in any order may share placements", "anchors": ["volmdlr/surfaces.py:ConicalSurface3D.from_step", "volmdlr/surfaces.py:CylindricalSurface3D.from_step", "volmdlr/step.py:Step.instantiate"]}
{"id": "C148", "title": "The unit of length of a STEP file", "statement": "Reading the points, directions, placements, circles, B-spline curves and surfaces of a file with a unit of length k times longer gives the same objects k times larger: points and radii are multiplied by k, directions and angles are not.", "quantifier": "all lists of such entities, all units, all dictionaries", "why_tests_cant": "arbitrary files and units; one forgotten factor shows only in files in inches", "anchors": ["volmdlr/core_compiled.pyx:Point3D.from_step", "volmdlr/curves.py:Circle3D.from_step", "volmdlr/surfaces.py:CylindricalSurface3D.from_step", "volmdlr/surfaces.py:ToroidalSurface3D.from_step", "volmdlr/surfaces.py:ConicalSurface3D.from_step", "volmdlr/surfaces.py:SphericalSurface3D.from_step", "volmdlr/surfaces.py:RevolutionSurface3D.from_step"]}
{"id": "C149", "title": "Decomposing a B-spline curve into B\u00e9zier patches", "statement": "decompose_curve ends for every valid curve and gives one patch for each interval between consecutive distinct knots, in order; each patch is a B\u00e9zier curve of the same degree, and its point of parameter v is the point of the curve at the corresponding place of the interval returned with it.", "quantifier": "all clamped B-spline curves (rational or not), any degree, any number of control points and inner knots of any multiplicity up to the degree", "why_tests_cant": "the loop and the re-standardised knots must be right for every knot vector", "anchors": ["volmdlr/nurbs/operations.py:decompose_curve", "volmdlr/edges.py:BSplineCurve.decompose"]}
{"id": "C150", "title": "Inserting knots in a B-spline surface keeps the surface", "statement": "insert_knot_surface returns a surface with the same points at the same parameters, whose knot vectors are those of the surface with the asked knots added; an insertion beyond the degree is refused.", "quantifier": "all valid surfaces (rational or not), all inner parameters, any number of insertions", "why_tests_cant": "all degrees, nets and knots; the points must coincide at every parameter", "anchors": ["volmdlr/nurbs/operations.py:insert_knot_surface", "volmdlr/nurbs/operations.py:knot_insertion", "volmdlr/nurbs/operations.py:flip_ctrlpts_u"]}
{"id": "C151", "title": "Splitting a B-spline surface", "statement": "split_surface_u and split_surface_v at an inner parameter give two valid surfaces of the same degrees which are exactly the two parts of the surface, meeting in its iso-parametric curve; a split at an end of the domain is refused.", "quantifier": "all valid surfaces (rational or not), all inner parameters, any degree and number of knots", "why_tests_cant": "all nets, knots and parameters", "anchors": ["volmdlr/nurbs/operations.py:split_surface_u", "volmdlr/nurbs/operations.py:split_surface_v", "volmdlr/nurbs/operations.py:construct_split_surfaces", "volmdlr/nurbs/operations.py:helper_split_knot_vectors", "volmdlr/surfaces.py:BSplineSurface3D.split"]}
{"id": "C152", "title": "Decomposing a B-spline surface into B\u00e9zier patches", "statement": "decompose_surface ends and gives one B\u00e9zier patch for each pair of an interval between consecutive distinct u knots and one between consecutive distinct v knots, u first; the point of a patch at (u, v) is that of the surface at the corresponding place of the rectangle returned with it.", "quantifier": "all valid surfaces, all numbers of inner knots in both directions", "why_tests_cant": "unbounded numbers of knots; nested loops of splits", "anchors": ["volmdlr/nurbs/operations.py:decompose_surface", "volmdlr/surfaces.py:BSplineSurface3D.decompose"]}
{"id": "C153", "title": "Curves of a B-spline surface", "statement": "get_surface_curves returns as many valid curves as there are rows and columns, the first and last being the borders of the surface; extract_curves returns, for each parameter of an increasing list, the iso-parametric curve of the surface at this parameter.", "quantifier": "all valid surfaces, all increasing lists of parameters", "why_tests_cant": "equality of curves at every parameter for all surfaces", "anchors": ["volmdlr/surfaces.py:BSplineSurface3D.get_surface_curves", "volmdlr/surfaces.py:BSplineSurface3D.surface_curves", "volmdlr/surfaces.py:BSplineSurface3D.extract_curves", "volmdlr/nurbs/operations.py:extract_surface_curve_u", "volmdlr/nurbs/operations.py:extract_surface_curve_v"]}
{"id": "C154", "title": "Merging B-spline curves", "statement": "merge_with_curves of curves of which each starts where the one before ends gives one curve that runs through them one after the other, each in an equal part of the parameter interval; it is refused exactly when a curve does not start close to the end of the one before.", "quantifier": "all lists of valid curves (rational or not) of any length", "why_tests_cant": "any number of curves, knots and weights; equality at every parameter", "anchors": ["volmdlr/nurbs/operations.py:link_curves", "volmdlr/edges.py:BSplineCurve.merge_with_curves"]}
{"id": "C155", "title": "Refining the knot vectors of a surface keeps the surface", "statement": "refine_knot_vector_surface returns a valid surface of the same degrees and points, in which every given parameter is a knot of the multiplicity of the degree and the other multiplicities are unchanged; it is refused exactly when a parameter is an end of the domain.", "quantifier": "all valid surfaces and all lists of inner parameters", "why_tests_cant": "lists of any length, all surfaces, all points", "anchors": ["volmdlr/nurbs/operations.py:refine_knot_vector_surface"]}
{"id": "C156", "title": "Surfaces of revolution", "statement": "RevolutionSurface3D(edge, axis_point, axis) has a direct orthonormal frame at the axis point; point2d_to_3d(u, v) is the point of abscissa v of the edge turned by u about the axis, so that the points of the surface are exactly those at the height and at the distance of the axis of some point of the edge; parametric_points_to_3d gives the same points; point3d_to_2d followed by point2d_to_3d gives a point of the surface back; translation and rotation give the surface of the moved points.", "quantifier": "all axes, edges (lines, segments, arcs, other edges), parameters and points", "why_tests_cant": "a continuum of edges, axes and parameters", "anchors": ["volmdlr/surfaces.py:RevolutionSurface3D.__init__", "volmdlr/surfaces.py:RevolutionSurface3D.point2d_to_3d", "volmdlr/surfaces.py:RevolutionSurface3D.point3d_to_2d", "volmdlr/surfaces.py:RevolutionSurface3D.parametric_points_to_3d", "volmdlr/surfaces.py:RevolutionSurface3D.rotation"]}
{"id": "C157", "title": "Surfaces of extrusion", "statement": "ExtrusionSurface3D(edge, direction) is refused for a null direction only, and its frame is orthonormal with the direction as third vector; point2d_to_3d(u, v) is the point of abscissa u of the edge moved by v along the direction, periodic in u for a closed edge; parametric_points_to_3d agrees and leaves its argument unchanged; point3d_to_2d followed by point2d_to_3d gives a point of the surface back.", "quantifier": "all directions, edges parametrised by arc length, parameters (within one period of the edge) and points", "why_tests_cant": "a continuum of edges, directions and parameters", "anchors": ["volmdlr/surfaces.py:ExtrusionSurface3D.__init__", "volmdlr/surfaces.py:ExtrusionSurface3D.point2d_to_3d", "volmdlr/surfaces.py:ExtrusionSurface3D.point3d_to_2d", "volmdlr/surfaces.py:ExtrusionSurface3D.parametric_points_to_3d", "volmdlr/edges.py:LineSegment3D.line_intersections"]}
{"id": "C158", "title": "Simplification of a surface of revolution", "statement": "RevolutionSurface3D.simplify gives a surface that contains the same points: a cone for a line that crosses the axis, a cylinder for a line parallel to it, a sphere for an arc centred on the axis, the surface itself otherwise.", "quantifier": "all surfaces of revolution", "why_tests_cant": "a continuum of generatrices and axes", "anchors": ["volmdlr/surfaces.py:RevolutionSurface3D.simplify"]}
{"id": "C159", "title": "Sections shared by two segments", "statement": "get_shared_section of two line segments gives one segment, made exactly of the common points, when they have at least two of them, and nothing otherwise; delete_shared_section gives segments that together with the shared section make up the first segment, and the first segment itself when nothing is shared.", "quantifier": "all pairs of segments, all tolerances", "why_tests_cant": "a continuum of relative positions (inside, across an end, opposite directions, touching, apart, oblique)", "anchors": ["volmdlr/edges.py:Edge.generic_get_shared_section", "volmdlr/edges.py:Edge.delete_shared_section", "volmdlr/edges.py:LineSegment.get_shared_section"]}
{"id": "C160", "title": "Circles and quality of a 2D triangle", "statement": "For a triangle that is not flat, circumcircle_radius is the distance of the three points to the only point at equal distance of them, and incircle_radius the radius of a circle centred inside the triangle that touches its three sides without crossing them; aspect_ratio is half the quotient of the two, at least 1, and 1 for equilateral triangles only; it is 1000000 for aligned points; the ratios to the length are bounded by those of the equilateral triangle.", "quantifier": "all triangles of the plane", "why_tests_cant": "a continuum of triangles; the extremal property speaks of all of them", "anchors": ["volmdlr/wires.py:Triangle2D.incircle_radius", "volmdlr/wires.py:Triangle2D.circumcircle_radius", "volmdlr/wires.py:Triangle2D.aspect_ratio", "volmdlr/wires.py:Triangle2D.ratio_circumr_length"]}
{"id": "C161", "title": "Measures of a display mesh", "statement": "The area of a mesh is the sum of the areas of its triangles: additive for merged meshes, unchanged by merging equal vertices, splitting shared ones or moving the mesh rigidly, multiplied by the square of the factor by resize. minimum_distance is the smallest distance between a vertex of one mesh and a vertex of the other, whatever nearest vertices the trees choose, and is symmetric. remove_large_triangles keeps exactly the triangles all of whose sides are shorter than the threshold. bounding_box is the smallest box of the vertices.", "quantifier": "all meshes, thresholds and factors, all choices of nearest vertices", "why_tests_cant": "unbounded numbers of vertices and triangles, ties between nearest vertices", "anchors": ["volmdlr/display.py:Mesh3D.area", "volmdlr/display.py:Mesh2D.area", "volmdlr/display.py:Mesh3D.minimum_distance", "volmdlr/display.py:Mesh3D.remove_large_triangles", "volmdlr/display.py:MeshMixin.resize"]}
{"id": "C162", "title": "Faces of a display mesh", "statement": "to_triangles3d (hence faces, to_closed_shell, to_open_shell) gives the triangles of the mesh, in order, with the same points.", "quantifier": "all meshes without flat triangles", "why_tests_cant": "unbounded numbers of triangles of any size", "anchors": ["volmdlr/display.py:Mesh3D.to_triangles3d", "volmdlr/display.py:Mesh3D.to_closed_shell"]}
{"id": "C163", "title": "Wires from loose edges", "statement": "wires_from_edges always ends and puts every edge of the list in exactly one wire, exactly once, reversed or not; each wire is a chain in which every edge starts where the previous one ends; the total length is kept; no edge of a later wire has an extremity at an end of an earlier one; edges which can be ordered in one chain give this one chain. The list given by the caller is left unchanged.", "quantifier": "all lists of edges, all tolerances", "why_tests_cant": "unbounded numbers of edges in any order and orientation", "anchors": ["volmdlr/wires.py:WireMixin.wires_from_edges"]}
{"id": "C164", "title": "Splitting a wire at two points", "statement": "split_with_two_points gives the part of the wire between two of its points, a chain from the first to the second with the length between them, and the rest: a chain from the start of the wire to the first point and one from the second point to its end. The order of the points does not matter and NotImplementedError is never raised. extract_with_points gives the one or the other.", "quantifier": "all wires without degenerate edges, all pairs of different points on them", "why_tests_cant": "any number of edges, any position of the points, including the joints of the edges", "anchors": ["volmdlr/wires.py:WireMixin.split_with_two_points", "volmdlr/wires.py:WireMixin.extract_with_points"]}
{"id": "C165", "title": "Splitting a wire at several points", "statement": "split_with_sorted_points cuts an open wire in sections from each point to the next one, the ends of the wire being added to the points, and a contour in such sections and a last one from the last point to the first through its start; the lengths of the sections add up to the length of the wire. The list of points of the caller is left unchanged.", "quantifier": "all wires without degenerate edges, all lists of points sorted along them", "why_tests_cant": "any number of edges and points", "anchors": ["volmdlr/wires.py:WireMixin.split_with_sorted_points", "volmdlr/wires.py:WireMixin.extract"]}
{"id": "C166", "title": "Contours from loose edges", "statement": "contours_from_edges always ends and puts every edge in exactly one contour, turned or not; each contour is a chain; the contours which superpose an earlier one are left out. Every contour is simple: it passes at each place once, and is closed or ends at a place it does not pass at otherwise. When every place is the extremity of an even number of edges, as for the boundaries of faces, every contour is closed.", "quantifier": "all lists of edges in any order and direction", "why_tests_cant": "unbounded numbers of edges, any graph of places", "anchors": ["volmdlr/wires.py:ContourMixin.contours_from_edges", "volmdlr/core.py:get_point_index_in_list"]}
{"id": "C167", "title": "Convexity test of polygons", "statement": "ClosedPolygon2D.is_convex is True exactly for the polygons in convex position, whatever the direction in which their vertices are given: each side has all the vertices on the same side of its line.", "quantifier": "all polygons with at least three vertices, consecutive ones being different", "why_tests_cant": "any number of vertices, both directions, aligned vertices", "anchors": ["volmdlr/wires.py:ClosedPolygon2D.is_convex", "volmdlr/wires.py:ClosedPolygon2D.is_trigo", "volmdlr/geometry.py:clockwise_angle"]}
{"id": "C168", "title": "Self-intersection test and distance of polygons", "statement": "ClosedPolygon2D.self_intersects is True exactly when two sides which are not consecutive meet, and gives two such sides; polygon_distance is the smallest distance between the two polygons.", "quantifier": "all polygons with at least three vertices", "why_tests_cant": "any number and order of vertices", "anchors": ["volmdlr/wires.py:ClosedPolygon2D.self_intersects", "volmdlr/wires.py:ClosedPolygon2D._get_segments", "volmdlr/wires.py:ClosedPolygon2D._segments_intersect", "volmdlr/wires.py:ClosedPolygon2D.polygon_distance"]}
{"id": "C169", "title": "Jumps of reduced angles are found", "statement": "angle_discontinuity, on the reduced angles of successive points of a curve less than half a turn apart, gives exactly the indices where the reduced angle jumps from one end of the period to the other.", "quantifier": "all lists of angles of any length, sampled from any continuous angle", "why_tests_cant": "any number of points, jumps in both directions, sign changes through zero", "anchors": ["volmdlr/utils/parametric.py:find_sign_changes", "volmdlr/utils/parametric.py:angle_discontinuity"]}
{"id": "C170", "title": "Discretizations are made continuous in the parametric domain", "statement": "The points of an edge on a periodical surface, after the treatment of the discontinuities, have the angle followed continuously along the edge, and their other coordinate is unchanged.", "quantifier": "all edges, any number of points and of turns", "why_tests_cant": "any number of points and jumps, in any order", "anchors": ["volmdlr/surfaces.py:PeriodicalSurface._fix_angle_discontinuity_on_discretization_points", "volmdlr/surfaces.py:PeriodicalSurface._helper_fix_angle_discontinuity", "volmdlr/surfaces.py:PeriodicalSurface.bsplinecurve3d_to_2d", "volmdlr/surfaces.py:ToroidalSurface3D.bsplinecurve3d_to_2d"]}
{"id": "C171", "title": "Angle of the end of an edge on the seam", "statement": "repair_start_end_angle_periodicity returns the same direction, up to the tolerance, on the side of the period of the reference angle.", "quantifier": "all angles and references", "why_tests_cant": "a continuum of angles, four tests with tolerances", "anchors": ["volmdlr/utils/parametric.py:repair_start_end_angle_periodicity"]}
{"id": "C172", "title": "Arcs keep their angle in the parametric domain", "statement": "An arc around the axis of a cylinder, or an arc of a torus, becomes a segment whose extent in each angle is the angle swept by the arc, with its sign, and which starts at the angle of the start of the arc up to whole turns.", "quantifier": "all arcs of less than a turn, in both directions, with ends on the seam or not, through the seam or not", "why_tests_cant": "a continuum of arcs; six flags", "anchors": ["volmdlr/utils/parametric.py:arc3d_to_cylindrical_coordinates_verification", "volmdlr/utils/parametric.py:repair_arc3d_angle_continuity", "volmdlr/utils/parametric.py:arc3d_to_toroidal_coordinates_verification", "volmdlr/utils/parametric.py:toroidal_repair_start_end_angle_periodicity", "volmdlr/surfaces.py:PeriodicalSurface._reference_points"]}
{"id": "C173", "title": "Full circles make one turn of the parametric domain", "statement": "A full circle around the axis of a cylinder becomes a segment over one turn, in the direction given by the sign of the product of the normals, which starts at the angle of the circle up to whole turns.", "quantifier": "all circles, angles and normals", "why_tests_cant": "a continuum of angles with a tolerance at the seam", "anchors": ["volmdlr/utils/parametric.py:fullarc_to_cylindrical_coordinates_verification"]}
{"id": "C174", "title": "Rules and parallels of cylinders and cones follow their parametric segment", "statement": "linesegment2d_to_3d of a cylinder or a cone gives, for a vertical segment of the parametric domain, the segment of the rule, and for a horizontal one an arc (a full circle for a whole turn) from the image of the start to the image of the end in the direction of the segment: the point at each fraction of the length of the edge is the image of the point at this fraction of the segment.", "quantifier": "all frames, radii, heights (both sides of the apex) and angles outside of the tolerance bands, all positions along the edge", "why_tests_cant": "a continuum of surfaces, segments and points; the direction of the arc must be right in both orders of the angles", "anchors": ["volmdlr/surfaces.py:PeriodicalSurface.linesegment2d_to_3d", "volmdlr/surfaces.py:ConicalSurface3D.linesegment2d_to_3d", "volmdlr/edges.py:Arc3D.__init__", "volmdlr/curves.py:Circle3D.reverse"]}
{"id": "C175", "title": "Meridians and parallels of a torus follow their parametric segment", "statement": "linesegment2d_to_3d of a torus gives, for a vertical or horizontal segment of the parametric domain, an arc (a full circle for a whole turn) whose point at each fraction of its length is the image of the point at this fraction of the segment.", "quantifier": "all tori in a direct orthonormal frame, all angles outside of the tolerance bands, all positions along the edge", "why_tests_cant": "a continuum of tori, segments and points", "anchors": ["volmdlr/surfaces.py:ToroidalSurface3D.linesegment2d_to_3d"]}
{"id": "C176", "title": "Meridians and parallels of a sphere follow their parametric segment", "statement": "linesegment2d_to_3d of a sphere gives, for a vertical or horizontal segment of the parametric domain, an arc whose point at each fraction of its length is the image of the point at this fraction of the segment.", "quantifier": "all spheres in a direct orthonormal frame, all vertical and horizontal segments of at most half a turn, all positions along the edge", "why_tests_cant": "a continuum of spheres, segments and points", "anchors": ["volmdlr/surfaces.py:SphericalSurface3D.linesegment2d_to_3d"]}
{"id": "C177", "title": "The union of a list of shells ends with shells apart that are the groups of the list", "statement": "union_list_of_shells ends for every non-empty list; the shells it returns share no point with each other, each is the union of shells of the list that hang together (however they are shared out in two, one of each part meet), every shell of the list is in exactly one of these groups, and the list of the caller is left empty. An empty list raises IndexError.", "quantifier": "all lists of shells, whatever their number, order and the way they meet", "why_tests_cant": "the loop moves shells between three lists in ways that depend on which shells meet; all the graphs of meetings cannot be tried", "anchors": ["volmdlr/shells.py:union_list_of_shells"]}
{"id": "C178", "title": "Set operations settle disjoint and nested shells rightly", "statement": "When the bounding boxes are apart or one shell is inside the other, union, intersection, subtract and subtract_to_closed_shell give shells covering the union, intersection and difference of the points.", "quantifier": "all pairs of shells", "why_tests_cant": "all relative positions", "anchors": ["volmdlr/shells.py:ClosedShell3D.validate_set_operation", "volmdlr/shells.py:ClosedShell3D.union", "volmdlr/shells.py:ClosedShell3D.subtract", "volmdlr/shells.py:ClosedShell3D.subtract_to_closed_shell", "volmdlr/shells.py:ClosedShell3D.intersection", "volmdlr/shells.py:Shell3D.is_disjoint_from"]}
{"id": "C179", "title": "Ray casting does not depend on the random rays", "statement": "ClosedShell3D.point_belongs answers whether the point is inside, whatever the ten random rays.", "quantifier": "all rays and all lists of intersections with the faces", "why_tests_cant": "the rays are random; the bad ones are rare", "anchors": ["volmdlr/shells.py:ClosedShell3D.point_belongs", "volmdlr/shells.py:ClosedShell3D.linesegment_intersections"]}
{"id": "C180", "title": "The clean-up of resulting faces loses no point and keeps no face twice", "statement": "validate_set_operations_faces keeps faces of the list in order; every face left out lies in one that is kept, no face that is kept lies in another, and the points covered are the same.", "quantifier": "all lists of faces and all relations of lying in", "why_tests_cant": "depends on the order of the list", "anchors": ["volmdlr/shells.py:ClosedShell3D.validate_set_operations_faces"]}
{"id": "C181", "title": "merge_faces ends, with the faces grouped by surface", "statement": "ClosedShell3D.merge_faces ends without error for every shell; the faces fall into groups of two or more faces on coincident surfaces, different groups on different surfaces, and faces alone on theirs; the shell then has what the groups are merged into, followed by the faces alone; no point is lost or gained when the merging of a group does not.", "quantifier": "all lists of faces", "why_tests_cant": "the while loop removes faces from the list its end is tested on; all distributions of faces on surfaces", "anchors": ["volmdlr/shells.py:ClosedShell3D.merge_faces", "volmdlr/shells.py:ClosedShell3D.get_faces_to_be_merged", "volmdlr/shells.py:ClosedShell3D.clean_faces"]}
{"id": "C182", "title": "Merging of coplanar faces gives the groups of adjacent faces", "statement": "PlaneFace3D.merge_faces ends; the faces given back are apart, each is the union of faces of the list that hang together, every face is in exactly one.", "quantifier": "all lists of coplanar faces, all orders", "why_tests_cant": "the result is built by successive attachments restarting the scan; all adjacency graphs", "anchors": ["volmdlr/faces.py:PlaneFace3D.merge_faces"]}
{"id": "C183", "title": "Circles and arcs of space are carried along by moves", "statement": "rotation, translation and frame_mapping keep distances; a circle, an arc or a full arc moved by them has its centre, ends and the point at every angle or abscissa where the move takes them, and keeps its radius, its angles and its length (the moved arc is never the complement of the image).", "quantifier": "all direct frames, radii, ends, centres, unit axes, angles, offsets and orthonormal frames of mapping", "why_tests_cant": "the angles of an arc are computed again from the moved ends, the frame is moved with rounding and a special case of the centre; continuous families", "anchors": ["volmdlr/edges.py:Arc3D.rotation", "volmdlr/edges.py:Arc3D.translation", "volmdlr/edges.py:Arc3D.frame_mapping", "volmdlr/edges.py:FullArc3D.rotation", "volmdlr/curves.py:Circle3D.rotation", "volmdlr/curves.py:Circle3D.translation", "volmdlr/curves.py:Circle3D.frame_mapping"]}
{"id": "C184", "title": "Surfaces are carried along by moves", "statement": "A plane, cylinder, cone, sphere or torus moved by rotation, translation or frame_mapping keeps its sizes; the point of any parameters goes where the move takes it, and the parameters of a moved point are those of the point.", "quantifier": "all surfaces, parameters, points and moves", "why_tests_cant": "continuous families; faces keep their contour in the parametric domain and rely on it", "anchors": ["volmdlr/surfaces.py:Plane3D.rotation", "volmdlr/surfaces.py:CylindricalSurface3D.frame_mapping", "volmdlr/surfaces.py:ConicalSurface3D.rotation", "volmdlr/surfaces.py:SphericalSurface3D.translation", "volmdlr/surfaces.py:ToroidalSurface3D.frame_mapping"]}
{"id": "C185", "title": "Circles and arcs of the plane are carried along by moves", "statement": "A circle, arc or full arc of the plane moved by rotation, translation or frame_mapping (by a direct frame or not) is the image of the circle or arc: centre, ends, length, the point at every abscissa.", "quantifier": "all circles (direct or not), ends and moves", "why_tests_cant": "a rotation turns the frame of the circle only when the centre is its own; indirect frames change the sense of travel", "anchors": ["volmdlr/edges.py:Arc2D.rotation", "volmdlr/edges.py:Arc2D.translation", "volmdlr/edges.py:Arc2D.frame_mapping", "volmdlr/curves.py:Circle2D.rotation", "volmdlr/curves.py:Circle2D.frame_mapping"]}
{"id": "C186", "title": "Ellipses are carried along by moves", "statement": "An ellipse of the plane or of space keeps its axes and the point at every angle goes where the move takes it.", "quantifier": "all ellipses, direct or not, all moves", "why_tests_cant": "Ellipse2D.rotation computes the minor direction again from the major one; continuous families", "anchors": ["volmdlr/curves.py:Ellipse2D.rotation", "volmdlr/curves.py:Ellipse2D.translation", "volmdlr/curves.py:Ellipse2D.frame_mapping", "volmdlr/curves.py:Ellipse3D.rotation", "volmdlr/curves.py:Ellipse3D.frame_mapping"]}
{"id": "C187", "title": "Moves of spline curves and surfaces, symmetric splines", "statement": "Mapping the control points of a B-spline curve or surface, rational or not, by a move gives the spline whose point at every parameter is the moved point; axial_symmetry gives the mirrored curve.", "quantifier": "all degrees, knots, multiplicities, positive weights, control points, parameters and affine maps", "why_tests_cant": "all degrees and parameters", "anchors": ["volmdlr/edges.py:BSplineCurve.translation", "volmdlr/edges.py:BSplineCurve.frame_mapping", "volmdlr/edges.py:BSplineCurve2D.rotation", "volmdlr/edges.py:BSplineCurve3D.rotation", "volmdlr/edges.py:BSplineCurve3D.to_2d", "volmdlr/edges.py:BSplineCurve2D.axial_symmetry", "volmdlr/surfaces.py:BSplineSurface3D.rotation", "volmdlr/surfaces.py:BSplineSurface3D.translation", "volmdlr/surfaces.py:BSplineSurface3D.frame_mapping"]}
{"id": "C188", "title": "Discretization of a part of an edge", "statement": "get_abscissa_discretization / local_discretization keep points of the edge at increasing sampled abscissas, none past the end, no two within the tolerance of each other, and drop a sample only when a kept one is within the tolerance: every point of the part is within half a step of a kept point.", "quantifier": "all edges (any parametrization by length), abscissas and numbers of points", "why_tests_cant": "continuous families of edges; the filtering of near points depends on the whole history of the loop", "anchors": ["volmdlr/utils/common_operations.py:get_abscissa_discretization", "volmdlr/edges.py:Edge.local_discretization"]}
{"id": "C189", "title": "Distance of a point to an edge by refinement", "statement": "point_distance of an edge ends with a number, which is the distance from the point to the nearest chord of a discretization of a part of the edge; a user expects it to be the distance to the edge.", "quantifier": "all simple edges measured by length, all points", "why_tests_cant": "an unbounded loop of refinements; its end needs an argument about all turns", "anchors": ["volmdlr/utils/common_operations.py:get_point_distance_to_edge", "volmdlr/edges.py:Edge.point_distance"]}
{"id": "C190", "title": "Distance between line segments, and between a segment and a line, in space", "statement": "distance_linesegment and line_distance give the smallest distance between points of the two, with points that realize it.", "quantifier": "all segments and lines with distinct ends", "why_tests_cant": "continuous families; special cases for parallel, overlapping and touching segments", "anchors": ["volmdlr/edges.py:LineSegment3D.distance_linesegment", "volmdlr/edges.py:LineSegment3D.line_distance", "volmdlr/edges.py:LineSegment.line_distance"]}
{"id": "C191", "title": "Distance between two edges by refinement", "statement": "minimum_distance of two edges by discretization gives the distance of two points near chords of the edges, none of the measured pairs of the last turn being nearer; with return_points the first point is on the first edge and the second on the second.", "quantifier": "all edges, ends, numbers of turns", "why_tests_cant": "an unbounded loop over pairs of chords", "anchors": ["volmdlr/utils/common_operations.py:generic_minimum_distance", "volmdlr/edges.py:Edge.minimum_distance", "volmdlr/edges.py:Edge.generic_minimum_distance"]}
{"id": "C192", "title": "Points separated by closeness", "statement": "separate_points_by_closeness shares out the points among closed loops: two points are in the same loop exactly when a chain of points with steps of at most eps (between 0.02 and 0.35) joins them; every loop is ordered by nearest neighbours.", "quantifier": "all lists of points and every clustering that meets the specification of DBSCAN with one point enough", "why_tests_cant": "all lists, any shape of the groups", "anchors": ["volmdlr/utils/common_operations.py:separate_points_by_closeness", "volmdlr/utils/common_operations.py:order_points_list_for_nearest_neighbor"]}
{"id": "C193", "title": "Centre of mass of points", "statement": "get_center_of_mass gives the only point from which the vectors to the points balance; it does not depend on the order and lies in every half space with all the points.", "quantifier": "all non-empty lists of points", "why_tests_cant": "all lists", "anchors": ["volmdlr/utils/common_operations.py:get_center_of_mass"]}
{"id": "C194", "title": "Vertices of a shell", "statement": "vertices_points lists ends of edges of the faces, no two of them within the tolerance of each other, and every end of an edge of every contour of every face is within the tolerance of a listed point.", "quantifier": "all lists of faces with any contours, any symmetric and reflexive closeness of points", "why_tests_cant": "the list kept depends on the order and on all points seen before; closeness is not transitive", "anchors": ["volmdlr/shells.py:Shell3D.vertices_points", "volmdlr/shells.py:Shell3D._helper_getter_vertices_points", "volmdlr/core.py:get_point_index_in_list"]}
{"id": "C195", "title": "Graph of the faces of a shell", "statement": "faces_graph(False) joins two faces exactly when they are different and have vertices within the tolerance of each other; a face without edges is an exception.", "quantifier": "all lists of faces", "why_tests_cant": "the loop discards indices from the sets it goes through, for any number of faces and vertices", "anchors": ["volmdlr/shells.py:Shell3D.faces_graph", "volmdlr/shells.py:Shell3D._helper_create_faces_graph"]}
{"id": "C196", "title": "Bridges between the components of the graph of faces", "statement": "faces_graph keeps the edges of the graph of shared vertices, adds edges only between faces that touch (a vertex of one over a contour of the other), and joins faces that touch.", "quantifier": "all lists of faces, all orders of the connected components", "why_tests_cant": "quadruple loop with a flag that is never lowered, over any number of components", "anchors": ["volmdlr/shells.py:Shell3D._faces_graph_search_bridges"]}
{"id": "C197", "title": "Open and closed shells", "statement": "is_shell_open answers True exactly when an edge of a face is over no contour of another face.", "quantifier": "all lists of faces with edges", "why_tests_cant": "for all faces, edges and neighbours; the answer rests on the graph of the faces", "anchors": ["volmdlr/shells.py:Shell3D.is_shell_open"]}
{"id": "C198", "title": "Shells made from a list of faces", "statement": "from_faces shares out the faces among shells: each face is in exactly one, two are in the same exactly when a chain of faces sharing vertices joins them, and a shell is an OpenShell3D exactly when one of its edges is over no contour of its neighbours.", "quantifier": "all lists of faces, all orders of the components", "why_tests_cant": "reachability in graphs of any size", "anchors": ["volmdlr/shells.py:Shell3D.from_faces"]}
{"id": "C199", "title": "Graphs kept by a shell", "statement": "the answers of vertices_graph and faces_graph are those of a new shell whatever calls were made before.", "quantifier": "all sequences of calls", "why_tests_cant": "histories of calls of any length", "anchors": ["volmdlr/shells.py:Shell3D.vertices_graph", "volmdlr/shells.py:Shell3D.faces_graph"]}
{"id": "C200", "title": "Decomposition of faces in octants", "statement": "octree_decomposition gives groups that are not empty, each with an octant of the box that has the centres of the boxes of its faces; when the boxes of the faces are in the box, each face is in exactly one group; a face whose centre is not in the box (up to 1e-6) is in none.", "quantifier": "all boxes, all lists of faces with boxes", "why_tests_cant": "for all boxes and positions, with centres on the limits of octants", "anchors": ["volmdlr/faces.py:octree_decomposition", "volmdlr/core.py:BoundingBox.octree"]}
{"id": "C201", "title": "Distance between two shells", "statement": "minimum_distance of two shells gives the distance of the shells, with a point of each at this distance.", "quantifier": "all shells, as groups of faces with sampled points", "why_tests_cant": "for all positions of shells; the groups are chosen by sampled points", "anchors": ["volmdlr/shells.py:Shell3D.minimum_distance", "volmdlr/shells.py:Shell3D.get_minimum_distance_nearby_faces", "volmdlr/shells.py:Shell3D.shell_decomposition"]}
{"id": "C202", "title": "Distance of a point to a face by its triangulation", "statement": "point_distance of a face gives the distance of the point to the nearest triangle of the triangulation of the face.", "quantifier": "all triangulations in groups, all points", "why_tests_cant": "for all points of space and all triangulations", "anchors": ["volmdlr/faces.py:Face3D.point_distance", "volmdlr/faces.py:Face3D._get_face_decomposition_set_closest_to_point"]}
{"id": "C203", "title": "Nearest point of a shell", "statement": "minimum_distance_point of a shell is the point of the faces nearest to the point.", "quantifier": "all shells, boxes and points", "why_tests_cant": "for all points; a comparison with the distance to the box stops the search", "anchors": ["volmdlr/shells.py:Shell3D.minimum_distance_point"]}
{"id": "C204", "title": "Distance of a point to a plane face", "statement": "point_distance of a plane face is the distance to the nearest point of the face, which is answered.", "quantifier": "all regions and borders of the plane, all points of space", "why_tests_cant": "continuous families of faces and points", "anchors": ["volmdlr/faces.py:PlaneFace3D.point_distance"]}
{"id": "C205", "title": "Distance between two plane faces", "statement": "minimum_distance_points_plane is zero with a common point when a border meets the other face, and else the distance of the two faces with points that realize it.", "quantifier": "all plane faces as regions with borders", "why_tests_cant": "continuous families of pairs of faces", "anchors": ["volmdlr/faces.py:PlaneFace3D.minimum_distance_points_plane"]}
{"id": "C206", "title": "Distance of two line segments of the plane", "statement": "distance_linesegment of two 2D segments that are not reduced to a point is the least distance of a point of the first and a point of the second; with return_points, these two points are at this distance.", "quantifier": "all pairs of segments of the plane with distinct ends", "why_tests_cant": "for all positions of the two segments, crossing, parallel or not; and against all pairs of points of them", "anchors": ["volmdlr/edges.py:LineSegment2D.distance_linesegment", "volmdlr/edges.py:LineSegment2D.closest_point_on_segment"]}
{"id": "C207", "title": "Distance of a line segment and a line of the plane", "statement": "line_distance of a 2D segment and a line is the least distance of a point of the segment and a point of the line; with return_points, the first point is on the segment, the second on the line and they are at this distance.", "quantifier": "all segments and lines of the plane", "why_tests_cant": "for all positions and all pairs of points", "anchors": ["volmdlr/edges.py:LineSegment2D.line_distance", "volmdlr/curves.py:Line.closest_point_on_line"]}
{"id": "C208", "title": "Complementary arc", "statement": "complementary of an arc of the plane goes from its end to its start on the same circle; the two angles add up to a full turn and the two lengths to the circumference; each point of the circle belongs to one of them, and to both only within the tolerance of the ends; the complementary of the complementary arc is the arc.", "quantifier": "all circles, directions and angles, all points of the circle", "why_tests_cant": "continuous families of circles, angles and points, with arcs across the angle zero", "anchors": ["volmdlr/edges.py:Arc2D.complementary", "volmdlr/edges.py:Arc2D.point_belongs"]}
{"id": "C209", "title": "Offset of an arc", "statement": "infinite_primitive(offset) of an arc of the plane is the arc of the same angle at the distance offset to the right of the direction of the arc; it is None when the circle has no such parallel.", "quantifier": "all arcs and offsets", "why_tests_cant": "for all circles, directions, angles and offsets and at all points of the arcs", "anchors": ["volmdlr/edges.py:Arc2D.infinite_primitive"]}
{"id": "C210", "title": "Arc symmetric to an arc", "statement": "The points of arc.axial_symmetry(line) are the symmetric points of the points of the arc.", "quantifier": "all arcs and lines of the plane", "why_tests_cant": "for all arcs, lines and points of the arcs", "anchors": ["volmdlr/edges.py:Arc2D.axial_symmetry"]}
{"id": "C211", "title": "Offset of a contour of line segments", "statement": "offset(d) of a closed contour of line segments goes by points that are at the distance d to the right of a side and of the next side, from each to the next one.", "quantifier": "all contours of any number of sides, all offsets", "why_tests_cant": "for all numbers of sides and all positions", "anchors": ["volmdlr/wires.py:Wire2D.offset", "volmdlr/wires.py:Wire2D.infinite_intersections", "volmdlr/edges.py:LineSegment2D.infinite_primitive", "volmdlr/curves.py:Line2D.cut_between_two_points"]}
{"id": "C212", "title": "Revolution of a line segment", "statement": "The faces of revolution(axis_point, axis, angle) of a line segment of space in a plane with the axis are the points swept by the segment turned about the axis by the angles from zero to angle.", "quantifier": "all segments in a plane with the axis, all axes and angles", "why_tests_cant": "continuous families of segments, axes and angles, and all points of the faces", "anchors": ["volmdlr/edges.py:LineSegment3D.revolution", "volmdlr/edges.py:LineSegment3D._conical_revolution", "volmdlr/edges.py:LineSegment3D._cylindrical_revolution", "volmdlr/edges.py:LineSegment3D._plane_revolution"]}
{"id": "C213", "title": "Extrusion of a line segment", "statement": "extrusion(vector) of a line segment of space is one planar face whose points are the points swept by the segment moved along the vector, and whose area is the area of the swept parallelogram; it is refused for a segment or a vector of length zero.", "quantifier": "all segments and extrusion vectors of space", "why_tests_cant": "continuous families of segments and vectors, and all points of the face", "anchors": ["volmdlr/edges.py:LineSegment3D.extrusion", "volmdlr/faces.py:PlaneFace3D.from_surface_rectangular_cut"]}
{"id": "C214", "title": "Extrusion of a circle", "statement": "extrusion(vector) of a circle of space along its normal, in either direction, is one cylindrical face whose points are the points swept by the circle moved along the vector; other directions are refused.", "quantifier": "all circles and extrusion vectors", "why_tests_cant": "continuous families of circles and vectors, and all points of the face", "anchors": ["volmdlr/curves.py:Circle3D.extrusion"]}
{"id": "C215", "title": "Revolution of a circle", "statement": "revolution(axis_point, axis, angle) of a circle of space, when it is not refused, is a part of a torus whose points are the points swept by the circle turned about the axis.", "quantifier": "all circles, axes and angles", "why_tests_cant": "continuous families of circles, axes and angles, and all points of the face", "anchors": ["volmdlr/curves.py:Circle3D.revolution"]}
{"id": "C216", "title": "Revolution of an arc about an axis away from its centre", "statement": "revolution(axis_point, axis, angle) of an arc of space whose plane contains the axis and whose centre is not on the axis is a part of a torus whose points are the points swept by the arc turned about the axis.", "quantifier": "all arcs, axes and angles", "why_tests_cant": "continuous families of arcs, axes and angles, of both directions of the arc, and all points of the face", "anchors": ["volmdlr/edges.py:Arc3D.revolution"]}
{"id": "C217", "title": "Revolution of an arc about an axis by its centre", "statement": "revolution(axis_point, axis, angle) of an arc of space whose plane contains the axis and whose centre is on the axis is a part of a sphere whose points are the points swept by the arc turned about the axis.", "quantifier": "all arcs, axes and angles", "why_tests_cant": "continuous families of arcs, axes and angles, of both directions of the arc, and all points of the face", "anchors": ["volmdlr/edges.py:Arc3D.revolution"]}
{"id": "C218", "title": "Extrusion of an arc along its normal", "statement": "extrusion(vector) of an arc of space refuses a vector which is not along the normal of the arc, and otherwise is one part of a cylinder whose points are the points swept by the arc moved along the vector.", "quantifier": "all arcs, circles and vectors", "why_tests_cant": "continuous families of arcs (of any start angle, through the angle zero or not) and of vectors of both directions, and all points of the face", "anchors": ["volmdlr/edges.py:Arc3D.extrusion"]}
{"id": "C219", "title": "Boxes of the intersection of two shells", "statement": "intersection_internal_aabb_volume(shell2) and intersection_external_aabb_volume(shell2) return the volume of the smallest axis-aligned box of the ends of the edges where the two shells cross and of the outline points of the first shell that are in (out of) the second, and zero when there are none; it is never more than the volume of a box around the outlines and the crossings.", "quantifier": "all pairs of shells, all numbers of faces, crossings and outline points", "why_tests_cant": "unbounded numbers of faces, wires and points; minimality ranges over all boxes", "anchors": ["volmdlr/shells.py:OpenShell3D.intersection_internal_aabb_volume", "volmdlr/shells.py:OpenShell3D.intersection_external_aabb_volume", "volmdlr/core.py:BoundingBox.from_points"]}
{"id": "C220", "title": "Distance of a circle of space to a line segment", "statement": "distance_linesegment(segment) of a circle of space returns a point of the segment, a point of the circle and their distance, and no point of the segment and point of the circle are nearer.", "quantifier": "all circles, segments, and solutions of the optimiser", "why_tests_cant": "continuous families of circles and segments; minimality ranges over all pairs of points and over all solutions that least_squares may return", "anchors": ["volmdlr/utils/common_operations.py:minimum_distance_points_circle3d_linesegment3d", "volmdlr/curves.py:Circle3D.distance_linesegment"]}
