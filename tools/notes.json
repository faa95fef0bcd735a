{
 "C02": "x/y/z_rotation turn by minus the angle given to rotation about the same axis (counterexample); the true law is C02_axis_rotations_partial.",
 "C04": "+ is composition and (f+g) is undone on the left; -f and (f+g)-g are wrong when the frame has a non-zero origin / is not orthonormal (counterexample).",
 "C08": "CLineSegment3DDistance has a wrong determinant and is not the minimum (counterexample); proved: the returned points are on the segments.",
 "C09": "Line intersection proved; segment_intersection tests with `or` (counterexample), true part partial.",
 "C15": "Rectangle distance exact; box distance exact outside the tolerance band; distance_to_point inside the box returns the distance to the boundary (box) or a wrong value (rectangle), counterexamples given.",
 "C16": "Predicates characterised exactly; intersection_volume/area wrong inside the tolerance band (negative volume), counterexamples given.",
 "C18": "Stale caches after attribute mutation (counterexamples); histories that reset the cache after each change proved.",
 "C63": "Frame/Props and Surface/MoreProps (Plane3D constructors: from_3_points, from_points, from_plane_vectors, from_normal; the frame of from_normal is left-handed: counterexample).",
 "C12": "delete_double_point, in_list, index_in_list proved; remove_duplicate keeps one point per approx_hash and loses distinct points (counterexample).",
 "C13": "Points/vectors proved; Node2D/Node3D and ClosedPolygon2D violate the contract (counterexamples), true parts partial.",
 "C58": "array_range_search and verify_repeated proved; nearest-neighbour ordering loses all-zero points at the end (counterexample), exact description partial; grid index 0 never deleted.",
 "C48": "Proved for every interleaving at the granularity of one edge (includes every order of whole points and the sequential build). The full claim is false (C48_counterexample): the C arrays u, v, projection_point are shared between prange threads.",
 "C19": "find_span_linear and the binary search proved against the defining inequalities on the domain; they disagree / the binary search does not terminate outside it (counterexample).",
 "C22": "Insertion up to full multiplicity proved to keep the curve (all lengths); when num + multiplicity < degree one extra control point is produced (counterexample); the part of the curve before the knot is proved.",
 "C24": "Non-rational curves proved; the weights are not reversed for rational ones (counterexample).",
 "C26": "linspace returns a single value when its ends are within 1e-7 (counterexample); everything else proved.",
 "C28": "Knots closer than 1e-15 break the multiplicity round trip; insert_knots_and_mutiplicity drops a knot not smaller than the last one (counterexamples); otherwise proved.",
 "C29": "Geometry and validity proved for merge, +, | and from_meshes; the clean-up promised by merge_vertices=True is skipped for a single mesh (counterexample).",
 "C31": "Proved for triangles with three different corners; a degenerate triangle hides its edge (counterexample).",
 "C32": "3D proved; a 2D mesh never comes back (counterexample).",
 "C33": "Triangles proved; the name comes back padded with NULs (counterexample).",
 "C34": "Every writer of the export (points, frames, edges, contours, surfaces, faces, shells, compounds, assemblies, model) modelled; all references resolve for every nesting; identifiers are unique exactly when no assembly directly contains a compound or an assembly (the text of such a component is written twice, core.py:1117 and 1123), hence partial with a counterexample.",
 "C35": "Work list with fuel; termination on every finite graph, exact characterisation of the result and of the KeyError. The list is not a dependency order, contrary to the docstring (C35_not_dependency_order).",
 "C36": "Instantiation ends if and only if nothing needed is missing and there is no cycle; order of instantiation proved. A dangling reference makes the code loop for ever (counterexample), so the unrestricted property is false.",
 "C37": "step_split_arguments (regular expressions with backtracking order), step_split_arguments_special, set_to_list, parse_arguments and step_subfunctions modelled. Partial: false for strings with parentheses, spaces, final commas and for lists nested three times (counterexamples).",
 "C38": "Set operations proved when the voxel size is at most 1 (the size is used as a tolerance in building the joint grid); counterexample for larger voxels. Sizes must be equal, otherwise ValueError (proved).",
 "C39": "Stack DFS exactly as coded, in 2D and 3D, arbitrary matrices; result is exactly the connected component. IndexError for a seed outside is proved.",
 "C40": "fill_outer exact; fill_enclosed exact for voxel size at most 1 (goes through the boolean difference); is_hollow returns the negation (counterexample to its documentation, exact behaviour proved).",
 "C41": "All octrees rooted at the origin, all depths; both equal-depth and different-depth cases. Rounding to 6 decimals is not modelled.",
 "C42": "Increasing depth and building from points keep exactly the centres.",
 "C45": "Crop, expand/reduce and matrix/point conversions.",
 "C46": "Addressing is off by half a voxel (counterexamples), bounding box too large by half a voxel (counterexample); what holds is proved as partial.",
 "C64": "Rounding of centres to 6/9 decimals is not modelled.",
 "C43": "Proved for every voxelization: parity, order independence, the faces kept, and that the triangles cover exactly the boundary of the solid.",
 "C44": "Proved for all cubic voxels through the public function. The converse and the non cubic case are shown false (remarks, outside of the claim).",
 "C51": "Proved over an abstract kit of edges (start, end, length, reverse, distance between points), for lists of any length: chain, each non degenerate edge used once up to orientation, which exception when, success on every path or closed contour whatever the order and orientations given, and closedness.",
 "C52": "Proved for lists of edges of any length over the same abstract kit; includes the tolerance band at the end and the discretization.",
 "C65": "Proved for every list of edges; the point correspondence inside of edges, from the same fact about single edges.",
 "C66": "Proved for every list of edges.",
 "C54": "sin_cos_angle (exact outside a 1e-9 relative band below 2*pi, where it returns 0) and clockwise_angle proved; angle_principal_measure with the default minimum does not land in [-pi, pi] (3*pi/2 is returned unchanged, counterexample); what it does return is proved partial.",
 "C55": "Both functions return exactly the minimum and maximum on the closed interval (they are attained and bound every value).",
 "C57": "Angle range, length, start, end, membership of the circle, straight_line_area proved for all circles with an orthonormal frame (both orientations); the end is exact outside the band of sin_cos_angle and within radius*2*pi*1e-9 always. Split proved when the three points are outside of the band; false inside it (counterexample: the piece becomes a full turn).",
 "C67": "Proved for all rotation matrices, degenerate ones included (exact arithmetic).",
 "C68": "Stated in the local coordinates of the circle frame (the change of frame is C03); outside of the 1e-9 band of sin_cos_angle.",
 "C69": "Proved; near the extremities abscissa returns 0 or the length as documented by its tolerance.",
 "C70": "Proved (second point on the arc, or within 1e-6 of an extremity as allowed by point_belongs).",
 "C59": "Tetrahedron form functions, faces, volume, triangle interior normals proved. Triangles: small elements (twice the area <= 1e-12) are refused although not flat, and coefficients below 1e-16 are flushed (counterexamples); within 1e-16(1+|x|+|y|) of a nodal basis otherwise, exact when nothing is flushed.",
 "C60": "from_points, from_properties (all eight directions), limits_xy, points_xy, displacement proved; grid_pattern raises IndexError for every non-square grid of at least 2x2 (counterexample); square grids proved.",
 "C71": "Proved for points with exact equality (equality and hash of Node2D/Node3D are C13).",
 "C72": "False: meshes without a gmsh parser raise an error (the setter refuses None), and a second call with another reference reuses the corrections of the first (counterexamples). Proved for gmsh meshes with no or matching cached corrections.",
 "C56": "Planes, segments, two planes, two circles, circle and line: exact outside the tolerance bands; counterexamples inside them (a line given by two close points, planes at 2e-5 rad, circles of very different radii, a line parallel to the plane of the circle divides by zero).",
 "C73": "Projection, abscissa and point distances proved; line_distance and intersection proved outside the tolerance bands, with counterexamples in them (nearly parallel crossing lines have distance 1; nearly orthogonal lines return a wrong point); Line2D.line_distance returns a point for parallel lines.",
 "C74": "Sound for non-vertical lines, complete when the two points are more than 1e-6 apart, exact for vertical crossing lines; a tangent gives no point and a vertical line within tolerance outside the ellipse raises ValueError.",
 "C53": "Surface/Props, Surface/MoreProps. On-surface, periodicity, round trips with explicit bounds in both directions for cylinders, spheres, cones above the apex, tori with r < 2R (self-intersecting ones included), bounding boxes. Counterexamples: cone below the apex, torus with r > 2R, declared y_periodicity of the sphere.",
 "C75": "Surface/MoreProps. Planes and cylinders sound and complete with explicit bounds; ToroidalSurface3D.is_coincident ignores the centres: counterexample.",
 "C76": "Nurbs/{DerivModel,Deriv,DerivProps}: A2.3, A2.5, A3.2, A3.6, A4.2, A4.4 against Mathlib iteratedDeriv. The number of derivatives is cut at the degree by the callers as in the code.",
 "C77": "Nurbs/DerivProps: true on the half-open domain; at the last parameter every entry is zero (counterexample).",
 "C78": "Nurbs/CurveFrame. BSplineCurve2D.normal rotates the tangent about the point of the curve: counterexample, with the exact error in the partial theorem. Curvature is invariant when the derivative passes the 1e-6 test in both parametrisations; counterexample otherwise.",
 "C79": "Proved for all frames: vertices, convex hull, edges, centres, faces = boundary, motion, from_bounding_box. Counterexamples proved: face_contours3d always raises IndexError; bounding box, volume, subdivision, orthogonal cut fail on some frames; partial theorems give the frames for which they hold.",
 "C80": "Boxes proved tight for all orientations; from_end_points exact. from_center_point_and_axis proved for unit axes and refuted for others (the axis is not normalised).",
 "C81": "The sampled numbers are parameters of the model (any values in their ranges). The floor of skin_points nearest to the pole can be empty, which the covering bound accounts for.",
 "C82": "Cylinder, hollow cylinder, cone and sphere for all parameters; block for orthogonal edges (false for oblique ones, C79). RevolvedProfile.volume is not modelled: it reads self.axis.vector, which does not exist, so it raises AttributeError.",
 "C83": "Exact in the plane for corners not within 1e-6 of straight (C83_fillet2_partial), and shown false for every flatter corner (C83_flat, counterexample). In space: exact characterisation of the corners and radii for which the result is a fillet (C83_fillet3_iff), and for all corners the end points are exact and the interior point within 1e-6/sine (C83_fillet3).",
 "C84": "Proved for any arcs and any closeness test, then instantiated for RoundedLineSegments2D with distances. Hypothesis for open polylines: no rounding at the end points (index 0 would use points[-1]).",
 "C85": "Exact condition of the ValueError proved (C85_radii_iff); the property holds for sides with both ends rounded and is false for the others (counterexample: a single too large radius is accepted) and for the closing side. adapt_radius: proved for consecutive corners and isolated corners for every feasible answer of linprog; false for the outer sides of a group (counterexample with every optimal answer).",
 "C86": "Relative error at most 1e-12 for every corner that is not folded; exact when the corner is not within 1e-6 of straight (the exact statement is false otherwise: counterexample).",
 "C87": "Proved with IsHull (vertices among the points, distinct, every other point strictly on the left of each side, same convexHull in Mathlib's sense, termination of the loop) for points in general position (more than 1e-6 apart, no three within 1e-6 of a line). False with aligned points: a point straight ahead of a side is thrown away, even when it is a vertex of the hull (C87_counterexample, with the exact result of the function in C87_lost_point).",
 "C88": "Proved for polygons that never turn right (True) and for those that never turn left (False). False in general: normal_vector() of a segment is not normalised, so the angle of a corner is atan2(|side| sin, cos), and a small polygon (a heart of 6 mm) with a sharp re-entrant corner is declared clockwise (C88_counterexample).",
 "C89": "The exact law is proved: each vertex of the result is at the distance d\u00b72cos(\u03b3/2) of the two sides (\u03b3 the corner angle), d when they are aligned, on the right for d > 0; so the distance is d only for corners of 120 degrees. The claim is false for a square (C89_counterexample).",
 "C90": "Full: the minimum is attained at the returned point, which is on the border, and no point of the border is nearer.",
 "C91": "Proved against the focus-directrix definition.",
 "C92": "Proved for secant and missing lines; for tangents only the local coordinates are right (the point is returned in the local frame: counterexample), and a line parallel to the axis raises TypeError (counterexample).",
 "C93": "get_points is right; point_belongs only when the minor half axis is 1 (not squared: counterexample); tangent only in the standard frame (global ordinate used: counterexample); line_intersections for lines neither parallel to the imaginary axis (TypeError) nor to an asymptote (lost point); __eq__ is never true of a hyperbola and itself (counterexample).",
 "C94": "The conic arc theorem is proved for every conic; trim is proved in the standard frame for points that are not close and whose tangents are not colinear within the tolerances (otherwise a segment is returned: counterexample).",
 "C95": "Proved away from tangency and from the tolerance bands; at tangency the abscissa is computed as -b/2*a and the point is not on the circle (counterexample); a vertical line missing the circle by less than the tolerance raises ValueError (counterexample).",
 "C96": "axial_symmetry, point_distance, point_belongs, discretisation and the rectangle of Circle2D are proved; point_symmetric is right only for a circle centred at the origin (counterexample); the boxes of ellipses and of circles of space contain them exactly when no axis is turned (iff theorem, counterexamples), and always within a factor sqrt 2.",
 "C97": "from_angle builds the frame of its circle with start - center, not normalised: the angles are wrong unless the radius is one (counterexample: a quarter of turn of (2,0,0) gives an arc of angle pi/6); the rest is proved.",
 "C98": "The boxes are those of sampled points: they are tight but miss the extreme points between the samples (counterexamples: upper half of the unit circle, arc from 30 to 150 degrees); proved: every point is in the box enlarged by radius*angle/38 (plane) or radius/10 (space).",
 "C99": "Real arithmetic; the ValueError branch of area is the square root of a negative number, which exact arithmetic never meets.",
 "C100": "Real arithmetic. The loop has a bound on its turns in the model; C100_ends gives a bound that suffices and shows that the result does not depend on it.",
 "C101": "Real arithmetic; the removal of equal points by a set is dropped (the theorem is about membership).",
 "C102": "Attributes: false of the code, PlaneFace3D.__init__ called last resets color, alpha and name (counterexample theorem). Also copy, frame_mapping and dict_to_object pass the name in the place of the transparency, with no effect for the same reason.",
 "C103": "False of the code: the sum of absolute values of the tetrahedra seen from the centre of the bounding box. Proved equal to the volume when all tetrahedra have the same orientation from that centre (star shaped around it); counterexample: the corner tetrahedron of volume 1/6 gets 1/3.",
 "C104": "Without rounding exact. With rounding to 1e-6 the positions are the rounded ones, and triangles which become flat are dropped or refused (counterexample: triangle of size 1e-10 lost).",
 "C105": "False of the code, counterexamples: equality is not symmetric with repeated faces; the hash depends on the order of faces; _data_eq compares zipped prefixes; the default color is overwritten with None. Proved for shells without repeated faces, of the same length.",
 "C106": "point_belongs is a parameter of the model. The tests probe at 1e-4, the repair at 1e-5: a slab of thickness 5e-5 turned inwards fails the test (counterexample). Proved at the probing distance of the repair.",
 "C107": "Exact positions.",
 "C108": "proved for all degrees, numbers of points and spacings",
 "C109": "partial: needs distinct successive points, each gap more than 1e-15 of the total. Counterexamples: two equal successive points pass the check but the system is singular (C109_repeated shows this always happens); distinct points whose knots are less than 1e-15 apart give a curve with too many knots which does not end at the last point.",
 "C110": "partial: needs at least 3 control points, and gaps above the tolerance of the multiplicities. Counterexamples: 2 control points raise IndexError; the default number of control points equals the degree for degree+1 points, and the result is no B-spline of that degree.",
 "C111": "partial: every line of the grid must have distinct neighbours (gap more than 1e-15 of its length). Counterexample: a line reduced to one point (a pole) raises ValueError.",
 "C112": "partial: proved when as many control points as data points are asked for. Counterexample: otherwise the constructor is given size_u, size_v (numbers of data points) and the surface has fewer control points than its sizes say.",
 "C113": "Partial: the origin of the initial frame is forgotten by map_primitive_with_initial_and_final_frames (C113_counterexample); proved when it is (0,0,0).",
 "C114": "Partial: assemblies whose frame has another origin do not follow the model (C114_counterexample).",
 "C115": "Partial: points beside primitives that have a box are forgotten (C115_counterexample).",
 "C118": "Partial: a primitive without mesh shifts the frames of the others (C118_moving_meshes_counterexample).",
 "C119": "Proved for files without a blank line between sections. A blank line between two sections stops the reading silently (counterexample); a section that is never closed makes the reader loop forever (C119_unclosed).",
 "C120": "Proved in full.",
 "C121": "Proved when no block is empty. An empty first block raises UnboundLocalError, another empty block makes the parser loop forever (C121_empty_block, counterexample).",
 "C122": "Proved when the node tags are 1, 2, 3\u2026 in the order of the file. The tags are otherwise ignored and the wrong points are taken (counterexample). A file without element of the kind raises KeyError (C122_missing).",
 "C123": "Points, counts and the cells of the six supported types proved. Counterexamples: no node on a dimension-0 entity raises KeyError, other element types are forgotten, the last two nodes of quadratic tetrahedra are not exchanged between gmsh's and VTK's conventions.",
 "C124": "The grouping by dimension and the names are proved for one-digit tags; the tag given to every name is the dimension of the first name of the section (counterexample), and names with two-digit tags are wrong (counterexample).",
 "C125": "Proved when each curve, surface and volume has at most one physical group; with two or more, the entity read is always wrong (C125_two_groups).",
 "C126": "Well-formedness proved for every model. The description and the sharing are proved for segments and arcs shorter than a half circle whose points are separated by more than the tolerance. Counterexamples: a full circle is written as a loop {t, -t} that bounds nothing, an arc longer than a half circle gives the same file as the complementary arc, a B-spline is written as the segment between its first two sample points.",
 "C127": "Proved for polygons without a point repeated consecutively. Counterexamples: after a repeated consecutive point the following contours use the wrong lines; a circle is written as two arcs of exactly half a turn, which gmsh's Circle cannot describe.",
 "C128": "Definedness proved for every model; right volumes when the closed shells come first. Counterexample: after an open shell or another primitive the field is restricted to a volume that does not exist. With min_points every model with a closed shell raises AttributeError (C128_min_points).",
 "C129": "Proved for every closed contour of line segments and arcs (starts of consecutive primitives farther apart than the 1e-6 tolerance, is_trigo giving the direction of the polygon of the starts). C129_measure: for contours seen from a point, with the Lebesgue measure of the region (change of variables).",
 "C130": "Partial: proved when the contour turns as the polygon of the starts of its primitives; otherwise the result is the opposite point (C130_opposite). Counterexample: the disc of centre (2, 0) as two clockwise halves has the centre of mass (-2, 0). The tolerances (chord of an arc above 1e-15, polygon not flat) are hypotheses.",
 "C131": "Partial: right for the two axes of a circle, and for a contour about the common centre of its arcs. False otherwise: huygens2d has the wrong sign for the product of inertia (C131_circle_counterexample) and is applied from the centre of the circle as if it were the centre of mass (C131_contour_counterexample: the half disc of centre (0, 1) about the origin).",
 "C132": "Proved with the Lebesgue measure, for contours seen from a point; the centre of mass from those of the contours (C130).",
 "C133": "Partial: proved for lengths that are not negative; for a negative length the value is the opposite of the measure (C133_volume_signed, C133_counterexample).",
 "C134": "Partial because triangles with two equal vertices are skipped by the code (C134_degenerate_counterexample). For triangles with three different vertices (collinear ones included) it is proved for both classes. Roundings to 6 and 9 digits and the overflow of C ints are not modelled.",
 "C135": "Partial because the separating-axis test uses a radius that is too large on the edge axes (C44_converse_false): C135_spurious_voxel_counterexample.",
 "C137": "Roundings to 6 and 9 digits and the overflow of C ints are not modelled.",
 "C138": "`math.ceil(math.log2(n))` is the exact ceiling; rounding to 9 digits is not modelled.",
 "C139": "Partial: the triangles are the keys of a dictionary, so a face whose triangles all occur in later faces of the shell is never reported (C139_shared_triangle_counterexample). Proved for shells in which no triangle belongs to two faces; that no far faces are reported is proved for all shells. Two shells without triangles raise an error.",
 "C140": "Exact arithmetic.",
 "C141": "Exact arithmetic; the dictionary from sizes to sets of centres is a set of pairs.",
 "C142": "Exact arithmetic. One step of growing; the loop of to_inner_growing_voxelizations (lines 2468-2504) is not modelled: with a minimal thickness that is not positive the old entry of a size all of whose voxels were merged is not overwritten, so its result can overlap.",
 "C143": "Partial: a vector written with vector=True that is not of length 1 is read as v times its norm (C143_vector_counterexample); a left-handed frame is read with the other second axis (C143_frame_counterexample). Numbers are exact; the text of a number is not modelled.",
 "C144": "Partial: the weights of rational B-spline curves are not written (C144_weights_counterexample); an arc whose ends are at most 1e-7 apart is read as a full circle (C144_short_arc_counterexample, C144_edge_counterexample). A B-spline curve of degree 1 with two points becomes the segment. Closed B-spline curves, reversed edges and contours that have to be reordered (C66) are not modelled here; that two edges of a contour are not the same one (direction_independent_is_close) is a parameter. C144_same_circle says what the same oriented circle means. ArcEllipse3D has no to_step.",
 "C145": "Partial: radii are written with four digits in millimetres; a cylinder of radius 1e-8 is read with radius 0 (C145_radius_counterexample). Weights of rational B-spline surfaces are not written. The simplification of revolution and B-spline surfaces after reading is not modelled.",
 "C146": "The face is what Face3D.from_contours3d is called with; its parametric contour is not modelled. Numbers are exact. The flag of FACE_BOUND is ignored by the reader.",
 "C147": "Partial: ConicalSurface3D.from_step moves the shared frame in place (surfaces.py:4157), so a cylinder at the placement of a cone with a radius is moved to its apex (C147_shared_counterexample). Proved when a shared placement is not the one of a cone with a radius; in particular for the files of the exporter (C147_apex_cones).",
 "C148": "Edges, loops, faces (read with tolerances) and VECTOR, LINE, extrusions (a vector may be a direction or a length) are not in the class. Exact arithmetic.",
 "C149": "Exact arithmetic; the knots are farther apart than the tolerance. number_max_patches is not modelled.",
 "C150": "Partial: proved when the knot is inserted up to the multiplicity of the degree (as split, extraction and refinement do). For fewer insertions the surface changes: knot_insertion returns arrays with wrong numbers of points for these and the net is read with the wrong stride (C150_counterexample).",
 "C151": "Exact arithmetic; the parameter is a knot or farther than the tolerance from all knots.",
 "C152": "number_max_patches is not modelled. Exact arithmetic.",
 "C153": "Partial: the extracted curves are given the degree and the knots of the wrong direction, so it holds only for surfaces with the same degree and knots in both directions (C153_extract_counterexample); a list of one parameter gives its curve twice (C153_extract_single_counterexample).",
 "C155": "Partial: every round of the u loop starts again from the given surface, so only the last u parameter is inserted (C155_counterexample). Exact arithmetic.",
 "C154": "Partial: proved for curves of the same degree which join exactly with equal weights. With another degree (C154_degree_counterexample) or another weight at a joint (C154_weights_counterexample) the merged curve is another one; neither is refused.",
 "C156": "Partial: frame, points, vectorised version and translation proved in full; the round trip for an edge in a half plane bounded by the axis (C156_roundtrip_counterexample: it fails on the hyperboloid of a line that does not meet the axis); the rotation about an axis through the origin (C156_rotation_counterexample: otherwise the axis of the surface, a vector, is turned like a point).",
 "C157": "Partial: the points, their coverage, the period and the vectorised version are proved up to the tolerances of the code (2e-7, 1.1e-6); the round trip for edges whose line_intersections finds a facing point, and for straight edges not almost parallel to the direction (C157_roundtrip_counterexample: inclined by a thousandth, point3d_to_2d raises). C157_input_counterexample: parametric_points_to_3d changes the array of the caller.",
 "C158": "Partial: exact sets of points for lines that are oblique (not within tolerance of parallel or orthogonal) or parallel; inclusion for segments, and for arcs centred at the axis point. False in general: a segment parallel to the axis but not in front of the axis point gives a cylinder of a wrong radius (C158_cylinder_counterexample), a segment orthogonal to the axis a cone of half angle pi/2 (C158_plane_counterexample), an arc centred elsewhere on the axis a sphere at the axis point (C158_sphere_counterexample).",
 "C159": "Partial: segments of one line whose ends are equal or more than the tolerance apart, plus oblique and clearly disjoint segments. False without these bounds: an overlap shorter than the tolerance is handled as a common end (C159_shared_counterexample).",
 "C160": "Exact arithmetic. Proved in full.",
 "C161": "cKDTree.query is specified (one nearest row each), not modelled.",
 "C162": "Partial: triangles with sides over one thousandth. False in general: the tolerance 1e-6 is compared with squared distances, so every triangle with a side of a millimetre or less is dropped (C162_counterexample).",
 "C163": "The last sentence is false: the caller's list is emptied as soon as it has two edges (C163_list_emptied_counterexample). A later wire may end in the middle of an earlier one (C163_maximal_counterexample). Everything else is proved.",
 "C164": "The methods split and trim of the edges are specified (the part before a point is absent when it is the start), not modelled here. Proved in full.",
 "C165": "The last sentence is false: the end of an open wire is appended to the caller's list when this contains its start and not its end (C165_points_changed_counterexample). For a contour, the last section is proved when its ordering succeeds.",
 "C166": "Simplicity needs edges whose two extremities differ: with a closed edge in the list a contour can be a closed edge followed by an open chain (C166_simple_counterexample). It is proved for the default tolerance and when closeness is transitive on the extremities; is_superposing and direction_independent_is_close are parameters, the latter with the property of its extremities.",
 "C167": "False: only the turns at the vertices are tested, so that a star with five branches is found convex (C167_star_counterexample). Proved: what the answer means in terms of the turns (C167_is_convex_iff); every polygon in convex position is accepted; a polygon accepted which turns once is in convex position; the equivalence for at most four vertices.",
 "C168": "False: self_intersects takes indices in the sorted list for neighbours in the polygon and tests segments with a common end: for points of which no three are aligned it never answers False (C168_never_false_counterexample), and it raises IndexError exactly when the last point from left to right is not the last of the list. polygon_distance only looks at the first vertex. Proved: the two segments given do meet; polygon_distance is the distance of the first vertex to the nearest vertex of the other.",
 "C169": "False for half a turn (C169_counterexample: from pi to -pi/2, a quarter of a turn, is missed). Proved when successive points are less than 10/21 of half a turn apart.",
 "C170": "False for a curve which winds twice, such as a helix: the second jump is not seen after the first one is repaired (C170_counterexample); and for the second coordinate of a torus, whose indices are searched again among the first coordinates (C170_second_coordinate_counterexample). Proved, with termination of the loop, when the angle stays within one turn of the first period, with any number of jumps.",
 "C171": "False: pi/2 is sent to -pi/2 when the reference is negative (C171_counterexample). Proved: if the reference is the angle of a point of the edge less than a quarter of a turn away, and the edge leaves the period at the end itself or not at all, the angle returned is the one continuous with the reference.",
 "C172": "Proved from the reduced angles of the ends and of the reference points, and from the exact flags (an end is on the seam; the seam is inside the arc). Tolerances of the flags (1e-6) are not modelled.",
 "C173": "Exact in the positive direction; within the tolerance 1e-6 of the test in the negative one.",
 "C174": "Proved in a direct orthonormal frame for angles outside of the tolerance bands. On a cone the test of belonging of the arc is a parameter, assumed to accept the points of the arc. Oblique segments (a curve through ten points, or the intersection of the cone with a plane) are not covered.",
 "C175": "Proved for less than a turn, off the axis (also where the parallel of a spindle torus is on the other side of the axis). False for whole turns (C175_full_turn_counterexample: at the top of the torus the full arc starts at a point which is not on its circle); proved for whole turns from the angle zero.",
 "C176": "False: the frame of the circle is made of the directions of the start and of the middle, which are not perpendicular: the sixth of a meridian gives an arc of half a turn (C176_sixth_counterexample, whatever the test of belonging answers). Proved for half turns of meridians and of the equator.",
 "C177": "The union of two shells and merge_faces are parameters, assumed to do their work (shells apart are given back, shells that share a point give one shell of the points of both).",
 "C178": "Proved for union, intersection and subtract_to_closed_shell, given tests that are right and a cut of the faces that is right when no case is settled; the test of the boxes is proved sound. False for subtract, which uses the cases of the union: proved wrong in exactly these cases (C178_subtract_partial, C178_subtract_counterexample).",
 "C179": "Proved when one of the rays does not meet the shell twice at the same place, given the parity of clean rays. False when all the rays meet an edge: the count cut short is used (C179_counterexample).",
 "C180": "Proved except that a face lying in a later one is kept (C180_counterexample); proved in full for lists where lying in goes with the order (C180_order).",
 "C181": "Given that being coincident is an equivalence, that lying in needs coincident surfaces and that merging stays on the surface. clean_faces on its own fails on a face lying in two others (C181_clean_error).",
 "C182": "Proved when two faces are attached exactly when they share a point. False with the tests of the code: a face lying in another without a common edge is sorted before it and not attached (C182_counterexample).",
 "C183": "Proved where no coordinate of the moved frame and ends is rounded to zero (SharpFrame, SharpPoint) and the centre of rotation is the centre of the circle or not within 1e-6 of it. Otherwise false: a rotation about a point within 1e-6 of the centre turns the ends but leaves the centre (C183_counterexample; C183_near_centre bounds the gap by 2e-6).",
 "C184": "Proved where no coordinate of the moved frame is rounded to zero, and with the centre condition of C183.",
 "C185": "Arcs: proved for translations, mappings and rotations about the own centre for all ends (C185_arc_turned), and for other centres when the angles are not in the snapping zone of sin_cos_angle (C185_arc_partial). Circles as curves: false for a rotation about another centre, the start of the circle is not turned (C185_circle_counterexample); as sets of points carried along always (C185_circle_points).",
 "C186": "Plane: proved without restriction. Space: where nothing of the frame is rounded to zero.",
 "C187": "Moves: proved for every affine map of well-formed splines (C187_curve_affine, C187_surface_affine), and for the moves of points of the code where nothing is rounded. axial_symmetry reads the knots from the end but not the control points: proved for knots that read the same from the end (C187_symmetry_partial), false otherwise (C187_symmetry_counterexample).",
 "C188": "An edge is its length, its points by abscissa and its abscissas by points; point_at_abscissa never fails in the model.",
 "C189": "The end of the search and what is answered are proved; the exception for equal ends of an edge that is not periodic too (C189_unbound). False: a point of the edge can be much nearer than the answer, only chords of the first turn are looked at (C189_counterexample).",
 "C190": "Always: points within the tolerance of the segments, and their distance (C190_distance_reached). Right when the common perpendicular meets both (C190_distance_partial, C190_line_partial). False for overlapping collinear segments (C190_distance_counterexample), a parallel line (C190_line_counterexample) and when an end is the nearest point (C190_line_end_counterexample).",
 "C191": "Proved: the distance is that of the points answered, which are points of the edges or within the tolerance of chords. False: the points come in the other order when the starts of the parts are the nearest (C191_counterexample).",
 "C192": "Assumption: the clustering of scikit-learn meets its specification. Proved for at least two points, none the origin. False for one point, an exception (C192_counterexample, C192_small).",
 "C193": "An empty list is a division by zero (C193_empty).",
 "C194": "Points, edges and closeness are abstract (a kit); the tolerance is any symmetric and reflexive relation.",
 "C195": "Proved for closed contours and vertices either within the tolerance or well apart (C195_faces_graph_partial). False otherwise: near vertices can have different indices (C195_counterexample).",
 "C196": "Proved: the edges kept and added, and that at least one bridge is made when a face of a component touches one of a later component. False that faces that touch are joined: only the vertices of later components are tested (C196_counterexample). nx.connected_components is a function with the specification IsComponents.",
 "C197": "Proved for the faces that share a vertex with another one, over the contours of those faces (C197_open_partial, same hypotheses as C195). False for a face alone, which is said to be closed (C197_counterexample).",
 "C198": "Proved for the faces that share a vertex with another one (C198_from_faces_partial). False for a face alone: it is in no shell (C198_counterexample).",
 "C199": "Proved when vertices_graph is asked before faces_graph and the flag of faces_graph is always the same (C199_history_partial). False otherwise: vertices_graph looks at _faces_graph and gives None after faces_graph (C199_counterexample), and the flag of the first call is kept (C199_flag_counterexample).",
 "C200": "A face is what has a bounding box.",
 "C201": "Proved (C201_shells_partial): the answer is the distance of the faces of two groups whose sampled points are the nearest, realized by points of the two shells; the distance of the shells when each has one group. False in general: a large face is sampled on its border only (C201_counterexample). face_minimum_distance is a parameter, supposed right.",
 "C202": "Proved for one group: in general the nearest triangle of one group (C202_face_point_partial). False: the group is the nearest to (x, x, x) instead of (x, y, z) (C202_counterexample).",
 "C203": "Proved for a point out of the box of the shell (C203_shell_point_partial). False for a point in the box, whose distance to the border of the box is used as if it was a lower bound (C203_counterexample).",
 "C204": "In the frame of the plane. Proved for faces without holes (C204_plane_face_point_partial), and for projections out of the outer contour (C204_outside). False above a hole (C204_counterexample).",
 "C205": "Proved: the answer is a common point of the first face and the border of the second, or the distance of the borders (C205_plane_faces_partial). False that it is the distance of the faces: a small face above the inside of a large one (C205_counterexample). Distances of edges and intersections are parameters, supposed right.",
 "C206": "Proved (C206_segments_partial): the distance, and two points at this distance, up to their order. False for the order: when an end of the first segment is the nearest, the point of the second comes first (C206_counterexample). linesegment_intersections is a parameter, supposed right.",
 "C207": "line_intersections and point_belongs are parameters, supposed right.",
 "C208": "The angles add up for ends out of the tolerance band of sin_cos_angle (C54).",
 "C209": "Proved when the new radius is positive (C209_infinite_primitive_partial), and None exactly beyond the centre for the clockwise direction (C209_none). False in the direct direction: a circle of negative radius is built (C209_counterexample).",
 "C210": "False: the circle is kept with its direction (C210_counterexample). For a line by the centre the answer is exactly the symmetric of the complementary arc (C210_axial_symmetry_partial); for other lines the ends are not on the circle.",
 "C211": "Proved when successive sides are not parallel (C211_contour_offset_partial), with the refusal exactly when two successive points are the same. False for open wires: the last side is cut with the first one, so a wire of two sides is always refused (C211_counterexample). Contours with arcs are not modelled: Arc2D.cut_between_two_points mostly raises NotImplementedError.",
 "C212": "Proved for a cone, also with an end on the axis (C212_cone_partial), for a segment through the axis (C212_two_cones_partial), a cylinder (C212_cylinder_partial), a part of a ring (C212_ring_partial) and two sectors (C212_two_sectors_partial). False: a segment orthogonal to the axis that starts on it gives the sector on the other side of the axis (C212_counterexample). The intersection of the line with the axis, point_belongs and is_colinear_to are parameters given by their meaning; planar faces are sets of points instead of contours.",
 "C213": "The points are proved for each vector (C213_extrusion_partial). The area is the right one exactly for a vector orthogonal to the segment, and too large else (C213_area_partial, C213_counterexample): the frame of the plane is not orthonormal.",
 "C214": "Proved for vectors exactly along the normal (C214_extrusion_partial); is_colinear_to is a parameter, and vectors along the normal only within its tolerance are not covered.",
 "C215": "Proved when the axis is in the plane of the circle (C215_revolution_partial). False else: the test is only that the normal is orthogonal to the radius from the axis, so a circle in a plane orthogonal to the axis gives a part of a torus (C215_counterexample).",
 "C216": "Proved for arcs in a plane with the axis (C216_revolution_partial); the angle of the start on the torus (point3d_to_2d) is a parameter given by its meaning. Arcs in other planes with the normal orthogonal to the radius are not refused, as in C215.",
 "C217": "False: the sign of the angle of the arc is opposite to the one used for the torus, so the face is on the wrong side of the start (C217_side_counterexample): it is exactly the part swept by the arc of the opposite direction (C217_sphere_partial). A half circle with its ends on the axis raises, as middle_point is used without call (C217_half_circle_counterexample).",
 "C218": "Proved for vectors exactly along the normal and an orthonormal frame (C218_extrusion_partial). is_colinear_to, which has a tolerance, and the two angles of the arc of the plane are parameters; angles are compared exactly.",
 "C219": "False in general: only the first edge of the first wire of the intersection of two faces is read (C219_volume_counterexample); C219_first_edges says what the box is for every pair, and C219_volume_partial proves the claim when two faces cross along at most one edge. The bound C219_bounded holds for every pair. face_intersections, discretization_points and point_belongs are parameters; a wire without edges (IndexError) is modelled but excluded.",
 "C220": "False even with an ideal least_squares: the first candidate mixes the point of the segment of one solution with the point of the circle of another, and the later solutions replace it only when they are nearer than v.dot(v) = 1 (C220_distance_counterexample). C220_points: the points are always on the segment and on the circle. C220_distance_partial: the pair is a closest one when the distance is less than one or the solutions agree. C220_residual: the residual is the square of the distance. least_squares is a parameter, reals for floats; arcs, which share the function, are not covered."
}