# Design: a Lean 4 model of volmdlr and proofs of its semantic properties

## 1. Approach

`/repo/volmdlr` is a numerical geometry library.  The model (in `lean/Verif/`) is a set of shallow,
executable Lean functions, one per modelled Python/Cython function, that mirror the code branch by
branch.  Each definition carries a comment with the file and line numbers it models.  Property
theorems are kept in files called `Props.lean` (one per area), apart from models (`Model.lean`) and
helper lemmas (`Lemmas.lean`).  Small independent specifications are in `Spec.lean` files or at the top
of the property file.

Conventions of the model

* **Numbers.** Python floats / C doubles are modelled by an arbitrary linearly ordered field `K`
  (`[Field K] [LinearOrder K] [IsStrictOrderedRing K]`), instantiated with `ℚ` in the examples and `ℝ`
  when square roots or trigonometry are needed.  Rounding, overflow, NaN and infinities are *not*
  modelled.  Tolerances that the code compares against (`1e-6`, …) are kept in the model as they are.
* **Exceptions** are `Except`/`Option` values; a division by zero that Python would raise is an explicit
  error branch when the code can reach it.
* **Loops** are structural recursions, folds, or recursions on fuel with a proof that the fuel is
  sufficient (or a termination proof).
* **Sets/dicts** whose iteration order is unspecified are lists; order independence is proved by
  quantifying over permutations.
* **Bugs are kept.** Where the code violates the English property, the model keeps the code's
  behaviour, a theorem `..._counterexample` (a proof of the negation by a concrete witness) is given,
  and the true part is proved under the suffix `_partial`.

## 2. Trusted base

* Lean 4.33.0 kernel.  Axioms allowed: `propext`, `Quot.sound`, `Classical.choice` (each theorem's
  axioms are audited by `vcheck`).  No own axioms, no compiled-code tactics.
* Mathlib definitions used in statements: ordered fields, `ℝ`, `Real.sqrt/sin/cos/arccos`,
  `List`, `Finset`, `Matrix` (only as a specification).
* My reading of the Python/Cython source: the code was not run, the model was written by hand.
* Exact arithmetic instead of IEEE floats (see above).  numpy/scipy/geomdl/triangle/networkx, file
  system and multi-threading runtime are outside the model; `prange` is modelled as an arbitrary
  permutation of loop iterations with independent writes.

## 3. Properties: what is modelled, how it is proved

* **C01 Rotations are rigid motions** (`Verif/Vec`): rotation 2D/3D as functions of (cos,sin) pairs over K and of an angle over ℝ; Rodrigues formula as coded; ring identities from c²+s²=1 and |axis|=1.
* **C02 x/y/z_rotation agree with rotation about the coordinate axes** (`Verif/Vec`): x/y/z_rotation as coded; negation witness (they turn by −angle) and the true law (`= rotation by −angle`).
* **C03 Frames: local/global coordinates are inverse to each other** (`Verif/Frame`): Matrix33 inverse/mult as coded inside Basis3D/Frame3D local/global; proof from the two-sided inverse.
* **C04 Frame algebra: +, - and unary minus are composition, decomposition and inverse** (`Verif/Frame`): __add__, __sub__, __neg__ as coded; composition law and cancellation proved; __neg__: counterexample + partial (origin 0).
* **C05 Matrix inverse is a two-sided inverse or an error** (`Verif/Frame`): determinant/inverse/mul as coded; error branch iff threshold; ring/field_simp.
* **C06 Projection on a plane and 2D/3D round trip** (`Verif/Frame`): plane_projection3d/2d, to_2d, to_3d as coded.
* **C07 Point to line segment distance is the minimum over the segment** (`Verif/Segment`): clamped projection as coded; minimality for all t∈[0,1] through the quadratic.
* **C08 Distance between two 3D line segments is the minimum** (`Verif/Segment`): CLineSegment3DDistance branch by branch; witness where result is not the minimum; partial: returned points lie on the segments and returned distance is the distance of the returned points when parameters in range.
* **C09 2D line intersection lies on both lines; segment intersection lies on both segments** (`Verif/Segment`): line_intersection, segment_intersection as coded; `or` bug witness; partial: point on both lines.
* **C10 Line projection and axial symmetry** (`Verif/Segment`): line_projection, axial_symmetry.
* **C11 nearest_point returns an element of the list at minimum distance** (`Verif/Lists`): loop as a fold; induction on the list.
* **C12 Removing duplicates loses no distinct point** (`Verif/Lists`): hash buckets as coded; witness of a lost distinct point for remove_duplicate; full proof for delete_double_point.
* **C13 Equality and hashing agree** (`Verif/Lists`): eq/hash of nodes and polygons; negation witnesses; positive part for points.
* **C14 Bounding boxes contain their generators and are minimal** (`Verif/BBox`): from_points/from_bounding_boxes/__add__ as folds; order-theoretic proof.
* **C15 Box distances are true minimum distances** (`Verif/BBox`): distances as coded; minimality over all pairs of points (squared distances / ℝ sqrt); witness for the wrong BoundingRectangle.distance_to_point.
* **C16 Box predicates: intersection, inclusion, intersection volume** (`Verif/BBox`): predicates as coded incl. tolerance doubling.
* **C17 Octree subdivision of a bounding box is a partition** (`Verif/BBox`): octree boxes as coded.
* **C18 Cached values stay consistent along every history of updates** (`Verif/BBox`): state machine with cache field; witness of a stale history; invariant for histories without mutation after read.
* **C19 Knot span search is correct** (`Verif/Nurbs`): linear loop & binary search on functions/lists; loop invariants; termination by fuel bound.
* **C20 B-spline basis functions are non-negative and sum to one** (`Verif/Nurbs`): basis_function_c loop as coded; spec: Cox–de Boor recursion; refinement proof by loop invariant.
* **C21 B-spline curves interpolate end points and stay in the convex hull** (`Verif/Nurbs`): evaluate_curve_c as coded; corollaries of C20.
* **C22 Knot insertion does not change the curve** (`Verif/Nurbs`): insertion (Boehm) as coded by knot_insertion/knot_insertion_alpha; evaluation invariance; counterexample for the extra control point.
* **C23 Splitting or decomposing a curve keeps it** (`Verif/Nurbs`): split by knot insertion to full multiplicity.
* **C24 Reversing a curve reverses its parametrisation** (`Verif/Nurbs`): get_reverse as coded: reversed control points, reflected knots; symmetry of Cox–de Boor; witness: weights not reversed.
* **C25 LU decomposition and the triangular solvers solve the linear system** (`Verif/Nurbs`): doolittle, forward/backward substitution as index recursions; spec: sums.
* **C26 Knot vector helpers** (`Verif/Nurbs`): generate_knot_vector, standardize, linspace.
* **C27 Binomial coefficient** (`Verif/Nurbs`): loop of multiplications as coded vs Nat.choose.
* **C28 Knot multiplicity bookkeeping** (`Verif/Nurbs`): run-length encoding and multiplicity counter; insertion helper with witness.
* **C29 Merging meshes keeps every triangle's geometry** (`Verif/Mesh`): vertices list + index triples; geometric triangles as spec.
* **C30 Vertex/triangle clean-up keeps geometry** (`Verif/Mesh`): np.unique modelled by sorted dedup with inverse map.
* **C31 Mesh border** (`Verif/Mesh`): edge table as coded.
* **C32 Mesh serialisation round trip** (`Verif/Mesh`): flatten/reshape; witness for 2D meshes.
* **C33 Binary STL round trip** (`Verif/Stl`): byte level: little-endian u32/f32 as 4 opaque bytes; writer/reader on List UInt8-like bytes.
* **C34 STEP export: ids are unique and references resolve** (`Verif/Step`): counter-threading writers; uniqueness/closure by induction over primitives; witness for nested assemblies.
* **C35 STEP import work list visits each reachable entity exactly once** (`Verif/Step`): work-list loop on a finite graph with visited set; termination measure; reachability spec.
* **C36 STEP import instantiation order** (`Verif/Step`): restart loop as fuelled transition system; termination on acyclic closed graphs; witness of divergence for dangling/cyclic.
* **C37 STEP argument splitting** (`Verif/Step`): character state machine; round trip by induction on nested arguments.
* **C38 Boolean operations on matrix voxelizations are set operations** (`Verif/Voxel`): matrices as functions on bounded index boxes + integer origin; spec: sets of centres.
* **C39 Flood fill fills exactly the connected component** (`Verif/Voxel`): stack DFS as coded; spec: reflexive-transitive closure of adjacency.
* **C40 Filling outer and enclosed voxels** (`Verif/Voxel`): expand/flood/reduce; spec: paths to outside; witness for inverted is_hollow.
* **C41 Boolean operations on octree voxelizations are set operations** (`Verif/Voxel/Octree*`): recursive booleans on nested lists; spec: sets of centres; mutual structural induction.
* **C42 Octree construction from voxel centres loses nothing** (`Verif/Voxel/Octree*`): _subdivide_from_points; depth increase.
* **C43 Voxel surface is the boundary, independent of iteration order** (`Verif/Voxel`): toggle fold over a list; parity spec; permutation invariance.
* **C44 Triangle/voxel test never misses an intersection** (`Verif/Voxel`): SAT as coded; separating-axis soundness: if any test separates, no common point; witness of a false positive.
* **C45 Cropping, expanding and converting voxelizations keep the voxels** (`Verif/Voxel`): crop/expand/reduce/convert.
* **C46 Voxel addressing** (`Verif/Voxel`): index formula; witness of off-by-one and of the too large bounding box.
* **C47 Polygon area is a rigid-motion and numbering invariant** (`Verif/Polygon`): shoelace as coded (np.dot of rolled arrays).
* **C48 Point in polygon: single and batch versions agree under every schedule** (`Verif/Polygon`): single and batch loop; independent writes under any permutation.
* **C49 Even-odd rule** (`Verif/Polygon`): loop as fold; parity spec.
* **C50 Centre of mass and moments follow the polygon** (`Verif/Polygon`): centre of mass & moments as coded.
* **C51 Ordering the primitives of a wire** (`Verif/Wire`): ordering_primitives loop as coded over abstract endpoints.
* **C52 Wire abscissa** (`Verif/Wire`): point_at_abscissa loop on a list of lengths.
* **C53 Cylinder, sphere, torus and cone parametrisations** Surface: implicit equations as specification; polar_stable bounds the effect of the snap thresholds.
* **C54 Angle helpers** (`Verif/Angle`): sin_cos_angle with clamping, the four quadrant branches and the isclose to 2π; clockwise_angle through arccos and the sign of the cross product; angle_principal_measure with floor as `%`. Specification: existence and uniqueness of the angle in [0, 2π) with given cosine and sine; alignment after V2.rotation.
* **C55 Image of an interval by cosine and sine** (`Verif/Angle`): the decision table on floor(x/π) and parity as coded; proof by monotonicity of cos between consecutive multiples of π.
* **C56 Plane, line and circle intersections** Intersect/{Model,PlaneProps,CircleProps}: model of utils/intersections.py 15-85, 193-230, 381-470 and common_operations.py 331-351 over the reals. Soundness and completeness are stated with OnPlane, OnLine3, OnSeg3, OnCircle2; the tolerance bands are explicit hypotheses; four counterexample theorems show the bands are needed.
* **C57 Arc angles, length and splitting** (`Verif/Arc`): Arc2D/Arc3D construction (angles of start and end in the frame of the circle by global_to_local and sin_cos_angle, end angle moved after the start), point_at_abscissa, length, split and straight_line_area as coded over ℝ; specification: the parametrisation `Circle2.at`.
* **C58 Nearest-neighbour ordering and parametric point helpers keep all points** (`Verif/Lists`): loops as coded; witness for the dropped zero point.
* **C59 Finite-element shape functions** (`Verif/Fem`): form functions through Matrix33.inverse and vector_multiplication (with the flush) as coded; tetrahedra by cofactors; specification: IsNodalBasis3, evaluation of affine functions.
* **C60 Grid construction** (`Verif/Grid`): slices, table of directions, numpy.linspace as start + i*step; specification: Subdivision (i-th of n equal parts).
* **C61 Line segments** (`Verif/Segment`): line segment formulas over ℝ.
* **C62 B-spline surfaces** (`Verif/Nurbs`): evaluate_surface_c as coded; corollaries of C20.
* **C63 Frame and basis constructions are direct orthonormal** (`Verif/Frame`): constructions as coded; orthonormality and determinant 1; witnesses for the two false cases.
* **C64 Translating a point-based voxelization** (`Verif/Voxel`): `translation` + `_round_to_voxel grid` by exact floor arithmetic; spec: containment in voxels.
* **C65 Inverting a wire** (`Verif/Wire`): inverted_primitives on lists over the abstract edge kit.
* **C66 Reordering STEP contour edges** (`Verif/Wire`): loop as coded with argmin of the four distances; invariant on the built list.
* **C67 Euler angles and transfer matrices** (`Verif/Angle`): both functions as coded with arctan2 as the argument of a complex number; specification: rows orthonormal and determinant one.
* **C68 Interior point of a clockwise arc** (`Verif/Angle`): the angle selection as coded; specification ClockwiseBetween on real angles modulo 2π.
* **C69 Membership and abscissa on an arc** (`Verif/Arc`): the clockwise version of the arc, the three clockwise angles and the closeness of the sum as coded; specification OnArc: the angle of the point is start + t with 0 ≤ t ≤ sweep, modulo 2π.
* **C70 Circle and arc through three points** (`Verif/Arc`): the linear system as coded by Cramer's rule, the membership test and the reversal.
* **C71 Node bookkeeping of finite-element meshes** (`Verif/Fem`): dictionaries as association lists, sets as an arbitrary enumeration `enum`.
* **C72 Merging duplicated mesh nodes along every history** (`Verif/Fem`): state with cached corrections and a flag for the gmsh parser; construction of the new elements is assumed not to raise.
* **C73 Lines: projection, abscissa, distances and intersection** Intersect/LineProps: minimum distances as IsDistanceToLine / IsLineDistance (attained and a lower bound).
* **C74 Ellipse and line intersection** Intersect/CircleProps: OnEllipse by its equation; general frames through the change of coordinates.
* **C75 Membership and coincidence of surfaces** Surface: near_parallel bounds the deviation of two planes whose normals pass is_colinear_to.
* **C76 The derivative algorithms return the derivatives** Nurbs/Deriv: the ndu table is specified entry by entry, the factors a[s][j] by the divided-difference coefficients of the k-th derivative, and both are linked to iteratedDeriv of the Cox-de Boor functions; rational ones by Leibniz.
* **C77 Blending vectors** Nurbs/DerivProps: recursion proved equal to Cox-de Boor; end of the domain is a counterexample.
* **C78 Tangent, normal and curvature of B-spline curves** Nurbs/CurveFrame: chain rule as specification of a reparametrisation.
* **C79 A block is the parallelepiped of its frame** Model of Block in Verif/Solid/Model.lean; spec InBlock is the set of convex coordinates. Proved by linear algebra on coordinates; counterexamples on literal frames.
* **C80 Cylinders, hollow cylinders and cones: bounding boxes, construction and side faces** Specs InCyl/InHollow/InCone/IsTightBox; support function of a disc; frames from C63.
* **C81 Membership, sampling and motion of cylinders and spheres** Coordinates in the local frame, flush bounds of C03, spherical coordinates for the skin points.
* **C82 The volumes returned for solids are Lebesgue measures** Mathlib Lebesgue measure on Fin 3 → ℝ; change of frame by the determinant; Cavalieri for solids of revolution; ball volume from Mathlib.
* **C83 The arc of a rounded corner is tangent to both sides and has the given radius** `Fillet.ArcProps`, `Fillet.Arc3Props`: half-angle trigonometry, specification `IsFillet2/3` by tangency and distances to a centre; uniqueness of the centre for the negative results.
* **C84 A rounded polyline is one connected chain** `Fillet.ChainProps` (induction on the sides with an invariant on the last end), `Fillet.RadiiProps` (`C84_primitives`).
* **C85 Radii that do not fit are rejected, or reduced with adapt_radius** `Fillet.RadiiProps`, `Fillet.AdaptProps`; linprog appears through the specification of its linear program only.
* **C86 The offset of a rounded polyline is parallel to it at the given distance** `Fillet.OffsetProps`: one corner with the half angle of the normals, then induction along the polyline.
* **C87 The convex hull of a list of points** Hull/Model models argmin/argmax, the barycenter, the loop with its total angle. Invariant of the loop: the chain built so far consists of supporting edges (all the points on the left), the total angle is the angle around the barycenter from the first point. The hull is compared with Mathlib's convexHull by separation (Hahn-Banach). Remark: with floats the total at the closing vertex may exceed 2π by rounding, which pops the last vertex.
* **C88 Orientation of a polygon** turn is modelled with the non normalised normal; the sum over the corners is written over the indices (isTrigo_eq), then bounded corner by corner.
* **C89 Offset of a polygon** offsetPoint models one corner with unit vectors; the law is proved by algebra on unit vectors and the half angle, then for the whole list by mapM.
* **C90 Distance from a point to the border of a polygon** Induction on the list of sides, with the theorem C07 on one segment.
* **C91 Parabola2D: points, membership, tangent and trim** Conic/ParabolaProps, Conic/ParabolaLineProps: specification OnParabola (distance to the focus = distance to the directrix); trim is reduced to the quadratic Bezier curve and compared with the parabola by polynomial identities.
* **C92 Parabola2D.line_intersections gives the common points** Conic/ParabolaLineProps: iff theorems for secant and missing lines, two counterexamples.
* **C93 Hyperbola2D: points, membership, tangent, lines and equality** Conic/HyperbolaProps: specification OnBranch through the foci; iff theorem for lines by the quadratic formula; counterexamples at rational points.
* **C94 Rational arcs of conics: control point, weight, Hyperbola2D.trim** Conic/ConicArcProps, Conic/TrimProps: the implicit equation of the conic restricted to the triangle of tangents; the branch is parametrised by x/a + y/b; completeness by the intermediate value theorem.
* **C95 Circle2D.line_intersections gives the common points** Conic/CircleLineProps: the distance to the line (specification: attained minimum) decides the branch; iff theorem for membership; counterexamples.
* **C96 Symmetries, distance, disk, discretisation and boxes of circles and ellipses** Conic/CircleProps: OnCircle, Mirror, IsLeast/IsGreatest specifications; extent of A cos + B sin for the boxes.
* **C97 Arcs of circles in space are consistent with their circle** Arc/Arc3Props.lean: points of the circle are center + r cos t u + r sin t v; rotation about the axis adds to the angle; uniqueness of coordinates gives the angle of a point; from_angle by direct computation.
* **C98 Bounding boxes of arcs contain the arcs** Arc/BoxModel.lean, Arc/BoxProps.lean: samples of an arc, nearest sample within half a step, chord at most the arc.
* **C99 Area, height, middle and normal of a triangle** Tri/Model.lean, Tri/AreaProps.lean. Heron's polynomial is the square of half the cross product norm (ring); isometries keep the three lengths; height through the distance to a line of C73; normal through the plane of C63.
* **C100 Subdivision of a triangle by its longest sides** Tri/SubdivideProps.lean. Median of the longest side is at most sqrt 3 / 2 times it, so two turns shrink all sides by that factor: termination. Covering, area and non overlapping are invariants of each turn through barycentric coordinates.
* **C101 Description of a triangle by points** Tri/PointsProps.lean. Points are the grid of rows parallel to the third side; rows half a resolution apart at most along the longest side, points half a resolution apart at most along rows, triangle inequality.
* **C102 Triangle objects: attributes, copies, equality** Tri/AttrProps.lean. Construction succeeds iff the plane exists iff the area is not zero (C63); equality of sets of three distinct points is equality of multisets, so the sums of hashes agree.
* **C103 Volume of a closed triangulated shell** Shell/VolumeProps.lean. Signed volume of a closed surface does not depend on the apex (oriented edges cancel); sum of absolute values equals it exactly when signs agree.
* **C104 Mesh data and dictionary of a triangle shell** Shell/MeshDataProps.lean on the npUnique lemmas of Mesh.
* **C105 Equality, hash and color of shells** Shell/ObjectProps.lean.
* **C106 Turning the normals of a closed triangle shell** Shell/ObjectProps.lean. Induction on the faces with C99 for the normals of reversed triangles.
* **C107 Concatenation of display shells** Shell/ObjectProps.lean: the same function as Mesh3D merge with both flags, through C29.
* **C108 Parameters and knot vectors of a fit** Model `paramsCurve`, `knotVector`, `knotVector2` over the reals; specification `gap` (distance or its square root), `Params`, `lin`. Inner knots of the approximation are values of a piecewise linear function of the data positions; the interlacing is proved with the choice max(i, floor((i-p)d)).
* **C109 Interpolation by a curve passes through the points** Schoenberg-Whitney theorem proved in `Fit/Rolle`, `Fit/Whitney` (zero counting of spline derivatives), so the matrix has trivial kernel. scipy's lu_solve is taken as an exact solver of nonsingular systems (trusted), singular systems give `notFinite`.
* **C110 Least-squares approximation by a curve** Normal matrix is positive definite by the Whitney theorem, hence all leading blocks are nonsingular and Doolittle meets no null pivot (C25_pivots); C25_solve gives the normal equations; Pythagoras gives the minimum.
* **C111 Interpolation of a grid by a surface** Parameters averaged over lines stay increasing; two passes of C109's system; evaluation by `surfacePoint_eq`.
* **C112 Approximation of a grid by a surface** Two passes of the approximation of C110; with equal sizes the normal equations force the residual to vanish.
* **C113 Placement of components in an assembly** Scene/Model.lean, Scene/PlaceProps.lean: trees of primitives as a nested inductive; mutual structural recursion; relation `Moved` (same coordinates in two frames) is the specification.
* **C114 Moving volume models** Scene/PlaceProps.lean: frame mapping is functorial (identity, composition), by mutual induction on the tree.
* **C115 Bounding boxes of compounds, assemblies and volume models** Scene/BoxProps.lean: mutual induction on the tree over C14.
* **C116 Equality, hash and volume of volume models** Scene/BoxProps.lean: Forall₂ as specification.
* **C117 Mesh of a volume model** Scene/BoxProps.lean: induction over the merges with C29.
* **C118 Display data and moving volume models** Scene/BoxProps.lean: mutual induction on nested meshes; positions of filtered indices.
* **C119 Sections of a .msh file** (`Verif/Gmsh`): the reader as a state machine over lines; induction over the sections of the file.
* **C120 Nodes of a .msh file** (`Verif/Gmsh`): loop with fuel over the lines, induction over the blocks; the words of a line are given already split.
* **C121 Elements of a .msh file** (`Verif/Gmsh`): loop with fuel, induction over the blocks.
* **C123 Writing a .vtk file** (`Verif/Gmsh`): folds over the tables of types; specification of the two conventions by barycentric position of the mid-edge nodes.
* **C124 Physical names of a .msh file** (`Verif/Gmsh`): character-level model of the lines.
* **C125 Entities of a .msh file** (`Verif/Gmsh`): four ranges of lines, induction over the entities.
* **C122 Meshes from a .msh file** (`Verif/Gmsh`): composition of the two readers and of the mesh builders.
* **C126 Geometry written to a .geo file** (`Verif/Geo`): statements with tags instead of text; the tables of points and edges as threaded state; invariant over the statements written; readable specification of what a loop draws.
* **C127 .geo file of a face or 2D surface** (`Verif/Geo`): counters threaded through the contours; induction over the contours.
* **C128 Mesh fields of a .geo file** (`Verif/Geo`): fields with numbers; the size of a shell is a parameter; transfinite curves are not modelled.
* **C129 Area of a contour with arcs** `Profile`: the contour is a list of segments and arcs; the specification is the line integral along the paths (`sweep`, `integralOf`), with the paths of `point_at_abscissa`. Proof: antiderivatives in the polar angle for arcs, sums over the chords, change of origin; `C129_measure` by the change of variables of `(r, t) ↦ o + r (γ(t) - o)`.
* **C130 Centre of mass of a contour with arcs** first moments along an arc; the geometry of `straight_line_center_of_mass` (intersection of the bisector and the chord) for every angle; `C130_measure_partial` with Lebesgue integrals.
* **C131 Second moments of area of contours and circles** antiderivatives of the three moments along an arc, about any point; sector and triangle for each case of angle and direction; counterexamples; `C131_measure_partial` with Lebesgue integrals.
* **C132 Area and centre of mass of a surface with holes** regions are compact; induction on the holes; `pierced_spec` for measures and integrals.
* **C133 Volume of an extruded profile** measure of a product, change of frame of C82. Remark: `RevolvedProfile.volume` reads `self.axis.vector`, which no vector has: it always raises, and is not modelled.
* **C134 Voxelization of triangles never misses a voxel** Model `_triangles_to_voxel_matrix` with its three branches for triangles in planes of the grid (pixelization, flood fill of the outside) and the separating-axis branch; prove the exact set of marked voxels (matrix_spec), with every array index in bounds, then C44's argument for the general branch.
* **C135 Voxelization of triangles has no far voxels and is exact in planes of the grid** From the exact set of marked voxels; for triangles in grid planes the marked pixels are the border ones (C137) plus those the flood fill of the outside does not reach, which are shown to be those inside by convexity of the rows.
* **C136 Voxelization of triangles depends on the set of triangles only** From the exact set of marked voxels (matrix_spec); the matrices have different shapes and origins before cropping.
* **C137 Pixelization of segments and polygons is exact** Model `_line_segments_to_pixels` with C truncation of the bounds of the loops; prove the test on one pixel exact (segment against rectangle) and the loops large enough.
* **C138 Octrees of triangles never miss a voxel and have no far voxels** Induction over the depth: a voxel is in the octree iff some triangle passes the test at every ancestor; ancestors contain the voxel (C44), the root covers the bounding box.
* **C139 The octree never misses a pair of intersecting faces** `Voxel/CombinationModel.lean` models the pairs of triangles of the leaves, the dictionary from triangles to faces and the filter by shell; the proof goes through `octree_spec` (C138): the leaf of a path has exactly the triangles `PathHit` by it.
* **C140 is_intersecting of two octrees is exact** `overlapLoop` is the stack loop with fuel; the invariant `treats` says that a stack entry is decided after finitely many turns whatever is below it, by induction on the sum of the depths.
* **C141 Merged voxels cover the same points** `mergedCentres` models the recursion; a general `mergeGen` with a condition for merging is proved to keep the covered points and to be disjoint by induction on the depth.
* **C142 Layers around voxels and inner growing voxels** `layersOf` models the loop over cubes, proved to be the largest number of layers; `innerGrowing` is an instance of `mergeGen` of C141.
* **C143 Points, directions, frames and lines survive a STEP file** `Step/GeoModel.lean` models each to_step as a function from the last identifier to a list of entities with typed arguments and each from_step as a function of a dictionary; `Reads c w P` is the statement about a text.
* **C144 Edges and contours survive a STEP file** Induction over the edges with the invariant of `Reads`; the circle is read with another first axis, shown to be a turn of the angles.
* **C145 Surfaces survive a STEP file** One lemma for the surfaces with a frame; `tableRows_flatten` for the rows of control points.
* **C146 Faces and shells survive a STEP file** Induction over inner contours and faces.
* **C147 Surfaces of a STEP file do not disturb each other** A heap of frames and surfaces with references to them; induction over the list of surfaces.
* **C148 The unit of length of a STEP file** Each reader commutes with scaling; induction over the file.
* **C149 Decomposing a B-spline curve into Bézier patches** Induction on the fuel with the split theorem of C23; `IsBezier` says what a Bézier patch is.
* **C150 Inserting knots in a B-spline surface keeps the surface** `Nurbs/SurfModel.lean`; each row or column is the curve case of C22; `NetRel` relates plain and weighted nets.
* **C151 Splitting a B-spline surface** Knot insertion up to full multiplicity, then `curve_cut_left`/`curve_cut_right` on each row.
* **C152 Decomposing a B-spline surface into Bézier patches** Induction on the fuel with C151, generic in the direction.
* **C153 Curves of a B-spline surface** The borders from the end-point interpolation of C21 on every column; the inner curves from C150.
* **C155 Refining the knot vectors of a surface keeps the surface** Induction over both loops with C150.
* **C154 Merging B-spline curves** `join_curves` (from the cut lemmas read backwards) and an invariant of the linking loop, `LinkInv`.
* **C156 Surfaces of revolution** `Revolution.to3d` is shown to be `Vector3D.rotation` of C01 about the axis; the round trip uses the polar angle of the local coordinates.
* **C157 Surfaces of extrusion** Edges are functions with a Lipschitz hypothesis (`ArcLength`), instantiated by segments (`straight_arcLength`).
* **C158 Simplification of a surface of revolution** Points of the surface described by height and squared distance (`points_from`), compared with `OnCone`, `OnCylinder`, `OnSphere`.
* **C159 Sections shared by two segments** Both segments get coordinates on their line; `getShared_P` computes the result in every configuration, the theorems then speak of sets of points only.
* **C160 Circles and quality of a 2D triangle** Heron's identity in coordinates; explicit centres; Euler's inequality from a sum of squares.
* **C161 Measures of a display mesh** Sums and filters over the triangles of C29; the trees are arbitrary answers meeting `Nearest`.
* **C162 Faces of a display mesh** The filter of C30 with its tolerance, then the constructor of Triangle3D (C99, C102).
* **C163 Wires from loose edges** Two nested loops with fuel over the step function of C51; invariant: the edges used and those left are a permutation of the list.
* **C164 Splitting a wire at two points** Induction over the edges in three states: before the first point, between them, after the second one.
* **C165 Splitting a wire at several points** Induction over the points, each section by C164; order_wire by C51.
* **C166 Contours from loose edges** Loop with fuel; invariant: the points recorded are the distinct places along the chain being built; parity of the number of edge ends at each place for closedness.
* **C167 Convexity test of polygons** Real angles: the sine of the clockwise angle is the opposite of the cross product. Converse: the partial sums of the cross products with a side go up, then down to zero.
* **C168 Self-intersection test and distance of polygons** Exact arithmetic over an ordered field; the sort is a permutation of the indices in lexicographic order.
* **C169 Jumps of reduced angles are found** pi is a parameter with 1 <= pi; the angle followed continuously and the number of turns taken off are given as functions of the index.
* **C170 Discretizations are made continuous in the parametric domain** Invariant of the loop: the points before a position have their continuous angle, those after it the reduced one, and the number of turns at the position is zero. Counterexamples at rational multiples of the real pi, computed with rational numbers through a change of unit proved correct.
* **C171 Angle of the end of an edge on the seam** Case analysis on the four tests; the tolerances are kept.
* **C172 Arcs keep their angle in the parametric domain** The arc is an angle theta1 + s*sweep, all the angles given being reduced to ]-pi, pi]; the number of turns between the ends is 0, 1 or -1.
* **C173 Full circles make one turn of the parametric domain** Case analysis; the tolerance is kept.
* **C174 Rules and parallels of cylinders and cones follow their parametric segment** The circle built is proved to be the one of the parametrisation, or its reverse, with a phase of pi below the apex; the arcs are those of C97.
* **C175 Meridians and parallels of a torus follow their parametric segment** The meridian is the circle of the frame (outward direction, axis, product), the parallel that of the frame of the torus.
* **C176 Meridians and parallels of a sphere follow their parametric segment** The conversion is modelled with the test of belonging as a parameter; half turns: the directions of the start and of the middle are perpendicular.
* **C177 The union of a list of shells ends with shells apart that are the groups of the list** The lists are modelled with the aliasing of the list of the caller; invariant with the three phases of the counter of waiting shells, decreasing weight c(c+1)+|waiting|, groups tracked up to permutation.
* **C178 Set operations settle disjoint and nested shells rightly** The cut of the faces is a parameter; shells are known by the sets of their points.
* **C179 Ray casting does not depend on the random rays** Each ray is the list of its intersections face by face; a count is clean, cut short, or an answer at once; induction on the faces and the rays.
* **C180 The clean-up of resulting faces loses no point and keeps no face twice** Induction with the accumulator of valid faces.
* **C181 merge_faces ends, with the faces grouped by surface** The faces found are characterised for every list; the loop ends by the number of faces plus what the counter lacks; the removals are those of list.remove with its error.
* **C182 Merging of coplanar faces gives the groups of adjacent faces** The attachment of a face is modelled with its three tests; the groups are those of C177.
* **C183 Circles and arcs of space are carried along by moves** One definition per class over the kinds of moves; the code's moves are shown equal to exact maps that commute with coordinates in the moved frame.
* **C184 Surfaces are carried along by moves** The parametric maps are functions of the local coordinates, which do not change.
* **C185 Circles and arcs of the plane are carried along by moves** As C183; the orientation of the frame is a sign followed through the moves.
* **C186 Ellipses are carried along by moves** As C183, C185.
* **C187 Moves of spline curves and surfaces, symmetric splines** Evaluation commutes with the affine maps of weighted points; positivity of the denominator by the convex hull property.
* **C188 Discretization of a part of an edge** Induction over the samples for the filter; the coverage is by the Lipschitz property of a parametrization by length.
* **C189 Distance of a point to an edge by refinement** Chord lengths divide at each turn until the best distance is close to the last one; counterexample by a saw-shaped edge.
* **C190 Distance between line segments, and between a segment and a line, in space** Closed form of the common perpendicular (C04..C07) and the clamping to the ends.
* **C191 Distance between two edges by refinement** Fold over pairs of chords with a best-so-far invariant, then over the turns.
* **C192 Points separated by closeness** Dictionary of groups as an ordered association list; classes as filters of the positions by label.
* **C193 Centre of mass of points** Sums.
* **C194 Vertices of a shell** Invariant of the fold over the edges.
* **C195 Graph of the faces of a shell** Invariant of the loops: the edges between faces below the index are there, the sets have lost exactly the faces handled.
* **C196 Bridges between the components of the graph of faces** Specification of a step of the search composed over the loops.
* **C197 Open and closed shells** Composition of C195 with the specification of the nested any.
* **C198 Shells made from a list of faces** Components by reachability, C195 for the edges, the subgraph has the same neighbours as the graph.
* **C199 Graphs kept by a shell** Induction over the calls.
* **C200 Decomposition of faces in octants** Positions of the first octant as keys of a partition; coverage of the box by C17.
* **C201 Distance between two shells** Fold of the nearest pair of clouds; the index of the first group with the same cloud has the same cloud.
* **C202 Distance of a point to a face by its triangulation** Same search as C201.
* **C203 Nearest point of a shell** Lower bound by C15, induction over the faces.
* **C204 Distance of a point to a plane face** Pythagoras, and the border met before the region.
* **C205 Distance between two plane faces** Least of the distances of pairs of edges; two coaxial discs.
* **C206 Distance of two line segments of the plane** Two points of segments that do not meet can be moved along the lines, nearer and nearer, until one is an end (square of parameters); nearest point of a segment by a clamped quadratic.
* **C207 Distance of a line segment and a line of the plane** Signed distances of the ends have the same sign when the lines meet out of the segment; the signed distance is affine.
* **C208 Complementary arc** Membership by C69; angles up to full turns.
* **C209 Offset of an arc** Unit vectors from the centre; the angles of the ends are kept, then C57.
* **C210 Arc symmetric to an arc** The symmetry is t -> m - t on the angles; membership by C69, distances by C10.
* **C211 Offset of a contour of line segments** Intersections by C09; cyclic pairs by index.
* **C212 Revolution of a line segment** Faces as images of rectangles of parameters; the points turned about the axis in coordinates of distance, angle and height; the two sets are compared by an explicit change of parameters.
* **C213 Extrusion of a line segment** Points as weighted means of the corners seen in the frame; area by Lagrange's identity.
* **C214 Extrusion of a circle** Points of the circle by an angle in the frame computed from the normal (C63, C54).
* **C215 Revolution of a circle** Points of the circle and of the torus by two angles; orthonormal decomposition.
* **C216 Revolution of an arc about an axis away from its centre** Rotations in coordinates of the axis; the two directions of the arc; the sorted interval of angles as a set.
* **C217 Revolution of an arc about an axis by its centre** As C216, with the sphere; the counterexample compares a pole with the swept points.
* **C218 Extrusion of an arc along its normal** The last angle of the rectangle is the first one plus the angle of the arc, by cases on the multiple of the turn; turning a point of the circle adds to its angle.
* **C219 Boxes of the intersection of two shells** Induction on the list of pairs of faces for the points collected; C14 for the smallest box; monotonicity of the volume by two corners.
* **C220 Distance of a circle of space to a line segment** The residual by ring in an orthonormal frame; every point of the circle has an angle of the turn; the ideal optimiser is a hypothesis on the three solutions.

## 4. What is not modelled

* Anything that needs scipy/triangle/geomdl/gmsh/cadquery (`minimize`, `least_squares`, mesh triangulation, plotting, running gmsh). The reader of `.msh` files and the writer of `.vtk` files are modelled at the level of words (C119–C125): splitting a line into words and parsing a number are not. The writer of `.geo` files is modelled at the level of statements and tags (C126–C128); transfinite curves are not.
  In the fittings (C108-C112) scipy's `lu_factor`/`lu_solve` are taken as an exact solver of nonsingular linear systems.
* B-rep booleans of faces and shells (`faces.py`, `shells.py`), trimming and face splitting; of `primitives2d.py`/`primitives3d.py`
  only the rounded polylines, the cylinders, cones, spheres, blocks, sweeps' volume formulas named in the properties; of `curves.py`
  lines, circles, ellipses, parabolas, hyperbolas (areas "Segment", "Intersect", "Arc", "Conic"); of `core.py` the scene tree (compounds, assemblies, volume models, moving models) with shells
  seen as the points that define them; `cad_simplification.py`, `cloud.py` and the text reader of `stl.py` are not modelled.
* IEEE-754 rounding; performance; memory safety of the Cython code (indices are checked by `List`
  operations in the model and index validity is proved where the property needs it).
* Voxelizations: the rounding of every centre to 6 or 9 decimals (`round`, `np.round`) is the identity in the exact model.
  Set-valued attributes are modelled as `Finset`/`Set` of centres. Octree voxels carry their centre implicitly by path,
  as in the code; the triangles attached to leaves are lists (C138, C139).
