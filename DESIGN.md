# Formal model of albindgit/starworlds in Lean 4

## Layout

* `lean/Verif/Model/*`  — the model, one Lean function per Python function. Every definition cites the file and lines
  in /repo it models and says what is simplified.
* `lean/Verif/Spec/*`   — small specification vocabulary (line, segment, sector, component, ellipse, even-odd region,
  star-shaped set, ...), independent of the model.
* `lean/Verif/Proofs/*` — helper lemmas.
* `lean/Verif/Props/*`  — the property theorems `Cnn_*`, with non-vacuity `example`s beside them.
* `properties.jsonl`, `MANIFEST.json` — the claims, and the theorems that establish (or refute) each of them.
* `seeded/LOG.jsonl` — edits of the model in the way a bug would change the program, with the theorems that noticed.
  Edits that no theorem noticed are recorded as `survived`, with the theorem that was tightened or the reason why no
  claim is affected; edits after which the model no longer compiles are recorded as `did_not_compile` and count for nothing.

## Conventions

* **Numbers.** Python floats are modelled by exact numbers. Code that only uses `+ - * /` and comparisons is modelled over an
  arbitrary linearly ordered field `K` (so it can be *run* on `ℚ`, which contains every finite float, and holds on `ℝ`);
  code using sqrt/sin/cos/arctan2 is modelled over `ℝ`. Floating-point rounding, overflow, NaN and signed zero are not modelled.
  A numpy division by zero (which yields inf/nan in Python) is modelled as the explicit error `nonFinite`.
* **Tolerances are kept** exactly as in the code (1e-10, 1e-5, 1e-4, slope 100, isclose 1e-8, ...).
* **Exceptions** are values of `Except PyErr`.
* **`while True` loops** take fuel; "terminates" means that some amount of fuel is enough, "diverges" that no amount is.
* **Randomness** (np.random) becomes explicit arguments quantified universally; **the clock** becomes an arbitrary stream of readings.
* **Objects** with caches are records; histories of calls are lists of operations; shared motion models are references into a heap.
* `arctan2 y x` is `Complex.arg ⟨x, y⟩`; the two agree for all finite arguments up to signed zeros.

## Trusted base

* Lean 4.33.0's kernel and Mathlib's definitions; the axioms `propext`, `Classical.choice`, `Quot.sound` only.
* The reading of /repo (nothing was run), and exact numbers in place of floats.
* The assumed meaning of library calls, which are parameters of the model constrained by a hypothesis:
  * `np.argsort` returns a permutation that sorts (`Spec.IsArgsort`); ties in any order.
  * `np.unique(.., axis=0)` returns the same set of rows without repetition (`Spec.IsUnique`); any order.
  * shapely `intersection(line, ring)` returns a geometry whose points are those of the set-theoretic intersection, in one of
    the shapes the code distinguishes (`Spec.GeomIs`).
  * shapely `contains`/`within` of a polygon: interior of the even-odd region of the vertex list; `ring.contains`: the points on
    the edges. For convex vertex lists the region is the convex hull of the vertices.
  * `contains`, `centroid` and `representative_point` of the kernel polygon in the `StarshapedPolygon` constructor: the record
    `AreaOps` with the laws `Spec.IsArea` (contains: topological interior; the representative point is in a non-empty interior;
    nothing is assumed of the centroid).
  * `buffer` of the polygon of an ellipse: an arbitrary function with the laws `Spec.BufferOk` (contains the polygon and the rectangles
    along the edges, contains nothing farther away than the padding).
  * `area` of a shapely polygon without holes: half of the absolute value of the sum over the edges (Model/Area.lean).
  * `difference`, `intersection`, `distance`, `area`, `centroid`, `boundary` used by `compute_kernel_points`: the record `PolyOps`
    with the laws `Spec.OpsOk`.
  * `intersects` of two polygons in `Obstacle.intersects`: an arbitrary function with the law `Spec.InterOk` for simple polygons.
  * `intersection` of a polygon and a box in `draw_shapely_polygon`: an arbitrary function with the law `Spec.ClipOk`.
  * matplotlib: an axes object is the list of its artists, the region of a patch is `Spec.artRegion`; whether `set_data` takes numbers
    (versions before 3.9) is a parameter.
  * The shapely calls of `polygon_kernel_starshaped_hull`: the record `HullOps` with the laws `Spec.HullMeaning` (the results are the
    set-theoretic intersections) and, where stated, `Spec.HullPlain` (a MultiPoint has two points, the points of a collection are
    isolated, there are no nodes in the interior of the polygon). Both laws are satisfiable for every star-shaped polygon
    (`hullPlain_exists`).
  * In `cluster_and_starify` all geometry (which clusters intersect, admissible kernels, hulls, time-outs) is an arbitrary
    oracle, so the control-flow theorems hold for every geometry. `starGeo` (Model/Starify.lean) fills in the oracle; time-outs,
    emptiness of admissible kernels and, in some theorems, the choice of kernel points stay parameters.

## What is modelled

| file | modelled | not modelled |
|------|----------|--------------|
| utils/cg.py | affine_transform, point_in_triangle, orientation predicates, is_between, intersect, Line/LineSegment/Ray intersections, get_intersection, equilateral_triangle, convex_hull, Cone (polygon, point_in_cone, intersection_same_apex, intersection and list_intersection up to shapely), generate_convex_polygon, generate_star_polygon, random_angle_steps | line, ray (shapely constructors), draw methods |
| obstacles/obstacle.py, starshaped_obstacle.py | ids and names, pos/rot, transform/rotate, polygon and kernel caches, xr/set_xr, also with the arrays as shared objects (Model/XrHeap.lean), reference_direction, vel_intertial_frame, move, is_convex and is_starshaped with their caches, interior/exterior/boundary_point (Model/Flags.lean), transform and reference_direction of arrays of points (Model/Batch.lean), intersects (Model/Intersects.lean); drawing of obstacles (Model/Draw.lean) | colours and figures |
| obstacles/motion_model.py | all four models and move; the objects that are positions and their sharing with the program (MotionHeap) | integer entries in lists given to set_pos and integer waypoints |
| obstacles/ellipse.py | everything; point_location also of arrays of points (Model/Batch.lean), dilated_obstacle with the polygon cache (Model/EllipseDilation.lean), the kernel, which is the polygon (KernelSrc.fromPolygon in Model/Obstacle.lean) | |
| obstacles/polygon.py | convexity check, point_location, line_intersection, tangent_points, dilation as a state change (the buffered vertices are an argument) and, with regions as sets, among moves and queries of all obstacles (Model/Dilation.lean), drawing (Model/Draw.lean), area (Model/Area.lean) | shapely's validity checks |
| obstacles/starshaped_polygon.py | construction with and without reference point, vertex angles, normal, boundary_mapping, distance_function, dilation and set_xr as state changes; `_compute_kernel` (Model/KernelPolygon.lean, its control flow over a record of primitives, executable on `ℚ`) | the plots of `_compute_kernel`; shapely's `orient` is modelled by the sign of the area; a kernel with fewer than three vertices is the ValueError of shapely |
| obstacles/starshaped_primitive_combination.py | point_location, line_intersection, boundary_mapping, distance_function, tangent_points, vel_intertial_frame; normal, set_xr, the polygon cache and the vertex arrays as state changes (Model/CombinationState.lean), kernel and is_convex with their caches (Model/CombinationKernel.lean), drawing (Model/Draw.lean) | the union itself (its exterior is an argument) |
| starshaped_hull/starshaped_hull.py | admissible_kernel, kernel_starshaped_hull, convex_kernel_starshaped_hull, polygon_kernel_starshaped_hull (in Model/PolygonHull.lean, over oracles for the shapely tests) | the debug plots and prints; kernel_starshaped_hull (Model/StarHull.lean) takes the polygon variant as an oracle |
| starshaped_hull/cluster_and_starify.py | ObstacleCluster, get_intersection_clusters, compute_kernel_points, cluster_and_starify including make_convex; the loop over arbitrary geometry with clusters as values (Model/Cluster.lean) and as shared objects (Model/ClusterObjects.lean; both agree by C119, except with make_convex together with equal ids or an iteration limit) and with the geometry of the code: kernel points, hulls, polygons, intersections (Model/Starify.lean), admissible kernels (Model/Admissible.lean), exclude_obstacles (Model/Exclude.lean), the reference points stored in the obstacles of the caller (Model/StarifyEffects.lean), the ids of cluster obstacles and the id counter (Model/StarifyIds.lean; the counter after an exception is left out), ObstacleCluster.draw and draw_adm_ker without the obstacles in the panels (Model/DrawGeometry.lean), draw_clustering and draw_star_hull without the markers of robot and goal and without axis limits (Model/DrawClusters.lean) | verbose output |
| utils/misc.py | the clock readings of tic and toc (arguments of the model of compute_kernel_points), draw_shapely_polygon (Model/DrawGeometry.lean) | logging |

## When a property is false of the code

The model follows the code. If the property fails, the refutation is proved (`Cnn_..._false` with a concrete witness) and the
strongest true part found is proved as `Cnn_..._partial`. MANIFEST marks such a property `partial`.

## Properties

| id | title | status | what is proved, and where the code disagrees |
|----|-------|--------|------|
| C01 | affine_transform is an invertible rigid motion | proved | Over the reals, including the rotation==0 branch. |
| C02 | Orientation predicates are consistent with each other | proved | Any ordered field. |
| C03 | Every triple is classified | partial | False at \|value\| = 1e-10 exactly (all three tests are strict); true everywhere else. |
| C04 | Line.line_intersection returns the unique common point | proved | Any ordered field. |
| C05 | LineSegment.line_segment_intersection is sound and complete | proved | Any ordered field. |
| C06 | Ray.ray_intersection is sound and complete | proved | Any ordered field. |
| C07 | Line.intersects reports crossings | partial | False: Line.intersects compares orientation verdicts in a way that never yields True; what remains true is that it never reports a crossing wrongly. |
| C08 | get_intersection never divides by zero and returns a common point | proved | Over the reals. |
| C09 | point_in_triangle always stays in the triangle | proved | Any ordered field; soundness and surjectivity of the sampling map. |
| C10 | equilateral_triangle has the requested centroid and side | partial | Shape proved for every rotation; the centroid claim is false for rot != 0 with centroid != 0 (the code rotates about the origin), true otherwise. |
| C11 | convex_hull terminates | partial | False: a five point input on which the walk cycles forever. True in general position. |
| C12 | convex_hull returns the convex hull | proved | Any ordered field, any number of points. |
| C13 | Cone.point_in_cone decides membership in the angular sector | partial | Any ordered field, plus parallel directions. False for nearly parallel directions: a cone narrower than the orientation threshold counts as non-convex and contains every point between its directions. |
| C14 | Cone.intersection_same_apex is set intersection | partial | False for two identical convex cones; true when the five directions are in general position. |
| C15 | Cone.list_intersection of same-apex cones is the intersection of all of them | partial | False in general (inherits C14 on repeated cones); true in general position. |
| C16 | Cone.polygon always finds its border points | partial | False for apexes within 1 of the border with very short directions (None.xy raises AttributeError); true for apexes at least 1 away from the border. |
| C17 | generate_convex_polygon returns n vertices of a closed convex polygon centred at the origin | proved | Over the reals, draws, coins and shuffle as arguments (DrawsOk says there are enough of them); convexity when no two edge vectors have the same angle. |
| C18 | generate_convex_polygon respects the box | partial | False: both coordinate pools are scaled by box width box[0], so a box with box[1] != box[0] is left; true for the width. |
| C19 | random_angle_steps divides the full turn | partial | False at the extreme irr = 2*pi/n when every draw is 0 (ZeroDivisionError); true whenever the drawn angles do not add up to zero, in particular for irr < 2*pi/n. |
| C20 | Obstacle ids are unique | proved | All histories of constructions, copies, moves. |
| C21 | Frame conversions are inverse to each other | proved | Over the reals. |
| C22 | polygon() always reflects the current pose | proved | All histories incl. failing queries; shapely geometry = list of vertices. |
| C23 | kernel() always reflects the current pose | partial | False for an Ellipse when kernel() is called before polygon(); true for self-computed kernels and when the polygon comes first. |
| C24 | set_xr and xr round-trip | proved | All states and later histories. |
| C25 | set_xr(safe_set=True) keeps xr in the kernel | partial | False: safe_set=True always raises (a shapely geometry has no exterior_point); only "unchanged" survives. |
| C26 | reference_direction is a frame-equivariant unit vector | proved | Single points only. |
| C27 | A copy of an obstacle is independent of the original | partial | False for Ellipse and StarshapedPolygon (copy shares the motion model object); proved for the deep-copying classes over all histories. |
| C28 | Ellipse.point_location classifies points | proved | Over the reals; every pose and both frames; non-zero half axes. |
| C29 | Ellipse.line_intersection returns exactly the crossings of the segment | partial | False for vertical lines off the axis (every crossing is put at x = 0) and for tangents (range ignored). True for lines at least 1e-4 wide, slope at most 100 and chords wider than 2e-4, and on the axis. |
| C30 | Ellipse.boundary_mapping returns the boundary point in the direction of x | partial | False for steep directions unless xr is on the axis; true for slopes up to 100 and chords wider than 2e-4. |
| C31 | Ellipse.normal is the outward unit normal | proved | Every boundary point, pose and pair of frames; also the non-boundary call reduces to it. |
| C32 | Ellipse.tangent_points returns the two tangent points in order | partial | Points exact off the band and exactly on a vertical tangent; order false when frames differ or very close to the ellipse (is_ccw threshold), true otherwise. |
| C33 | Ellipse.tangent_points is defined for every exterior point | partial | False on the axes inside the 1e-5 band (division by zero); exact characterisation of when two points are returned. |
| C34 | Ellipse.dilated_obstacle covers the padding | partial | Padding is an upper bound for every ellipse; that it is covered is false for unequal axes, true for circles. |
| C35 | Ellipse.polygon encloses the ellipse | partial | The region of the polygon (even-odd rule) is the convex hull of its vertices. Upper containment always; containing the ellipse is false with the default 20 vertices for the unit circle; true when a <= (a+1e-3) cos(pi/n). For all axes the polygon contains the ellipse shrunk by cos(pi/n) (C35_inner_partial). |
| C36 | Polygon.is_convex reports the turning direction | partial | False when only the last vertex bends: IndexError; all-collinear vertex lists raise IndexError too, not RuntimeError. Exact otherwise. For every polygon that does not cross itself True is the answer exactly if the region is convex, unless a corner bends by less than the threshold (C36_simple_partial); false for a square with a tiny notch. |
| C37 | Polygon.point_location classifies points | partial | Interior and exterior exact (even-odd semantics of shapely); boundary points on the bounding box are reported exterior, proved false; the rest of the boundary is exact. |
| C38 | Polygon.tangent_points bounds the polygon as seen from x | proved | All vertex lists, points, poses and frames; two points are returned exactly when some ray from x (off the boundary) misses the boundary, in particular none for inner points and two for a point separated from the polygon by a line. |
| C39 | StarshapedPolygon.normal uses the edge hit by the ray from xr | proved | Every star-shaped ring, pose, frame and sequence of dilations and set_xr calls, for points not seen exactly at a vertex angle; the edge is the one the ray hits. |
| C40 | Vertex bookkeeping survives any set_xr history | proved | All sequences of dilations and set_xr, any argsort. |
| C41 | StarshapedPolygon.distance_function classifies and is continuous at the boundary | partial | True for polygons as constructed; false after dilated_obstacle(): the enclosing ball becomes max(width, height), the test segment can be too short and the call raises TypeError. |
| C42 | StarshapedPrimitiveCombination.point_location is the union | proved | All member lists; also exactly when the call raises. |
| C43 | StarshapedPrimitiveCombination.boundary_mapping returns the farthest crossing | partial | Farthest crossing of the test segment proved for all members and hulls; false for x within a tenth of the distance of the boundary (returns None). |
| C44 | StarshapedPrimitiveCombination.vel_intertial_frame returns a member's velocity | partial | False: distances are taken coordinate by coordinate and the index counts points, not members (three counterexamples, one an IndexError). True for xr on the diagonal with one crossing per member, and for one member with at most two crossings. |
| C45 | vel_intertial_frame is the rigid-body velocity | partial | False: unit reference direction used as lever arm; exact characterisation of when it is right. |
| C46 | A Static obstacle never moves | proved | All step sequences, from any state and from the state after construction. |
| C47 | Waypoints moves at the requested speed until the last waypoint and then rests | proved | Needs wp_thresh > 0; with 0 the first call divides by zero (proved). |
| C48 | Interval follows its schedule and stops at the end | partial | Schedule proved for step sequences that hit the time points; resting at the end is false (at t = T the mean velocity is used), and so is the empty schedule (0 / 0, then IndexError). |
| C49 | SinusVelocity respects its magnitudes | proved | All step sequences, both modes. |
| C50 | Clustering computes the connected components | proved | All numbers of clusters, all intersection relations, every order in which list(set(.)) may return its elements. |
| C51 | Clustering reports whether anything was merged | proved | Unchanged up to the polygon cache. |
| C52 | cluster_and_starify terminates | proved | All values of the geometry and clock oracles; fuel equal to the number of obstacles is always enough. |
| C53 | COMPLETE means disjoint obstacles | partial | False with a finite max_iterations: COMPLETE is returned with clusters that have no cluster obstacle (and make_convex then raises). True without limit, and with a limit that is not reached (C53_limit_partial). |
| C54 | INCOMPLETE returns the input obstacles | proved | All oracles; the second theorem assumes that no geometry routine raises. With the geometry of the code the obstacles returned occupy what the input obstacles occupy (C54_polygons). |
| C55 | Results can be fed back as previous_clusters | partial | False for INCOMPLETE results: their kernel_points is None and np.mean(None, axis=0) raises. True for the other results of calls without iteration limit. |
| C56 | The result tuple has the documented shape | partial | False: the time-out in the make_convex stage returns four entries even with return_history. |
| C57 | Obstacles with temporary ids are handled like any other | partial | False: two obstacles with id None share the name None, so the history lookup replaces one by the other. True when ids are distinct (names are injective), whatever the iteration limit (C139_shares_partial), and with any ids in calls that report one iteration (C57_apart_partial). |
| C58 | Admissible kernel excludes x | partial | Cone characterised for ellipses and convex polygons (all poses), and for any set seen between its tangent points; false on the border of the cone and when the tangent points come in the other order. |
| C59 | The hull of a convex obstacle is starshaped | partial | Union star-shaped about every convex combination of kernel points, for every convex obstacle and list, tangent points of ellipses (off the precision band) and polygons shown to qualify; points in general position. False otherwise: two kernel points on the chord between tangent points make convex_hull cycle forever. |
| C60 | The starshaped hull leaves robot and goal free | partial | Robot and goal stay free, whatever position the points are in, if the kernel points are off the border of the cone by the orientation threshold; false on the border. |
| C61 | make_convex never creates overlaps | proved | Polygons as compact connected sets, any number of clusters, for runs without iteration limit. |
| C62 | cl.polygon() is the polygon of its cluster obstacle | partial | False with make_convex: cl.polygon() stays the polygon before convexification. True otherwise. |
| C63 | Kernel points stay inside the selection set | partial | All geometry oracles, single and multi polygons; false for selection sets with holes (exterior.distance ignores interior rings). Also: centre on the border gives three equal kernel points. |
| C64 | Time statistics do not influence the kernel points | partial | False: ts[k]/tot_time raises ZeroDivisionError when the clock does not tick during the call; true when it does. |
| C65 | line_intersection returns the crossings with the boundary | partial | Every returned point is a crossing (all poses, frames, segments); all crossings are returned when there are finitely many; along an edge, whenever the call returns, every crossing is between two points returned with only crossings between them (C65_between_partial). False when the segment runs along an edge and touches the boundary elsewhere: shapely returns a GeometryCollection and UnboundLocalError is raised. |
| C66 | The starshaped hull of a polygon stays within the convex hull | proved | Proved for every polygon, kernel point list and all results of the shapely calls that lie on the segments asked for. C66_collection states which point is added for a GeometryCollection. |
| C67 | The starshaped hull of a polygon can always be computed | partial | Only ValueError (fewer than three hull vertices) possible if no vertex lies inside the kernel points and segments meet in at most one point; false (IndexError) for a polygon inside the kernel triangle. |
| C68 | pos() and rot() agree with the frame conversions | proved | Proved for all poses and both frames. |
| C69 | boundary_mapping picks the crossing nearest to x | partial | Ellipse: proved for all reference points. Polygon: proved for at most two crossings; false for three (only the first two listed are compared), for a star-shaped polygon with xr outside of the kernel. |
| C70 | normal(type='weighted_edges') is a unit vector | partial | Weights proved (positive, sum one, inversely proportional to distance + 1e-6) in every reachable state; false that the result is a unit vector: it is zero at the incentre of a triangle. |
| C71 | distance_function is below 1 inside, 1 on and above 1 outside of the boundary | partial | Ellipse: proved for directions that are not steep and chords that are not tiny; false for steep directions (an outside point gets a value below 1). Combination: proved when the test segment (ten times the distance) reaches a boundary; TypeError for points closer to xr than a tenth of the way. |
| C72 | tangent_points of a combination bounds all members | partial | Exact characterisation of the returned points, each bounding all members; for points in general position exactly the left and the right one. False: the order depends on the member order, which turns the admissible kernel to the wrong side; members with a common tangent lose that point. |
| C73 | kernel_starshaped_hull is defined for every obstacle | partial | Proved for lists of obstacles whose hulls can be computed; false (TypeError) for an obstacle that is neither convex nor a polygon. |
| C74 | The triangle centre keeps its side and avoids the line through robot and goal | partial | Proved for a fresh centre, a kept centre, and the choice of the part; false for a replaced centre: no collinearity test, and a selection set not split by the segment gives a centre on the other side. |
| C75 | The kernel computed for a starshaped polygon is its kernel | partial | Convex polygons: proved, also as the set bounded by the ring and with straight corners (C75_simple_partial). L-shapes: every L-shape with edges between 1/1000 and 299, in every placement (C76). Twenty further polygons that take all branches seen to be taken (C75_shapes_partial, each with a checked certificate that the result is the visibility kernel). False: side 400 (INF_VAL = 300) gives a kernel with a corner outside of the polygon, side 600 an AttributeError, side 2e-5 the whole polygon; a pentagon and a 7-gon of ordinary size give an AttributeError (C75_pentagon_false, C75_hook_false), another 7-gon a kernel that is too large (C75_outside_false). |
| C76 | The kernel moves with the polygon | proved | Proved for all vertex lists, also for those on which the code raises. |
| C77 | Debugging does not influence the kernel | proved | Proved for all vertex lists and all primitives: the branch that leaves delta unassigned is never reached. |
| C78 | Kernel points left out are inserted into the hull | partial | Vertices are kept and only left-out kernel points are added, each at most once, in all cases; a single left-out kernel point is inserted into the first edge it is outside of. False for two: the number of edges is taken before the insertions, so the last edges are never tested. |
| C79 | normal(type='sub_normal') of a combination is the normal of the outermost part | partial | Proved whenever the test segment (ten times the distance) reaches a boundary: the part with the farthest crossing, for the hull the outward unit normal of the edge hit. False for points so near to xr that the segment ends before the outermost boundary. |
| C80 | The polygon normals of a combination can always be computed and are unit vectors | partial | polygon_approx: proved in every reachable state for polygons star-shaped about xr. Default: weights proved, unit vector unless the mean is zero. False: AttributeError before the first polygon(); division by zero at the incentre of a triangle. |
| C81 | The vertex arrays of a combination belong to its polygon and reference point | partial | Invariant of the arrays proved for all histories; set_xr succeeds once polygon() has been called. False before: AttributeError, after xr has been changed. False with safe_set in every state: AttributeError. |
| C82 | polygon() of a combination follows its members | partial | The value of the first call is kept in all histories. False: after the members have moved it is the old polygon, while point_location uses the new one. |
| C83 | distance_function and point_location of a starshaped polygon agree | partial | Inside, boundary and outside proved for distance_function in every reachable state, pose and frame, and that point_location is -1 exactly inside and 1 outside. False on the bounding box (point_location is 1 at a boundary point, every polygon has one) and at xr (division by zero). |
| C84 | The default reference point of a starshaped polygon sees the whole polygon | partial | Proved for all polygons whose computed kernel is right: convex polygons, L-shapes, the shapes of C75. For convex polygons (C84_simple_partial) any ring that does not cross itself is allowed, in either order, with straight corners, and the distance function of the obstacle is right. False for a 10-gon with two notches: the kernel is too large and the centroid does not see a corner. |
| C85 | cluster_and_starify returns star-shaped obstacles that avoid robot and goal | partial | Proved for calls without iteration limit whose kernel points are in general position with the tangent points and free of robot and goal, which follows from the choice of compute_kernel_points (C85_select_partial, C85_program_partial), also with the admissible kernels of C93 (C85_cones_partial). With make_convex robot and goal are not in the interior. False: with make_convex the robot can be on the border of an obstacle returned, although it is outside of all obstacles. |
| C86 | cluster_and_starify gives a result for convex obstacles | partial | Proved for obstacles of star-shaped classes, when kernel points can be chosen and are in general position. False: with a plain Polygon among the obstacles every call fails (no kernel method), AttributeError for a single box. |
| C87 | The obstacles returned by cluster_and_starify are disjoint | partial | Proved for obstacles that are equal to their polygons, with and without make_convex. False for ellipses: two overlapping circles of radius 1 are returned as two clusters, as their polygons with the default 20 corners do not meet. |
| C88 | is_convex() describes the current polygon | partial | Proved for StarshapedPolygon and Ellipse in all histories, and for Polygon when no dilation comes after a query; a given is_convex argument is kept by Polygon and forgotten by copies of a StarshapedPolygon. False for Polygon otherwise: an L-shape that was asked and then dilated by -1.2 is a rectangle and still answers False. |
| C89 | is_starshaped() is True exactly for star-shaped obstacles | partial | The star-shaped classes answer True in all histories, also for a box with a notch that no point sees all of. Polygon gives the answer of is_convex: for polygons that do not cross themselves True exactly if every point sees all of it, unless a corner bends by less than the threshold; false for a box with a tiny notch; False for star-shaped polygons that are not convex. |
| C90 | A point is interior, exterior or boundary point | partial | Proved for Polygon (with the sides: interior_point exactly inside) and for combinations. Ellipse: proved outside of the band of 1e-8; false in it (two predicates are True). |
| C91 | Cone.polygon is the cone inside the box | partial | Inside the box proved for convex cones beyond the threshold, half planes and non-convex cones. False outside of the box: a ring that meets itself and contains points that are not in the cone. False for thin cones: the polygon is the whole box. |
| C92 | Intersections of cones are the common points of the cones | partial | Without same_apex proved for cones as in C91; with same_apex for cones with directions in general position and points other than the apex. False for cones with a common border: one of the cones returned is the whole plane but a sliver, and points outside of both cones are in the result. Shapely operations are set operations on the rings that shapely accepts. |
| C93 | The admissible kernel of a cluster keeps robot and goal out of the way | partial | Proved for single obstacles (line 242) and for clusters with tangents in general position (lines 340-359), also with exclude_obstacles. False for two triangles that touch where their tangents from the robot are. |
| C94 | exclude_obstacles keeps the other obstacles out of the hulls | partial | Proved for the corners of polygons: the entry of an obstacle is the closed region from which no corner is in the way, inner points of it give hulls without these corners, and clusters are restricted to it unless the rest is negligible. False for the obstacle as a whole: a triangle with its corners out of the way meets the hull. False for ellipses, which have no extreme_points: AttributeError. |
| C95 | cluster_and_starify does not change the obstacles of the caller | partial | False: a box with its centre as reference point has another one after a successful call; in an INCOMPLETE call the reference points of two boxes are changed as well. Proved: only reference points change, only of given obstacles that need no hull extension, only to the mean of their kernel points, and only if robot and goal are free; the cluster obstacles have the computed reference points after the call. The reference points are the only attribute modelled as state. |
| C96 | The result of cluster_and_starify is not changed by later calls | partial | False: a second call for the same box moves the reference point of the cluster obstacle in the result of the first. Proved for cluster obstacles with hull or several members, for other obstacles, for later calls that return early; and the cluster obstacle stays starshaped for its new reference point. |
| C97 | The position of a motion model is changed only by its own move and set_pos | partial | Proved for programs that give no object to two motion models and do not write to positions, in particular for all programs without set_pos. False: after m1.set_pos(m0.pos()) moving m0 moves m1; writing to the array that pos() returned moves the obstacle. |
| C98 | Moving does not change objects of the program | partial | Proved for lists, tuples and integer arrays, and for arrays that are not the position of a motion model. False: the array returned by pos() and the array given to set_pos are changed by the next move. |
| C99 | move works after set_pos with any kind of position | partial | Proved for float arrays and lists, and that motion models without shared positions move independently of each other, exactly as in C46-C49. False for integer arrays (TypeError) and tuples (AttributeError), also for Static. |
| C100 | Asking for the velocity does not change the motion | partial | Proved for all motion models but Waypoints, and for Waypoints in histories without set_pos. False for Waypoints with set_pos: a query at the first waypoint makes the obstacle skip it after it has been put elsewhere. |
| C101 | The polygon of a dilated ellipse is determined by the ellipse and the padding | partial | Proved: in all histories no point of the polygon is farther than the total padding from the ellipse with offset 1e-3, and what is stored in either case. False: for the unit circle and padding 1 the two polygons differ. The buffer of shapely enters with the laws BufferOk. |
| C102 | reference_direction accepts several points | partial | Proved for one point that needs no transformation and for two points at the same distance. False for two points at different distances (wrong directions), for three and more (ValueError, or two rows for n points), and for one point that has to be transformed (IndexError). C102_transposed_partial states what transform returns for two and more rows when the frames differ: the transformed points of the transposed first two rows. |
| C103 | Ellipse.point_location accepts several points | partial | Proved for points in columns, all poses and both frames. False for points in rows: the first two rows are taken for the coordinates, more rows are ignored; C103_transposed_partial states the two values that come back. |
| C104 | Cluster obstacles with the same id belong to the same cluster | partial | Proved for all histories in which the obstacles given to cluster_and_starify have ids, different within a call: any geometry in each call, any parameters, any earlier result as previous_clusters. False for obstacles with temporary ids: the cluster obstacles of all of them have the id None. |
| C105 | A cluster of the previous result keeps the id of its cluster obstacle | partial | Proved for clusters of two and more obstacles without make_convex, and for single obstacles that have not become their own cluster obstacle. False for an obstacle that needs a hull extension in the first call only, with make_convex, which gives a new id in each call, and for a cluster of three obstacles that are merged in another order (the name that is looked up is 1_3_2 instead of 1_2_3). |
| C106 | Repeating a call of cluster_and_starify uses up no ids | partial | Proved: the counter never decreases; it stays as it is with a workspace, without make_convex and without intersections. False without a workspace (the default workspace is an Ellipse with a new id) and for obstacles that meet (the hull of the first iteration gets a new id in each call). |
| C107 | generate_star_polygon returns polygons that are star-shaped about the given centre | partial | Proved for positive radii if 1 + irregularity < (n - 1)(1 - irregularity), as with the parameters of the tests, and for any draws without a step of a half turn. False whenever the condition is violated strictly: for some draws the centre is not even in the convex hull. False for radii that are clipped to 0. |
| C108 | The tangent points of a StarshapedPolygon do not depend on its reference point | partial | Proved for all histories if the polygon is star-shaped about the current reference points (sorting is then a rotation of the vertices; the same points unless the query point is in line with two corners), and for all reference points if a line separates the query point from the polygon. False for a square with a reference point outside: the vertices are in the order of a bow tie and an inner point gets two tangent points. |
| C109 | polygon_kernel_starshaped_hull returns the star-shaped hull | partial | Proved for polygons that are star-shaped about all of the kernel points (the polygon itself is returned). For all polygons: the vertices of the result belong to every star-shaped region around the polygon, and vertices of the polygon with nothing behind them are vertices of the result. False for a thin triangle ten units away from the kernel point: line() leaves out the last 1e-4 of the way, the triangle is overlooked and the result crosses itself. False also for an ordinary triangle with three kernel points, where a vertex and a kernel point are lost. A checked rational run of the algorithm decides single polygons: if it succeeds and a test accepts its result, the call returns this result for all plain shapely operations and it is the hull; done for 15 runs that take all branches. |
| C110 | The star-shaped hull does not depend on how the ring of the polygon is written down | partial | Proved for all polygons, kernel points and shapely operations if one vertex is farther to the right than the others and the turn there exceeds the threshold; then also that clockwise star-shaped polygons are their own hulls. For polygons that are star-shaped about the kernel points also with several rightmost vertices, as boxes have them, if each of them has a turn beyond the threshold (C110_rightmost_partial). False for a strictly convex pentagon with a turn of 2e-12 at the rightmost vertex: in clockwise order the ring is not turned around, and the kernel point is inserted into an edge, which cuts off a part of the pentagon. |
| C111 | Obstacle.intersects tells whether two obstacles have a common point | partial | Proved for obstacles that are simple polygons, in all histories; shapely's intersects enters with its law for simple polygons (the polygons at the current poses are proved simple). For ellipses: True only if the ellipses with axes longer by 1e-3 meet; no overlap is missed if the polygons contain the ellipses (C35), or if the ellipses shrunk by cos(pi/n) still overlap (C111_inner_partial). False otherwise: overlapping unit circles at the distance 1.995 give False, disjoint ones at 2.0015 give True. |
| C112 | draw and update_plot show the obstacle at its current pose | partial | Proved for ellipses, polygons and star-shaped polygons in all histories with several obstacles, if matplotlib is older than 3.9 or no reference point is shown. False otherwise: set_data with two numbers raises an exception in recent versions, so draw with default options always fails; update_plot of a combination does nothing, and its drawing shows the cached polygon of an earlier pose. |
| C113 | draw_shapely_polygon shows the points of the geometry within the limits | partial | Proved for geometries without holes of which every clipped polygon is one polygon, with a law for the intersection with a box. False: holes are filled; AttributeError if the limits cut a polygon into several parts (letter U), and for points and lines. |
| C114 | ObstacleCluster.draw draws all obstacles of the cluster | partial | False of every cluster: the pair (handles, axes) is assigned to (ax, _), so the second call of draw gets a list in place of the axes. Partial: the first object is drawn, on a new figure if no axes are given. |
| C115 | draw_adm_ker shows every admissible kernel in a panel of its own | partial | Proved if some cluster has a non-empty admissible kernel, and the kernels and kernel points are single points or polygons without holes; the obstacles in the panels are left out. False: one or two kernel points raise ValueError, a kernel that is a segment AttributeError; without admissible kernels a single axes object is returned and no array. |
| C116 | Moving an obstacle moves the answers of its queries | proved | Proved for all three classes, poses and pairs of frames, exceptions included (the order of the tangent points of an Ellipse in the other frame is wrong, see C32). |
| C117 | interior_point and exterior_point agree with polygon() | proved | Proved for all vertex lists and histories without dilation; interior as even-odd interior of the ring. |
| C118 | The order of the obstacles does not matter for cluster_and_starify | partial | Proved for obstacles with distinct ids, without previous clusters and without exceptions, with iteration limits and time-outs, if the geometry routines do not depend on the order of their lists; with make_convex also, without an iteration limit and without a time-out in the make_convex stage. For convex obstacles the hulls are proved not to depend on the order (C118_star_partial), and with tangents in general position neither do the kernels and kernel points that are computed (C118_program_partial); there it is assumed that shapely depends on the points of its arguments only, that selection sets are clearly larger or smaller than 1e-6 with their centroids in the kernel, that the random draws are the same, that the test for empty kernels gives the same in any order, and that no exception is raised. False with previous clusters: they are looked up by a name made of the ids in the order given, so in another order the cluster is not found and its cluster obstacle gets a new id. |
| C119 | The returned history shows the iterations | partial | Proved without make_convex for all inputs; the model with objects also gives the same clusters as the model with values. With make_convex (different ids, no iteration limit) the clusters of the history that are not returned are as recorded. False with make_convex: the convex cluster obstacle is written to the shared object, so all entries of the history that have this cluster show it, also that of the first iteration. |
| C120 | An obstacle changes only by calls of its methods, whatever the program does with its arrays | partial | Proved while the program does not assign to an array that is the reference point of an obstacle at that time; so for programs that assign to no array, and for programs in which all obstacles have a motion model and all frames are global. The result of xr has the right value in all cases. False otherwise: with the obstacle frame or without a motion model set_xr keeps the array of the caller, and xr returns the array of the obstacle, so a later assignment moves the reference point (of two obstacles, if both got the array) and leaves the vertex angles as they were. |
| C121 | A dilated polygon is the obstacle with its padding, and stays with it | partial | Proved for non-negative padding as long as both have the same pose: always for a StarshapedPolygon that keeps its motion model, for a Polygon until something moves. Regions are compact sets, the laws of shapely (PadOk) are met by exact circles (exactPad_ok). Star-shapedness is proved for exact circles. False for a Polygon that moves afterwards (copy makes a deep copy, also of the motion model, so the dilated obstacle stays behind), and for negative padding (the reference point can be outside). |
| C122 | Repeating a call in an unchanged scene gives the same result | partial | For every unchanged scene the kernel points of a cluster are, from the second repeated call on, those of the call before the last (C122_two). They stay the same if their centre is inside of the selection set and not near the line, if the segment from robot to goal does not split the selection set, and, from the second repeated call on, if the admissible kernel is convex; then the whole result is the same again (different ids, no iteration limit, no time-out). False in general: with an admissible kernel that is not convex the centre, a nearest point of the admissible kernel, can be on the other side of the line than the part it was chosen for, and the next call takes the other part. In the witness (walls of two rooms) the kernel points alternate for ever. Its admissible kernel is given, not computed from cones. |
| C123 | Moving the whole scene moves the result | partial | Proved for obstacles with different ids, with the routines for kernel points and for empty kernels as parameters that move with the scene (C123_call_partial), and for the computed cones, kernels and kernel points without exclude_obstacles (C123_program_partial), if robot and goal are at least 1 from the border of the square of half width 1e6 before and after, tangents are in general position, the selection set is cut out of the obstacles, its centroid is in the admissible kernel, shapely moves with its arguments, the same random numbers are drawn, and the test for negligible kernels gives the same answer. The functions of cg.py are proved to move with their arguments, and moved polygons and ellipses to be the obstacles at the moved position. False in general: 2000000 to the left the same call raises AttributeError, since the cones miss the fixed square; equilateral_triangle with a rotation turns about the origin. |
| C124 | Groups of obstacles that are apart do not influence each other | partial | Proved for obstacles with different ids, without iteration limit and time-outs, if both calls return and list(set(.)) keeps its order when all indices are shifted (CPython: up to 8 obstacles); a group that is INCOMPLETE makes the whole call INCOMPLETE; with make_convex if hulls of one group do not meet the other. The geometry routines of a cluster are taken to depend on its obstacles, iteration and previous kernel points only: not so with exclude_obstacles, and random draws are taken to be the same. False: with an iteration limit that the other group reaches, finished clusters lose cluster obstacle and kernel points; with make_convex if a hull meets the other group; with temporary ids a far obstacle replaces another one; from nine obstacles on the obstacles of a cluster can come in another order, and so with another name. |
| C125 | Pictures of a clustering show its clusters | partial | draw_clustering: proved for up to 256 clusters; false for more, as the colour map has 256 entries. draw_star_hull: proved for all histories with the law of unary_union (UnionOk) if the unions have no holes, the cached polygons of the clusters are those of the current poses and set_data is not called with numbers in a recent matplotlib. False otherwise: a hole is filled; an obstacle that has moved since polygon_excluding_hull was called is drawn at its old place; exception with an Ellipse or StarshapedPolygon as cluster obstacle. Markers of robot and goal and axis limits are left out. |
| C126 | Exchanging robot and goal does not change the result | partial | Proved for returned results (which of two exceptions is raised can change) and obstacles with different ids, without exclude_obstacles: kernel points are the same with or without previous cluster (C126_points_partial), admissible kernels are the same (C126_kernel_partial), and so is the whole result (C126_call_partial, C126_program_partial with the computed kernels), if shapely.ops.split gives the same parts for both directions, the same random numbers are drawn, previous centres are not near the line through robot and goal and no centroid of a part is when the previous centre is not kept; C126_program_partial needs robot and goal in general position in the square of the cones. False otherwise: a previous centre on the line counts as clockwise for both orders, so the exchanged call takes the other half of the selection set. The witness is a call of compute_kernel_points. |
| C127 | A Waypoints obstacle comes to every waypoint and stays near the path | partial | Proved for steps shorter than twice the threshold: all waypoints are visited in order once the steps add up to the length of the path and twice the threshold per leg, and the obstacle then stays (C127_arrival_partial); it is always nearer than the threshold to the path if no step goes backwards (C127_path_partial). False for every longer step: with a waypoint at half a step the obstacle jumps over it, to and fro, for ever. Exact arithmetic. |
| C128 | A SinusVelocity obstacle moves along the curve of its velocity and comes back after a period | partial | The distance from the curve is proved for all non-negative steps, along the axes (C128_axes_partial) and with a heading (C128_heading_partial), and the exact return for two or more equal steps per period (C128_return_partial). The return is false for one step per period and for unequal steps: the sums of the velocities at the starts of the steps are not zero. Exact arithmetic. |
| C129 | An Interval obstacle stays near its schedule and approaches its last position | partial | The distance from the schedule is proved for all steps that end within the schedule (C129_schedule_partial), and the approach, from any state, for steps that are bounded from below and by B with B < 2 and B times the speed of the last leg < 2, if that speed is not 0 (C129_approach_partial). False otherwise: for every step there is a schedule after which the obstacle swings to and fro for ever at distance 1 (speed times step = 2), and after a schedule that ends with a pause it stays where the last step before the pause has taken it. Exact arithmetic. |
| C130 | area() is the area of the obstacle | partial | Proved, with Lebesgue measure as the area and the even-odd rule for the region, for all polygons whose ring does not touch or cross itself (C130_partial; the winding number of such a ring takes one value beside 0, which is 1 or -1), for rings that may touch themselves but can be cut along diagonals into pieces that run once around a point (C130_cut_partial; star-shaped polygons in C130_star_partial), and so is the bound for sums (C130_sum_partial). False for ellipses and combinations, which have no method area, so that tests/test_cluster_and_starify.py:39 raises AttributeError (C130_ellipse_false, C130_sum_false), and for rings that cross themselves (C130_crossing_false). Exact arithmetic. |
| C131 | Polygons of generate_convex_polygon are convex obstacles around the origin | partial | Proved for all draws that give no zero edge and no two edges of the same direction (C131_partial). False otherwise: the x and y components are sorted separately, so two edges of the same direction exchange components; with the draws 0, 1/3, 2/3, 1 for both coordinates the polygon is a broken line that does not contain the origin (C131_false). Exact arithmetic. |
| C132 | The star-shaped hull of convex obstacles is the smallest one | partial | That the returned polygons are not too large is proved for all kernel points and whatever convex_hull returns (C132_least_partial). That obstacles and polygons together are the smallest star-shaped set, and that it grows with obstacles and kernel points, is proved if the tangent points and kernel points are in general position (C132_partial, C132_grows_partial), also for the cluster obstacles of a call without make_convex and max_iterations (C132_call_partial, for selected kernel points as in C85). False otherwise, as convex_hull does not finish for collinear points (C132_false). Exact arithmetic. |
| C133 | A StarshapedPolygon works with every reference point of its kernel | partial | Proved for all rings without crossings and all reference points inside the visibility kernel (C133_partial), with the intersection of a segment and the ring as a library call with a specification; these points are exactly the ones about which the oriented ring is star-shaped in the sense of C39, C41 and C83, and the kernel is then the intersection of the half-planes of the edges (C133_kernel). False on the border of the kernel: from the middle of a side of a square the distance function is 25/16 at an inner point (C133_border_false), and for an inner point of an L in line with one of its edges it is not 1 on all of that edge, whatever shapely returns (C133_line_false). Exact arithmetic. |
| C134 | boundary_mapping and distance_function of a StarshapedPolygon are continuous | partial | Proved for all rings without crossings and reference points inside the visibility kernel, at every pose and in all frames (C134_partial), and for continuously moving obstacles and points that do not pass through the reference point, with the time at which the boundary is crossed (C134_motion_partial). At the reference point itself the code divides by zero; its value is left out. False on the border of the kernel: from the middle of a side of a square the value jumps from 9/4 to 1/4 at the centre of the square (C134_false). Exact arithmetic; the intersection of a segment and the ring is a library call with a specification. |
| C135 | Generated polygons are convex and star-shaped obstacles, whatever their size | partial | is_convex, is_starshaped and the kernel: proved for draws with edges of different directions if every corner bends by more than the threshold (C135_convex_partial). False for small polygons: in a box at most 7e-6 wide is_convex() raises IndexError for all draws, and so does StarshapedPolygon without reference point (C135_small_false). The distance function: proved without a condition on the size, for generate_convex_polygon with edges of different directions (C135_distance_partial; see C131 for equal directions) and for generate_star_polygon with positive radii and steps as in C107 (C135_star_partial). Exact arithmetic; the intersection of a segment and the ring is a library call with a specification. |
| C136 | The distance function of an Ellipse is continuous, and with the default reference point it is its quadratic form | partial | Off-centre reference points: a closed formula, continuous everywhere, in directions not steeper than 100 with a chord wider than 2e-4 (C136_partial). Default reference point: all values for half axes of at least 1/50 with a2 <= 40 a1: the quadratic form up to the steepness 100, \|x\|^2/a2^2 in steeper directions (C136_centre_partial); so for circles it is the quadratic form everywhere (C136_circle_partial). False otherwise: with half axes 2 and 1 the value jumps at (1, 100) (C136_false). At the reference point itself the code divides by zero. Exact arithmetic. |
| C137 | boundary_mapping and distance_function of a StarshapedPrimitiveCombination are exact and continuous | partial | Proved for all members and hulls that are compact with their boundaries, at all points for which the point ten times as far from the reference point is not inside the covered set, given that each line_intersection returns points of the crossing with the boundary, the farthest one included (C137_partial); covered_kernel reduces the visibility to that of the parts. False nearer to the reference point: there boundary_mapping returns None and distance_function raises TypeError (C137_near_false). Exact arithmetic. |
| C138 | The obstacles returned by cluster_and_starify have a distance function that keeps robot and goal out | partial | Proved for calls without iteration limit whose kernel points are in general position with the tangent points and free of robot and goal as in C85, if the intersections of segments with the borders of members and hull are right (Represents; the hull has no hole); a cluster of one obstacle that contains its kernel points is returned as that obstacle and not as a combination. All outer points, robot and goal included, and all inner points that are not closer to the reference point than a tenth of the border (C138_partial). False at nearer inner points, where it raises TypeError, for instance for two boxes that meet (C138_near_false). The StarshapedPolygons returned with make_convex have the values at all points except the reference point, and at robot and goal at least 1, if the polygon is simple with the region of the hull and the intersections with it are right (C138_polygon_partial); false that it is above 1 there, since the robot may be on the border of the convex obstacle (C138_border_false). Exact arithmetic. |
| C139 | max_iterations of cluster_and_starify only cuts the clustering off | partial | Proved: a result that reports fewer iterations than the limit (or one) is the result without limit (C139_below_partial; C53_limit_partial and C85_limit_partial carry C53 and C85 over to such calls), a result without limit that needs at most the limit and is not INCOMPLETE is the result with limit (C139_within_partial), a limit of at least the number of obstacles changes nothing, exceptions included (C139_enough_partial), every call with limit m ends after at most max(m, 2) iterations (C139_ends_partial), the obstacles are shared out among the clusters whatever the limit (different ids; C139_shares_partial), and a result without make_convex that is cut off consists of clusters without kernel points and polygon, those of several obstacles without cluster obstacle (C139_cut_partial). False for limits 0 and 1, with which two iterations are made (C139_false). |
| C140 | Obstacles with common points come into the same cluster | partial | Proved for obstacles that are covered by their polygons (all but ellipses), with and without make_convex, with any iteration limit (C140_together_partial); intersects of two polygons is taken as a non-empty intersection of the point sets. Different ids are needed (with equal ids an obstacle can be lost, see C57). Ellipses that still overlap when shrunk by cos(pi/n) are in the same cluster (C140_ellipse_partial). False for ellipses that overlap less: two overlapping circles, whose polygons with 20 corners do not meet, are returned as two clusters (C140_false, with the scene of C87). |
| C141 | The kernel of an Ellipse is the set of points that see all of it | partial | Proved, when polygon() has been called before kernel() (otherwise see C23): the reported kernel contains the ellipse shrunk by cos(pi/n), all of the ellipse if a <= (a+1e-3) cos(pi/n) for both axes, and only points of the ellipse with axes longer by 1e-3 (C141_partial). False otherwise: the kernel of the unit circle with the default 20 corners has the point (1.001, 0) outside of the circle and lacks points of the circle (C141_false). |
| C142 | kernel() and is_convex() of a StarshapedPrimitiveCombination describe what it covers | partial | Proved for all histories during which the union stays the same: is_convex() is right for every union whose exterior does not cross itself, given in either order, and kernel() is the visibility kernel if it is convex (bends of 0 or above 1e-10; C142_convex_partial) or a corner made of two rectangles (C142_corner_partial) or one of twenty other star-shaped polygons (C142_shapes_partial). False for other unions even if nothing moves: for a hook, all of which is visible from one point, kernel() returns None (C142_none_false). In all histories both stay what they were when first found (C142_first_partial). False when members move after the first call: kernel() stays that of the old union and contains points that are now exterior (C142_stale_false), and is_convex() stays True when two rectangles are turned into a corner (C142_convex_false). Holes of the union are left out. |

## Other disagreements noticed while reading (not stated as properties)

* `StarshapedPolygon.normal` with an unknown `type` raises UnboundLocalError.
* `StarshapedPrimitiveCombination.normal` with an unknown `type`, also with `'weighted_polygon_approx'` spelt correctly, returns None.
* `_hull_cluster_line_intersections` can return None, and the caller then raises TypeError.
* A MultiPolygon result of a union has no `exterior`.
