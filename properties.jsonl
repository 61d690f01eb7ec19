{"id": "C01", "title": "affine_transform is an invertible rigid motion", "statement": "affine_transform(., r, t, inverse=True) undoes affine_transform(., r, t) and vice versa; both preserve the Euclidean distance of two points and the orientation value of three points; the rotation==0 shortcut gives the same result as the general formula.", "quantifier": "all points, all rotations (including 0), all translations", "why_tests_cant": "a test samples a few angles; the claim is an algebraic identity over a continuum", "anchors": ["utils/cg.py:affine_transform"]}
{"id": "C02", "title": "Orientation predicates are consistent with each other", "statement": "is_cw, is_ccw and is_collinear never hold two at a time; cyclic shifts of the three points keep every verdict; swapping two points exchanges is_cw and is_ccw and keeps is_collinear; translating all points changes nothing.", "quantifier": "all triples of points", "why_tests_cant": "infinitely many triples, including ones arbitrarily near the threshold", "anchors": ["utils/cg.py:orientation_val", "utils/cg.py:is_cw", "utils/cg.py:is_ccw", "utils/cg.py:is_collinear"]}
{"id": "C03", "title": "Every triple is classified", "statement": "For every three points exactly one of is_cw, is_ccw, is_collinear holds.", "quantifier": "all triples of points", "why_tests_cant": "the only failing triples have orientation value exactly +-1e-10; random tests never hit them", "anchors": ["utils/cg.py:is_cw", "utils/cg.py:is_ccw", "utils/cg.py:is_collinear"]}
{"id": "C04", "title": "Line.line_intersection returns the unique common point", "statement": "line_intersection of two lines returns None exactly when the direction cross product is below 1e-10 in absolute value; otherwise the returned point lies on both infinite lines and every point on both lines equals it; swapping the two lines returns the same point.", "quantifier": "all pairs of lines given by two points each", "why_tests_cant": "algebraic identity over all coordinates", "anchors": ["utils/cg.py:Line.line_intersection"]}
{"id": "C05", "title": "LineSegment.line_segment_intersection is sound and complete", "statement": "For two segments whose direction cross product is at least 1e-10 in absolute value, a point is returned if and only if the closed segments share a point, and the returned point belongs to both segments (and is the only common point); below 1e-10 it returns None.", "quantifier": "all pairs of segments", "why_tests_cant": "needs every relative position, including touching end points", "anchors": ["utils/cg.py:LineSegment.line_segment_intersection"]}
{"id": "C06", "title": "Ray.ray_intersection is sound and complete", "statement": "For two rays whose direction cross product is at least 1e-10 in absolute value, a point is returned if and only if the rays share a point, and the returned point belongs to both rays.", "quantifier": "all pairs of rays", "why_tests_cant": "needs every relative position", "anchors": ["utils/cg.py:Ray.ray_intersection"]}
{"id": "C07", "title": "Line.intersects reports crossings", "statement": "Line.intersects(other) is True when the two lines given by (p1,p2) properly cross between their end points.", "quantifier": "all pairs of lines", "why_tests_cant": "a negative universal statement: the shipped code answers False on every input", "anchors": ["utils/cg.py:Line.intersects"]}
{"id": "C08", "title": "get_intersection never divides by zero and returns a common point", "statement": "When intersect(a1,a2,b1,b2) holds, get_intersection divides by a non-zero number and its result lies on both infinite lines; if moreover the four orientation values are beyond the threshold it lies on both segments. When intersect fails, the result is None or one of the four end points.", "quantifier": "all four-tuples of points", "why_tests_cant": "all relative positions and near-threshold values", "anchors": ["utils/cg.py:get_intersection", "utils/cg.py:intersect", "utils/cg.py:is_between"]}
{"id": "C09", "title": "point_in_triangle always stays in the triangle", "statement": "Whatever two numbers in [0,1] the random generator returns, the point returned by point_in_triangle(a,b,c) is a convex combination of a, b and c; and every point of the triangle is produced by some pair of numbers in [0,1].", "quantifier": "all triangles and all random draws", "why_tests_cant": "the random generator has a continuum of outcomes", "anchors": ["utils/cg.py:point_in_triangle"]}
{"id": "C10", "title": "equilateral_triangle has the requested centroid and side", "statement": "The three points returned by equilateral_triangle(c, L, rot) have mean c, pairwise distances |L|, and distance |L|/sqrt(3) from c.", "quantifier": "all centroids, side lengths and rotations", "why_tests_cant": "continuum of inputs; the rotation argument is never exercised by the library", "anchors": ["utils/cg.py:equilateral_triangle"]}
{"id": "C11", "title": "convex_hull terminates", "statement": "convex_hull(points) returns for every non-empty list of points.", "quantifier": "all finite non-empty point lists", "why_tests_cant": "non-termination cannot be observed by a finite test; it needs a particular collinear layout and index order", "anchors": ["utils/cg.py:convex_hull"]}
{"id": "C12", "title": "convex_hull returns the convex hull", "statement": "When no three distinct indices are within the collinearity threshold, convex_hull returns a duplicate-free list of input points, starting from the leftmost one, such that every input point is on or left of every directed edge of the returned polygon (including the closing edge), and every input point lies in the convex hull of the returned vertices.", "quantifier": "all finite point lists in general position, any length", "why_tests_cant": "all lists and all lengths", "anchors": ["utils/cg.py:convex_hull"]}
{"id": "C13", "title": "Cone.point_in_cone decides membership in the angular sector", "statement": "For a cone with apex a and directions d1, d2, and a query point away from the threshold band, point_in_cone is True exactly when the point is a + s*d1 + t*d2 with s,t>0 if the cone is convex, and exactly when the point is not in the closed opposite sector (not a + s*d2 + t*d1 with s,t>0) if it is not.", "quantifier": "all apexes, directions and query points", "why_tests_cant": "continuum of inputs", "anchors": ["utils/cg.py:Cone.__init__", "utils/cg.py:Cone.point_in_cone"]}
{"id": "C14", "title": "Cone.intersection_same_apex is set intersection", "statement": "For two cones with the same apex, a point is in one of the returned cones exactly when it is in both cones.", "quantifier": "all pairs of same-apex cones and all query points", "why_tests_cant": "the case split covers sixteen relative positions, each with a continuum of members; degenerate coincidences are measure-zero", "anchors": ["utils/cg.py:Cone.intersection_same_apex"]}
{"id": "C15", "title": "Cone.list_intersection of same-apex cones is the intersection of all of them", "statement": "For a non-empty list of same-apex cones, a point is in one of the cones whose polygons are united exactly when it is in all of the given cones; if it reports the empty polygon no (non-degenerate) point is in all of them.", "quantifier": "all finite lists of same-apex cones, any length, all query points", "why_tests_cant": "unbounded list length", "anchors": ["utils/cg.py:Cone.list_intersection"]}
{"id": "C16", "title": "Cone.polygon always finds its border points", "statement": "For an apex strictly inside the 2e6-wide bounding box and directions of length at least 1e-9, Cone.polygon never reaches the SOMETHING WRONG branch or fails; each border point lies on its ray and on a bounding-box line, the corner walk stops after at most four corners, and the vertex list starts at the apex followed by the border point of the first ray and ends at that of the second.", "quantifier": "all apexes in the box and all direction pairs", "why_tests_cant": "the retry logic only triggers for rays that leave the box near particular corners", "anchors": ["utils/cg.py:Cone.polygon"]}
{"id": "C17", "title": "generate_convex_polygon returns n vertices of a closed convex polygon centred at the origin", "statement": "For every outcome of the random generator the returned list has n points, their mean is the origin, the edge vectors sum to zero, and (when no two edge vectors have the same angle) every vertex is on or left of every directed edge.", "quantifier": "all n>=3, all random draws, all shuffles", "why_tests_cant": "continuum of random outcomes and all n", "anchors": ["utils/cg.py:generate_convex_polygon"]}
{"id": "C18", "title": "generate_convex_polygon respects the box", "statement": "The returned polygon has width at most box[0] and height at most box[1].", "quantifier": "all boxes, all random draws", "why_tests_cant": "only non-square boxes can show the deviation; the library's tests use square ones", "anchors": ["utils/cg.py:generate_convex_polygon"]}
{"id": "C19", "title": "random_angle_steps divides the full turn", "statement": "random_angle_steps(n, irr) returns n angles whose sum is 2*pi; they are all non-negative when irr <= 2*pi/n and all positive when irr < 2*pi/n; generate_star_polygon places every vertex at distance at most 2*avg_radius from the centre at the accumulated angles, and rejects irregularity or spikiness outside [0,1] with ValueError.", "quantifier": "all n>=1, all irregularities, all random draws", "why_tests_cant": "continuum of random outcomes", "anchors": ["utils/cg.py:random_angle_steps", "utils/cg.py:generate_star_polygon"]}
{"id": "C20", "title": "Obstacle ids are unique", "statement": "Over any history of constructing and copying obstacles, two obstacles created with id='new' never get the same id, every id is between 1 and the global counter, the counter never decreases, and an invalid or 'temporary' id request gives id None and leaves the counter unchanged. The name is the given non-empty name, else the id as text.", "quantifier": "all finite histories of constructions and id requests", "why_tests_cant": "a property of all histories", "anchors": ["obstacles/obstacle.py:Obstacle.__init__", "obstacles/obstacle.py:Obstacle._set_id_name", "obstacles/obstacle.py:Obstacle.copy"]}
{"id": "C21", "title": "Frame conversions are inverse to each other", "statement": "For any obstacle pose, transform(., OBSTACLE, GLOBAL) and transform(., GLOBAL, OBSTACLE) are inverse, as are the two rotate directions; rotate preserves length; with equal frames or no motion model both return the input; transform differences equal rotate of the difference.", "quantifier": "all poses, all points, all frame pairs", "why_tests_cant": "continuum of poses", "anchors": ["obstacles/obstacle.py:Obstacle.transform", "obstacles/obstacle.py:Obstacle.rotate"]}
{"id": "C22", "title": "polygon() always reflects the current pose", "statement": "After any history of set_motion_model, move and polygon()/query calls, polygon(GLOBAL) equals the obstacle-frame polygon mapped vertex by vertex with the obstacle's current obstacle-to-global transform, and polygon(OBSTACLE) equals the obstacle-frame polygon.", "quantifier": "all finite histories of pose changes and queries", "why_tests_cant": "cache-staleness bugs depend on the history", "anchors": ["obstacles/obstacle.py:Obstacle.polygon", "obstacles/obstacle.py:Obstacle.set_motion_model", "obstacles/obstacle.py:Obstacle.move"]}
{"id": "C23", "title": "kernel() always reflects the current pose", "statement": "After any history of pose changes and queries, kernel(GLOBAL) of a starshaped obstacle equals its obstacle-frame kernel mapped with the current pose, whatever the order of polygon() and kernel() calls.", "quantifier": "all finite histories of pose changes and queries", "why_tests_cant": "depends on the order of lazily evaluated calls and on a failed call's leftovers", "anchors": ["obstacles/starshaped_obstacle.py:StarshapedObstacle.kernel", "obstacles/ellipse.py:Ellipse._compute_kernel"]}
{"id": "C24", "title": "set_xr and xr round-trip", "statement": "After set_xr(p, input_frame=f) (not safe_set), xr(output_frame=f) returns p for both frames, at any pose, and stays attached to the obstacle: after pose changes xr(OBSTACLE) is unchanged.", "quantifier": "all poses, points, frames and later pose histories", "why_tests_cant": "continuum of poses and all histories", "anchors": ["obstacles/starshaped_obstacle.py:StarshapedObstacle.set_xr", "obstacles/starshaped_obstacle.py:StarshapedObstacle.xr"]}
{"id": "C25", "title": "set_xr(safe_set=True) keeps xr in the kernel", "statement": "set_xr(p, safe_set=True) sets xr when p is in the kernel and leaves it unchanged otherwise.", "quantifier": "all starshaped obstacles and points", "why_tests_cant": "the shipped code raises on every input", "anchors": ["obstacles/starshaped_obstacle.py:StarshapedObstacle.set_xr"]}
{"id": "C26", "title": "reference_direction is a frame-equivariant unit vector", "statement": "For x different from xr, reference_direction(x) has length one in every output frame, is a positive multiple of x - xr in that frame, and the GLOBAL result is the OBSTACLE result rotated by the obstacle's rotation.", "quantifier": "all poses, xr, x and frames", "why_tests_cant": "continuum of inputs", "anchors": ["obstacles/starshaped_obstacle.py:StarshapedObstacle.reference_direction"]}
{"id": "C27", "title": "A copy of an obstacle is independent of the original", "statement": "Moving a copy of an obstacle does not change the pose of the original, and moving the original does not change the copy.", "quantifier": "all obstacle classes and histories", "why_tests_cant": "aliasing shows only when both objects are moved", "anchors": ["obstacles/obstacle.py:Obstacle.copy", "obstacles/ellipse.py:Ellipse.copy", "obstacles/starshaped_polygon.py:StarshapedPolygon.copy"]}
{"id": "C28", "title": "Ellipse.point_location classifies points", "statement": "Ellipse.point_location(x) is negative, zero or positive exactly when x is strictly inside, on, or strictly outside the ellipse placed at the current pose; exactly one of interior_point and exterior_point holds off the boundary.", "quantifier": "all axes, poses, points and frames", "why_tests_cant": "continuum of inputs", "anchors": ["obstacles/ellipse.py:Ellipse.point_location", "obstacles/obstacle.py:Obstacle.interior_point", "obstacles/obstacle.py:Obstacle.exterior_point"]}
{"id": "C29", "title": "Ellipse.line_intersection returns exactly the crossings of the segment", "statement": "Every point returned by Ellipse.line_intersection lies on the ellipse boundary and on the given segment, and every boundary point on the segment is returned.", "quantifier": "all axes, poses and segments", "why_tests_cant": "steep segments and exactly tangent segments take separate branches", "anchors": ["obstacles/ellipse.py:Ellipse.line_intersection"]}
{"id": "C30", "title": "Ellipse.boundary_mapping returns the boundary point in the direction of x", "statement": "For xr strictly inside the ellipse and x different from xr, boundary_mapping(x) is the unique boundary point on the ray from xr through x.", "quantifier": "all axes, poses, interior xr and x", "why_tests_cant": "fails only for steep directions with an off-centre xr", "anchors": ["obstacles/ellipse.py:Ellipse.boundary_mapping"]}
{"id": "C31", "title": "Ellipse.normal is the outward unit normal", "statement": "normal(b, x_is_boundary=True) for a boundary point b has length one and the whole ellipse lies in the half-plane behind the tangent line at b.", "quantifier": "all axes, poses and boundary points", "why_tests_cant": "continuum of inputs", "anchors": ["obstacles/ellipse.py:Ellipse.normal"]}
{"id": "C32", "title": "Ellipse.tangent_points returns the two tangent points in order", "statement": "For an exterior point x outside the vertical-tangent band, tangent_points returns two points on the ellipse such that the lines through x and them touch the ellipse, the ellipse lies in the wedge at x between them, and the first is counter-clockwise of the second as seen from x; for a non-exterior x it returns [].", "quantifier": "all axes, poses and points", "why_tests_cant": "continuum of inputs", "anchors": ["obstacles/ellipse.py:Ellipse.tangent_points"]}
{"id": "C33", "title": "Ellipse.tangent_points is defined for every exterior point", "statement": "For every exterior point, tangent_points returns two finite points.", "quantifier": "all axes and exterior points", "why_tests_cant": "fails on a small set next to the ends of the first axis", "anchors": ["obstacles/ellipse.py:Ellipse.tangent_points"]}
{"id": "C34", "title": "Ellipse.dilated_obstacle covers the padding", "statement": "Every point within distance padding of the ellipse is inside (or on) the dilated ellipse, and every point of the dilated ellipse is within distance padding of the ellipse.", "quantifier": "all axes, paddings and points", "why_tests_cant": "continuum of inputs; exact for circles only", "anchors": ["obstacles/ellipse.py:Ellipse.dilated_obstacle"]}
{"id": "C35", "title": "Ellipse.polygon encloses the ellipse", "statement": "The polygon used for intersection tests contains the ellipse, and is contained in the ellipse with both axes enlarged by 1e-3.", "quantifier": "all axes and vertex counts", "why_tests_cant": "depends on axis size and n_pol", "anchors": ["obstacles/ellipse.py:Ellipse._compute_polygon_representation"]}
{"id": "C36", "title": "Polygon.is_convex reports the turning direction", "statement": "For every polygon with at least one vertex triple that is not near-collinear, is_convex() is True exactly when the polygon does not make both a clockwise and a counter-clockwise turn (beyond the threshold); when all triples are near-collinear it raises RuntimeError.", "quantifier": "all vertex lists of any length", "why_tests_cant": "all lists; error path", "anchors": ["obstacles/polygon.py:Polygon._check_convexity"]}
{"id": "C37", "title": "Polygon.point_location classifies points", "statement": "Polygon.point_location is -1 on interior points, 0 on boundary points and 1 on exterior points.", "quantifier": "all polygons, poses and points", "why_tests_cant": "the bounding-box shortcut misclassifies a measure-zero set", "anchors": ["obstacles/polygon.py:Polygon.point_location"]}
{"id": "C38", "title": "Polygon.tangent_points bounds the polygon as seen from x", "statement": "When Polygon.tangent_points(x) returns two points they are polygon vertices, and every boundary point of the polygon is seen from x under an angle between those of the two returned points in one common angular window of width less than 2*pi.", "quantifier": "all vertex lists and points x", "why_tests_cant": "angle unwrapping over all lists", "anchors": ["obstacles/polygon.py:Polygon.tangent_points"]}
{"id": "C39", "title": "StarshapedPolygon.normal uses the edge hit by the ray from xr", "statement": "For every x different from xr, StarshapedPolygon.normal (type 'edge') selects consecutive angularly sorted vertices whose angles about xr enclose the angle of x, and returns the unit vector perpendicular to that edge pointing to the right of its direction, rotated into the output frame.", "quantifier": "all vertex lists, xr and x", "why_tests_cant": "wrap-around at +-pi", "anchors": ["obstacles/starshaped_polygon.py:StarshapedPolygon.normal", "obstacles/starshaped_polygon.py:StarshapedPolygon._update_vertex_angles"]}
{"id": "C40", "title": "Vertex bookkeeping survives any set_xr history", "statement": "After any sequence of set_xr calls, the vertex array of a StarshapedPolygon is a permutation of the original vertices, its angle array is non-decreasing, has one more entry than there are vertices, matches the vertices' angles about the current xr, and ends with the first angle plus 2*pi; every angle in (-pi, pi] is below the last entry.", "quantifier": "all vertex lists and all set_xr histories", "why_tests_cant": "all histories", "anchors": ["obstacles/starshaped_polygon.py:StarshapedPolygon._update_vertex_angles", "obstacles/starshaped_polygon.py:StarshapedPolygon.set_xr"]}
{"id": "C41", "title": "StarshapedPolygon.distance_function classifies and is continuous at the boundary", "statement": "distance_function(x) is in [0,1) when x is closer to xr than the boundary point in its direction, at least 1 otherwise, equals 1 exactly on that boundary point, and strictly increases along each ray from xr.", "quantifier": "all polygons, xr and x", "why_tests_cant": "continuum of inputs", "anchors": ["obstacles/starshaped_polygon.py:StarshapedPolygon.distance_function", "obstacles/starshaped_obstacle.py:StarshapedObstacle.distance_function"]}
{"id": "C42", "title": "StarshapedPrimitiveCombination.point_location is the union", "statement": "A combination reports interior exactly when some member obstacle or the hull reports interior, boundary exactly when none reports interior and some reports boundary, and exterior exactly when all report exterior.", "quantifier": "all member lists and points", "why_tests_cant": "unbounded member lists", "anchors": ["obstacles/starshaped_primitive_combination.py:StarshapedPrimitiveCombination.point_location"]}
{"id": "C43", "title": "StarshapedPrimitiveCombination.boundary_mapping returns the farthest crossing", "statement": "boundary_mapping(x) returns the intersection point of the ray from xr through x with the members and hull farthest from xr, and depends only on the direction of x from xr.", "quantifier": "all member lists, xr and x", "why_tests_cant": "fails for x close to xr", "anchors": ["obstacles/starshaped_primitive_combination.py:StarshapedPrimitiveCombination.boundary_mapping"]}
{"id": "C44", "title": "StarshapedPrimitiveCombination.vel_intertial_frame returns a member's velocity", "statement": "vel_intertial_frame(x) returns the velocity of the member obstacle whose boundary is farthest from xr in the direction of x.", "quantifier": "all member lists and points", "why_tests_cant": "depends on how many crossings each member contributes", "anchors": ["obstacles/starshaped_primitive_combination.py:StarshapedPrimitiveCombination.vel_intertial_frame"]}
{"id": "C45", "title": "vel_intertial_frame is the rigid-body velocity", "statement": "For a moving starshaped obstacle, vel_intertial_frame(x) is the velocity of the material point at x of a rigid body moving with lin_vel and rot_vel.", "quantifier": "all motion models, poses and points", "why_tests_cant": "exact only for non-rotating obstacles or special points", "anchors": ["obstacles/starshaped_obstacle.py:StarshapedObstacle.vel_intertial_frame"]}
{"id": "C46", "title": "A Static obstacle never moves", "statement": "After any sequence of move(dt) calls an obstacle with a Static motion model (or none) has its initial position and rotation.", "quantifier": "all finite sequences of time steps", "why_tests_cant": "all sequences", "anchors": ["obstacles/motion_model.py:Static", "obstacles/motion_model.py:MotionModel.move", "obstacles/obstacle.py:Obstacle.move"]}
{"id": "C47", "title": "Waypoints moves at the requested speed until the last waypoint and then rests", "statement": "With a positive threshold, Waypoints.lin_vel terminates, returns zero or a vector of length |vel|, repeated calls at the same position return the same value, the waypoint index never decreases and never exceeds the number of waypoints, and once it has passed the last waypoint the obstacle never moves again.", "quantifier": "all waypoint lists and all sequences of time steps", "why_tests_cant": "all histories; getter with side effects", "anchors": ["obstacles/motion_model.py:Waypoints.lin_vel", "obstacles/motion_model.py:MotionModel.move"]}
{"id": "C48", "title": "Interval follows its schedule and stops at the end", "statement": "With time steps that hit the schedule's time points, an Interval obstacle is at each scheduled position at its scheduled time and remains at the last position from then on.", "quantifier": "all schedules and aligned step sequences", "why_tests_cant": "the deviation occurs only when a step ends exactly at the final time", "anchors": ["obstacles/motion_model.py:Interval.lin_vel"]}
{"id": "C49", "title": "SinusVelocity respects its magnitudes", "statement": "With cartesian_coords the rotation never changes and every displacement in one step is bounded by x1_mag*dt and x2_mag*dt per axis; otherwise the linear speed is at most |x1_mag| and the rotation rate at most |x2_mag|, along the current heading.", "quantifier": "all parameters and step sequences", "why_tests_cant": "all sequences", "anchors": ["obstacles/motion_model.py:SinusVelocity"]}
{"id": "C50", "title": "Clustering computes the connected components", "statement": "get_intersection_clusters groups the clusters so that two clusters are in the same group exactly when they are linked by a chain of pairwise intersecting polygons; every obstacle of every input cluster is in exactly one output cluster.", "quantifier": "all cluster lists of any length and all intersection relations", "why_tests_cant": "unbounded number of clusters; merge order matters", "anchors": ["starshaped_hull/cluster_and_starify.py:get_intersection_clusters"]}
{"id": "C51", "title": "Clustering reports whether anything was merged", "statement": "get_intersection_clusters returns the flag False exactly when no two input polygons intersect, and then returns the input unchanged; when the flag is True the number of clusters strictly decreases.", "quantifier": "all cluster lists", "why_tests_cant": "unbounded number of clusters", "anchors": ["starshaped_hull/cluster_and_starify.py:get_intersection_clusters"]}
{"id": "C52", "title": "cluster_and_starify terminates", "statement": "Whatever the geometry routines and the clock return, the clustering loop of cluster_and_starify ends and n_iter is at most the number of obstacles (at least 1).", "quantifier": "all obstacle lists, geometry results and clock readings", "why_tests_cant": "a liveness property over all behaviours of the geometry back-end", "anchors": ["starshaped_hull/cluster_and_starify.py:cluster_and_starify"]}
{"id": "C53", "title": "COMPLETE means disjoint obstacles", "statement": "When cluster_and_starify returns the flag COMPLETE, every returned cluster has a cluster obstacle, the polygons of the returned clusters are pairwise non-intersecting, and each input obstacle belongs to exactly one returned cluster.", "quantifier": "all obstacle lists with distinct ids, all geometry results, clock readings and parameters", "why_tests_cant": "quantifies over all inputs, all iteration limits and all geometry results", "anchors": ["starshaped_hull/cluster_and_starify.py:cluster_and_starify"]}
{"id": "C54", "title": "INCOMPLETE returns the input obstacles", "statement": "When cluster_and_starify returns the flag INCOMPLETE, the returned clusters are exactly the singletons of the input obstacles in order, whichever check failed; and it is returned when the robot or goal is not a free exterior point of some obstacle.", "quantifier": "all obstacle lists, geometry results and clock readings", "why_tests_cant": "all failure points of the loop and all time-outs", "anchors": ["starshaped_hull/cluster_and_starify.py:cluster_and_starify"]}
{"id": "C55", "title": "Results can be fed back as previous_clusters", "statement": "The clusters returned by one call of cluster_and_starify are valid previous_clusters for the next call.", "quantifier": "all pairs of consecutive calls", "why_tests_cant": "depends on how the earlier call ended", "anchors": ["starshaped_hull/cluster_and_starify.py:compute_kernel_points", "starshaped_hull/cluster_and_starify.py:cluster_and_starify"]}
{"id": "C56", "title": "The result tuple has the documented shape", "statement": "With return_history the result has five entries and without it four, on every exit path.", "quantifier": "all exit paths and clock readings", "why_tests_cant": "one exit path is only reached on a time-out inside the convex-hull stage", "anchors": ["starshaped_hull/cluster_and_starify.py:cluster_and_starify"]}
{"id": "C57", "title": "Obstacles with temporary ids are handled like any other", "statement": "cluster_and_starify keeps every input obstacle in the result regardless of the ids the obstacles carry.", "quantifier": "all obstacle lists including temporary (None) ids", "why_tests_cant": "collisions need two temporary obstacles plus an unrelated merge", "anchors": ["starshaped_hull/cluster_and_starify.py:ObstacleCluster.__init__", "starshaped_hull/cluster_and_starify.py:cluster_and_starify"]}
{"id": "C58", "title": "Admissible kernel excludes x", "statement": "For a point x and an obstacle seen from x within the two tangent points, every point k of the admissible kernel cone (x - tp1, x - tp2) has the property that no segment from k to an obstacle point passes through x, and conversely every k for which x is not on a segment from k into the tangent wedge is in the cone.", "quantifier": "all obstacles, x and k", "why_tests_cant": "continuum of inputs", "anchors": ["starshaped_hull/starshaped_hull.py:admissible_kernel", "utils/cg.py:Cone"]}
{"id": "C59", "title": "The hull of a convex obstacle is starshaped", "statement": "For a convex obstacle and kernel points, the union of the obstacle with the polygon returned by convex_kernel_starshaped_hull contains the obstacle and, when non-empty hull, all kernel points, and is starshaped with respect to every kernel point and every convex combination of them; the same holds for the union over a list of obstacles.", "quantifier": "all convex obstacles, kernel points and lists", "why_tests_cant": "infinitely many sets", "anchors": ["starshaped_hull/starshaped_hull.py:convex_kernel_starshaped_hull", "starshaped_hull/starshaped_hull.py:kernel_starshaped_hull"]}
{"id": "C60", "title": "The starshaped hull leaves robot and goal free", "statement": "If the convex hull of the kernel points lies in the admissible kernel of x for every obstacle of the cluster, then x is not in the starshaped hull built from them.", "quantifier": "all convex obstacles, kernel points and x", "why_tests_cant": "infinitely many sets", "anchors": ["starshaped_hull/starshaped_hull.py:admissible_kernel", "starshaped_hull/starshaped_hull.py:convex_kernel_starshaped_hull", "starshaped_hull/cluster_and_starify.py:cluster_and_starify"]}
{"id": "C61", "title": "make_convex never creates overlaps", "statement": "If the clusters entering the make_convex stage have pairwise disjoint connected polygons, then after it the polygons of all cluster obstacles (convexified or not) are still pairwise disjoint, each contains its former polygon, and no convexified polygon contains robot or goal in its interior.", "quantifier": "all cluster lists and all orders of convexification", "why_tests_cant": "the stage tests against cached, possibly outdated polygons", "anchors": ["starshaped_hull/cluster_and_starify.py:cluster_and_starify"]}
{"id": "C62", "title": "cl.polygon() is the polygon of its cluster obstacle", "statement": "For every cluster returned by cluster_and_starify, cl.polygon() equals cl.cluster_obstacle.polygon().", "quantifier": "all returned clusters and parameter settings", "why_tests_cant": "cached polygon; visible only with make_convex", "anchors": ["starshaped_hull/cluster_and_starify.py:ObstacleCluster.polygon", "starshaped_hull/cluster_and_starify.py:cluster_and_starify"]}
{"id": "C63", "title": "Kernel points stay inside the selection set", "statement": "If the triangle centre lies in the (closed) selection set, all three kernel points and their convex hull lie in it, their mean is the triangle centre, and their side length is at most epsilon.", "quantifier": "all selection sets, centres and epsilons", "why_tests_cant": "continuum of sets", "anchors": ["starshaped_hull/cluster_and_starify.py:compute_kernel_points", "utils/cg.py:equilateral_triangle"]}
{"id": "C64", "title": "Time statistics do not influence the kernel points", "statement": "compute_kernel_points returns the kernel points of its geometric computation whatever the clock readings are; in particular the bookkeeping of timings never raises.", "quantifier": "all inputs and clock readings", "why_tests_cant": "the failing clock reading (no tick during the call) depends on the platform's clock resolution", "anchors": ["starshaped_hull/cluster_and_starify.py:compute_kernel_points", "utils/misc.py:toc"]}
{"id": "C65", "title": "line_intersection returns the crossings with the boundary", "statement": "Polygon.line_intersection returns, in the output frame, exactly the points that the segment has in common with the boundary of the polygon placed at its current pose (the end points of the common pieces when the segment runs along an edge), for every pose and both frames.", "quantifier": "all polygons, poses, segments and frames", "why_tests_cant": "continuum of segments; the geometry kinds shapely returns must all be covered", "anchors": ["obstacles/polygon.py:Polygon.line_intersection"]}
{"id": "C66", "title": "The starshaped hull of a polygon stays within the convex hull", "statement": "Every vertex of the polygon returned by polygon_kernel_starshaped_hull is a convex combination of vertices of the polygon and kernel points, so the hull never reaches beyond the convex hull of the polygon and the kernel points.", "quantifier": "all polygons, kernel points and intersection results", "why_tests_cant": "the algorithm moves vertices along rays and lines with offsets; infinitely many polygons", "anchors": ["starshaped_hull/starshaped_hull.py:polygon_kernel_starshaped_hull"]}
{"id": "C67", "title": "The starshaped hull of a polygon can always be computed", "statement": "For a polygon and at least one kernel point, polygon_kernel_starshaped_hull returns a polygon and raises no exception.", "quantifier": "all polygons and non-empty kernel point lists", "why_tests_cant": "failing inputs need vertices inside the kernel triangle or overlapping segments", "anchors": ["starshaped_hull/starshaped_hull.py:polygon_kernel_starshaped_hull"]}
{"id": "C68", "title": "pos() and rot() agree with the frame conversions", "statement": "For both frames, pos() is the image of the obstacle's origin and rot() the angle of the image of its first axis under the conversion from the obstacle frame; in the obstacle frame and without a motion model they are zero.", "quantifier": "all poses and both frames", "why_tests_cant": "continuum of poses", "anchors": ["obstacles/obstacle.py:Obstacle.pos", "obstacles/obstacle.py:Obstacle.rot"]}
{"id": "C69", "title": "boundary_mapping picks the crossing nearest to x", "statement": "Of the points that line_intersection finds on the test segment from xr, boundary_mapping of Ellipse and StarshapedPolygon returns the one nearest to x, and None if there is none, also for reference points outside of the obstacle or its kernel.", "quantifier": "all obstacles, reference points, x and frames", "why_tests_cant": "needs several crossings and depends on the order in which they are listed", "anchors": ["obstacles/ellipse.py:Ellipse.boundary_mapping", "obstacles/starshaped_polygon.py:StarshapedPolygon.boundary_mapping"]}
{"id": "C70", "title": "normal(type='weighted_edges') is a unit vector", "statement": "StarshapedPolygon.normal(x, type='weighted_edges') is a unit vector in the direction of the mean of the normals of the edge in the direction of x and its two neighbours, with positive weights that decrease with the distance of x from the edge.", "quantifier": "all polygons, reference point histories, x and frames", "why_tests_cant": "continuum of inputs", "anchors": ["obstacles/starshaped_polygon.py:StarshapedPolygon.normal"]}
{"id": "C71", "title": "distance_function is below 1 inside, 1 on and above 1 outside of the boundary", "statement": "The distance_function inherited by Ellipse and StarshapedPrimitiveCombination is defined for every x other than xr; it is the squared distance of x from xr in units of the distance of the boundary point in the direction of x, hence below 1 before that point, 1 at it and above 1 beyond it, and grows with the square along a ray.", "quantifier": "all obstacles, reference points inside, x and frames", "why_tests_cant": "continuum of inputs; the failing directions and distances depend on hidden tolerances", "anchors": ["obstacles/starshaped_obstacle.py:StarshapedObstacle.distance_function", "obstacles/ellipse.py:Ellipse.boundary_mapping", "obstacles/starshaped_primitive_combination.py:StarshapedPrimitiveCombination.boundary_mapping"]}
{"id": "C72", "title": "tangent_points of a combination bounds all members", "statement": "StarshapedPrimitiveCombination.tangent_points returns the left and the right tangent point, in the order in which Ellipse and Polygon give them: points of members between which all members are seen from x.", "quantifier": "all combinations and x", "why_tests_cant": "depends on the arrangement and the order of the members", "anchors": ["obstacles/starshaped_primitive_combination.py:StarshapedPrimitiveCombination.tangent_points", "starshaped_hull/starshaped_hull.py:admissible_kernel"]}
{"id": "C73", "title": "kernel_starshaped_hull is defined for every obstacle", "statement": "kernel_starshaped_hull of a list of obstacles consists of exactly the hulls of its obstacles, is None when all of them are empty, and is defined for obstacles of every class.", "quantifier": "all lists of obstacles", "why_tests_cant": "unbounded lists, all kinds of obstacles in all orders", "anchors": ["starshaped_hull/starshaped_hull.py:kernel_starshaped_hull"]}
{"id": "C74", "title": "The triangle centre keeps its side and avoids the line through robot and goal", "statement": "compute_kernel_points never uses a triangle centre collinear with robot and goal, keeps the previous centre while it is in the selection set and not collinear, and otherwise chooses the new centre on the same side of the line through robot and goal as the previous one if the selection set has points there.", "quantifier": "all selection sets, previous centres, robots, goals and random draws", "why_tests_cant": "quantifies over random draws and all histories", "anchors": ["starshaped_hull/cluster_and_starify.py:compute_kernel_points"]}
{"id": "C75", "title": "The kernel computed for a starshaped polygon is its kernel", "statement": "For every starshaped polygon, the constructor of StarshapedPolygon succeeds and the kernel computed by _compute_kernel is the set of points from which the whole polygon is visible; for a convex polygon it is the polygon.", "quantifier": "all starshaped polygons", "why_tests_cant": "a case analysis over several hundred lines; failing polygons need particular alignments or sizes", "anchors": ["obstacles/starshaped_polygon.py:StarshapedPolygon._compute_kernel", "obstacles/starshaped_polygon.py:StarshapedPolygon.__init__"]}
{"id": "C76", "title": "The kernel moves with the polygon", "statement": "If a polygon is rotated and translated, _compute_kernel gives the rotated and translated kernel, and raises the same exception if it raises one; so the kernel does not depend on where and how the polygon is placed.", "quantifier": "all polygons, angles and translations", "why_tests_cant": "continuum of placements", "anchors": ["obstacles/starshaped_polygon.py:StarshapedPolygon._compute_kernel"]}
{"id": "C77", "title": "Debugging does not influence the kernel", "statement": "_compute_kernel has the same result with and without debug, although the variable delta at line 464 is assigned only if debug is set.", "quantifier": "all polygons", "why_tests_cant": "the assignment is reached only for a particular arrangement of the intersections", "anchors": ["obstacles/starshaped_polygon.py:StarshapedPolygon._compute_kernel"]}
{"id": "C78", "title": "Kernel points left out are inserted into the hull", "statement": "The final check of polygon_kernel_starshaped_hull keeps all vertices in their order and inserts every kernel point that is not yet included and lies outside of an edge, so that no such kernel point remains.", "quantifier": "all hulls, kernel point lists and sets of included points", "why_tests_cant": "the failure needs two kernel points at particular edges", "anchors": ["starshaped_hull/starshaped_hull.py:polygon_kernel_starshaped_hull"]}
{"id": "C79", "title": "normal(type='sub_normal') of a combination is the normal of the outermost part", "statement": "StarshapedPrimitiveCombination.normal(x, type='sub_normal') is the normal of the part (member or hull) whose boundary the ray from xr through x leaves last; for the hull it is the outward unit normal of the edge that is hit.", "quantifier": "all combinations, hulls, reference points and x", "why_tests_cant": "continuum of inputs; depends on the order of members and of hull vertices", "anchors": ["obstacles/starshaped_primitive_combination.py:StarshapedPrimitiveCombination.normal"]}
{"id": "C80", "title": "The polygon normals of a combination can always be computed and are unit vectors", "statement": "In every state, normal(x, type='polygon_approx') is the outward unit normal of the edge of the union polygon hit by the ray from xr through x, and the default normal is a unit vector in the direction of the mean of the normals of that edge and its two neighbours, weighted by inverse distance.", "quantifier": "all histories of calls, polygons, reference points and x", "why_tests_cant": "depends on the history of calls (cached arrays) and on single points of the plane", "anchors": ["obstacles/starshaped_primitive_combination.py:StarshapedPrimitiveCombination.normal", "obstacles/starshaped_primitive_combination.py:StarshapedPrimitiveCombination._update_vertex_angles"]}
{"id": "C81", "title": "The vertex arrays of a combination belong to its polygon and reference point", "statement": "After every history of set_xr, polygon and normal calls the vertex arrays, if filled, list the vertices of the polygon sorted by angle about the current reference point; set_xr succeeds in every state and leaves the state unchanged if it raises.", "quantifier": "all histories of calls", "why_tests_cant": "quantifies over histories", "anchors": ["obstacles/starshaped_primitive_combination.py:StarshapedPrimitiveCombination.set_xr", "obstacles/starshaped_primitive_combination.py:StarshapedPrimitiveCombination._update_vertex_angles"]}
{"id": "C82", "title": "polygon() of a combination follows its members", "statement": "StarshapedPrimitiveCombination.polygon() is the union of the polygons of its members and hull at the time of the call, so a point is in its interior iff point_location is negative.", "quantifier": "all histories of calls and of movements of the members", "why_tests_cant": "needs a movement between two calls", "anchors": ["obstacles/starshaped_primitive_combination.py:StarshapedPrimitiveCombination.polygon", "obstacles/starshaped_primitive_combination.py:StarshapedPrimitiveCombination._compute_polygon_representation", "obstacles/obstacle.py:Obstacle.polygon"]}
{"id": "C83", "title": "distance_function and point_location of a starshaped polygon agree", "statement": "For every x other than xr, distance_function of a StarshapedPolygon is below 1, 1 or above 1 exactly when x is inside, on the boundary or outside, which is what point_location returns as -1, 0 or 1; this also holds after dilations and changes of the reference point.", "quantifier": "all starshaped polygons, histories, poses, frames and x", "why_tests_cant": "continuum of points; two independent computations", "anchors": ["obstacles/starshaped_polygon.py:StarshapedPolygon.boundary_mapping", "obstacles/starshaped_obstacle.py:StarshapedObstacle.distance_function", "obstacles/polygon.py:Polygon.point_location"]}
{"id": "C84", "title": "The default reference point of a starshaped polygon sees the whole polygon", "statement": "The constructor of StarshapedPolygon without reference point succeeds for every starshaped polygon and chooses a reference point from which the whole polygon is visible.", "quantifier": "all starshaped polygons", "why_tests_cant": "failing polygons need several reflex corners in a particular arrangement", "anchors": ["obstacles/starshaped_polygon.py:StarshapedPolygon.__init__", "obstacles/starshaped_polygon.py:StarshapedPolygon._compute_kernel"]}
{"id": "C85", "title": "cluster_and_starify returns star-shaped obstacles that avoid robot and goal", "statement": "For convex obstacles, every obstacle returned by a call of cluster_and_starify that is not INCOMPLETE is star-shaped about each of its kernel points and their mean, which is its reference point; it contains the obstacles of its cluster, and neither robot nor goal is in it.", "quantifier": "all convex obstacles, robots, goals, kernel points, previous results and numbers of iterations", "why_tests_cant": "quantifies over all arrangements of obstacles and over the number of iterations", "anchors": ["starshaped_hull/cluster_and_starify.py:cluster_and_starify", "starshaped_hull/cluster_and_starify.py:compute_kernel_points", "starshaped_hull/starshaped_hull.py:kernel_starshaped_hull"]}
{"id": "C86", "title": "cluster_and_starify gives a result for convex obstacles", "statement": "For convex obstacles with robot and goal outside of them, cluster_and_starify raises no exception, and without time-outs and empty admissible kernels the result is not INCOMPLETE.", "quantifier": "all convex obstacles, robots, goals and previous results", "why_tests_cant": "quantifies over all arrangements; the exception depends on the class of an obstacle", "anchors": ["starshaped_hull/cluster_and_starify.py:cluster_and_starify", "starshaped_hull/cluster_and_starify.py:compute_kernel_points"]}
{"id": "C87", "title": "The obstacles returned by cluster_and_starify are disjoint", "statement": "Two obstacles returned by a call of cluster_and_starify for convex obstacles that is not INCOMPLETE have no common point, also after make_convex.", "quantifier": "all convex obstacles, robots, goals, kernel points and numbers of iterations", "why_tests_cant": "make_convex compares with polygons computed before; the overlap of ellipses is smaller than the error of their polygons", "anchors": ["starshaped_hull/cluster_and_starify.py:cluster_and_starify", "starshaped_hull/cluster_and_starify.py:get_intersection_clusters"]}
{"id": "C88", "title": "is_convex() describes the current polygon", "statement": "After every history of is_convex, is_starshaped, copy and dilated_obstacle calls, is_convex() is the result of _check_convexity for the polygon the obstacle has now.", "quantifier": "all polygons, classes and histories of calls", "why_tests_cant": "quantifies over histories; the cached answer survives only some of the copies", "anchors": ["obstacles/obstacle.py:Obstacle.is_convex", "obstacles/polygon.py:Polygon.dilated_obstacle", "obstacles/starshaped_polygon.py:StarshapedPolygon.copy"]}
{"id": "C89", "title": "is_starshaped() is True exactly for star-shaped obstacles", "statement": "is_starshaped() answers True iff some point of the obstacle sees all of it.", "quantifier": "all polygons, classes and histories of calls", "why_tests_cant": "continuum of polygons", "anchors": ["obstacles/obstacle.py:Obstacle.is_starshaped", "obstacles/starshaped_obstacle.py:StarshapedObstacle.__init__"]}
{"id": "C90", "title": "A point is interior, exterior or boundary point", "statement": "For every obstacle and point exactly one of interior_point, exterior_point and boundary_point is True.", "quantifier": "all obstacles, poses, frames and points", "why_tests_cant": "the band of the tolerance is thin", "anchors": ["obstacles/obstacle.py:Obstacle.interior_point", "obstacles/obstacle.py:Obstacle.exterior_point", "obstacles/obstacle.py:Obstacle.boundary_point"]}
{"id": "C91", "title": "Cone.polygon is the cone inside the box", "statement": "Inside the square of half width 1e6, the polygon of a cone has exactly the points apex + v for the vectors v that are swept when dir1 is turned counter-clockwise into dir2, for convex and non-convex cones; outside the square it has no point that is not in the cone.", "quantifier": "all cones and points", "why_tests_cant": "continuum of cones; the failing border points are far away", "anchors": ["utils/cg.py:Cone.polygon", "utils/cg.py:Ray.ray_intersection"]}
{"id": "C92", "title": "Intersections of cones are the common points of the cones", "statement": "Inside the square of half width 1e6, Cone.intersection and Cone.list_intersection, with or without same_apex, have exactly the points that are in all of the given cones.", "quantifier": "all cones, lists of cones and points", "why_tests_cant": "continuum of cones; the failing cones share a border up to rounding", "anchors": ["utils/cg.py:Cone.intersection", "utils/cg.py:Cone.intersection_same_apex", "utils/cg.py:Cone.list_intersection"]}
{"id": "C93", "title": "The admissible kernel of a cluster keeps robot and goal out of the way", "statement": "Inside the square of half width 1e6, the admissible kernel that cluster_and_starify computes for a cluster is the closed region of the points p such that neither robot nor goal is on a segment from p to a point of an obstacle of the cluster; with exclude_obstacles it is a part of this region.", "quantifier": "all clusters of convex obstacles, robots, goals and points", "why_tests_cant": "continuum of obstacles and points; failing obstacles touch where their tangents are", "anchors": ["starshaped_hull/cluster_and_starify.py:cluster_and_starify", "starshaped_hull/starshaped_hull.py:admissible_kernel", "utils/cg.py:Cone.list_intersection"]}
{"id": "C94", "title": "exclude_obstacles keeps the other obstacles out of the hulls", "statement": "With exclude_obstacles, cluster_and_starify restricts the admissible kernel of a cluster to the points p such that no other obstacle meets a segment from p to a point of an obstacle of the cluster, as far as the other obstacle is outside of it and the rest is not negligible; it does so for all convex obstacles.", "quantifier": "all convex obstacles, clusters, robots, goals and points", "why_tests_cant": "continuum of obstacles and points; only the corners of the other obstacles are compared", "anchors": ["starshaped_hull/cluster_and_starify.py:cluster_and_starify", "obstacles/polygon.py:Polygon.extreme_points", "starshaped_hull/starshaped_hull.py:admissible_kernel"]}
{"id": "C95", "title": "cluster_and_starify does not change the obstacles of the caller", "statement": "After a call of cluster_and_starify every obstacle of the caller has the reference point that it had before the call, whatever the call returns.", "quantifier": "all convex obstacles, reference points, robots, goals, previous results and outcomes of the call", "why_tests_cant": "an effect on the arguments, visible only when the returned obstacle is the argument itself; also in calls that fail", "anchors": ["starshaped_hull/cluster_and_starify.py:cluster_and_starify", "obstacles/starshaped_obstacle.py:StarshapedObstacle.set_xr"]}
{"id": "C96", "title": "The result of cluster_and_starify is not changed by later calls", "statement": "The reference points of the cluster obstacles that a call of cluster_and_starify has returned are the same after any later call.", "quantifier": "all convex obstacles and pairs of calls", "why_tests_cant": "aliasing between the results of different calls", "anchors": ["starshaped_hull/cluster_and_starify.py:cluster_and_starify", "obstacles/starshaped_obstacle.py:StarshapedObstacle.set_xr"]}
{"id": "C97", "title": "The position of a motion model is changed only by its own move and set_pos", "statement": "An operation that is neither move nor set_pos of a motion model leaves the position of this motion model as it is, whatever the program does with other motion models and with the objects that it got from pos() or gave to set_pos.", "quantifier": "all programs that create, move and set motion models and arrays, of any length", "why_tests_cant": "aliasing: pos() and set_pos share arrays with the program, visible only for particular histories", "anchors": ["obstacles/motion_model.py:MotionModel.move", "obstacles/motion_model.py:MotionModel.set_pos", "obstacles/motion_model.py:MotionModel.pos"]}
{"id": "C98", "title": "Moving does not change objects of the program", "statement": "The entries of an array, list or tuple that the program has, also one that it got from pos() or gave to set_pos or to a constructor, change only when the program itself writes to it.", "quantifier": "all histories of operations, all objects", "why_tests_cant": "aliasing of arrays, visible only for particular histories", "anchors": ["obstacles/motion_model.py:MotionModel.move", "obstacles/motion_model.py:MotionModel.set_pos", "obstacles/motion_model.py:MotionModel.pos"]}
{"id": "C99", "title": "move works after set_pos with any kind of position", "statement": "After set_pos with a pair of numbers, as float array, integer array, list or tuple, move succeeds whenever the velocity can be computed, and gives position + velocity * dt; several motion models that share no position move independently of each other.", "quantifier": "all motion models, positions, time steps and histories", "why_tests_cant": "depends on the type of the object given to set_pos earlier", "anchors": ["obstacles/motion_model.py:MotionModel.move", "obstacles/motion_model.py:MotionModel.set_pos"]}
{"id": "C100", "title": "Asking for the velocity does not change the motion", "statement": "vel_intertial_frame and lin_vel are queries: a history of move, set_pos, set_rot and queries leads to the same position, rotation and time as the history without the queries.", "quantifier": "all motion models, states and histories", "why_tests_cant": "the query advances the waypoint index; visible only after a later set_pos", "anchors": ["obstacles/motion_model.py:Waypoints.lin_vel", "obstacles/starshaped_obstacle.py:StarshapedObstacle.vel_intertial_frame"]}
{"id": "C101", "title": "The polygon of a dilated ellipse is determined by the ellipse and the padding", "statement": "polygon() of the obstacle that Ellipse.dilated_obstacle returns is the same whether or not polygon() of the original has been called before, and it is never farther from the ellipse (with the offset of 1e-3) than the padding.", "quantifier": "all axes, paddings, and histories of polygon and dilated_obstacle calls", "why_tests_cant": "depends on an earlier query of another object", "anchors": ["obstacles/ellipse.py:Ellipse.dilated_obstacle", "obstacles/ellipse.py:Ellipse._compute_polygon_representation"]}
{"id": "C102", "title": "reference_direction accepts several points", "statement": "reference_direction of an array with one point per row (the norm is taken along the last axis) returns, row by row, the reference directions of the points.", "quantifier": "all arrays, reference points, poses and frames", "why_tests_cant": "depends on the shape; with two points it silently returns wrong directions", "anchors": ["obstacles/starshaped_obstacle.py:StarshapedObstacle.reference_direction", "obstacles/obstacle.py:Obstacle.transform", "utils/cg.py:affine_transform"]}
{"id": "C103", "title": "Ellipse.point_location accepts several points", "statement": "Ellipse.point_location of an array of points returns the value of each point, for points in rows and for points in columns.", "quantifier": "all arrays, axes, poses and frames", "why_tests_cant": "depends on the shape; arrays with points in rows are silently misread", "anchors": ["obstacles/ellipse.py:Ellipse.point_location", "obstacles/obstacle.py:Obstacle.transform", "utils/cg.py:affine_transform"]}
{"id": "C104", "title": "Cluster obstacles with the same id belong to the same cluster", "statement": "In any sequence of calls of cluster_and_starify, also with earlier results as previous_clusters, two cluster obstacles with the same id belong to clusters of the same obstacles; in particular the cluster obstacles of one result have different ids.", "quantifier": "all histories of creating obstacles and calling cluster_and_starify, with any geometry that may change between the calls", "why_tests_cant": "ids are given by a counter shared by all objects and taken over from earlier results; depends on the whole history", "anchors": ["starshaped_hull/cluster_and_starify.py:cluster_and_starify", "obstacles/obstacle.py:Obstacle.__init__"]}
{"id": "C105", "title": "A cluster of the previous result keeps the id of its cluster obstacle", "statement": "If a cluster of the result of cluster_and_starify has the same obstacles as a cluster of previous_clusters, its cluster obstacle has the id of the previous one.", "quantifier": "all obstacles, geometries, previous results and parameters", "why_tests_cant": "depends on two calls between which the obstacles have moved", "anchors": ["starshaped_hull/cluster_and_starify.py:cluster_and_starify", "obstacles/obstacle.py:Obstacle.__init__"]}
{"id": "C106", "title": "Repeating a call of cluster_and_starify uses up no ids", "statement": "A call of cluster_and_starify that gets the result of an equal call as previous_clusters leaves the id counter as it is.", "quantifier": "all obstacles, geometries, previous results and parameters", "why_tests_cant": "a hidden effect on a class attribute, of intermediate obstacles that are not in the result", "anchors": ["starshaped_hull/cluster_and_starify.py:cluster_and_starify", "obstacles/obstacle.py:Obstacle.__init__"]}
{"id": "C107", "title": "generate_star_polygon returns polygons that are star-shaped about the given centre", "statement": "The polygon that generate_star_polygon returns has the given centre in its kernel: every point of the polygon is visible from the centre.", "quantifier": "all centres, radii, irregularities and spikinesses in [0, 1], numbers of vertices and random draws", "why_tests_cant": "a generated polygon violates it only for rare draws; depends on the irregularity and the number of vertices together", "anchors": ["utils/cg.py:generate_star_polygon", "utils/cg.py:random_angle_steps"]}
{"id": "C108", "title": "The tangent points of a StarshapedPolygon do not depend on its reference point", "statement": "tangent_points of a StarshapedPolygon gives the same answer, no points or two points in the same directions, whatever reference point the polygon was constructed with or has been given by set_xr.", "quantifier": "all polygons, histories of reference points and poses, frames, and points not on the boundary", "why_tests_cant": "the vertices are re-sorted about the reference point by set_xr; only visible in a later query", "anchors": ["obstacles/starshaped_polygon.py:StarshapedPolygon._update_vertex_angles", "obstacles/polygon.py:Polygon.tangent_points", "obstacles/starshaped_polygon.py:StarshapedPolygon.set_xr"]}
{"id": "C109", "title": "polygon_kernel_starshaped_hull returns the star-shaped hull", "statement": "polygon_kernel_starshaped_hull returns the smallest region that contains the polygon and is star-shaped about all of the kernel points: the polygon is contained in it, all of it is visible from every kernel point, and it is contained in every other such region.", "quantifier": "all simple polygons and all lists of kernel points", "why_tests_cant": "the hull is built vertex by vertex with a moving last edge; depends on the position of all vertices relative to all kernel points", "anchors": ["starshaped_hull/starshaped_hull.py:polygon_kernel_starshaped_hull", "utils/cg.py:line", "utils/cg.py:ray"]}
{"id": "C110", "title": "The star-shaped hull does not depend on how the ring of the polygon is written down", "statement": "polygon_kernel_starshaped_hull gives the same region for a polygon whichever vertex of its ring comes first, and whether the ring is clockwise or counter-clockwise.", "quantifier": "all simple polygons, first vertices, orientations and lists of kernel points", "why_tests_cant": "the order comes from shapely; the code normalises it by a turn that is compared with a threshold", "anchors": ["starshaped_hull/starshaped_hull.py:polygon_kernel_starshaped_hull", "utils/cg.py:is_cw"]}
{"id": "C111", "title": "Obstacle.intersects tells whether two obstacles have a common point", "statement": "intersects of two obstacles returns True exactly if some point of the world belongs to both obstacles at their current poses.", "quantifier": "all obstacles, poses and histories of moves, queries and other calls of intersects", "why_tests_cant": "the polygons are cached with the pose; for ellipses they only approximate the obstacle, which shows for particular distances", "anchors": ["obstacles/obstacle.py:Obstacle.intersects", "obstacles/obstacle.py:Obstacle.polygon", "obstacles/ellipse.py:Ellipse._compute_polygon_representation"]}
{"id": "C112", "title": "draw and update_plot show the obstacle at its current pose", "statement": "The patch that draw returns covers exactly the points of the obstacle at its current pose in the given frame, with the mark at the reference point and the name if wanted; update_plot with the handles of an earlier draw does the same, and neither changes other drawings.", "quantifier": "all obstacles, frames, options and histories of moves, queries, set_xr, draw and update_plot of several obstacles", "why_tests_cant": "a picture; depends on caches, on the order of the handles and on the history of several objects", "anchors": ["obstacles/ellipse.py:Ellipse.update_plot", "obstacles/polygon.py:Polygon.update_plot", "obstacles/starshaped_polygon.py:StarshapedPolygon.update_plot", "obstacles/starshaped_primitive_combination.py:StarshapedPrimitiveCombination.init_plot"]}
{"id": "C113", "title": "draw_shapely_polygon shows the points of the geometry within the limits", "statement": "The patches that draw_shapely_polygon returns cover, of the part of the plane within the limits, exactly the points of the polygons of the geometry.", "quantifier": "all geometries and limits", "why_tests_cant": "depends on what shapely returns for the clipped polygon; holes are only visible in the picture", "anchors": ["utils/misc.py:draw_shapely_polygon"]}
{"id": "C114", "title": "ObstacleCluster.draw draws all obstacles of the cluster", "statement": "draw of an ObstacleCluster draws the cluster obstacle, if there is one, and all obstacles on one axes object, and returns it.", "quantifier": "all clusters and axes", "why_tests_cant": "not called by any test; the pair of draw is unpacked in the wrong order", "anchors": ["starshaped_hull/cluster_and_starify.py:ObstacleCluster.draw"]}
{"id": "C115", "title": "draw_adm_ker shows every admissible kernel in a panel of its own", "statement": "draw_adm_ker returns a square array of axes in which every cluster with non-empty admissible kernel has a panel of its own, that shows its admissible kernel and the polygon of its kernel points.", "quantifier": "all lists of clusters", "why_tests_cant": "depends on the number of clusters, and on the dimension of the kernels", "anchors": ["starshaped_hull/cluster_and_starify.py:draw_adm_ker", "utils/misc.py:draw_shapely_polygon"]}
{"id": "C116", "title": "Moving an obstacle moves the answers of its queries", "statement": "A query of an obstacle at some pose, for a point given in one frame with the answer wanted in the same or the other frame, gives the answer that the obstacle at rest gives for the corresponding point, written in the wanted frame: the same value for point_location and distance_function, the moved points for line_intersection, boundary_mapping and tangent_points, the turned directions for normal and reference_direction, and the same exceptions.", "quantifier": "all ellipses, polygons and star-shaped polygons, poses, frames and points; tangent_points of an Ellipse with the answer in the frame of the point", "why_tests_cant": "tests use obstacles without motion model or one pose; a wrong frame shows only for poses that are turned as well as moved", "anchors": ["obstacles/ellipse.py:Ellipse", "obstacles/polygon.py:Polygon", "obstacles/starshaped_polygon.py:StarshapedPolygon", "obstacles/starshaped_obstacle.py:StarshapedObstacle.reference_direction", "obstacles/obstacle.py:Obstacle.transform"]}
{"id": "C117", "title": "interior_point and exterior_point agree with polygon()", "statement": "interior_point of a Polygon or StarshapedPolygon is True exactly for the points in the interior of the polygon that polygon() returns for the same frame; exterior_point is True for all points outside of that polygon, and False for all points in its interior.", "quantifier": "all vertex lists, poses, frames, points and histories of moves and queries", "why_tests_cant": "polygon() is cached with the pose while interior_point transforms the point; they differ only after particular histories", "anchors": ["obstacles/obstacle.py:Obstacle.interior_point", "obstacles/obstacle.py:Obstacle.polygon", "obstacles/polygon.py:Polygon.point_location"]}
{"id": "C118", "title": "The order of the obstacles does not matter for cluster_and_starify", "statement": "Given the same obstacles in another order, and the same previous clusters, cluster_and_starify gives the same flag, the same number of iterations and the same clusters, in some order: the same obstacles together, and the same cluster obstacles.", "quantifier": "all obstacle lists and their permutations, all parameters, all geometry routines that do not depend on order", "why_tests_cant": "a permutation changes the order of all intersection tests, merges and names; no test permutes the obstacles", "anchors": ["starshaped_hull/cluster_and_starify.py:cluster_and_starify", "starshaped_hull/cluster_and_starify.py:get_intersection_clusters"]}
{"id": "C119", "title": "The returned history shows the iterations", "statement": "With return_history, a COMPLETE call of cluster_and_starify returns one list of clusters for each iteration: the first has the clusters of the single obstacles, the last has the returned clusters, and every cluster in it has the obstacles, the kernel points and the cluster obstacle that it had in that iteration.", "quantifier": "all obstacle lists, parameters, previous clusters and geometry routines", "why_tests_cant": "the lists share objects with the dictionary of known clusters, and later stages write to the same objects", "anchors": ["starshaped_hull/cluster_and_starify.py:cluster_and_starify", "starshaped_hull/cluster_and_starify.py:ObstacleCluster.polygon", "starshaped_hull/cluster_and_starify.py:get_intersection_clusters"]}
{"id": "C120", "title": "An obstacle changes only by calls of its methods, whatever the program does with its arrays", "statement": "The reference point and the vertex angles of a StarshapedPolygon are those that the calls of its own methods give, with the values that the given arrays have at the time of the call; assignments to arrays that were given to set_xr or returned by xr do not change them.", "quantifier": "all programs of constructions, copies, xr and set_xr calls in all frames, moves, changes of the motion model, and assignments to the arrays the program has", "why_tests_cant": "whether an array is copied depends on the frame and on whether there is a motion model; the effect shows only when the array is reused later", "anchors": ["obstacles/starshaped_obstacle.py:StarshapedObstacle.xr", "obstacles/starshaped_obstacle.py:StarshapedObstacle.set_xr", "obstacles/obstacle.py:Obstacle.transform", "obstacles/starshaped_polygon.py:StarshapedPolygon.set_xr"]}
{"id": "C121", "title": "A dilated polygon is the obstacle with its padding, and stays with it", "statement": "dilated_obstacle(padding) of a Polygon or StarshapedPolygon returns an obstacle that covers, at all later times, the points within the padding of the obstacle and no other points (up to shapely's chords for the circles), in polygon() and in point_location; no answer of another obstacle changes; it is star-shaped about each point about which the polygon is; dilating twice adds the paddings.", "quantifier": "all polygons and paddings, all histories of constructions, dilations, queries, moves and changes of motion models before and after", "why_tests_cant": "an unbounded set of points and histories; the copy may share caches, bounds and the motion model with the original", "anchors": ["obstacles/polygon.py:Polygon.dilated_obstacle", "obstacles/starshaped_polygon.py:StarshapedPolygon.dilated_obstacle", "obstacles/obstacle.py:Obstacle.copy", "obstacles/starshaped_polygon.py:StarshapedPolygon.copy", "obstacles/polygon.py:Polygon.point_location"]}
{"id": "C122", "title": "Repeating a call in an unchanged scene gives the same result", "statement": "If cluster_and_starify completes and is called again with the same obstacles, robot and goal and with the returned clusters as previous clusters, it returns the same clusters with the same kernel points and cluster obstacles, and so does every further call.", "quantifier": "all obstacle lists, geometry routines and numbers of repeated calls, all admissible kernels and selection sets", "why_tests_cant": "the number of calls is unbounded, and whether kernel points are kept depends on where they are relative to the selection set and the line through robot and goal", "anchors": ["starshaped_hull/cluster_and_starify.py:cluster_and_starify", "starshaped_hull/cluster_and_starify.py:compute_kernel_points", "starshaped_hull/cluster_and_starify.py:extract_cluster"]}
{"id": "C123", "title": "Moving the whole scene moves the result", "statement": "If robot, goal, all obstacles, the workspace and the previous clusters are moved by the same vector, cluster_and_starify gives the same flag and number of iterations and the same clusters, with kernel points, hulls and reference points moved by this vector; the functions of cg.py do the same with moved points.", "quantifier": "all obstacle lists, vectors, parameters and previous clusters", "why_tests_cant": "a relation between two calls; the square in which cones are cut off and the random draws do not move with the scene", "anchors": ["starshaped_hull/cluster_and_starify.py:cluster_and_starify", "starshaped_hull/cluster_and_starify.py:compute_kernel_points", "utils/cg.py:Cone.polygon", "starshaped_hull/starshaped_hull.py:kernel_starshaped_hull"]}
{"id": "C124", "title": "Groups of obstacles that are apart do not influence each other", "statement": "If no cluster obstacle that cluster_and_starify makes for one group of obstacles meets one that it makes for another group, the call for the obstacles of both groups (without exclude_obstacles) returns the clusters of the one call followed by those of the other, with the same kernel points and cluster obstacles, after as many iterations as the longer of the two calls.", "quantifier": "all lists of obstacles, geometry routines, previous clusters and numbers of iterations", "why_tests_cant": "a relation between three calls; all clusters share one dictionary of names, one iteration counter and one list of indices", "anchors": ["starshaped_hull/cluster_and_starify.py:cluster_and_starify", "starshaped_hull/cluster_and_starify.py:get_intersection_clusters", "starshaped_hull/cluster_and_starify.py:ObstacleCluster.__init__"]}
{"id": "C125", "title": "Pictures of a clustering show its clusters", "statement": "draw_clustering draws every obstacle of every cluster at its current pose, with one colour per cluster and different colours for different clusters; draw_star_hull draws every cluster obstacle in green with its reference point, and the obstacles of every cluster, in grey or, without cluster obstacle, in red, so that exactly their points are covered.", "quantifier": "all lists of clusters, all obstacles of the three classes and combinations, all earlier histories of moves, queries and drawings", "why_tests_cant": "what a picture shows is not compared in the tests; it depends on the poses at the time of two different calls, on holes of unions and on the number of clusters", "anchors": ["starshaped_hull/cluster_and_starify.py:draw_clustering", "starshaped_hull/cluster_and_starify.py:draw_star_hull", "starshaped_hull/cluster_and_starify.py:ObstacleCluster.polygon_excluding_hull"]}
{"id": "C126", "title": "Exchanging robot and goal does not change the result", "statement": "cluster_and_starify called with the positions of robot and goal exchanged, and with the same obstacles, workspace and previous clusters, returns the same flag and number of iterations and the same clusters with the same kernel points and cluster obstacles.", "quantifier": "all obstacle lists, positions, parameters and previous clusters", "why_tests_cant": "a relation between two calls; the side of the line through robot and goal on which a point is changes its sign, and points on the line count as one of the sides", "anchors": ["starshaped_hull/cluster_and_starify.py:cluster_and_starify", "starshaped_hull/cluster_and_starify.py:compute_kernel_points", "utils/cg.py:is_ccw"]}
{"id": "C127", "title": "A Waypoints obstacle comes to every waypoint and stays near the path", "statement": "An obstacle with a Waypoints motion model with positive speed and threshold, started at its first position and moved long enough, comes nearer than the threshold to every waypoint in the given order, stops near the last one, and is always nearer than the threshold to the path through the waypoints.", "quantifier": "all lists of waypoints, speeds, thresholds and sequences of time steps", "why_tests_cant": "lists of waypoints and sequences of steps are unbounded; a step can jump over a waypoint; no test moves an obstacle with waypoints to the end", "anchors": ["obstacles/motion_model.py:Waypoints.lin_vel", "obstacles/motion_model.py:MotionModel.move", "obstacles/motion_model.py:Waypoints.__init__"]}
{"id": "C128", "title": "A SinusVelocity obstacle moves along the curve of its velocity and comes back after a period", "statement": "Moved in any steps, an obstacle with a SinusVelocity motion model is where its oscillating velocity (along the axes, or forward and turning) takes it in the time that has passed, up to a multiple of the sum of the squares of the steps; after a whole period along an axis it has the coordinate it had.", "quantifier": "all magnitudes, periods, start states and sequences of time steps", "why_tests_cant": "real-valued steps and times; the error of a sequence of steps adds up, and no test compares positions with the integral of the velocity", "anchors": ["obstacles/motion_model.py:SinusVelocity.lin_vel", "obstacles/motion_model.py:SinusVelocity.rot_vel", "obstacles/motion_model.py:SinusVelocity.__init__", "obstacles/motion_model.py:MotionModel.move"]}
{"id": "C129", "title": "An Interval obstacle stays near its schedule and approaches its last position", "statement": "Moved in any positive steps, an obstacle with an Interval motion model with positive durations is, until the end of the schedule, near the scheduled position, up to the longest step times the sum of the changes of the scheduled velocity; afterwards it does not go away from the last position and comes arbitrarily near to it.", "quantifier": "all schedules with positive durations and all sequences of positive time steps", "why_tests_cant": "sequences of steps are unbounded; whether the obstacle settles depends on the product of speed and step, and a distance is compared with a speed", "anchors": ["obstacles/motion_model.py:Interval.lin_vel", "obstacles/motion_model.py:Interval.__init__", "obstacles/motion_model.py:MotionModel.move"]}
{"id": "C130", "title": "area() is the area of the obstacle", "statement": "area() of an obstacle is the area of the region that the obstacle covers, at every pose and in every frame and for either order of the vertices; sum([o.area() for o in obstacles]) is at least the area that the obstacles cover together.", "quantifier": "all obstacles of all classes, all poses, all lists of obstacles", "why_tests_cant": "real-valued vertices and poses and unbounded numbers of vertices; the area of a region is defined by measure, not by a sum over edges", "anchors": ["obstacles/polygon.py:Polygon.area", "obstacles/ellipse.py:Ellipse", "tests/test_cluster_and_starify.py:test_cluster_and_starify"]}
{"id": "C131", "title": "Polygons of generate_convex_polygon are convex obstacles around the origin", "statement": "A polygon made by generate_convex_polygon turns to the left at each of its corners, fills the convex hull of its corners, and runs once around the origin, so that StarshapedPolygon(generate_convex_polygon(n, box), xr=[0, 0], is_convex=True), as in the tests, has a reference point that sees all of it.", "quantifier": "all n >= 3, all boxes, all draws, coins and shuffles", "why_tests_cant": "a continuum of draws; the origin is the mean of the vertices, and whether it is inside depends on the order in which edges of equal direction are laid", "anchors": ["utils/cg.py:generate_convex_polygon", "tests/test_cluster_and_starify.py:test_cluster_and_starify"]}
{"id": "C132", "title": "The star-shaped hull of convex obstacles is the smallest one", "statement": "kernel_starshaped_hull for convex obstacles and kernel points returns, together with the obstacles, the smallest set that contains the obstacles and is star-shaped about the kernel points, namely the convex hulls of each obstacle with the kernel points, so that no more space is closed than needed and more kernel points or larger obstacles never give a smaller hull; the same holds for every cluster obstacle of cluster_and_starify.", "quantifier": "all lists of convex obstacles of any class, all lists of kernel points", "why_tests_cant": "being smallest is a statement about all star-shaped sets; it depends on all tangents from all kernel points at once", "anchors": ["starshaped_hull/starshaped_hull.py:kernel_starshaped_hull", "starshaped_hull/starshaped_hull.py:convex_kernel_starshaped_hull", "utils/cg.py:convex_hull", "starshaped_hull/cluster_and_starify.py:cluster_and_starify"]}
{"id": "C133", "title": "A StarshapedPolygon works with every reference point of its kernel", "statement": "For a StarshapedPolygon whose ring does not cross itself, given in either order, and every reference point from which all of the polygon is visible, set in the constructor or with set_xr: distance_function is below 1 exactly at the inner points and 1 exactly at the boundary points, boundary_mapping returns the only boundary point on the ray, and normal returns a unit vector that is orthogonal to the edge that the ray hits and points away from the reference point.", "quantifier": "all simple polygons, all reference points of the visibility kernel, all poses, frames and query points", "why_tests_cant": "visibility quantifies over all pairs of points of the polygon, and the queries assume an angular order of the vertices that follows from visibility only for rings without crossings", "anchors": ["obstacles/starshaped_polygon.py:StarshapedPolygon.distance_function", "obstacles/starshaped_polygon.py:StarshapedPolygon.boundary_mapping", "obstacles/starshaped_polygon.py:StarshapedPolygon.normal", "obstacles/starshaped_obstacle.py:StarshapedObstacle.set_xr", "obstacles/polygon.py:Polygon.__init__"]}
{"id": "C134", "title": "boundary_mapping and distance_function of a StarshapedPolygon are continuous", "statement": "For a StarshapedPolygon whose ring does not cross itself and every reference point from which all of it is visible, boundary_mapping and distance_function depend continuously on the point, also while the obstacle moves and turns continuously; towards the reference point the distance function goes to 0; a point that is inside at one time and outside at another has the value 1 at some time between.", "quantifier": "all simple polygons, reference points, continuous motions of obstacle and point", "why_tests_cant": "continuity is a statement about all points near a point; at the directions of the vertices another edge is hit, and inside and outside two different formulas are used", "anchors": ["obstacles/starshaped_polygon.py:StarshapedPolygon.distance_function", "obstacles/starshaped_polygon.py:StarshapedPolygon.boundary_mapping"]}
{"id": "C135", "title": "Generated polygons are convex and star-shaped obstacles, whatever their size", "statement": "A Polygon made from generate_convex_polygon answers is_convex() and is_starshaped() with True, and a StarshapedPolygon made from it without reference point has all of it as its kernel; a StarshapedPolygon made from generate_convex_polygon with the reference point [0, 0], or from generate_star_polygon with the centre as the reference point, has a distance function that is below 1 exactly inside and 1 exactly on the boundary.", "quantifier": "all sizes, all numbers of vertices, all draws, coins and shuffles, all poses and points", "why_tests_cant": "a continuum of draws and sizes; the tests draw a few polygons of one size, and convexity is decided with a fixed threshold", "anchors": ["utils/cg.py:generate_convex_polygon", "utils/cg.py:generate_star_polygon", "obstacles/polygon.py:Polygon._check_convexity", "obstacles/starshaped_polygon.py:StarshapedPolygon.__init__", "obstacles/starshaped_polygon.py:StarshapedPolygon.distance_function"]}
{"id": "C136", "title": "The distance function of an Ellipse is continuous, and with the default reference point it is its quadratic form", "statement": "For an Ellipse and a reference point inside of it distance_function depends continuously on the point; with the default reference point, the centre, distance_function(x) = (x1/a1)^2 + (x2/a2)^2 in the obstacle frame, which is point_location(x) + 1, for all points but the centre.", "quantifier": "all half axes, reference points, poses, frames and points", "why_tests_cant": "a continuum of points and axes; nearly vertical lines are treated as vertical lines through the centre, which a test meets only in a narrow cone of directions", "anchors": ["obstacles/starshaped_obstacle.py:StarshapedObstacle.distance_function", "obstacles/ellipse.py:Ellipse.boundary_mapping", "obstacles/ellipse.py:Ellipse.line_intersection", "obstacles/ellipse.py:Ellipse.point_location"]}
{"id": "C137", "title": "boundary_mapping and distance_function of a StarshapedPrimitiveCombination are exact and continuous", "statement": "For a StarshapedPrimitiveCombination such that all points near its reference point see all of what its members and its hull cover: boundary_mapping returns the only border point of the covered set on the ray, distance_function is below 1 exactly at the inner points and 1 exactly at the border points of the covered set, and both depend continuously on the point.", "quantifier": "all numbers and shapes of members, all hulls, reference points and points", "why_tests_cant": "the border of a union is not the union of the borders, and continuity is a statement about all points near a point; the member that is hit changes with the direction", "anchors": ["obstacles/starshaped_primitive_combination.py:StarshapedPrimitiveCombination.boundary_mapping", "obstacles/starshaped_obstacle.py:StarshapedObstacle.distance_function"]}
{"id": "C138", "title": "The obstacles returned by cluster_and_starify have a distance function that keeps robot and goal out", "statement": "The obstacles (StarshapedPrimitiveCombinations, and with make_convex StarshapedPolygons) that a call of cluster_and_starify returns, which is not INCOMPLETE, for convex obstacles, have a distance_function that is continuous, below 1 exactly at the inner points, 1 exactly on the border and above 1 exactly at the outer points of the star-shaped or convex hull of their cluster, and it is above 1 at the robot and at the goal.", "quantifier": "all lists of convex obstacles, all previous clusters, kernel points and poses of robot and goal", "why_tests_cant": "the statement joins the selection of kernel points, the hulls, the clustering and the queries of the result, for all points of the plane", "anchors": ["starshaped_hull/cluster_and_starify.py:cluster_and_starify", "obstacles/starshaped_primitive_combination.py:StarshapedPrimitiveCombination.boundary_mapping", "obstacles/starshaped_obstacle.py:StarshapedObstacle.distance_function", "starshaped_hull/starshaped_hull.py:kernel_starshaped_hull"]}
{"id": "C139", "title": "max_iterations of cluster_and_starify only cuts the clustering off", "statement": "A call of cluster_and_starify with max_iterations = m returns after at most m iterations. If it reports fewer than m iterations, it returns what the call without limit returns; if the call without limit returns within m iterations and not INCOMPLETE, the call with limit returns the same; a limit of at least the number of obstacles changes nothing. Also when the limit is reached every obstacle is in exactly one cluster of the result.", "quantifier": "all obstacle lists, previous clusters, geometry routines, times at which the clock runs out, and limits", "why_tests_cant": "the claim compares two calls for all limits and all scenes; the limit is reached only in scenes whose hulls meet further obstacles again and again", "anchors": ["starshaped_hull/cluster_and_starify.py:cluster_and_starify"]}
{"id": "C140", "title": "Obstacles with common points come into the same cluster", "statement": "In every result of cluster_and_starify that is not INCOMPLETE, two convex obstacles with different ids that have a common point, or that are joined by a chain of obstacles of which neighbours have a common point, are in the same cluster, with and without make_convex, for all kernel points, previous clusters and iteration limits.", "quantifier": "all lists of convex obstacles with different ids, all chains, previous clusters, kernel points and limits", "why_tests_cant": "chains of any length in any order of the list, and merges in any iteration; the tests look at a few scenes", "anchors": ["starshaped_hull/cluster_and_starify.py:get_intersection_clusters", "starshaped_hull/cluster_and_starify.py:cluster_and_starify"]}
{"id": "C141", "title": "The kernel of an Ellipse is the set of points that see all of it", "statement": "kernel() of an Ellipse at its current pose is the visibility kernel of the ellipse, the set of its points from which every point of it is seen along a segment in it (which is the ellipse itself), after any history.", "quantifier": "all axes, vertex counts, poses and histories", "why_tests_cant": "the kernel is a polygon with slightly enlarged axes; a test with points well inside or outside does not see the difference", "anchors": ["obstacles/ellipse.py:Ellipse._compute_kernel", "obstacles/ellipse.py:Ellipse._compute_polygon_representation", "obstacles/starshaped_obstacle.py:StarshapedObstacle.kernel"]}
{"id": "C142", "title": "kernel() and is_convex() of a StarshapedPrimitiveCombination describe what it covers", "statement": "After any history of calls kernel() of a StarshapedPrimitiveCombination is the visibility kernel of the union of its parts, the set of the points of it that see all of it, and is_convex() is True exactly if this union is convex.", "quantifier": "all combinations, unions, and histories of calls and of movements of the members", "why_tests_cant": "the values are cached while the members, which belong to the caller, move on; the tests build combinations of obstacles at rest", "anchors": ["obstacles/starshaped_primitive_combination.py:StarshapedPrimitiveCombination._compute_kernel", "obstacles/starshaped_primitive_combination.py:StarshapedPrimitiveCombination._check_convexity", "obstacles/starshaped_obstacle.py:StarshapedObstacle.kernel", "obstacles/obstacle.py:Obstacle.is_convex"]}
