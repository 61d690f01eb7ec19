{
 "claims": [
  {
   "property": "C01",
   "status": "proved",
   "theorems": [
    "Starworlds.C01_left_inverse",
    "Starworlds.C01_right_inverse",
    "Starworlds.C01_formula",
    "Starworlds.C01_isometry",
    "Starworlds.C01_orientation"
   ],
   "note": "Over the reals, including the rotation==0 branch."
  },
  {
   "property": "C02",
   "status": "proved",
   "theorems": [
    "Starworlds.C02_exclusive",
    "Starworlds.C02_sound",
    "Starworlds.C02_cyclic",
    "Starworlds.C02_swap",
    "Starworlds.C02_translate"
   ],
   "note": "Any ordered field."
  },
  {
   "property": "C03",
   "status": "partial",
   "theorems": [
    "Starworlds.C03_exactly_one_false",
    "Starworlds.C03_exactly_one_partial"
   ],
   "note": "False at |value| = 1e-10 exactly (all three tests are strict); true everywhere else."
  },
  {
   "property": "C04",
   "status": "proved",
   "theorems": [
    "Starworlds.C04_none_iff",
    "Starworlds.C04_sound",
    "Starworlds.C04_symm"
   ],
   "note": "Any ordered field."
  },
  {
   "property": "C05",
   "status": "proved",
   "theorems": [
    "Starworlds.C05_some_iff",
    "Starworlds.C05_parallel",
    "Starworlds.C05_none"
   ],
   "note": "Any ordered field."
  },
  {
   "property": "C06",
   "status": "proved",
   "theorems": [
    "Starworlds.C06_some_iff",
    "Starworlds.C06_parallel"
   ],
   "note": "Any ordered field."
  },
  {
   "property": "C07",
   "status": "partial",
   "theorems": [
    "Starworlds.C07_intersects_never",
    "Starworlds.C07_intersects_false",
    "Starworlds.C07_intersects_partial"
   ],
   "note": "False: Line.intersects compares orientation verdicts in a way that never yields True; what remains true is that it never reports a crossing wrongly."
  },
  {
   "property": "C08",
   "status": "proved",
   "theorems": [
    "Starworlds.C08_on_lines",
    "Starworlds.C08_on_segments",
    "Starworlds.C08_otherwise"
   ],
   "note": "Over the reals."
  },
  {
   "property": "C09",
   "status": "proved",
   "theorems": [
    "Starworlds.C09_in_triangle",
    "Starworlds.C09_onto"
   ],
   "note": "Any ordered field; soundness and surjectivity of the sampling map."
  },
  {
   "property": "C10",
   "status": "partial",
   "theorems": [
    "Starworlds.C10_shape",
    "Starworlds.C10_centroid_partial",
    "Starworlds.C10_centroid_false"
   ],
   "note": "Shape proved for every rotation; the centroid claim is false for rot != 0 with centroid != 0 (the code rotates about the origin), true otherwise."
  },
  {
   "property": "C11",
   "status": "partial",
   "theorems": [
    "Starworlds.C11_terminates_false",
    "Starworlds.C11_terminates_partial"
   ],
   "note": "False: a five point input on which the walk cycles forever. True in general position."
  },
  {
   "property": "C12",
   "status": "proved",
   "theorems": [
    "Starworlds.C12_hull"
   ],
   "note": "Any ordered field, any number of points."
  },
  {
   "property": "C13",
   "status": "partial",
   "theorems": [
    "Starworlds.C13_convex",
    "Starworlds.C13_nonconvex_partial",
    "Starworlds.C13_near_parallel_false",
    "Starworlds.C13_degenerate"
   ],
   "note": "Any ordered field, plus parallel directions. False for nearly parallel directions: a cone narrower than the orientation threshold counts as non-convex and contains every point between its directions."
  },
  {
   "property": "C14",
   "status": "partial",
   "theorems": [
    "Starworlds.C14_same_apex_false",
    "Starworlds.C14_same_apex_partial"
   ],
   "note": "False for two identical convex cones; true when the five directions are in general position."
  },
  {
   "property": "C15",
   "status": "partial",
   "theorems": [
    "Starworlds.C15_list_partial",
    "Starworlds.C15_empty_partial",
    "Starworlds.C15_list_false"
   ],
   "note": "False in general (inherits C14 on repeated cones); true in general position."
  },
  {
   "property": "C16",
   "status": "partial",
   "theorems": [
    "Starworlds.C16_polygon_partial",
    "Starworlds.C16_corner_walk",
    "Starworlds.C16_polygon_false"
   ],
   "note": "False for apexes within 1 of the border with very short directions (None.xy raises AttributeError); true for apexes at least 1 away from the border."
  },
  {
   "property": "C17",
   "status": "proved",
   "theorems": [
    "Starworlds.C17_length",
    "Starworlds.C17_mean",
    "Starworlds.C17_edges",
    "Starworlds.C17_convex"
   ],
   "note": "Over the reals, draws, coins and shuffle as arguments (DrawsOk says there are enough of them); convexity when no two edge vectors have the same angle."
  },
  {
   "property": "C18",
   "status": "partial",
   "theorems": [
    "Starworlds.C18_box_partial",
    "Starworlds.C18_box_false"
   ],
   "note": "False: both coordinate pools are scaled by box width box[0], so a box with box[1] != box[0] is left; true for the width."
  },
  {
   "property": "C19",
   "status": "partial",
   "theorems": [
    "Starworlds.C19_steps_partial",
    "Starworlds.C19_positive",
    "Starworlds.C19_nonneg",
    "Starworlds.C19_steps_false",
    "Starworlds.C19_rejects",
    "Starworlds.C19_star"
   ],
   "note": "False at the extreme irr = 2*pi/n when every draw is 0 (ZeroDivisionError); true whenever the drawn angles do not add up to zero, in particular for irr < 2*pi/n."
  },
  {
   "property": "C20",
   "status": "proved",
   "theorems": [
    "Starworlds.C20_step",
    "Starworlds.C20_unique",
    "Starworlds.C20_counter_mono",
    "Starworlds.C20_requests",
    "Starworlds.C20_duplicate",
    "Starworlds.C20_names",
    "Starworlds.C20_given_name"
   ],
   "note": "All histories of constructions, copies, moves."
  },
  {
   "property": "C21",
   "status": "proved",
   "theorems": [
    "Starworlds.C21_total",
    "Starworlds.C21_inverse",
    "Starworlds.C21_identity",
    "Starworlds.C21_rotate_length",
    "Starworlds.C21_difference",
    "Starworlds.C21_meaning",
    "Starworlds.C21_invalid"
   ],
   "note": "Over the reals."
  },
  {
   "property": "C22",
   "status": "proved",
   "theorems": [
    "Starworlds.C22_polygon"
   ],
   "note": "All histories incl. failing queries; shapely geometry = list of vertices."
  },
  {
   "property": "C23",
   "status": "partial",
   "theorems": [
    "Starworlds.C23_kernel_partial",
    "Starworlds.C23_polygon_first_partial",
    "Starworlds.C23_ellipse_false"
   ],
   "note": "False for an Ellipse when kernel() is called before polygon(); true for self-computed kernels and when the polygon comes first."
  },
  {
   "property": "C24",
   "status": "proved",
   "theorems": [
    "Starworlds.C24_roundtrip",
    "Starworlds.C24_follows"
   ],
   "note": "All states and later histories."
  },
  {
   "property": "C25",
   "status": "partial",
   "theorems": [
    "Starworlds.C25_safe_set_false",
    "Starworlds.C25_unchanged_partial"
   ],
   "note": "False: safe_set=True always raises (a shapely geometry has no exterior_point); only \"unchanged\" survives."
  },
  {
   "property": "C26",
   "status": "proved",
   "theorems": [
    "Starworlds.C26_unit",
    "Starworlds.C26_equivariant",
    "Starworlds.C26_undefined"
   ],
   "note": "Single points only."
  },
  {
   "property": "C27",
   "status": "partial",
   "theorems": [
    "Starworlds.C27_independent_partial",
    "Starworlds.C27_copy_same_state",
    "Starworlds.C27_rebuild_false",
    "Starworlds.C27_rebuild_witness_false"
   ],
   "note": "False for Ellipse and StarshapedPolygon (copy shares the motion model object); proved for the deep-copying classes over all histories."
  },
  {
   "property": "C28",
   "status": "proved",
   "theorems": [
    "Starworlds.C28_sign",
    "Starworlds.C28_disc",
    "Starworlds.C28_sides",
    "Starworlds.C28_boundary"
   ],
   "note": "Over the reals; every pose and both frames; non-zero half axes."
  },
  {
   "property": "C29",
   "status": "partial",
   "theorems": [
    "Starworlds.C29_exact_partial",
    "Starworlds.C29_axis_partial",
    "Starworlds.C29_vertical_false",
    "Starworlds.C29_tangent_false"
   ],
   "note": "False for vertical lines off the axis (every crossing is put at x = 0) and for tangents (range ignored). True for lines at least 1e-4 wide, slope at most 100 and chords wider than 2e-4, and on the axis."
  },
  {
   "property": "C30",
   "status": "partial",
   "theorems": [
    "Starworlds.C30_unique_partial",
    "Starworlds.C30_false"
   ],
   "note": "False for steep directions unless xr is on the axis; true for slopes up to 100 and chords wider than 2e-4."
  },
  {
   "property": "C31",
   "status": "proved",
   "theorems": [
    "Starworlds.C31_outward",
    "Starworlds.C31_mapped"
   ],
   "note": "Every boundary point, pose and pair of frames; also the non-boundary call reduces to it."
  },
  {
   "property": "C32",
   "status": "partial",
   "theorems": [
    "Starworlds.C32_empty",
    "Starworlds.C32_points",
    "Starworlds.C32_order_partial",
    "Starworlds.C32_order_false",
    "Starworlds.C32_frames_false"
   ],
   "note": "Points exact off the band and exactly on a vertical tangent; order false when frames differ or very close to the ellipse (is_ccw threshold), true otherwise."
  },
  {
   "property": "C33",
   "status": "partial",
   "theorems": [
    "Starworlds.C33_defined_partial",
    "Starworlds.C33_false"
   ],
   "note": "False on the axes inside the 1e-5 band (division by zero); exact characterisation of when two points are returned."
  },
  {
   "property": "C34",
   "status": "partial",
   "theorems": [
    "Starworlds.C34_within",
    "Starworlds.C34_circle_partial",
    "Starworlds.C34_false"
   ],
   "note": "Padding is an upper bound for every ellipse; that it is covered is false for unequal axes, true for circles."
  },
  {
   "property": "C35",
   "status": "partial",
   "theorems": [
    "Starworlds.C35_inner_partial",
    "Starworlds.C35_inside",
    "Starworlds.C35_contains_partial",
    "Starworlds.C35_false",
    "Starworlds.C35_default_false",
    "Starworlds.C35_region"
   ],
   "note": "The region of the polygon (even-odd rule) is the convex hull of its vertices. Upper containment always; containing the ellipse is false with the default 20 vertices for the unit circle; true when a <= (a+1e-3) cos(pi/n). For all axes the polygon contains the ellipse shrunk by cos(pi/n) (C35_inner_partial)."
  },
  {
   "property": "C36",
   "status": "partial",
   "theorems": [
    "Starworlds.C36_collinear_false",
    "Starworlds.C36_convex_partial",
    "Starworlds.C36_last_false",
    "Starworlds.C36_region_partial",
    "Starworlds.C36_band_false",
    "Starworlds.C36_simple_partial"
   ],
   "note": "False when only the last vertex bends: IndexError; all-collinear vertex lists raise IndexError too, not RuntimeError. Exact otherwise. For every polygon that does not cross itself True is the answer exactly if the region is convex, unless a corner bends by less than the threshold (C36_simple_partial); false for a square with a tiny notch."
  },
  {
   "property": "C37",
   "status": "partial",
   "theorems": [
    "Starworlds.C37_interior",
    "Starworlds.C37_exterior",
    "Starworlds.C37_boundary_partial",
    "Starworlds.C37_boundary_false",
    "Starworlds.C37_placed"
   ],
   "note": "Interior and exterior exact (even-odd semantics of shapely); boundary points on the bounding box are reported exterior, proved false; the rest of the boundary is exact."
  },
  {
   "property": "C38",
   "status": "proved",
   "theorems": [
    "Starworlds.C38_window",
    "Starworlds.C38_rotated",
    "Starworlds.C38_separated",
    "Starworlds.C38_visible",
    "Starworlds.C38_inside"
   ],
   "note": "All vertex lists, points, poses and frames; two points are returned exactly when some ray from x (off the boundary) misses the boundary, in particular none for inner points and two for a point separated from the polygon by a line."
  },
  {
   "property": "C39",
   "status": "proved",
   "theorems": [
    "Starworlds.C39_edge",
    "Starworlds.C39_hit"
   ],
   "note": "Every star-shaped ring, pose, frame and sequence of dilations and set_xr calls, for points not seen exactly at a vertex angle; the edge is the one the ray hits."
  },
  {
   "property": "C40",
   "status": "proved",
   "theorems": [
    "Starworlds.C40_history",
    "Starworlds.C40_dilated",
    "Starworlds.C40_xr"
   ],
   "note": "All sequences of dilations and set_xr, any argsort."
  },
  {
   "property": "C41",
   "status": "partial",
   "theorems": [
    "Starworlds.C41_classify_partial",
    "Starworlds.C41_increasing_partial",
    "Starworlds.C41_dilated_false"
   ],
   "note": "True for polygons as constructed; false after dilated_obstacle(): the enclosing ball becomes max(width, height), the test segment can be too short and the call raises TypeError."
  },
  {
   "property": "C42",
   "status": "proved",
   "theorems": [
    "Starworlds.C42_union",
    "Starworlds.C42_defined"
   ],
   "note": "All member lists; also exactly when the call raises."
  },
  {
   "property": "C43",
   "status": "partial",
   "theorems": [
    "Starworlds.C43_farthest",
    "Starworlds.C43_direction_partial",
    "Starworlds.C43_near_false"
   ],
   "note": "Farthest crossing of the test segment proved for all members and hulls; false for x within a tenth of the distance of the boundary (returns None)."
  },
  {
   "property": "C44",
   "status": "partial",
   "theorems": [
    "Starworlds.C44_member",
    "Starworlds.C44_diagonal_partial",
    "Starworlds.C44_single_partial",
    "Starworlds.C44_tie_false",
    "Starworlds.C44_shift_false",
    "Starworlds.C44_index_false"
   ],
   "note": "False: distances are taken coordinate by coordinate and the index counts points, not members (three counterexamples, one an IndexError). True for xr on the diagonal with one crossing per member, and for one member with at most two crossings."
  },
  {
   "property": "C45",
   "status": "partial",
   "theorems": [
    "Starworlds.C45_rigid_false",
    "Starworlds.C45_rigid_partial",
    "Starworlds.C45_edge"
   ],
   "note": "False: unit reference direction used as lever arm; exact characterisation of when it is right."
  },
  {
   "property": "C46",
   "status": "proved",
   "theorems": [
    "Starworlds.C46_static",
    "Starworlds.C46_constructed"
   ],
   "note": "All step sequences, from any state and from the state after construction."
  },
  {
   "property": "C47",
   "status": "proved",
   "theorems": [
    "Starworlds.C47_lin_vel",
    "Starworlds.C47_run",
    "Starworlds.C47_rest",
    "Starworlds.C47_direction",
    "Starworlds.C47_zero_threshold"
   ],
   "note": "Needs wp_thresh > 0; with 0 the first call divides by zero (proved)."
  },
  {
   "property": "C48",
   "status": "partial",
   "theorems": [
    "Starworlds.C48_schedule_partial",
    "Starworlds.C48_at_end",
    "Starworlds.C48_stop_false",
    "Starworlds.C48_stop_witness_false",
    "Starworlds.C48_empty_false",
    "Starworlds.C48_rest_partial"
   ],
   "note": "Schedule proved for step sequences that hit the time points; resting at the end is false (at t = T the mean velocity is used), and so is the empty schedule (0 / 0, then IndexError)."
  },
  {
   "property": "C49",
   "status": "proved",
   "theorems": [
    "Starworlds.C49_cartesian_step",
    "Starworlds.C49_cartesian_run",
    "Starworlds.C49_polar_step",
    "Starworlds.C49_polar_run"
   ],
   "note": "All step sequences, both modes."
  },
  {
   "property": "C50",
   "status": "proved",
   "theorems": [
    "Starworlds.C50_components",
    "Starworlds.C50_clusters",
    "Starworlds.C50_partition"
   ],
   "note": "All numbers of clusters, all intersection relations, every order in which list(set(.)) may return its elements."
  },
  {
   "property": "C51",
   "status": "proved",
   "theorems": [
    "Starworlds.C51_flag"
   ],
   "note": "Unchanged up to the polygon cache."
  },
  {
   "property": "C52",
   "status": "proved",
   "theorems": [
    "Starworlds.C52_terminates"
   ],
   "note": "All values of the geometry and clock oracles; fuel equal to the number of obstacles is always enough."
  },
  {
   "property": "C53",
   "status": "partial",
   "theorems": [
    "Starworlds.C53_complete_partial",
    "Starworlds.C53_max_iterations_false",
    "Starworlds.C53_max_iterations_convex_false",
    "Starworlds.C53_limit_partial"
   ],
   "note": "False with a finite max_iterations: COMPLETE is returned with clusters that have no cluster obstacle (and make_convex then raises). True without limit, and with a limit that is not reached (C53_limit_partial)."
  },
  {
   "property": "C54",
   "status": "proved",
   "theorems": [
    "Starworlds.C54_singletons",
    "Starworlds.C54_not_free",
    "Starworlds.C54_polygons"
   ],
   "note": "All oracles; the second theorem assumes that no geometry routine raises. With the geometry of the code the obstacles returned occupy what the input obstacles occupy (C54_polygons)."
  },
  {
   "property": "C55",
   "status": "partial",
   "theorems": [
    "Starworlds.C55_feedback_partial",
    "Starworlds.C55_incomplete_false"
   ],
   "note": "False for INCOMPLETE results: their kernel_points is None and np.mean(None, axis=0) raises. True for the other results of calls without iteration limit."
  },
  {
   "property": "C56",
   "status": "partial",
   "theorems": [
    "Starworlds.C56_shape_partial",
    "Starworlds.C56_timeout_false"
   ],
   "note": "False: the time-out in the make_convex stage returns four entries even with return_history."
  },
  {
   "property": "C57",
   "status": "partial",
   "theorems": [
    "Starworlds.C57_kept_partial",
    "Starworlds.C57_names",
    "Starworlds.C57_temporary_false",
    "Starworlds.C57_apart_partial"
   ],
   "note": "False: two obstacles with id None share the name None, so the history lookup replaces one by the other. True when ids are distinct (names are injective), whatever the iteration limit (C139_shares_partial), and with any ids in calls that report one iteration (C57_apart_partial)."
  },
  {
   "property": "C58",
   "status": "partial",
   "theorems": [
    "Starworlds.C58_sound_partial",
    "Starworlds.C58_complete",
    "Starworlds.C58_ellipse_partial",
    "Starworlds.C58_polygon_partial",
    "Starworlds.C58_boundary_false",
    "Starworlds.C58_order_false",
    "Starworlds.C58_none",
    "Starworlds.C58_none_ellipse",
    "Starworlds.C58_none_polygon"
   ],
   "note": "Cone characterised for ellipses and convex polygons (all poses), and for any set seen between its tangent points; false on the border of the cone and when the tangent points come in the other order."
  },
  {
   "property": "C59",
   "status": "partial",
   "theorems": [
    "Starworlds.C59_convex_partial",
    "Starworlds.C59_list_partial",
    "Starworlds.C59_ellipse_partial",
    "Starworlds.C59_polygon",
    "Starworlds.C59_hang_false"
   ],
   "note": "Union star-shaped about every convex combination of kernel points, for every convex obstacle and list, tangent points of ellipses (off the precision band) and polygons shown to qualify; points in general position. False otherwise: two kernel points on the chord between tangent points make convex_hull cycle forever."
  },
  {
   "property": "C60",
   "status": "partial",
   "theorems": [
    "Starworlds.C60_free_partial",
    "Starworlds.C60_list_partial",
    "Starworlds.C60_border_false"
   ],
   "note": "Robot and goal stay free, whatever position the points are in, if the kernel points are off the border of the cone by the orientation threshold; false on the border."
  },
  {
   "property": "C61",
   "status": "proved",
   "theorems": [
    "Starworlds.C61_disjoint"
   ],
   "note": "Polygons as compact connected sets, any number of clusters, for runs without iteration limit."
  },
  {
   "property": "C62",
   "status": "partial",
   "theorems": [
    "Starworlds.C62_polygon_partial",
    "Starworlds.C62_convex_false"
   ],
   "note": "False with make_convex: cl.polygon() stays the polygon before convexification. True otherwise."
  },
  {
   "property": "C63",
   "status": "partial",
   "theorems": [
    "Starworlds.C63_inside_partial",
    "Starworlds.C63_degenerate",
    "Starworlds.C63_hole_false"
   ],
   "note": "All geometry oracles, single and multi polygons; false for selection sets with holes (exterior.distance ignores interior rings). Also: centre on the border gives three equal kernel points."
  },
  {
   "property": "C64",
   "status": "partial",
   "theorems": [
    "Starworlds.C64_clock_false",
    "Starworlds.C64_clock_partial"
   ],
   "note": "False: ts[k]/tot_time raises ZeroDivisionError when the clock does not tick during the call; true when it does."
  },
  {
   "property": "C65",
   "status": "partial",
   "theorems": [
    "Starworlds.C65_between_partial",
    "Starworlds.C65_sound",
    "Starworlds.C65_exact_partial",
    "Starworlds.C65_collection_false"
   ],
   "note": "Every returned point is a crossing (all poses, frames, segments); all crossings are returned when there are finitely many; along an edge, whenever the call returns, every crossing is between two points returned with only crossings between them (C65_between_partial). False when the segment runs along an edge and touches the boundary elsewhere: shapely returns a GeometryCollection and UnboundLocalError is raised."
  },
  {
   "property": "C66",
   "status": "proved",
   "theorems": [
    "Starworlds.C66_inside",
    "Starworlds.C66_collection"
   ],
   "note": "Proved for every polygon, kernel point list and all results of the shapely calls that lie on the segments asked for. C66_collection states which point is added for a GeometryCollection."
  },
  {
   "property": "C67",
   "status": "partial",
   "theorems": [
    "Starworlds.C67_returns_partial",
    "Starworlds.C67_index_false"
   ],
   "note": "Only ValueError (fewer than three hull vertices) possible if no vertex lies inside the kernel points and segments meet in at most one point; false (IndexError) for a polygon inside the kernel triangle."
  },
  {
   "property": "C68",
   "status": "proved",
   "theorems": [
    "Starworlds.C68_pose",
    "Starworlds.C68_values"
   ],
   "note": "Proved for all poses and both frames."
  },
  {
   "property": "C69",
   "status": "partial",
   "theorems": [
    "Starworlds.C69_ellipse",
    "Starworlds.C69_polygon_partial",
    "Starworlds.C69_three_false"
   ],
   "note": "Ellipse: proved for all reference points. Polygon: proved for at most two crossings; false for three (only the first two listed are compared), for a star-shaped polygon with xr outside of the kernel."
  },
  {
   "property": "C70",
   "status": "partial",
   "theorems": [
    "Starworlds.C70_weights_partial",
    "Starworlds.C70_unit_false"
   ],
   "note": "Weights proved (positive, sum one, inversely proportional to distance + 1e-6) in every reachable state; false that the result is a unit vector: it is zero at the incentre of a triangle."
  },
  {
   "property": "C71",
   "status": "partial",
   "theorems": [
    "Starworlds.C71_ellipse_partial",
    "Starworlds.C71_steep_false",
    "Starworlds.C71_combination_partial",
    "Starworlds.C71_near_false"
   ],
   "note": "Ellipse: proved for directions that are not steep and chords that are not tiny; false for steep directions (an outside point gets a value below 1). Combination: proved when the test segment (ten times the distance) reaches a boundary; TypeError for points closer to xr than a tenth of the way."
  },
  {
   "property": "C72",
   "status": "partial",
   "theorems": [
    "Starworlds.C72_extreme",
    "Starworlds.C72_sides",
    "Starworlds.C72_between_partial",
    "Starworlds.C72_order_false",
    "Starworlds.C72_common_false"
   ],
   "note": "Exact characterisation of the returned points, each bounding all members; for points in general position exactly the left and the right one. False: the order depends on the member order, which turns the admissible kernel to the wrong side; members with a common tangent lose that point."
  },
  {
   "property": "C73",
   "status": "partial",
   "theorems": [
    "Starworlds.C73_list_partial",
    "Starworlds.C73_polygons_partial",
    "Starworlds.C73_other_false"
   ],
   "note": "Proved for lists of obstacles whose hulls can be computed; false (TypeError) for an obstacle that is neither convex nor a polygon."
  },
  {
   "property": "C74",
   "status": "partial",
   "theorems": [
    "Starworlds.C74_program_kept",
    "Starworlds.C74_fresh",
    "Starworlds.C74_kept",
    "Starworlds.C74_part_partial",
    "Starworlds.C74_line_false",
    "Starworlds.C74_side_false"
   ],
   "note": "Proved for a fresh centre, a kept centre, and the choice of the part; false for a replaced centre: no collinearity test, and a selection set not split by the segment gives a centre on the other side."
  },
  {
   "property": "C75",
   "status": "partial",
   "theorems": [
    "Starworlds.C75_convex_filled",
    "Starworlds.C75_convex",
    "Starworlds.C75_corner_partial",
    "Starworlds.C75_large_false",
    "Starworlds.C75_larger_false",
    "Starworlds.C75_small_false",
    "Starworlds.C75_hook_false",
    "Starworlds.C75_shapes_partial",
    "Starworlds.C75_outside_false",
    "Starworlds.C75_pentagon_false",
    "Starworlds.C75_simple_partial"
   ],
   "note": "Convex polygons: proved, also as the set bounded by the ring and with straight corners (C75_simple_partial). L-shapes: every L-shape with edges between 1/1000 and 299, in every placement (C76). Twenty further polygons that take all branches seen to be taken (C75_shapes_partial, each with a checked certificate that the result is the visibility kernel). False: side 400 (INF_VAL = 300) gives a kernel with a corner outside of the polygon, side 600 an AttributeError, side 2e-5 the whole polygon; a pentagon and a 7-gon of ordinary size give an AttributeError (C75_pentagon_false, C75_hook_false), another 7-gon a kernel that is too large (C75_outside_false)."
  },
  {
   "property": "C76",
   "status": "proved",
   "theorems": [
    "Starworlds.C76_moves",
    "Starworlds.C76_constructor"
   ],
   "note": "Proved for all vertex lists, also for those on which the code raises."
  },
  {
   "property": "C77",
   "status": "proved",
   "theorems": [
    "Starworlds.C77_debug"
   ],
   "note": "Proved for all vertex lists and all primitives: the branch that leaves delta unassigned is never reached."
  },
  {
   "property": "C78",
   "status": "partial",
   "theorems": [
    "Starworlds.C78_keeps",
    "Starworlds.C78_once",
    "Starworlds.C78_one_partial",
    "Starworlds.C78_two_false"
   ],
   "note": "Vertices are kept and only left-out kernel points are added, each at most once, in all cases; a single left-out kernel point is inserted into the first edge it is outside of. False for two: the number of edges is taken before the insertions, so the last edges are never tested."
  },
  {
   "property": "C79",
   "status": "partial",
   "theorems": [
    "Starworlds.C79_part_partial",
    "Starworlds.C79_near_false"
   ],
   "note": "Proved whenever the test segment (ten times the distance) reaches a boundary: the part with the farthest crossing, for the hull the outward unit normal of the edge hit. False for points so near to xr that the segment ends before the outermost boundary."
  },
  {
   "property": "C80",
   "status": "partial",
   "theorems": [
    "Starworlds.C80_hit",
    "Starworlds.C80_weights_partial",
    "Starworlds.C80_fresh_false",
    "Starworlds.C80_zero_false"
   ],
   "note": "polygon_approx: proved in every reachable state for polygons star-shaped about xr. Default: weights proved, unit vector unless the mean is zero. False: AttributeError before the first polygon(); division by zero at the incentre of a triangle."
  },
  {
   "property": "C81",
   "status": "partial",
   "theorems": [
    "Starworlds.C81_arrays",
    "Starworlds.C81_set_partial",
    "Starworlds.C81_fresh_false",
    "Starworlds.C81_safe_false"
   ],
   "note": "Invariant of the arrays proved for all histories; set_xr succeeds once polygon() has been called. False before: AttributeError, after xr has been changed. False with safe_set in every state: AttributeError."
  },
  {
   "property": "C82",
   "status": "partial",
   "theorems": [
    "Starworlds.C82_first_partial",
    "Starworlds.C82_stale_false"
   ],
   "note": "The value of the first call is kept in all histories. False: after the members have moved it is the old polygon, while point_location uses the new one."
  },
  {
   "property": "C83",
   "status": "partial",
   "theorems": [
    "Starworlds.C83_default_partial",
    "Starworlds.C83_agree",
    "Starworlds.C83_box_false",
    "Starworlds.C83_centre_false"
   ],
   "note": "Inside, boundary and outside proved for distance_function in every reachable state, pose and frame, and that point_location is -1 exactly inside and 1 outside. False on the bounding box (point_location is 1 at a boundary point, every polygon has one) and at xr (division by zero)."
  },
  {
   "property": "C84",
   "status": "partial",
   "theorems": [
    "Starworlds.C84_simple_partial",
    "Starworlds.C84_kernel_partial",
    "Starworlds.C84_convex_partial",
    "Starworlds.C84_corner_partial",
    "Starworlds.C84_shapes_partial",
    "Starworlds.C84_false"
   ],
   "note": "Proved for all polygons whose computed kernel is right: convex polygons, L-shapes, the shapes of C75. For convex polygons (C84_simple_partial) any ring that does not cross itself is allowed, in either order, with straight corners, and the distance function of the obstacle is right. False for a 10-gon with two notches: the kernel is too large and the centroid does not see a corner."
  },
  {
   "property": "C85",
   "status": "partial",
   "theorems": [
    "Starworlds.C85_cones_partial",
    "Starworlds.C85_limit_partial",
    "Starworlds.C85_star_partial",
    "Starworlds.C85_convex_partial",
    "Starworlds.C85_border_false",
    "Starworlds.C85_hull_computed",
    "Starworlds.C85_hull_fails",
    "Starworlds.C85_select_partial",
    "Starworlds.C85_program_partial"
   ],
   "note": "Proved for calls without iteration limit whose kernel points are in general position with the tangent points and free of robot and goal, which follows from the choice of compute_kernel_points (C85_select_partial, C85_program_partial), also with the admissible kernels of C93 (C85_cones_partial). With make_convex robot and goal are not in the interior. False: with make_convex the robot can be on the border of an obstacle returned, although it is outside of all obstacles."
  },
  {
   "property": "C86",
   "status": "partial",
   "theorems": [
    "Starworlds.C86_result_partial",
    "Starworlds.C86_polygon_fails",
    "Starworlds.C86_polygon_false"
   ],
   "note": "Proved for obstacles of star-shaped classes, when kernel points can be chosen and are in general position. False: with a plain Polygon among the obstacles every call fails (no kernel method), AttributeError for a single box."
  },
  {
   "property": "C87",
   "status": "partial",
   "theorems": [
    "Starworlds.C87_disjoint_partial",
    "Starworlds.C87_ellipse_false"
   ],
   "note": "Proved for obstacles that are equal to their polygons, with and without make_convex. False for ellipses: two overlapping circles of radius 1 are returned as two clusters, as their polygons with the default 20 corners do not meet."
  },
  {
   "property": "C88",
   "status": "partial",
   "theorems": [
    "Starworlds.C88_star",
    "Starworlds.C88_ellipse",
    "Starworlds.C88_polygon_partial",
    "Starworlds.C88_given",
    "Starworlds.C88_given_star",
    "Starworlds.C88_stale_false"
   ],
   "note": "Proved for StarshapedPolygon and Ellipse in all histories, and for Polygon when no dilation comes after a query; a given is_convex argument is kept by Polygon and forgotten by copies of a StarshapedPolygon. False for Polygon otherwise: an L-shape that was asked and then dilated by -1.2 is a rectangle and still answers False."
  },
  {
   "property": "C89",
   "status": "partial",
   "theorems": [
    "Starworlds.C89_star_classes",
    "Starworlds.C89_polygon",
    "Starworlds.C89_sound_partial",
    "Starworlds.C89_corner_false",
    "Starworlds.C89_band_false",
    "Starworlds.C89_unchecked_false",
    "Starworlds.C89_simple_partial"
   ],
   "note": "The star-shaped classes answer True in all histories, also for a box with a notch that no point sees all of. Polygon gives the answer of is_convex: for polygons that do not cross themselves True exactly if every point sees all of it, unless a corner bends by less than the threshold; false for a box with a tiny notch; False for star-shaped polygons that are not convex."
  },
  {
   "property": "C90",
   "status": "partial",
   "theorems": [
    "Starworlds.C90_polygon",
    "Starworlds.C90_combination",
    "Starworlds.C90_ellipse_partial",
    "Starworlds.C90_ellipse_false"
   ],
   "note": "Proved for Polygon (with the sides: interior_point exactly inside) and for combinations. Ellipse: proved outside of the band of 1e-8; false in it (two predicates are True)."
  },
  {
   "property": "C91",
   "status": "partial",
   "theorems": [
    "Starworlds.C91_region_partial",
    "Starworlds.C91_outside_false",
    "Starworlds.C91_thin_false"
   ],
   "note": "Inside the box proved for convex cones beyond the threshold, half planes and non-convex cones. False outside of the box: a ring that meets itself and contains points that are not in the cone. False for thin cones: the polygon is the whole box."
  },
  {
   "property": "C92",
   "status": "partial",
   "theorems": [
    "Starworlds.C92_intersection_partial",
    "Starworlds.C92_list_partial",
    "Starworlds.C92_same_apex_partial",
    "Starworlds.C92_pair_partial",
    "Starworlds.C92_touching_false",
    "Starworlds.C92_empty"
   ],
   "note": "Without same_apex proved for cones as in C91; with same_apex for cones with directions in general position and points other than the apex. False for cones with a common border: one of the cones returned is the whole plane but a sliver, and points outside of both cones are in the result. Shapely operations are set operations on the rings that shapely accepts."
  },
  {
   "property": "C93",
   "status": "partial",
   "theorems": [
    "Starworlds.C93_first_partial",
    "Starworlds.C93_loop_partial",
    "Starworlds.C93_touching_false"
   ],
   "note": "Proved for single obstacles (line 242) and for clusters with tangents in general position (lines 340-359), also with exclude_obstacles. False for two triangles that touch where their tangents from the robot are."
  },
  {
   "property": "C94",
   "status": "partial",
   "theorems": [
    "Starworlds.C94_kernel_partial",
    "Starworlds.C94_none",
    "Starworlds.C94_hull_partial",
    "Starworlds.C94_loop_partial",
    "Starworlds.C94_polygon_partial",
    "Starworlds.C94_ellipse_false",
    "Starworlds.C94_disjoint_false"
   ],
   "note": "Proved for the corners of polygons: the entry of an obstacle is the closed region from which no corner is in the way, inner points of it give hulls without these corners, and clusters are restricted to it unless the rest is negligible. False for the obstacle as a whole: a triangle with its corners out of the way meets the hull. False for ellipses, which have no extreme_points: AttributeError."
  },
  {
   "property": "C95",
   "status": "partial",
   "theorems": [
    "Starworlds.C95_changed_partial",
    "Starworlds.C95_early_partial",
    "Starworlds.C95_value_partial",
    "Starworlds.C95_false",
    "Starworlds.C95_incomplete_false"
   ],
   "note": "False: a box with its centre as reference point has another one after a successful call; in an INCOMPLETE call the reference points of two boxes are changed as well. Proved: only reference points change, only of given obstacles that need no hull extension, only to the mean of their kernel points, and only if robot and goal are free; the cluster obstacles have the computed reference points after the call. The reference points are the only attribute modelled as state."
  },
  {
   "property": "C96",
   "status": "partial",
   "theorems": [
    "Starworlds.C96_kept_partial",
    "Starworlds.C96_star_partial",
    "Starworlds.C96_false"
   ],
   "note": "False: a second call for the same box moves the reference point of the cluster obstacle in the result of the first. Proved for cluster obstacles with hull or several members, for other obstacles, for later calls that return early; and the cluster obstacle stays starshaped for its new reference point."
  },
  {
   "property": "C97",
   "status": "partial",
   "theorems": [
    "Starworlds.C97_partial",
    "Starworlds.C97_history_partial",
    "Starworlds.C97_start",
    "Starworlds.C97_no_set_pos",
    "Starworlds.C97_false",
    "Starworlds.C97_write_false"
   ],
   "note": "Proved for programs that give no object to two motion models and do not write to positions, in particular for all programs without set_pos. False: after m1.set_pos(m0.pos()) moving m0 moves m1; writing to the array that pos() returned moves the obstacle."
  },
  {
   "property": "C98",
   "status": "partial",
   "theorems": [
    "Starworlds.C98_partial",
    "Starworlds.C98_other_partial",
    "Starworlds.C98_kept_partial",
    "Starworlds.C98_false",
    "Starworlds.C98_given_false"
   ],
   "note": "Proved for lists, tuples and integer arrays, and for arrays that are not the position of a motion model. False: the array returned by pos() and the array given to set_pos are changed by the next move."
  },
  {
   "property": "C99",
   "status": "partial",
   "theorems": [
    "Starworlds.C99_partial",
    "Starworlds.C99_fails_partial",
    "Starworlds.C99_int_false",
    "Starworlds.C99_tuple_false",
    "Starworlds.C99_run_partial"
   ],
   "note": "Proved for float arrays and lists, and that motion models without shared positions move independently of each other, exactly as in C46-C49. False for integer arrays (TypeError) and tuples (AttributeError), also for Static."
  },
  {
   "property": "C100",
   "status": "partial",
   "theorems": [
    "Starworlds.C100_partial",
    "Starworlds.C100_false"
   ],
   "note": "Proved for all motion models but Waypoints, and for Waypoints in histories without set_pos. False for Waypoints with set_pos: a query at the first waypoint makes the obstacle skip it after it has been put elsewhere."
  },
  {
   "property": "C101",
   "status": "partial",
   "theorems": [
    "Starworlds.C101_within_partial",
    "Starworlds.C101_stored_partial",
    "Starworlds.C101_false"
   ],
   "note": "Proved: in all histories no point of the polygon is farther than the total padding from the ellipse with offset 1e-3, and what is stored in either case. False: for the unit circle and padding 1 the two polygons differ. The buffer of shapely enters with the laws BufferOk."
  },
  {
   "property": "C102",
   "status": "partial",
   "theorems": [
    "Starworlds.C102_many_false",
    "Starworlds.C102_many_error_partial",
    "Starworlds.C102_two_false",
    "Starworlds.C102_one_partial",
    "Starworlds.C102_two_partial",
    "Starworlds.C102_one_false",
    "Starworlds.C102_transposed_partial"
   ],
   "note": "Proved for one point that needs no transformation and for two points at the same distance. False for two points at different distances (wrong directions), for three and more (ValueError, or two rows for n points), and for one point that has to be transformed (IndexError). C102_transposed_partial states what transform returns for two and more rows when the frames differ: the transformed points of the transposed first two rows."
  },
  {
   "property": "C103",
   "status": "partial",
   "theorems": [
    "Starworlds.C103_transform",
    "Starworlds.C103_columns_partial",
    "Starworlds.C103_rows_false",
    "Starworlds.C103_rows_many_false",
    "Starworlds.C103_transposed_partial"
   ],
   "note": "Proved for points in columns, all poses and both frames. False for points in rows: the first two rows are taken for the coordinates, more rows are ignored; C103_transposed_partial states the two values that come back."
  },
  {
   "property": "C104",
   "status": "partial",
   "theorems": [
    "Starworlds.C104_partial",
    "Starworlds.C104_distinct_partial",
    "Starworlds.C104_false",
    "Starworlds.C104_same_run"
   ],
   "note": "Proved for all histories in which the obstacles given to cluster_and_starify have ids, different within a call: any geometry in each call, any parameters, any earlier result as previous_clusters. False for obstacles with temporary ids: the cluster obstacles of all of them have the id None."
  },
  {
   "property": "C105",
   "status": "partial",
   "theorems": [
    "Starworlds.C105_partial",
    "Starworlds.C105_false",
    "Starworlds.C105_convex_false",
    "Starworlds.C105_order_false"
   ],
   "note": "Proved for clusters of two and more obstacles without make_convex, and for single obstacles that have not become their own cluster obstacle. False for an obstacle that needs a hull extension in the first call only, with make_convex, which gives a new id in each call, and for a cluster of three obstacles that are merged in another order (the name that is looked up is 1_3_2 instead of 1_2_3)."
  },
  {
   "property": "C106",
   "status": "partial",
   "theorems": [
    "Starworlds.C106_mono_partial",
    "Starworlds.C106_partial",
    "Starworlds.C106_false",
    "Starworlds.C106_merged_false"
   ],
   "note": "Proved: the counter never decreases; it stays as it is with a workspace, without make_convex and without intersections. False without a workspace (the default workspace is an Ellipse with a new id) and for obstacles that meet (the hull of the first iteration gets a new id in each call)."
  },
  {
   "property": "C107",
   "status": "partial",
   "theorems": [
    "Starworlds.C107_steps_partial",
    "Starworlds.C107_partial",
    "Starworlds.C107_false",
    "Starworlds.C107_sharp_false",
    "Starworlds.C107_radius_false"
   ],
   "note": "Proved for positive radii if 1 + irregularity < (n - 1)(1 - irregularity), as with the parameters of the tests, and for any draws without a step of a half turn. False whenever the condition is violated strictly: for some draws the centre is not even in the convex hull. False for radii that are clipped to 0."
  },
  {
   "property": "C108",
   "status": "partial",
   "theorems": [
    "Starworlds.C108_ring_partial",
    "Starworlds.C108_rotation",
    "Starworlds.C108_partial",
    "Starworlds.C108_equal_partial",
    "Starworlds.C108_separated_partial",
    "Starworlds.C108_false"
   ],
   "note": "Proved for all histories if the polygon is star-shaped about the current reference points (sorting is then a rotation of the vertices; the same points unless the query point is in line with two corners), and for all reference points if a line separates the query point from the polygon. False for a square with a reference point outside: the vertices are in the order of a bow tie and an inner point gets two tangent points."
  },
  {
   "property": "C109",
   "status": "partial",
   "theorems": [
    "Starworlds.C109_check_partial",
    "Starworlds.C109_runs_partial",
    "Starworlds.C109_triangle_false",
    "Starworlds.C109_star_partial",
    "Starworlds.C109_least_partial",
    "Starworlds.C109_vertices_partial",
    "Starworlds.C109_false"
   ],
   "note": "Proved for polygons that are star-shaped about all of the kernel points (the polygon itself is returned). For all polygons: the vertices of the result belong to every star-shaped region around the polygon, and vertices of the polygon with nothing behind them are vertices of the result. False for a thin triangle ten units away from the kernel point: line() leaves out the last 1e-4 of the way, the triangle is overlooked and the result crosses itself. False also for an ordinary triangle with three kernel points, where a vertex and a kernel point are lost. A checked rational run of the algorithm decides single polygons: if it succeeds and a test accepts its result, the call returns this result for all plain shapely operations and it is the hull; done for 15 runs that take all branches."
  },
  {
   "property": "C110",
   "status": "partial",
   "theorems": [
    "Starworlds.C110_same_partial",
    "Starworlds.C110_star_partial",
    "Starworlds.C110_runs_partial",
    "Starworlds.C110_false",
    "Starworlds.C110_rightmost_partial"
   ],
   "note": "Proved for all polygons, kernel points and shapely operations if one vertex is farther to the right than the others and the turn there exceeds the threshold; then also that clockwise star-shaped polygons are their own hulls. For polygons that are star-shaped about the kernel points also with several rightmost vertices, as boxes have them, if each of them has a turn beyond the threshold (C110_rightmost_partial). False for a strictly convex pentagon with a turn of 2e-12 at the rightmost vertex: in clockwise order the ring is not turned around, and the kernel point is inserted into an edge, which cuts off a part of the pentagon."
  },
  {
   "property": "C111",
   "status": "partial",
   "theorems": [
    "Starworlds.C111_inner_partial",
    "Starworlds.C111_partial",
    "Starworlds.C111_symm_partial",
    "Starworlds.C111_ellipse_partial",
    "Starworlds.C111_missed_false",
    "Starworlds.C111_alarm_false"
   ],
   "note": "Proved for obstacles that are simple polygons, in all histories; shapely's intersects enters with its law for simple polygons (the polygons at the current poses are proved simple). For ellipses: True only if the ellipses with axes longer by 1e-3 meet; no overlap is missed if the polygons contain the ellipses (C35), or if the ellipses shrunk by cos(pi/n) still overlap (C111_inner_partial). False otherwise: overlapping unit circles at the distance 1.995 give False, disjoint ones at 2.0015 give True."
  },
  {
   "property": "C112",
   "status": "partial",
   "theorems": [
    "Starworlds.C112_draw_partial",
    "Starworlds.C112_update_partial",
    "Starworlds.C112_matplotlib_false",
    "Starworlds.C112_combination_false"
   ],
   "note": "Proved for ellipses, polygons and star-shaped polygons in all histories with several obstacles, if matplotlib is older than 3.9 or no reference point is shown. False otherwise: set_data with two numbers raises an exception in recent versions, so draw with default options always fails; update_plot of a combination does nothing, and its drawing shows the cached polygon of an earlier pose."
  },
  {
   "property": "C113",
   "status": "partial",
   "theorems": [
    "Starworlds.C113_partial",
    "Starworlds.C113_hole_false",
    "Starworlds.C113_clip_false",
    "Starworlds.C113_thin_false"
   ],
   "note": "Proved for geometries without holes of which every clipped polygon is one polygon, with a law for the intersection with a box. False: holes are filled; AttributeError if the limits cut a polygon into several parts (letter U), and for points and lines."
  },
  {
   "property": "C114",
   "status": "partial",
   "theorems": [
    "Starworlds.C114_false",
    "Starworlds.C114_first_partial",
    "Starworlds.C114_new_figure_partial"
   ],
   "note": "False of every cluster: the pair (handles, axes) is assigned to (ax, _), so the second call of draw gets a list in place of the axes. Partial: the first object is drawn, on a new figure if no axes are given."
  },
  {
   "property": "C115",
   "status": "partial",
   "theorems": [
    "Starworlds.C115_panels",
    "Starworlds.C115_partial",
    "Starworlds.C115_points_false",
    "Starworlds.C115_line_false",
    "Starworlds.C115_none_false"
   ],
   "note": "Proved if some cluster has a non-empty admissible kernel, and the kernels and kernel points are single points or polygons without holes; the obstacles in the panels are left out. False: one or two kernel points raise ValueError, a kernel that is a segment AttributeError; without admissible kernels a single axes object is returned and no array."
  },
  {
   "property": "C116",
   "status": "proved",
   "theorems": [
    "Starworlds.C116_ellipse_values",
    "Starworlds.C116_ellipse_points",
    "Starworlds.C116_ellipse_tangents",
    "Starworlds.C116_polygon",
    "Starworlds.C116_star",
    "Starworlds.C116_direction"
   ],
   "note": "Proved for all three classes, poses and pairs of frames, exceptions included (the order of the tangent points of an Ellipse in the other frame is wrong, see C32)."
  },
  {
   "property": "C117",
   "status": "proved",
   "theorems": [
    "Starworlds.C117_interior",
    "Starworlds.C117_exterior"
   ],
   "note": "Proved for all vertex lists and histories without dilation; interior as even-odd interior of the ring."
  },
  {
   "property": "C118",
   "status": "partial",
   "theorems": [
    "Starworlds.C118_partial",
    "Starworlds.C118_convex_partial",
    "Starworlds.C118_previous_false",
    "Starworlds.C118_star_partial",
    "Starworlds.C118_program_partial"
   ],
   "note": "Proved for obstacles with distinct ids, without previous clusters and without exceptions, with iteration limits and time-outs, if the geometry routines do not depend on the order of their lists; with make_convex also, without an iteration limit and without a time-out in the make_convex stage. For convex obstacles the hulls are proved not to depend on the order (C118_star_partial), and with tangents in general position neither do the kernels and kernel points that are computed (C118_program_partial); there it is assumed that shapely depends on the points of its arguments only, that selection sets are clearly larger or smaller than 1e-6 with their centroids in the kernel, that the random draws are the same, that the test for empty kernels gives the same in any order, and that no exception is raised. False with previous clusters: they are looked up by a name made of the ids in the order given, so in another order the cluster is not found and its cluster obstacle gets a new id."
  },
  {
   "property": "C119",
   "status": "partial",
   "theorems": [
    "Starworlds.C119_objects",
    "Starworlds.C119_partial",
    "Starworlds.C119_convex_partial",
    "Starworlds.C119_convex_false"
   ],
   "note": "Proved without make_convex for all inputs; the model with objects also gives the same clusters as the model with values. With make_convex (different ids, no iteration limit) the clusters of the history that are not returned are as recorded. False with make_convex: the convex cluster obstacle is written to the shared object, so all entries of the history that have this cluster show it, also that of the first iteration."
  },
  {
   "property": "C120",
   "status": "partial",
   "theorems": [
    "Starworlds.C120_partial",
    "Starworlds.C120_no_write_partial",
    "Starworlds.C120_global_partial",
    "Starworlds.C120_angles_partial",
    "Starworlds.C120_xr",
    "Starworlds.C120_false"
   ],
   "note": "Proved while the program does not assign to an array that is the reference point of an obstacle at that time; so for programs that assign to no array, and for programs in which all obstacles have a motion model and all frames are global. The result of xr has the right value in all cases. False otherwise: with the obstacle frame or without a motion model set_xr keeps the array of the caller, and xr returns the array of the obstacle, so a later assignment moves the reference point (of two obstacles, if both got the array) and leaves the vertex angles as they were."
  },
  {
   "property": "C121",
   "status": "partial",
   "theorems": [
    "Starworlds.C121_partial",
    "Starworlds.C121_star",
    "Starworlds.C121_still_partial",
    "Starworlds.C121_others",
    "Starworlds.C121_twice",
    "Starworlds.C121_apart",
    "Starworlds.C121_kernel",
    "Starworlds.C121_false",
    "Starworlds.C121_negative_false"
   ],
   "note": "Proved for non-negative padding as long as both have the same pose: always for a StarshapedPolygon that keeps its motion model, for a Polygon until something moves. Regions are compact sets, the laws of shapely (PadOk) are met by exact circles (exactPad_ok). Star-shapedness is proved for exact circles. False for a Polygon that moves afterwards (copy makes a deep copy, also of the motion model, so the dilated obstacle stays behind), and for negative padding (the reference point can be outside)."
  },
  {
   "property": "C122",
   "status": "partial",
   "theorems": [
    "Starworlds.C122_partial",
    "Starworlds.C122_forever_partial",
    "Starworlds.C122_kept_partial",
    "Starworlds.C122_moving_partial",
    "Starworlds.C122_two",
    "Starworlds.C122_whole_partial",
    "Starworlds.C122_convex_partial",
    "Starworlds.C122_program_partial",
    "Starworlds.C122_false"
   ],
   "note": "For every unchanged scene the kernel points of a cluster are, from the second repeated call on, those of the call before the last (C122_two). They stay the same if their centre is inside of the selection set and not near the line, if the segment from robot to goal does not split the selection set, and, from the second repeated call on, if the admissible kernel is convex; then the whole result is the same again (different ids, no iteration limit, no time-out). False in general: with an admissible kernel that is not convex the centre, a nearest point of the admissible kernel, can be on the other side of the line than the part it was chosen for, and the next call takes the other part. In the witness (walls of two rooms) the kernel points alternate for ever. Its admissible kernel is given, not computed from cones."
  },
  {
   "property": "C123",
   "status": "partial",
   "theorems": [
    "Starworlds.C123_call_partial",
    "Starworlds.C123_kernel_partial",
    "Starworlds.C123_program_partial",
    "Starworlds.C123_exact",
    "Starworlds.C123_real",
    "Starworlds.C123_triangle_false",
    "Starworlds.C123_polygon",
    "Starworlds.C123_moving",
    "Starworlds.C123_false"
   ],
   "note": "Proved for obstacles with different ids, with the routines for kernel points and for empty kernels as parameters that move with the scene (C123_call_partial), and for the computed cones, kernels and kernel points without exclude_obstacles (C123_program_partial), if robot and goal are at least 1 from the border of the square of half width 1e6 before and after, tangents are in general position, the selection set is cut out of the obstacles, its centroid is in the admissible kernel, shapely moves with its arguments, the same random numbers are drawn, and the test for negligible kernels gives the same answer. The functions of cg.py are proved to move with their arguments, and moved polygons and ellipses to be the obstacles at the moved position. False in general: 2000000 to the left the same call raises AttributeError, since the cones miss the fixed square; equilateral_triangle with a rotation turns about the origin."
  },
  {
   "property": "C124",
   "status": "partial",
   "theorems": [
    "Starworlds.C124_partial",
    "Starworlds.C124_incomplete_partial",
    "Starworlds.C124_convex_partial",
    "Starworlds.C124_limit_false",
    "Starworlds.C124_convex_false",
    "Starworlds.C124_temporary_false",
    "Starworlds.C124_order_false"
   ],
   "note": "Proved for obstacles with different ids, without iteration limit and time-outs, if both calls return and list(set(.)) keeps its order when all indices are shifted (CPython: up to 8 obstacles); a group that is INCOMPLETE makes the whole call INCOMPLETE; with make_convex if hulls of one group do not meet the other. The geometry routines of a cluster are taken to depend on its obstacles, iteration and previous kernel points only: not so with exclude_obstacles, and random draws are taken to be the same. False: with an iteration limit that the other group reaches, finished clusters lose cluster obstacle and kernel points; with make_convex if a hull meets the other group; with temporary ids a far obstacle replaces another one; from nine obstacles on the obstacles of a cluster can come in another order, and so with another name."
  },
  {
   "property": "C125",
   "status": "partial",
   "theorems": [
    "Starworlds.C125_clustering_partial",
    "Starworlds.C125_colours_false",
    "Starworlds.C125_hull_partial",
    "Starworlds.C125_hole_false",
    "Starworlds.C125_moved_false",
    "Starworlds.C125_matplotlib_false"
   ],
   "note": "draw_clustering: proved for up to 256 clusters; false for more, as the colour map has 256 entries. draw_star_hull: proved for all histories with the law of unary_union (UnionOk) if the unions have no holes, the cached polygons of the clusters are those of the current poses and set_data is not called with numbers in a recent matplotlib. False otherwise: a hole is filled; an obstacle that has moved since polygon_excluding_hull was called is drawn at its old place; exception with an Ellipse or StarshapedPolygon as cluster obstacle. Markers of robot and goal and axis limits are left out."
  },
  {
   "property": "C126",
   "status": "partial",
   "theorems": [
    "Starworlds.C126_points_partial",
    "Starworlds.C126_call_partial",
    "Starworlds.C126_kernel_partial",
    "Starworlds.C126_program_partial",
    "Starworlds.C126_line_false"
   ],
   "note": "Proved for returned results (which of two exceptions is raised can change) and obstacles with different ids, without exclude_obstacles: kernel points are the same with or without previous cluster (C126_points_partial), admissible kernels are the same (C126_kernel_partial), and so is the whole result (C126_call_partial, C126_program_partial with the computed kernels), if shapely.ops.split gives the same parts for both directions, the same random numbers are drawn, previous centres are not near the line through robot and goal and no centroid of a part is when the previous centre is not kept; C126_program_partial needs robot and goal in general position in the square of the cones. False otherwise: a previous centre on the line counts as clockwise for both orders, so the exchanged call takes the other half of the selection set. The witness is a call of compute_kernel_points."
  },
  {
   "property": "C127",
   "status": "partial",
   "theorems": [
    "Starworlds.C127_arrival_partial",
    "Starworlds.C127_path_partial",
    "Starworlds.C127_overshoot_false"
   ],
   "note": "Proved for steps shorter than twice the threshold: all waypoints are visited in order once the steps add up to the length of the path and twice the threshold per leg, and the obstacle then stays (C127_arrival_partial); it is always nearer than the threshold to the path if no step goes backwards (C127_path_partial). False for every longer step: with a waypoint at half a step the obstacle jumps over it, to and fro, for ever. Exact arithmetic."
  },
  {
   "property": "C128",
   "status": "partial",
   "theorems": [
    "Starworlds.C128_axes_partial",
    "Starworlds.C128_heading_partial",
    "Starworlds.C128_return_partial",
    "Starworlds.C128_steps_false"
   ],
   "note": "The distance from the curve is proved for all non-negative steps, along the axes (C128_axes_partial) and with a heading (C128_heading_partial), and the exact return for two or more equal steps per period (C128_return_partial). The return is false for one step per period and for unequal steps: the sums of the velocities at the starts of the steps are not zero. Exact arithmetic."
  },
  {
   "property": "C129",
   "status": "partial",
   "theorems": [
    "Starworlds.C129_schedule_partial",
    "Starworlds.C129_approach_partial",
    "Starworlds.C129_swing_false",
    "Starworlds.C129_pause_false"
   ],
   "note": "The distance from the schedule is proved for all steps that end within the schedule (C129_schedule_partial), and the approach, from any state, for steps that are bounded from below and by B with B < 2 and B times the speed of the last leg < 2, if that speed is not 0 (C129_approach_partial). False otherwise: for every step there is a schedule after which the obstacle swings to and fro for ever at distance 1 (speed times step = 2), and after a schedule that ends with a pause it stays where the last step before the pause has taken it. Exact arithmetic."
  },
  {
   "property": "C130",
   "status": "partial",
   "theorems": [
    "Starworlds.C130_partial",
    "Starworlds.C130_cut_partial",
    "Starworlds.C130_star_partial",
    "Starworlds.C130_sum_partial",
    "Starworlds.C130_ellipse_false",
    "Starworlds.C130_sum_false",
    "Starworlds.C130_crossing_false"
   ],
   "note": "Proved, with Lebesgue measure as the area and the even-odd rule for the region, for all polygons whose ring does not touch or cross itself (C130_partial; the winding number of such a ring takes one value beside 0, which is 1 or -1), for rings that may touch themselves but can be cut along diagonals into pieces that run once around a point (C130_cut_partial; star-shaped polygons in C130_star_partial), and so is the bound for sums (C130_sum_partial). False for ellipses and combinations, which have no method area, so that tests/test_cluster_and_starify.py:39 raises AttributeError (C130_ellipse_false, C130_sum_false), and for rings that cross themselves (C130_crossing_false). Exact arithmetic."
  },
  {
   "property": "C131",
   "status": "partial",
   "theorems": [
    "Starworlds.C131_partial",
    "Starworlds.C131_false"
   ],
   "note": "Proved for all draws that give no zero edge and no two edges of the same direction (C131_partial). False otherwise: the x and y components are sorted separately, so two edges of the same direction exchange components; with the draws 0, 1/3, 2/3, 1 for both coordinates the polygon is a broken line that does not contain the origin (C131_false). Exact arithmetic."
  },
  {
   "property": "C132",
   "status": "partial",
   "theorems": [
    "Starworlds.C132_least_partial",
    "Starworlds.C132_partial",
    "Starworlds.C132_grows_partial",
    "Starworlds.C132_call_partial",
    "Starworlds.C132_false"
   ],
   "note": "That the returned polygons are not too large is proved for all kernel points and whatever convex_hull returns (C132_least_partial). That obstacles and polygons together are the smallest star-shaped set, and that it grows with obstacles and kernel points, is proved if the tangent points and kernel points are in general position (C132_partial, C132_grows_partial), also for the cluster obstacles of a call without make_convex and max_iterations (C132_call_partial, for selected kernel points as in C85). False otherwise, as convex_hull does not finish for collinear points (C132_false). Exact arithmetic."
  },
  {
   "property": "C133",
   "status": "partial",
   "theorems": [
    "Starworlds.C133_kernel",
    "Starworlds.C133_partial",
    "Starworlds.C133_border_false",
    "Starworlds.C133_line_false"
   ],
   "note": "Proved for all rings without crossings and all reference points inside the visibility kernel (C133_partial), with the intersection of a segment and the ring as a library call with a specification; these points are exactly the ones about which the oriented ring is star-shaped in the sense of C39, C41 and C83, and the kernel is then the intersection of the half-planes of the edges (C133_kernel). False on the border of the kernel: from the middle of a side of a square the distance function is 25/16 at an inner point (C133_border_false), and for an inner point of an L in line with one of its edges it is not 1 on all of that edge, whatever shapely returns (C133_line_false). Exact arithmetic."
  },
  {
   "property": "C134",
   "status": "partial",
   "theorems": [
    "Starworlds.C134_partial",
    "Starworlds.C134_motion_partial",
    "Starworlds.C134_false"
   ],
   "note": "Proved for all rings without crossings and reference points inside the visibility kernel, at every pose and in all frames (C134_partial), and for continuously moving obstacles and points that do not pass through the reference point, with the time at which the boundary is crossed (C134_motion_partial). At the reference point itself the code divides by zero; its value is left out. False on the border of the kernel: from the middle of a side of a square the value jumps from 9/4 to 1/4 at the centre of the square (C134_false). Exact arithmetic; the intersection of a segment and the ring is a library call with a specification."
  },
  {
   "property": "C135",
   "status": "partial",
   "theorems": [
    "Starworlds.C135_convex_partial",
    "Starworlds.C135_distance_partial",
    "Starworlds.C135_star_partial",
    "Starworlds.C135_small_false"
   ],
   "note": "is_convex, is_starshaped and the kernel: proved for draws with edges of different directions if every corner bends by more than the threshold (C135_convex_partial). False for small polygons: in a box at most 7e-6 wide is_convex() raises IndexError for all draws, and so does StarshapedPolygon without reference point (C135_small_false). The distance function: proved without a condition on the size, for generate_convex_polygon with edges of different directions (C135_distance_partial; see C131 for equal directions) and for generate_star_polygon with positive radii and steps as in C107 (C135_star_partial). Exact arithmetic; the intersection of a segment and the ring is a library call with a specification."
  },
  {
   "property": "C136",
   "status": "partial",
   "theorems": [
    "Starworlds.C136_partial",
    "Starworlds.C136_centre_partial",
    "Starworlds.C136_circle_partial",
    "Starworlds.C136_false"
   ],
   "note": "Off-centre reference points: a closed formula, continuous everywhere, in directions not steeper than 100 with a chord wider than 2e-4 (C136_partial). Default reference point: all values for half axes of at least 1/50 with a2 <= 40 a1: the quadratic form up to the steepness 100, |x|^2/a2^2 in steeper directions (C136_centre_partial); so for circles it is the quadratic form everywhere (C136_circle_partial). False otherwise: with half axes 2 and 1 the value jumps at (1, 100) (C136_false). At the reference point itself the code divides by zero. Exact arithmetic."
  },
  {
   "property": "C137",
   "status": "partial",
   "theorems": [
    "Starworlds.C137_partial",
    "Starworlds.C137_near_false"
   ],
   "note": "Proved for all members and hulls that are compact with their boundaries, at all points for which the point ten times as far from the reference point is not inside the covered set, given that each line_intersection returns points of the crossing with the boundary, the farthest one included (C137_partial); covered_kernel reduces the visibility to that of the parts. False nearer to the reference point: there boundary_mapping returns None and distance_function raises TypeError (C137_near_false). Exact arithmetic."
  },
  {
   "property": "C138",
   "status": "partial",
   "theorems": [
    "Starworlds.C138_partial",
    "Starworlds.C138_polygon_partial",
    "Starworlds.C138_near_false",
    "Starworlds.C138_border_false"
   ],
   "note": "Proved for calls without iteration limit whose kernel points are in general position with the tangent points and free of robot and goal as in C85, if the intersections of segments with the borders of members and hull are right (Represents; the hull has no hole); a cluster of one obstacle that contains its kernel points is returned as that obstacle and not as a combination. All outer points, robot and goal included, and all inner points that are not closer to the reference point than a tenth of the border (C138_partial). False at nearer inner points, where it raises TypeError, for instance for two boxes that meet (C138_near_false). The StarshapedPolygons returned with make_convex have the values at all points except the reference point, and at robot and goal at least 1, if the polygon is simple with the region of the hull and the intersections with it are right (C138_polygon_partial); false that it is above 1 there, since the robot may be on the border of the convex obstacle (C138_border_false). Exact arithmetic."
  },
  {
   "property": "C139",
   "status": "partial",
   "theorems": [
    "Starworlds.C139_below_partial",
    "Starworlds.C139_within_partial",
    "Starworlds.C139_ends_partial",
    "Starworlds.C139_enough_partial",
    "Starworlds.C139_shares_partial",
    "Starworlds.C139_cut_partial",
    "Starworlds.C139_false"
   ],
   "note": "Proved: a result that reports fewer iterations than the limit (or one) is the result without limit (C139_below_partial; C53_limit_partial and C85_limit_partial carry C53 and C85 over to such calls), a result without limit that needs at most the limit and is not INCOMPLETE is the result with limit (C139_within_partial), a limit of at least the number of obstacles changes nothing, exceptions included (C139_enough_partial), every call with limit m ends after at most max(m, 2) iterations (C139_ends_partial), the obstacles are shared out among the clusters whatever the limit (different ids; C139_shares_partial), and a result without make_convex that is cut off consists of clusters without kernel points and polygon, those of several obstacles without cluster obstacle (C139_cut_partial). False for limits 0 and 1, with which two iterations are made (C139_false)."
  },
  {
   "property": "C140",
   "status": "partial",
   "theorems": [
    "Starworlds.C140_ellipse_partial",
    "Starworlds.C140_together_partial",
    "Starworlds.C140_false"
   ],
   "note": "Proved for obstacles that are covered by their polygons (all but ellipses), with and without make_convex, with any iteration limit (C140_together_partial); intersects of two polygons is taken as a non-empty intersection of the point sets. Different ids are needed (with equal ids an obstacle can be lost, see C57). Ellipses that still overlap when shrunk by cos(pi/n) are in the same cluster (C140_ellipse_partial). False for ellipses that overlap less: two overlapping circles, whose polygons with 20 corners do not meet, are returned as two clusters (C140_false, with the scene of C87)."
  },
  {
   "property": "C141",
   "status": "partial",
   "theorems": [
    "Starworlds.C141_partial",
    "Starworlds.C141_false"
   ],
   "note": "Proved, when polygon() has been called before kernel() (otherwise see C23): the reported kernel contains the ellipse shrunk by cos(pi/n), all of the ellipse if a <= (a+1e-3) cos(pi/n) for both axes, and only points of the ellipse with axes longer by 1e-3 (C141_partial). False otherwise: the kernel of the unit circle with the default 20 corners has the point (1.001, 0) outside of the circle and lacks points of the circle (C141_false)."
  },
  {
   "property": "C142",
   "status": "partial",
   "theorems": [
    "Starworlds.C142_convex_partial",
    "Starworlds.C142_corner_partial",
    "Starworlds.C142_shapes_partial",
    "Starworlds.C142_none_false",
    "Starworlds.C142_first_partial",
    "Starworlds.C142_stale_false",
    "Starworlds.C142_convex_false"
   ],
   "note": "Proved for all histories during which the union stays the same: is_convex() is right for every union whose exterior does not cross itself, given in either order, and kernel() is the visibility kernel if it is convex (bends of 0 or above 1e-10; C142_convex_partial) or a corner made of two rectangles (C142_corner_partial) or one of twenty other star-shaped polygons (C142_shapes_partial). False for other unions even if nothing moves: for a hook, all of which is visible from one point, kernel() returns None (C142_none_false). In all histories both stay what they were when first found (C142_first_partial). False when members move after the first call: kernel() stays that of the old union and contains points that are now exterior (C142_stale_false), and is_convex() stays True when two rectangles are turned into a corner (C142_convex_false). Holes of the union are left out."
  }
 ]
}