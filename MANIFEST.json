{
 "claims": [
  {
   "property": "C01",
   "status": "proved",
   "theorems": [
    "F2C.Props.C01_order_preserves_swaths"
   ],
   "note": "All four order classes, every variant, every std::sort. Valid parameters: snake not on a single swath, spiral size >= 1, custom order a permutation; positive widths (others throw). The type of a swath is lost, see C09."
  },
  {
   "property": "C02",
   "status": "partial",
   "theorems": [
    "F2C.Props.C02_flags_alternate",
    "F2C.Props.C02_alternates_partial",
    "F2C.Props.C02_same_direction_witness"
   ],
   "note": "Direction flags always alternate; geometric alternation holds when flags record the orientation, and is refuted in general by a concrete witness."
  },
  {
   "property": "C03",
   "status": "proved",
   "theorems": [
    "F2C.Props.C03_boustrophedon_sorted"
   ],
   "note": ""
  },
  {
   "property": "C04",
   "status": "proved",
   "theorems": [
    "F2C.Props.C04_snake_pattern",
    "F2C.Props.C04_snake_jump_at_most_two"
   ],
   "note": ""
  },
  {
   "property": "C05",
   "status": "partial",
   "theorems": [
    "F2C.Props.C05_no_ub_partial",
    "F2C.Props.C05_snake_single_swath_ub",
    "F2C.Props.C05_spiral_zero_ub"
   ],
   "note": "False as stated: snake order on one swath and spiral size 0 are undefined behaviour; no UB in all other cases."
  },
  {
   "property": "C06",
   "status": "proved",
   "theorems": [
    "F2C.Props.C06_spiral_pattern",
    "F2C.Props.C06_constructor"
   ],
   "note": ""
  },
  {
   "property": "C07",
   "status": "proved",
   "theorems": [
    "F2C.Props.C07_custom_order",
    "F2C.Props.C07_cases_exhaustive"
   ],
   "note": ""
  },
  {
   "property": "C08",
   "status": "partial",
   "theorems": [
    "F2C.Props.C08_variant_mod_four",
    "F2C.Props.C08_bit0_other_end",
    "F2C.Props.C08_bit1_turns_all_partial",
    "F2C.Props.C08_custom_ignores_bit1",
    "F2C.Props.C08_first_runs_up",
    "F2C.Props.C08_first_runs_down_partial"
   ],
   "note": "Bit 1 has no effect for custom orders that do not begin with position 0 (witness)."
  },
  {
   "property": "C09",
   "status": "partial",
   "theorems": [
    "F2C.Props.C09_clone_exact_partial",
    "F2C.Props.C09_clone_loses_type",
    "F2C.Props.C09_clone_throws",
    "F2C.Props.C09_sorters_lose_type"
   ],
   "note": "False: clone drops the swath type and throws for swaths of width 0."
  },
  {
   "property": "C10",
   "status": "partial",
   "theorems": [
    "F2C.Props.C10_equality_partial",
    "F2C.Props.C10_equality_not_symmetric",
    "F2C.Props.C10_equal_different_ends",
    "F2C.Props.C10_order_by_id",
    "F2C.Props.C10_strict_order",
    "F2C.Props.C10_incomparable"
   ],
   "note": "False: == is not symmetric for swaths with different direction flags. < is a strict weak order; different swaths with the same id are not comparable by any operator."
  },
  {
   "property": "C11",
   "status": "proved",
   "theorems": [
    "F2C.Props.C11_getSwath_is_flatten"
   ],
   "note": ""
  },
  {
   "property": "C12",
   "status": "proved",
   "theorems": [
    "F2C.Props.C12_costs_optimal",
    "F2C.Props.C12_getCosts_optimal",
    "F2C.Props.C13_between_points"
   ],
   "note": "Nodes 0..N-1 each with an outgoing edge (otherwise C66), costs in [0, INF), INF <= 2^62; in-place Floyd-Warshall as written."
  },
  {
   "property": "C13",
   "status": "proved",
   "theorems": [
    "F2C.Props.C13_paths_real",
    "F2C.Props.C13_getPaths",
    "F2C.Props.C13_between_points",
    "F2C.Props.C13_cost_above_inf_ub"
   ],
   "note": "Zero-cost cycles included. With an edge costing INF or more the reconstruction loop has undefined behaviour (witness), so costs below INF are a precondition."
  },
  {
   "property": "C14",
   "status": "proved",
   "theorems": [
    "F2C.Props.C14_no_overflow",
    "F2C.Props.C14_overflow_beyond_bound",
    "F2C.Props.C14_largest_inf"
   ],
   "note": "Any node numbering and any non-negative costs."
  },
  {
   "property": "C15",
   "status": "partial",
   "theorems": [
    "F2C.Props.C15_queries_reflect_graph_partial",
    "F2C.Props.C15_stale_after_removal",
    "F2C.Props.C15_stale_inf"
   ],
   "note": "False: removing an edge keeps the caches, and the first INF used is kept; proved for histories of insertions and queries with one INF."
  },
  {
   "property": "C16",
   "status": "proved",
   "theorems": [
    "F2C.Props.C16_all_simple_paths",
    "F2C.Props.C16_between_points"
   ],
   "note": "Second theorem: the same for the paths between points of a Graph2D."
  },
  {
   "property": "C17",
   "status": "partial",
   "theorems": [
    "F2C.Props.C17_one_node_per_point_partial",
    "F2C.Props.C17_equal_points_two_nodes",
    "F2C.Props.C17_hash_out_of_range_ub",
    "F2C.Props.C17_numbers_kept",
    "F2C.Props.C17_unknown_number"
   ],
   "note": "False: two points that compare equal but have different hash values get two nodes, and the hash of points with negative coordinates is undefined behaviour; proved when points that compare equal are identical and the hash is defined."
  },
  {
   "property": "C18",
   "status": "proved",
   "theorems": [
    "F2C.Props.C18_alternates",
    "F2C.Props.C18_swaths_kept"
   ],
   "note": "Any sequence of calls of the functions that build a route."
  },
  {
   "property": "C19",
   "status": "partial",
   "theorems": [
    "F2C.Props.C19_concatenation",
    "F2C.Props.C19_call_appends",
    "F2C.Props.C19_no_point_lost",
    "F2C.Props.C19_ends_partial",
    "F2C.Props.C19_length",
    "F2C.Props.C19_clone",
    "F2C.Props.C19_false_for_empty_group",
    "F2C.Props.C19_false_for_empty_last_group"
   ],
   "note": "startPoint and endPoint are wrong for routes with empty groups (witnesses); everything else holds for all routes."
  },
  {
   "property": "C20",
   "status": "partial",
   "theorems": [
    "F2C.Props.C20_cost_is_length_partial",
    "F2C.Props.C20_false_for_empty_connection",
    "F2C.Props.C20_empty_group_ub",
    "F2C.Props.C20_single_point_throws"
   ],
   "note": "False if the connection between two groups is empty although they do not touch (witness); undefined behaviour for empty groups; proved for all other routes."
  },
  {
   "property": "C21",
   "status": "partial",
   "theorems": [
    "F2C.Props.C21_each_swath_once_partial",
    "F2C.Props.C21_swath_dropped",
    "F2C.Props.C21_no_swaths_ub",
    "F2C.Props.C21_default_depot_never_ok"
   ],
   "note": "False if the start point is the end of a swath (a swath is dropped, witness), without swaths (undefined behaviour), and strictly speaking always when no start point is set (hash of the auxiliary depot undefined); proved for pairwise different points and every optimiser that avoids missing edges."
  },
  {
   "property": "C22",
   "status": "partial",
   "theorems": [
    "F2C.Props.C22_connections_partial",
    "F2C.Props.C22_headland_connects",
    "F2C.Props.C22_start_at_swath_throws",
    "F2C.Props.C22_unconnected_jump"
   ],
   "note": "False if the start point is the start of the first swath (throws) or if the headland is not connected (empty connection); proved for pairwise different points on a connected headland graph."
  },
  {
   "property": "C23",
   "status": "proved",
   "theorems": [
    "F2C.Props.C23_tracks_leave_no_gap",
    "F2C.Props.C23_swaths_leave_gap"
   ],
   "note": "Track lines of every cell with an area. The swaths cut out of them can leave a strip uncovered at the far border (second theorem, a witness beyond the property)."
  },
  {
   "property": "C24",
   "status": "partial",
   "theorems": [
    "F2C.Props.C24_tracks_spacing_and_count",
    "F2C.Props.C24_overlap_option_has_no_effect",
    "F2C.Props.C24_overlap_keeps_swaths_partial"
   ],
   "note": "Spacing and counts hold; the overlap option never changes the generated swaths (proved for every cell, angle and width)."
  },
  {
   "property": "C25",
   "status": "partial",
   "theorems": [
    "F2C.Props.C25_append_numbers",
    "F2C.Props.C25_append_rejects",
    "F2C.Props.C25_generated_numbers",
    "F2C.Props.C25_one_group_per_cell",
    "F2C.Props.C25_no_group_for_empty_cells",
    "F2C.Props.C25_nonpositive_width_never_returns"
   ],
   "note": "All parts hold for positive widths; for non-positive widths the generator does not throw but never ends; if all cells are empty there is no group."
  },
  {
   "property": "C26",
   "status": "proved",
   "theorems": [
    "F2C.Props.C26_brute_force_optimal",
    "F2C.Props.C26_best_swaths",
    "F2C.Props.C26_best_per_cell",
    "F2C.Props.C26_bad_step"
   ],
   "note": "Over the reals; steps outside (0, 2 pi] return nothing."
  },
  {
   "property": "C27",
   "status": "partial",
   "theorems": [
    "F2C.Props.C27_exact_value",
    "F2C.Props.C27_projection_partial",
    "F2C.Props.C27_start_independent_partial",
    "F2C.Props.C27_wrong_for_six_points"
   ],
   "note": "False: unless the number of ring points divides 2^64 or 2^64-1 a spurious term is added (witness: any ring of 6 points); the exact value is proved for all rings."
  },
  {
   "property": "C28",
   "status": "partial",
   "theorems": [
    "F2C.Props.C28_exact_value",
    "F2C.Props.C28_all_pairs_partial",
    "F2C.Props.C28_pairs_missing"
   ],
   "note": "False: pairs of swaths i, j with i + j + 1 < n are not counted (witness with 3 swaths); exact value proved for all n."
  },
  {
   "property": "C29",
   "status": "partial",
   "theorems": [
    "F2C.Props.C29_out_to_in",
    "F2C.Props.C29_remaining",
    "F2C.Props.C29_in_to_out_partial",
    "F2C.Props.C29_rectangle_partial",
    "F2C.Props.C29_one_ring_partial",
    "F2C.Props.C29_directions_differ",
    "F2C.Props.C29_ring_leaves_field",
    "F2C.Props.C29_zero_swaths_ring_outside"
   ],
   "note": "For buffers with mitred corners, as the code asks for, under a contract for regions as sets. Outside-in as stated for convex fields; at reflex corners rings are deeper than asked for. Both directions agree for one ring and for rectangles. In general inside-out gives other rings: they can leave the field (witness: square without a corner), vanish (small fields), and for n = 0 there is one ring outside of the field."
  },
  {
   "property": "C30",
   "status": "partial",
   "theorems": [
    "F2C.Props.C30_computed_partial",
    "F2C.Props.C30_only_ends_moved",
    "F2C.Props.C30_cached",
    "F2C.Props.C30_cached_wrong_angle",
    "F2C.Props.C30_end_of_path"
   ],
   "note": "Exact when the turn is computed. Turns from the cache have exact positions but headings that are up to 1 mrad off (proved bound and witness). For any solver, only the two ends of a turn are corrected, and only by about 5 cm."
  },
  {
   "property": "C31",
   "status": "partial",
   "theorems": [
    "F2C.Props.C31_ranges",
    "F2C.Props.C31_invertible",
    "F2C.Props.C31_canonical_partial",
    "F2C.Props.C31_mirror_differs",
    "F2C.Props.C31_same_point_differs"
   ],
   "note": "Ranges and inverse without restriction. The normal form is not canonical for mirrored turns that start along the line between the points, nor for turns that end where they start (witnesses)."
  },
  {
   "property": "C32",
   "status": "partial",
   "theorems": [
    "F2C.Props.C32_answer_of_alike",
    "F2C.Props.C32_transparent_partial",
    "F2C.Props.C32_velocity",
    "F2C.Props.C32_discretization",
    "F2C.Props.C32_rounding"
   ],
   "note": "False: the key of the cache omits turn velocity and discretisation and cuts to thousandths (witnesses). Proved: which answer is given for any history, and transparency for requests on which the solver agrees."
  },
  {
   "property": "C33",
   "status": "proved",
   "theorems": [
    "F2C.Props.C33_discretize_swath",
    "F2C.Props.C33_zero_step"
   ],
   "note": "For every step but 0, where the loop does not end."
  },
  {
   "property": "C34",
   "status": "partial",
   "theorems": [
    "F2C.Props.C34_groups",
    "F2C.Props.C34_length",
    "F2C.Props.C34_time_partial",
    "F2C.Props.C34_first",
    "F2C.Props.C34_time_fails"
   ],
   "note": "Everything but the task time holds for all paths (length for non-negative lengths). The time changes when merged states have different velocities (witness)."
  },
  {
   "property": "C35",
   "status": "partial",
   "theorems": [
    "F2C.Props.C35_populate_partial",
    "F2C.Props.C35_start",
    "F2C.Props.C35_populate_short",
    "F2C.Props.C35_populate_zero",
    "F2C.Props.C35_discretize_partial",
    "F2C.Props.C35_discretize_destroys",
    "F2C.Props.C35_second_knot_wrong"
   ],
   "note": "populate as stated for paths with some length. False of discretize: a path shorter than a tenth of the step is deleted, and a sample on the second knot is off the path (spline, C57)."
  },
  {
   "property": "C36",
   "status": "proved",
   "theorems": [
    "F2C.Props.C36_at",
    "F2C.Props.C36_start",
    "F2C.Props.C36_end",
    "F2C.Props.C36_empty"
   ],
   "note": ""
  },
  {
   "property": "C37",
   "status": "partial",
   "theorems": [
    "F2C.Props.C37_isometry",
    "F2C.Props.C37_moves_states",
    "F2C.Props.C37_distances",
    "F2C.Props.C37_length_time",
    "F2C.Props.C37_mirror_twice",
    "F2C.Props.C37_rotate_back_partial",
    "F2C.Props.C37_rotation_drops_height",
    "F2C.Props.C37_sums"
   ],
   "note": "Rotating back restores the path if all heights are 0: a rotation sets them to 0. Everything else for all paths."
  },
  {
   "property": "C38",
   "status": "proved",
   "theorems": [
    "F2C.Props.C38_drives",
    "F2C.Props.C38_without_turns",
    "F2C.Props.C38_route",
    "F2C.Props.C38_exists"
   ],
   "note": "For every turn planner whose states are of type TURN (C43 shows this for the library's), any cache history, and whole routes too. C38_exists: planning succeeds for swaths of two or more points."
  },
  {
   "property": "C39",
   "status": "partial",
   "theorems": [
    "F2C.Props.C39_partial",
    "F2C.Props.C39_only_connections_ub",
    "F2C.Props.C39_empty_swath_throws",
    "F2C.Props.C39_one_point_swath_throws",
    "F2C.Props.C39_one_point_connection_throws"
   ],
   "note": "False: a route that only has connections is read out of bounds (witness). Proved for every other API-built route within 1000 km and turn planners that cause no undefined behaviour; degenerate swaths and connections are answered by exceptions."
  },
  {
   "property": "C40",
   "status": "partial",
   "theorems": [
    "F2C.Props.C40_partial",
    "F2C.Props.C40_bent_everywhere",
    "F2C.Props.C40_off_connection",
    "F2C.Props.C40_close",
    "F2C.Props.C40_way_points",
    "F2C.Props.C40_one_each"
   ],
   "note": "False: intermediate way points cut gentle bends (witness). Proved: ends, at least two poses, way points on chords that jump over no bend; on the connection itself if it bends everywhere."
  },
  {
   "property": "C41",
   "status": "proved",
   "theorems": [
    "F2C.Props.C41_round_trip",
    "F2C.Props.C41_load_appends",
    "F2C.Props.C41_never_throws",
    "F2C.Props.C41_interrupted",
    "F2C.Props.C41_last_numbers",
    "F2C.Props.C41_default_precision"
   ],
   "note": "Printing and reading a number is a parameter with the guarantees of the C++ standard (shown to be consistent by an instance). The default precision is 6 significant digits: UTM coordinates move by metres. Directions and types without a name, which C++ allows, are one outcome of the model."
  },
  {
   "property": "C42",
   "status": "proved",
   "theorems": [
    "F2C.Props.C42_loop_detector",
    "F2C.Props.C42_search",
    "F2C.Props.C42_no_loop_fixing",
    "F2C.Props.C42_limits",
    "F2C.Props.C42_spiral_not_detected"
   ],
   "note": "Loop free in the sense of loop_detected, whose meaning is proved; it does not see turning by change of curvature (witness). createConstrainedTurn without loop fixing makes one attempt."
  },
  {
   "property": "C43",
   "status": "proved",
   "theorems": [
    "F2C.Props.C43_states",
    "F2C.Props.C43_length"
   ],
   "note": "For states whose direction is 1 or -1, as the steering library produces; other values are not enumerators and are treated as undefined."
  },
  {
   "property": "C44",
   "status": "proved",
   "theorems": [
    "F2C.Props.C44_mod_2pi_canonical"
   ],
   "note": "Over the reals."
  },
  {
   "property": "C45",
   "status": "proved",
   "theorems": [
    "F2C.Props.C45_angle_diff_metric",
    "F2C.Props.C45_angle_diff_is_least"
   ],
   "note": "Over the reals."
  },
  {
   "property": "C46",
   "status": "proved",
   "theorems": [
    "F2C.Props.C46_angle_continuity",
    "F2C.Props.C46_empty_ub"
   ],
   "note": "Over the reals; the number of turns has to fit in an int; an empty vector is undefined behaviour."
  },
  {
   "property": "C47",
   "status": "proved",
   "theorems": [
    "F2C.Props.C47_angle_average"
   ],
   "note": "Over the reals."
  },
  {
   "property": "C48",
   "status": "partial",
   "theorems": [
    "F2C.Props.C48_segment_partial",
    "F2C.Props.C48_segment_space",
    "F2C.Props.C48_height",
    "F2C.Props.C48_line_partial",
    "F2C.Props.C48_short_lines",
    "F2C.Props.C48_cell_partial",
    "F2C.Props.C48_cells_partial",
    "F2C.Props.C48_empty_cell"
   ],
   "note": "Proved for borders of constant height and rings with two or more points. False otherwise: the segment formula is three dimensional but distances are planar (C48_height); one-point lines and empty cells read an empty vector (UB)."
  },
  {
   "property": "C49",
   "status": "partial",
   "theorems": [
    "F2C.Props.C49_intersection",
    "F2C.Props.C49_parallel",
    "F2C.Props.C49_signed_zero_partial",
    "F2C.Props.C49_signed_reverse",
    "F2C.Props.C49_signed_side_partial",
    "F2C.Props.C49_signed_distance_partial",
    "F2C.Props.C49_height"
   ],
   "note": "Intersection part without restriction. Signed distance for segments with distinct ends of the same height; C49_height shows the value is wrong when heights differ."
  },
  {
   "property": "C50",
   "status": "partial",
   "theorems": [
    "F2C.Props.C50_holes",
    "F2C.Props.C50_convex",
    "F2C.Props.C50_iff_partial",
    "F2C.Props.C50_first_corner",
    "F2C.Props.C50_straight_corner"
   ],
   "note": "False of the code: the corner the border starts with is not tested (arrow head is found convex), and straight corners are accepted counterclockwise but rejected clockwise. Proved: convex borders are found convex; exact characterisation for borders without straight corners."
  },
  {
   "property": "C51",
   "status": "partial",
   "theorems": [
    "F2C.Props.C51_absolute_position_partial",
    "F2C.Props.C51_open_rings_are_closed",
    "F2C.Props.C51_first_cell_without_border",
    "F2C.Props.C51_first_border_empty"
   ],
   "note": "For cells with closed rings whose first border has a point. Open rings come back closed; a first cell without border dereferences a null pointer, an empty first border throws (witnesses)."
  },
  {
   "property": "C52",
   "status": "partial",
   "theorems": [
    "F2C.Props.C52_clone_partial",
    "F2C.Props.C52_clone_succeeds",
    "F2C.Props.C52_clone_of_constructed",
    "F2C.Props.C52_clone_loses_prevCRS",
    "F2C.Props.C52_clone_changes_ref",
    "F2C.Props.C52_clone_empty_loses_ref"
   ],
   "note": "Id, system and absolute cells are copied. False: the previous system is dropped and a reference point that is not the first point is replaced (witnesses)."
  },
  {
   "property": "C53",
   "status": "partial",
   "theorems": [
    "F2C.Props.C53_epsg_round_trip",
    "F2C.Props.C53_epsg_other_partial",
    "F2C.Props.C53_epsg_spaces",
    "F2C.Props.C53_epsg_throws",
    "F2C.Props.C53_epsg_wrong",
    "F2C.Props.C53_epsg_defined"
   ],
   "note": "Round trip for every int. Other spellings that contain EPSG: throw or are read as another number (witnesses); never undefined behaviour."
  },
  {
   "property": "C54",
   "status": "partial",
   "theorems": [
    "F2C.Props.C54_utm_zone_partial",
    "F2C.Props.C54_one_digit_zones",
    "F2C.Props.C54_hemisphere_throws"
   ],
   "note": "For zones of two digits. One-digit zones are returned with the hemisphere letter and have no hemisphere; strings that are not UTM throw (witnesses)."
  },
  {
   "property": "C55",
   "status": "partial",
   "theorems": [
    "F2C.Props.C55_records_previous",
    "F2C.Props.C55_utm_and_back_partial",
    "F2C.Props.C55_guessed_system",
    "F2C.Props.C55_other_ref",
    "F2C.Props.C55_succeeds",
    "F2C.Props.C55_ref_in_gps_partial",
    "F2C.Props.C55_ref_in_gps_changed"
   ],
   "note": "For projections that are inverse to each other and fields whose reference point is their first point. False of fields without system (come back with a guessed one) and other reference points (witnesses)."
  },
  {
   "property": "C56",
   "status": "partial",
   "theorems": [
    "F2C.Props.C56_path_consistent_partial",
    "F2C.Props.C56_points",
    "F2C.Props.C56_backward_wrong",
    "F2C.Props.C56_transformPath_wrong"
   ],
   "note": "For states driven forward. States driven backward get the opposite heading; the overload with given systems keeps old lengths and headings (witnesses)."
  },
  {
   "property": "C57",
   "status": "partial",
   "theorems": [
    "F2C.Props.C57_accepts",
    "F2C.Props.C57_interpolates_partial",
    "F2C.Props.C57_second_knot_wrong",
    "F2C.Props.C57_second_knot",
    "F2C.Props.C57_rejects_partial",
    "F2C.Props.C57_first_two_unchecked",
    "F2C.Props.C57_monotonic_ub",
    "F2C.Props.C57_after_end",
    "F2C.Props.C57_set_points_stale",
    "F2C.Props.C57_smooth",
    "F2C.Props.C57_continuous_partial",
    "F2C.Props.C57_continuous_before_partial",
    "F2C.Props.C57_jump",
    "F2C.Props.C57_rejects_sizes"
   ],
   "note": "False at the second knot (the third-order term of the first piece is set to 0: wrong value and a jump, witness), for unsorted first two knots (accepted) and for monotonic splines (out of bounds). Proved everywhere else, with value, slope and curvature joining."
  },
  {
   "property": "C58",
   "status": "partial",
   "theorems": [
    "F2C.Props.C58_construct",
    "F2C.Props.C58_constructed",
    "F2C.Props.C58_turn_velocity",
    "F2C.Props.C58_limits_kept",
    "F2C.Props.C58_limits",
    "F2C.Props.C58_constructor_negative_limit",
    "F2C.Props.C58_width_unchecked",
    "F2C.Props.C58_radius_partial",
    "F2C.Props.C58_radius_not_read_back"
   ],
   "note": "False where the constructor takes over negative curvatures, where setters of the widths and the default constructor do not validate, and for the relative error of radii outside 0.1 to 10 m (witnesses)."
  },
  {
   "property": "C59",
   "status": "proved",
   "theorems": [
    "F2C.Props.C59_gml_to_wkt",
    "F2C.Props.C59_blank_separated"
   ],
   "note": "For lists of pairs as the GML 2 writer produces; GML 3 lists separated by blanks lose the pairing (witness)."
  },
  {
   "property": "C60",
   "status": "partial",
   "theorems": [
    "F2C.Props.C60_ring_partial",
    "F2C.Props.C60_none",
    "F2C.Props.C60_no_rings_ub",
    "F2C.Props.C60_objective_partial",
    "F2C.Props.C60_unknown_objective_ub",
    "F2C.Props.C60_curves",
    "F2C.Props.C60_unknown_curves_ub",
    "F2C.Props.C60_unused_options"
   ],
   "note": "False: with a constant headland of 0 (or fewer) rings the list of rings is read out of bounds. Proved for one or more rings, with the place of the ring; objective and curves match the options; numbers that are no enumerators dereference a null pointer."
  },
  {
   "property": "C61",
   "status": "partial",
   "theorems": [
    "F2C.Props.C61_access",
    "F2C.Props.C61_lines_partial",
    "F2C.Props.C61_cells_partial",
    "F2C.Props.C61_cell_partial",
    "F2C.Props.C61_cell_open_ring",
    "F2C.Props.C61_all_empty"
   ],
   "note": "Proved unless all children are empty: then size() is 0 and setGeometry appends instead of replacing (C61_all_empty). Open rings are closed by Cell."
  },
  {
   "property": "C62",
   "status": "partial",
   "theorems": [
    "F2C.Props.C62_move_partial",
    "F2C.Props.C62_move_tiny",
    "F2C.Props.C62_compose_partial",
    "F2C.Props.C62_scale_partial",
    "F2C.Props.C62_scale_cells_partial",
    "F2C.Props.C62_compose_fails",
    "F2C.Props.C62_scale_fails"
   ],
   "note": "False for changes below 1e-7: the iterator does not write them back. Proved above the tolerance, and up to the tolerance for all points."
  },
  {
   "property": "C63",
   "status": "partial",
   "theorems": [
    "F2C.Props.C63_clone_partial",
    "F2C.Props.C63_fields",
    "F2C.Props.C63_copies_share"
   ],
   "note": "False of copies: they share the points of the path (C63_copies_share). Proved for clones and any sequence of operations, and for members held by value."
  },
  {
   "property": "C64",
   "status": "partial",
   "theorems": [
    "F2C.Props.C64_throws",
    "F2C.Props.C64_of_area",
    "F2C.Props.C64_area_partial",
    "F2C.Props.C64_exact_area",
    "F2C.Props.C64_not_scaled",
    "F2C.Props.C64_three_corners_ub"
   ],
   "note": "Exact for four or more corners and areas from n*max_width^2 on; in general up to 1e-7 in the coordinates, because smaller moves are not written back (witness). Three corners can be drawn in a line: division by zero (witness)."
  },
  {
   "property": "C65",
   "status": "partial",
   "theorems": [
    "F2C.Props.C65_point_equality",
    "F2C.Props.C65_point_order",
    "F2C.Props.C65_equal_and_less"
   ],
   "note": "Equality and < are characterised; they are not consistent with each other (witness)."
  },
  {
   "property": "C66",
   "status": "partial",
   "theorems": [
    "F2C.Props.C66_sink_node_ub",
    "F2C.Props.C66_undirected_safe_partial"
   ],
   "note": "False: nodes without outgoing edges are not counted, queries index out of range; proved for undirected graphs on 0..n-1."
  },
  {
   "property": "C67",
   "status": "proved",
   "theorems": [
    "F2C.Props.C67_costs_add_up",
    "F2C.Props.C67_cells",
    "F2C.Props.C67_count_and_length"
   ],
   "note": ""
  },
  {
   "property": "C68",
   "status": "partial",
   "theorems": [
    "F2C.Props.C68_coverage_is_fraction_partial",
    "F2C.Props.C68_headland_is_fraction",
    "F2C.Props.C68_thin_field_ub"
   ],
   "note": "With at least one swath the value is the share of the field in the buffer of the swaths, for straight swaths the share within half a width beside a swath, with flat ends (areas that add up over parts and these buffers as hypotheses on GEOS); the headland value is the remaining share. Without swaths the first element of an empty vector is read, and the angle search reaches this for thin fields (witness)."
  },
  {
   "property": "C69",
   "status": "partial",
   "theorems": [
    "F2C.Props.C69_swaths_partial",
    "F2C.Props.C69_plain_partial",
    "F2C.Props.C69_there_and_back",
    "F2C.Props.C69_type_and_direction_lost",
    "F2C.Props.C69_headland_witness"
   ],
   "note": "Ids, widths, number of points and order are kept; there and back the points are restored. False: type and direction of creation become the defaults (witness)."
  },
  {
   "property": "C70",
   "status": "partial",
   "theorems": [
    "F2C.Props.C70_in_place_refines",
    "F2C.Props.C70_failure_partial",
    "F2C.Props.C70_failure_moves_field"
   ],
   "note": "False of every field with cells whose reference point is not the origin: a failing transformation leaves it moved by its reference point. Proved for fields without cells."
  },
  {
   "property": "C71",
   "status": "partial",
   "theorems": [
    "F2C.Props.C71_complete_planner_partial",
    "F2C.Props.C71_on_headland_partial",
    "F2C.Props.C71_depot_undefined"
   ],
   "note": "Proved for hash functions that are defined on the points. With the hash of the code every run has undefined behaviour, because the far away start point has negative coordinates. GEOS and the optimiser are parameters."
  },
  {
   "property": "C72",
   "status": "partial",
   "theorems": [
    "F2C.Props.C72_convex_partial",
    "F2C.Props.C72_non_convex",
    "F2C.Props.C72_not_convex"
   ],
   "note": "False: isConvex never looks at the first corner, so a cell with a dent there is returned (witness with admissible random numbers). Proved: all other corners turn to the same side; non-convex cells are not convex."
  },
  {
   "property": "C73",
   "status": "partial",
   "theorems": [
    "F2C.Props.C73_headland_ways_partial",
    "F2C.Props.C73_route_on_headland_partial",
    "F2C.Props.C73_empty_ring",
    "F2C.Props.C73_far",
    "F2C.Props.C73_shortest_partial"
   ],
   "note": "Proved for rings that hang together (touching at a corner of one of them) and points that are distinguishable, have a defined hash and are few and near enough that no way reaches INF. False for parts that are apart (C74_two_squares). Edges of more than 2^63 mm are undefined behaviour (C73_far)."
  },
  {
   "property": "C74",
   "status": "proved",
   "theorems": [
    "F2C.Props.C74_apart",
    "F2C.Props.C74_two_squares"
   ],
   "note": ""
  },
  {
   "property": "C75",
   "status": "partial",
   "theorems": [
    "F2C.Props.C75_fields_partial",
    "F2C.Props.C75_cell_partial",
    "F2C.Props.C75_strips_partial",
    "F2C.Props.C75_four_numbers",
    "F2C.Props.C75_multi_polygon"
   ],
   "note": "For polygons with closed, non-empty rings and positions of two or three numbers. False: positions with four numbers become the origin, and multi polygons are read as one point per ring (witnesses)."
  },
  {
   "property": "C76",
   "status": "partial",
   "theorems": [
    "F2C.Props.C76_swaths_partial",
    "F2C.Props.C76_fraction_partial",
    "F2C.Props.C76_large_id"
   ],
   "note": "For positions of two or three numbers, positive widths and numbers that fit in an int. Numbers beyond 32 bits wrap around (witness)."
  },
  {
   "property": "C77",
   "status": "partial",
   "theorems": [
    "F2C.Props.C77_fields_ok",
    "F2C.Props.C77_fields_ub",
    "F2C.Props.C77_cell_ok",
    "F2C.Props.C77_cell_ub",
    "F2C.Props.C77_strips_ok",
    "F2C.Props.C77_strips_ub",
    "F2C.Props.C77_swaths_ok",
    "F2C.Props.C77_swaths_ub",
    "F2C.Props.C77_no_features",
    "F2C.Props.C77_object_features",
    "F2C.Props.C77_keeps_earlier",
    "F2C.Props.C77_missing_geometry_ub",
    "F2C.Props.C77_missing_geometry_accepted"
   ],
   "note": "False: a polygon feature without geometry is undefined behaviour, a swath feature without geometry is accepted as a swath without points, and a document without features as empty (witnesses). Proved: for each of the four imports exactly which documents are read and which are undefined behaviour, all others throwing; fields of earlier features are kept when one fails."
  },
  {
   "property": "C78",
   "status": "partial",
   "theorems": [
    "F2C.Props.C78_nearest",
    "F2C.Props.C78_inside_partial",
    "F2C.Props.C78_touching_ray",
    "F2C.Props.C78_leaves_cell"
   ],
   "note": "Proved for rays that enter the cell for more than 1e-5 and meet it in lines only. False: if the ray also touches the cell in an isolated point the intersection is a geometry collection, which is dropped, and no line is returned; if the first stretch is shorter than 1e-5 the line runs outside the cell (witnesses)."
  },
  {
   "property": "C79",
   "status": "partial",
   "theorems": [
    "F2C.Props.C79_straight_lines",
    "F2C.Props.C79_thin_gaps_partial",
    "F2C.Props.C79_gap"
   ],
   "note": "Nothing is added and only points within 1e-8 of the split lines are lost. Proved for straight split lines, as the trapezoidal decomposition makes them. False that nothing is lost: everything within 9e-9 of a split line and not beyond its ends is, as the loop that should widen the cells again has no effect. Regions as sets of points; difference and buffer by their assumed properties."
  },
  {
   "property": "C80",
   "status": "proved",
   "theorems": [
    "F2C.Props.C80_corner"
   ],
   "note": "For rays whose intersections lie on the ray and within the extent of the cell."
  },
  {
   "property": "C81",
   "status": "partial",
   "theorems": [
    "F2C.Props.C81_parts_partial",
    "F2C.Props.C81_touching_drops_all",
    "F2C.Props.C81_swaths_lost"
   ],
   "note": "Proved if the tracks meet the cell in lines only. False: if a track touches the cell in an isolated point, no swath is generated at all (general theorem and witness), because geometry collections are dropped."
  },
  {
   "property": "C82",
   "status": "proved",
   "theorems": [
    "F2C.Props.C82_way_points",
    "F2C.Props.C82_cached"
   ],
   "note": "Exact with the cache switched off; with the cache positions are exact and headings right up to 1 mrad, see C30."
  },
  {
   "property": "C83",
   "status": "partial",
   "theorems": [
    "F2C.Props.C83_route_value",
    "F2C.Props.C83_route_partial",
    "F2C.Props.C83_direction_lost"
   ],
   "note": "The value for all swaths of positive width. False: types and directions of creation become the defaults (witness); for mainland swaths never reversed the claim holds."
  },
  {
   "property": "C84",
   "status": "partial",
   "theorems": [
    "F2C.Props.C84_local_value",
    "F2C.Props.C84_local_partial",
    "F2C.Props.C84_overloads",
    "F2C.Props.C84_other_ref",
    "F2C.Props.C84_route_other_system",
    "F2C.Props.C84_path_other_system",
    "F2C.Props.C84_no_system"
   ],
   "note": "False in local coordinates for a field whose reference point is not its first point: the plan is relative to the first point (witness). Everything else for all fields with closed rings."
  },
  {
   "property": "C85",
   "status": "partial",
   "theorems": [
    "F2C.Props.C85_swaths_partial",
    "F2C.Props.C85_value",
    "F2C.Props.C85_route_misses_turns",
    "F2C.Props.C85_route_value",
    "F2C.Props.C85_route_false",
    "F2C.Props.C85_route_partial"
   ],
   "note": "Proved for lists of swaths and routes of one group. False of routes with several groups: the turns between swaths and connections are not computed (all such routes of two swaths, and a witness in numbers)."
  },
  {
   "property": "C86",
   "status": "partial",
   "theorems": [
    "F2C.Props.C86_false",
    "F2C.Props.C86_single",
    "F2C.Props.C86_partial",
    "F2C.Props.C86_few_colours_ub"
   ],
   "note": "False: lines are cut one state too late (witness), and a path of one state is not drawn. What is drawn is characterised for all paths."
  },
  {
   "property": "C87",
   "status": "partial",
   "theorems": [
    "F2C.Props.C87_gradient",
    "F2C.Props.C87_single_nan",
    "F2C.Props.C87_swaths_partial",
    "F2C.Props.C87_by_cells",
    "F2C.Props.C87_few_colours_ub",
    "F2C.Props.C87_route_partial",
    "F2C.Props.C87_sets_partial",
    "F2C.Props.C87_sets_ignore_colours",
    "F2C.Props.C87_routes_partial"
   ],
   "note": "False: a single swath gets a colour that is not a number, too few colours are read out of bounds, several sets ignore the given colours. Everything else is proved."
  },
  {
   "property": "C88",
   "status": "partial",
   "theorems": [
    "F2C.Props.C88_cells",
    "F2C.Props.C88_filled",
    "F2C.Props.C88_field_not_filled",
    "F2C.Props.C88_border",
    "F2C.Props.C88_lines",
    "F2C.Props.C88_points"
   ],
   "note": "False: a filled field is not filled, colours of four components are written out of bounds, the border of a cell without rings is a null pointer. Everything else is proved."
  },
  {
   "property": "C89",
   "status": "partial",
   "theorems": [
    "F2C.Props.C89_value",
    "F2C.Props.C89_empty_ub",
    "F2C.Props.C89_false",
    "F2C.Props.C89_partial",
    "F2C.Props.C89_moved"
   ],
   "note": "False: the end of the last section is not looked at (witness); empty paths are undefined behaviour. Proved for all other sections of connected paths."
  },
  {
   "property": "C90",
   "status": "partial",
   "theorems": [
    "F2C.Props.C90_partial",
    "F2C.Props.C90_connected",
    "F2C.Props.C90_self_ub",
    "F2C.Props.C90_box"
   ],
   "note": "False: adding a path to itself uses invalid iterators. Proved for all other paths."
  },
  {
   "property": "C91",
   "status": "partial",
   "theorems": [
    "F2C.Props.C91_line",
    "F2C.Props.C91_multi_partial",
    "F2C.Props.C91_multi_ub",
    "F2C.Props.C91_get_throws",
    "F2C.Props.C91_ends"
   ],
   "note": "False of multi points: setting a point behind the last one dereferences a null pointer. Everything else is proved."
  },
  {
   "property": "C92",
   "status": "partial",
   "theorems": [
    "F2C.Props.C92_partial",
    "F2C.Props.C92_empty_throws"
   ],
   "note": "False of lines without points, which throw: the size minus one wraps around. Proved for all others."
  },
  {
   "property": "C93",
   "status": "partial",
   "theorems": [
    "F2C.Props.C93_directions",
    "F2C.Props.C93_partial",
    "F2C.Props.C93_end_partial",
    "F2C.Props.C93_swath_partial",
    "F2C.Props.C93_swath_directions",
    "F2C.Props.C93_swath_short",
    "F2C.Props.C93_false"
   ],
   "note": "False for repeated end points, where both directions are 0 (witness). Proved for all others."
  },
  {
   "property": "C94",
   "status": "proved",
   "theorems": [
    "F2C.Props.C94_inner",
    "F2C.Props.C94_ends",
    "F2C.Props.C94_planner"
   ],
   "note": ""
  },
  {
   "property": "C95",
   "status": "partial",
   "theorems": [
    "F2C.Props.C95_effect",
    "F2C.Props.C95_partial",
    "F2C.Props.C95_false"
   ],
   "note": "False: copies share their data, so that adding, scaling or setting a new index changes the original (witness). The effect of every statement is characterised; programs that clone, or replace an existing child first, behave as claimed."
  },
  {
   "property": "C96",
   "status": "partial",
   "theorems": [
    "F2C.Props.C96_first",
    "F2C.Props.C96_lifetime",
    "F2C.Props.C96_dangling",
    "F2C.Props.C96_writes_through"
   ],
   "note": "Which cell is found is proved. False: the result is an alias that dangles when the object is gone, for example after any setGeometry on the container, and changing it changes the container."
  },
  {
   "property": "C97",
   "status": "partial",
   "theorems": [
    "F2C.Props.C97_partial",
    "F2C.Props.C97_false"
   ],
   "note": "False on the border between two cells, as only the first is searched (witness). Proved for points in one cell only and rays that meet it in lines only."
  },
  {
   "property": "C98",
   "status": "proved",
   "theorems": [
    "F2C.Props.C98_ordering_is_pure"
   ],
   "note": ""
  },
  {
   "property": "C99",
   "status": "partial",
   "theorems": [
    "F2C.Props.C99_in_place_partial",
    "F2C.Props.C99_move_partial",
    "F2C.Props.C99_join",
    "F2C.Props.C99_copy_sorted",
    "F2C.Props.C99_false"
   ],
   "note": "False: sorting a copy turns the paths of the original but not its directions of creation (all lists), and in a list with two swaths on one line the alternation is lost (witness). Proved for lists whose swaths share no lines."
  },
  {
   "property": "C100",
   "status": "proved",
   "theorems": [
    "F2C.Props.C100_turn_within",
    "F2C.Props.C100_bounds"
   ],
   "note": "The function end_of_clothoid of steering_functions is assumed to integrate the clothoid exactly."
  },
  {
   "property": "C101",
   "status": "partial",
   "theorems": [
    "F2C.Props.C101_partial",
    "F2C.Props.C101_erase",
    "F2C.Props.C101_swap_ub",
    "F2C.Props.C101_reverse_ub",
    "F2C.Props.C101_moved_from_ub"
   ],
   "note": "False: move construction leaves a null pointer that the assignments dereference, so std::swap and std::reverse are undefined behaviour for all such objects (proved for every vector). Proved for programs that construct by copying, and for erase."
  },
  {
   "property": "C102",
   "status": "proved",
   "theorems": [
    "F2C.Props.C102_simple",
    "F2C.Props.C102_turn",
    "F2C.Props.C102_constrained",
    "F2C.Props.C102_simple_curve",
    "F2C.Props.C102_constrained_curve"
   ],
   "note": "Under a contract for the curves of steering_functions (they reach the target up to an error, in small steps, bending no more than the curvature asked for). C102_simple_curve and C102_constrained_curve say which curve and limits are asked for, for any library."
  },
  {
   "property": "C103",
   "status": "partial",
   "theorems": [
    "F2C.Props.C103_best_order_partial",
    "F2C.Props.C103_shortest_route_partial",
    "F2C.Props.C103_complete_planner_partial"
   ],
   "note": "Proved up to the error of the optimiser, whose tours are assumed to be at most that much more expensive than the best one, under the conditions of C21 (distinct points, connected headland), and up to a millimetre per step for lengths. The case in which two points coincide is missing, as swaths can then be lost (C21_swath_dropped)."
  },
  {
   "property": "C104",
   "status": "partial",
   "theorems": [
    "F2C.Props.C104_together_partial",
    "F2C.Props.C104_path_partial",
    "F2C.Props.C104_strip_value",
    "F2C.Props.C104_cell_with_ref",
    "F2C.Props.C104_clone",
    "F2C.Props.C104_strips_partial",
    "F2C.Props.C104_strips_go_astray",
    "F2C.Props.C104_no_previous",
    "F2C.Props.C104_strip_witness"
   ],
   "note": "Proved for swaths, routes and paths. False for strips: they are transformed without adding the reference point, so that strips of a field land elsewhere than the field unless its reference point is the origin (witness)."
  },
  {
   "property": "C105",
   "status": "partial",
   "theorems": [
    "F2C.Props.C105_polygons_partial",
    "F2C.Props.C105_nothing_else",
    "F2C.Props.C105_nested_dropped",
    "F2C.Props.C105_failure_ub",
    "F2C.Props.C105_intersection",
    "F2C.Props.C105_intersection_cell",
    "F2C.Props.C105_difference",
    "F2C.Props.C105_difference_cell",
    "F2C.Props.C105_union",
    "F2C.Props.C105_union_cell"
   ],
   "note": "Operations proved for exact results of GEOS that are flat (collections of single geometries). Multi polygons nested in a collection are dropped (C105_nested_dropped), which GEOS does not return; a failure of GEOS is a null pointer that is read (C105_failure_ub)."
  },
  {
   "property": "C106",
   "status": "partial",
   "theorems": [
    "F2C.Props.C106_area_covered_partial",
    "F2C.Props.C106_bends_partial",
    "F2C.Props.C106_corner",
    "F2C.Props.C106_no_path"
   ],
   "note": "Proved for straight swaths, if GEOS is exact. False at bends: corners are mitred, so that positions further than half a width are covered (witness); for paths with bends, all of the strips beside the segments is covered and nothing beyond the mitre limit."
  },
  {
   "property": "C107",
   "status": "partial",
   "theorems": [
    "F2C.Props.C107_cell_partial",
    "F2C.Props.C107_apart_throws",
    "F2C.Props.C107_flat_throws",
    "F2C.Props.C107_ring_buffer"
   ],
   "note": "Proved if the result is one polygon. False otherwise: the constructor throws if the cell falls apart or the result has no area. The buffer of a ring keeps only the first polygon of the difference."
  },
  {
   "property": "C108",
   "status": "partial",
   "theorems": [
    "F2C.Props.C108_linear",
    "F2C.Props.C108_empty_range",
    "F2C.Props.C108_angle",
    "F2C.Props.C108_exp_partial",
    "F2C.Props.C108_exp_nan",
    "F2C.Props.C108_exp_dist_partial",
    "F2C.Props.C108_exp_dist_zero",
    "F2C.Props.C108_cell",
    "F2C.Props.C108_bad_arguments",
    "F2C.Props.C108_field_partial",
    "F2C.Props.C108_convex_field_partial",
    "F2C.Props.C108_convex_field_dent"
   ],
   "note": "For every generator of numbers of [0, 1). False: ranges that begin at zero or below pass the assertion of getRandomExp, and the result is NaN; getRandomExpDist can return 0, though documented as positive; empty ranges are a failed assertion, not reported otherwise; genConvexField can return a field with a dent (witnesses). The area of fields as in C64."
  },
  {
   "property": "C109",
   "status": "proved",
   "theorems": [
    "F2C.Props.C109_get",
    "F2C.Props.C109_set",
    "F2C.Props.C109_add",
    "F2C.Props.C109_dir",
    "F2C.Props.C109_type",
    "F2C.Props.C109_all"
   ],
   "note": ""
  },
  {
   "property": "C110",
   "status": "partial",
   "theorems": [
    "F2C.Props.C110_read",
    "F2C.Props.C110_build",
    "F2C.Props.C110_of_size",
    "F2C.Props.C110_emplace",
    "F2C.Props.C110_append_inside",
    "F2C.Props.C110_append_swaths",
    "F2C.Props.C110_numbers_repeat",
    "F2C.Props.C110_clone"
   ],
   "note": "False in one part: after appending a collection to another the numbers are not the positions (C110_numbers_repeat). The type of swaths is not cloned (C09), and swaths without a width cannot be cloned (C110_of_size, C110_clone)."
  },
  {
   "property": "C111",
   "status": "partial",
   "theorems": [
    "F2C.Props.C111_signed_cost",
    "F2C.Props.C111_sign",
    "F2C.Props.C111_one_cell",
    "F2C.Props.C111_without_cells",
    "F2C.Props.C111_groups_count_and_length",
    "F2C.Props.C111_groups_coverage",
    "F2C.Props.C111_coverage_above_one",
    "F2C.Props.C111_overlaps_between_groups",
    "F2C.Props.C111_headland",
    "F2C.Props.C111_decomp",
    "F2C.Props.C111_swath_point",
    "F2C.Props.C111_swath_pose"
   ],
   "note": "False for groups of swaths: the coverages of groups are added and may exceed 1, overlaps between groups are not counted (witnesses); an empty group is undefined behaviour."
  },
  {
   "property": "C112",
   "status": "partial",
   "theorems": [
    "F2C.Props.C112_fewest",
    "F2C.Props.C112_shortest",
    "F2C.Props.C112_coverage_partial",
    "F2C.Props.C112_planner"
   ],
   "note": "Proved for NSwath and SwathLength; for FieldCoverage if there are swaths at all angles tried (otherwise undefined, C68). NSwathModified and Overlaps compute other quantities than documented (C27, C28); for NSwathModified over convex fields see C113."
  },
  {
   "property": "C113",
   "status": "proved",
   "theorems": [
    "F2C.Props.C113_border",
    "F2C.Props.C113_value",
    "F2C.Props.C113_swaths",
    "F2C.Props.C113_search",
    "F2C.Props.C113_misled"
   ],
   "note": "For clipping that gives one piece per line through the inside of a convex cell."
  },
  {
   "property": "C114",
   "status": "proved",
   "theorems": [
    "F2C.Props.C114_mod",
    "F2C.Props.C114_direction",
    "F2C.Props.C114_diff_range",
    "F2C.Props.C114_diff_error",
    "F2C.Props.C114_small_angles_vanish",
    "F2C.Props.C114_laws_fail"
   ],
   "note": "Doubles without a largest one (no overflow) and without NaN; fmod is exact, as the C standard asks for."
  },
  {
   "property": "C115",
   "status": "proved",
   "theorems": [
    "F2C.Props.C115_tracks",
    "F2C.Props.C115_number",
    "F2C.Props.C115_extra_track",
    "F2C.Props.C115_endless",
    "F2C.Props.C115_candidates",
    "F2C.Props.C115_around"
   ],
   "note": "Doubles without a largest one (no overflow) and without NaN; the height is the one computed for the rotated field; for the rounding errors made there see C132."
  },
  {
   "property": "C116",
   "status": "partial",
   "theorems": [
    "F2C.Props.C116_set",
    "F2C.Props.C116_default",
    "F2C.Props.C116_again",
    "F2C.Props.C116_projection",
    "F2C.Props.C116_no_letter",
    "F2C.Props.C116_one_digit",
    "F2C.Props.C116_skip",
    "F2C.Props.C116_no_datum"
   ],
   "note": "Proved for zones of two digits with a letter. False otherwise: without a letter the projection library gets no hemisphere; for zones of one digit the letter is taken for part of the zone, and without a letter an exception is thrown (witnesses)."
  },
  {
   "property": "C117",
   "status": "partial",
   "theorems": [
    "F2C.Props.C117_length",
    "F2C.Props.C117_before",
    "F2C.Props.C117_position_partial",
    "F2C.Props.C117_lost_only_at_end",
    "F2C.Props.C117_end_lost"
   ],
   "note": "False of the end: because of rounding at may run past the last state and return a default state at the origin (witness: states of 1 m and 0.1 m). Proved for all distances below the length by n / 2^53 of it. No overflow, no NaN."
  },
  {
   "property": "C118",
   "status": "partial",
   "theorems": [
    "F2C.Props.C118_accepts_partial",
    "F2C.Props.C118_throws",
    "F2C.Props.C118_empty"
   ],
   "note": "False: a state shorter than 2^-53 of the distance before it makes populate throw (witness); proved if all lengths are more than 2^-52 of the length of the path."
  },
  {
   "property": "C119",
   "status": "partial",
   "theorems": [
    "F2C.Props.C119_other",
    "F2C.Props.C119_gps",
    "F2C.Props.C119_none",
    "F2C.Props.C119_date_line"
   ],
   "note": "Proved for fields in other systems and for fields without one whose reference point is not the origin. False of fields in EPSG:4326 and EPSG:4258: the option is ignored; at longitude 180 the zone is 61, and below -186 the conversion of the zone number is undefined."
  },
  {
   "property": "C120",
   "status": "partial",
   "theorems": [
    "F2C.Props.C120_cell",
    "F2C.Props.C120_cells",
    "F2C.Props.C120_ends",
    "F2C.Props.C120_cells_ends",
    "F2C.Props.C120_convex",
    "F2C.Props.C120_outside"
   ],
   "note": "Proved for points in the box. False of points outside it: the lines may end before they reach the box (witness)."
  },
  {
   "property": "C121",
   "status": "proved",
   "theorems": [
    "F2C.Props.C121_line",
    "F2C.Props.C121_set_connection",
    "F2C.Props.C121_set_swaths",
    "F2C.Props.C121_out_of_range",
    "F2C.Props.C121_last",
    "F2C.Props.C121_has_last"
   ],
   "note": ""
  },
  {
   "property": "C122",
   "status": "partial",
   "theorems": [
    "F2C.Props.C122_cost",
    "F2C.Props.C122_from",
    "F2C.Props.C122_nodes",
    "F2C.Props.C122_count_partial",
    "F2C.Props.C122_count_wraps"
   ],
   "note": "False of the number of edges from 2^31 on: the sum is an int, and a graph of 46341 nodes with all edges is said to have nearly 2^64 of them (witness)."
  },
  {
   "property": "C123",
   "status": "partial",
   "theorems": [
    "F2C.Props.C123_inner_covered",
    "F2C.Props.C123_best_angle",
    "F2C.Props.C123_cut_partial",
    "F2C.Props.C123_touching",
    "F2C.Props.C123_planner",
    "F2C.Props.C123_path",
    "F2C.Props.C123_rim"
   ],
   "note": "Proved for every intersection that keeps the parts of tracks in the cell, so for all cells the tracks meet in lines only; for the complete planner with the conditions of C71. False if a track also touches the cell in a point: then there are no swaths (witness). Half a width cannot be improved."
  },
  {
   "property": "C124",
   "status": "partial",
   "theorems": [
    "F2C.Props.C124_section",
    "F2C.Props.C124_discretize",
    "F2C.Props.C124_joined",
    "F2C.Props.C124_length",
    "F2C.Props.C124_short",
    "F2C.Props.C124_endless"
   ],
   "note": "Proved for steps other than 0 that go at most 2^52 times into each swath section. False of a step of 0 and of steps that go 2^55 times into a section: the loop never ends, in the second case because the counter no longer grows. No overflow, no NaN."
  },
  {
   "property": "C125",
   "status": "partial",
   "theorems": [
    "F2C.Props.C125_inner_half",
    "F2C.Props.C125_outer_half_partial",
    "F2C.Props.C125_round_partial",
    "F2C.Props.C125_rectangle_partial",
    "F2C.Props.C125_corner"
   ],
   "note": "False at corners: no ring covers the corner of a rectangle (witness). Proved, from outside to inside: for every field, what a ring encloses up to half a width further in; for convex fields what is within a width of something deeper; all of the headland of convex fields that are made of discs of its width. In both directions: all of the headland of rectangles but positions about as far from one side as from the next. Missing: outer halves at dents."
  },
  {
   "property": "C126",
   "status": "partial",
   "theorems": [
    "F2C.Props.C126_sections_partial",
    "F2C.Props.C126_long"
   ],
   "note": "Proved for paths of up to 2^17 m. False of long paths: from about 1000 km on, adding 1e-10 changes nothing, and a state put exactly where a section begins takes velocity, direction and type from the one before (witness). No overflow, no NaN."
  },
  {
   "property": "C127",
   "status": "partial",
   "theorems": [
    "F2C.Props.C127_robot",
    "F2C.Props.C127_robot_partial",
    "F2C.Props.C127_nan",
    "F2C.Props.C127_swath",
    "F2C.Props.C127_nan_tracks",
    "F2C.Props.C127_infinite_tracks",
    "F2C.Props.C127_finite_tracks"
   ],
   "note": "False of NaN: it is accepted as width of robots and swaths, and then there are no tracks and no error (witness); an infinite width is accepted too and gives no track, or one at NaN. Proved for numbers and infinities."
  },
  {
   "property": "C128",
   "status": "partial",
   "theorems": [
    "F2C.Props.C128_number",
    "F2C.Props.C128_infinite",
    "F2C.Props.C128_nan",
    "F2C.Props.C128_length_nan",
    "F2C.Props.C128_beyond",
    "F2C.Props.C128_discretize_nan",
    "F2C.Props.C128_discretize_number",
    "F2C.Props.C128_discretize_zero"
   ],
   "note": "False of NaN: as distance it gives the first state at a position that is NaN; a NaN as length of a state makes the length of the path NaN and switches off the limit, so that the state is extended to any distance. Steps so small that the counter sticks never end (C124), nor does 0. Proved for numbers and infinities."
  },
  {
   "property": "C129",
   "status": "partial",
   "theorems": [
    "F2C.Props.C129_best_partial",
    "F2C.Props.C129_first_nan",
    "F2C.Props.C129_undefined",
    "F2C.Props.C129_range"
   ],
   "note": "False if the first cost is NaN: then the first angle is returned (witness). Steps of 0, infinity, NaN, or 7 and more are undefined behaviour, as the lowest cost of an empty list is read or a value out of range is converted to int. Otherwise proved."
  },
  {
   "property": "C130",
   "status": "proved",
   "theorems": [
    "F2C.Props.C130_self",
    "F2C.Props.C130_tolerance",
    "F2C.Props.C130_angle"
   ],
   "note": ""
  },
  {
   "property": "C131",
   "status": "partial",
   "theorems": [
    "F2C.Props.C131_restored_partial",
    "F2C.Props.C131_error",
    "F2C.Props.C131_clone_partial",
    "F2C.Props.C131_lost"
   ],
   "note": "Proved for coordinates within a factor of two of that of the reference point, or not more than 2^53 units of their last digits from it; otherwise up to the rounding of a difference and a sum. False of points much nearer to the origin than to the reference point (witness). Clones: proved if no coordinate is further from that of the reference point than this is from 0. No overflow, no NaN."
  },
  {
   "property": "C132",
   "status": "proved",
   "theorems": [
    "F2C.Props.C132_tracks",
    "F2C.Props.C132_no_gap",
    "F2C.Props.C132_number"
   ],
   "note": "No overflow, no NaN; products and sums are not contracted into single operations."
  },
  {
   "property": "C133",
   "status": "proved",
   "theorems": [
    "F2C.Props.C133_line",
    "F2C.Props.C133_empty_ub",
    "F2C.Props.C133_jump"
   ],
   "note": "For paths whose sections join and have lengths of at least 0. An empty path is undefined behaviour; a jump between sections is bridged by the line (witness)."
  },
  {
   "property": "C134",
   "status": "proved",
   "theorems": [
    "F2C.Props.C134_valid",
    "F2C.Props.C134_empty_ub",
    "F2C.Props.C134_direction_tolerance"
   ],
   "note": "For paths whose sections join and rotation tolerances from 0 to 2. An empty path is undefined behaviour. The rotation tolerance applies to the cosine: the default of 0.1 accepts 23 degrees (witness)."
  },
  {
   "property": "C135",
   "status": "partial",
   "theorems": [
    "F2C.Props.C135_created",
    "F2C.Props.C135_directions_partial",
    "F2C.Props.C135_same_swath",
    "F2C.Props.C135_opposite_creation"
   ],
   "note": "Proved for swaths created along the same direction, however often they were reversed. False of swaths created in opposite directions: the direction is a flag (witness)."
  },
  {
   "property": "C136",
   "status": "partial",
   "theorems": [
    "F2C.Props.C136_nearest_partial",
    "F2C.Props.C136_same_ends",
    "F2C.Props.C136_nan_point",
    "F2C.Props.C136_overflow",
    "F2C.Props.C136_off_segment",
    "F2C.Props.C136_line_partial",
    "F2C.Props.C136_line_nan",
    "F2C.Props.C136_short_lines"
   ],
   "note": "Proved up to 2^-44 (lines: 2^-43) of the largest coordinate for segments whose ends have the same height and coordinates between 2^-400 and 2^400 in size; coordinates of 2^600 overflow and give the farthest point (witness). Without the allowance for rounding it is false: the result may lie beyond the end (witness). A given point that is not a number gives the end of the first segment. Products and sums are not contracted into single operations. Lines: the distances, computed by GEOS, are assumed to be correct up to 2^-46 of the largest coordinate; C139 proves this of the rounded formula."
  },
  {
   "property": "C137",
   "status": "partial",
   "theorems": [
    "F2C.Props.C137_cost_partial",
    "F2C.Props.C137_symmetric",
    "F2C.Props.C137_undefined",
    "F2C.Props.C137_too_much"
   ],
   "note": "Proved for coordinates of at most 2^51 metres, up to the error of the calculation (2^-36 of the largest coordinate, in millimetres; for UTM coordinates less than 0.001 mm); without it the claim is false (two points less than 9 mm apart cost 9, witness). The same in both directions for roundings that treat negatives alike. Undefined for coordinates that differ by 2^54 metres or more, or are infinite or no numbers. GEOS is assumed to compute the distance as the rounded root of the rounded sum of rounded squares."
  },
  {
   "property": "C138",
   "status": "partial",
   "theorems": [
    "F2C.Props.C138_defined_partial",
    "F2C.Props.C138_high",
    "F2C.Props.C138_south",
    "F2C.Props.C138_west",
    "F2C.Props.C138_no_number",
    "F2C.Props.C138_same_value"
   ],
   "note": "False: undefined for points that are 0.2 metres high, for points a metre south of the origin and for coordinates that are no numbers; two points of a field in UTM coordinates a metre apart have the same hash value (witness). Defined, and known up to 2^13, for points in the first quadrant with a height from 0 to 2^-7 metres."
  },
  {
   "property": "C139",
   "status": "partial",
   "theorems": [
    "F2C.Props.C139_cell_partial",
    "F2C.Props.C139_border_partial",
    "F2C.Props.C139_nan",
    "F2C.Props.C139_empty",
    "F2C.Props.C139_not_itself"
   ],
   "note": "Proved: on a border up to 2^-48 and nearest up to 2^-42 of the largest coordinate (UTM coordinates: less than 0.002 mm), for borders of one height whose rings have at least two points. False that a point on the border is its own closest point: on the triangle (0,0), (49,0), (0,49) the point (1,0) is given another one (witness). A given point that is not a number gives the second point of the first ring; cells without points and rings of one point read an empty vector. Distances as in C137."
  },
  {
   "property": "C140",
   "status": "proved",
   "theorems": [
    "F2C.Props.C140_normal_form",
    "F2C.Props.C140_computed",
    "F2C.Props.C140_used",
    "F2C.Props.C140_shape"
   ],
   "note": "Coordinates up to M, poses at most M/2 apart, angles up to 50 rad; the solver's path consists of doubles up to M and its ends are at most 5 cm - M/2^40 off (489/10000 - M/2^40 with the cache). Result: positions exact, headings off by 2^-44 rad more than the solver's (11/10000 with the cache). Assumes cos, sin and atan2 accurate to a unit in the last place and no overflow."
  },
  {
   "property": "C141",
   "status": "proved",
   "theorems": [
    "F2C.Props.C141_value",
    "F2C.Props.C141_nothing",
    "F2C.Props.C141_best",
    "F2C.Props.C141_convex"
   ],
   "note": "The error is at most N (N + 512) M / 2^50 over the width for N points with coordinates up to M (1000 points in UTM coordinates, width 3 m: less than 0.05 turns). Assumes sin and atan2 accurate to a unit in the last place and no overflow in the cost; the number of candidates is that of the code (C129). That the additional term of C27 is there at all is a fault of the code; C141_convex is about numbers of points for which it vanishes."
  },
  {
   "property": "C142",
   "status": "proved",
   "theorems": [
    "F2C.Props.C142_states",
    "F2C.Props.C142_no_gaps",
    "F2C.Props.C142_length",
    "F2C.Props.C142_short",
    "F2C.Props.C142_turn"
   ],
   "note": "Coordinates up to M <= 2^400; nothing is assumed about the length of segments, also not that points differ. A swath without points throws, one of a single point adds nothing. The turn is the one before the resampling with Path::discretize, for a planner whose cache is off or empty (C140_used gives the same for a used one with 11/10000 rad). Assumes cos, sin and atan2 accurate to a unit in the last place and no overflow."
  },
  {
   "property": "C143",
   "status": "partial",
   "theorems": [
    "F2C.Props.C143_distance_partial",
    "F2C.Props.C143_sloped",
    "F2C.Props.C143_side_partial",
    "F2C.Props.C143_intersection_partial",
    "F2C.Props.C143_intersection_off"
   ],
   "note": "Distances and sides: proved for level segments of at least 1/64 m (with ends of different heights the value is another one already without rounding, C49; C143_sloped says which one it is). Intersections: false that they are close; of segments of a millimetre and a metre at a right angle the computed point is 37.5 cm off in coordinates of the size of UTM coordinates, for every rounding (witness). Proved: the error is at most M^2 (L1 + L2) / 2^46 over the area spanned (diagonals of 500 m in UTM coordinates: less than 5 mm). No overflow."
  },
  {
   "property": "C144",
   "status": "partial",
   "theorems": [
    "F2C.Props.C144_radius",
    "F2C.Props.C144_limits",
    "F2C.Props.C144_members",
    "F2C.Props.C144_curvature",
    "F2C.Props.C144_nan",
    "F2C.Props.C144_read_back_partial",
    "F2C.Props.C144_unlimited",
    "F2C.Props.C144_constructor"
   ],
   "note": "Setters: proved for all values of type double. Reading back: proved between 10 cm and 10 m; false of infinite radii (C144_unlimited) and, as in C58, of large and very small ones. False of the constructor: witnesses with the maximum curvatures -1e-7 (infinite radius) and -1 (negative radius). Zero has no sign in the model; -1e-7 + 1e-7 is +0 in the default rounding mode."
  },
  {
   "property": "C145",
   "status": "proved",
   "theorems": [
    "F2C.Props.C145_time",
    "F2C.Props.C145_defined",
    "F2C.Props.C145_standstill",
    "F2C.Props.C145_nan"
   ],
   "note": "Zero has no sign in the model: with a velocity of -0.0 the infinite time would be negative. Negative lengths are allowed in C145_time (they are subtracted, unlike in Path::length, as in the code)."
  },
  {
   "property": "C146",
   "status": "partial",
   "theorems": [
    "F2C.Props.C146_side",
    "F2C.Props.C146_convex_partial",
    "F2C.Props.C146_accepts",
    "F2C.Props.C146_refused"
   ],
   "note": "Proved for all corners that are not nearly straight (sine of the angle at least 2^-40). Not proved: that corner at which the border starts (false already without rounding, C50_first_corner) and nearly straight corners, where the result depends on the rounding of atan2. The area that GDAL computes is a parameter and assumed positive. No overflow."
  },
  {
   "property": "C147",
   "status": "proved",
   "theorems": [
    "F2C.Props.C147_coverage",
    "F2C.Props.C147_monotone",
    "F2C.Props.C147_remaining",
    "F2C.Props.C147_no_area",
    "F2C.Props.C147_search",
    "F2C.Props.C147_overlaps",
    "F2C.Props.C147_overlaps_value",
    "F2C.Props.C147_two_swaths"
   ],
   "note": "The areas that GDAL computes are parameters; assumed is only that the part has no larger area than the whole. Zero has no sign in the model: with an area of -0.0 an infinite quotient would be negative."
  },
  {
   "property": "C148",
   "status": "proved",
   "theorems": [
    "F2C.Props.C148_points",
    "F2C.Props.C148_swaths",
    "F2C.Props.C148_between",
    "F2C.Props.C148_route",
    "F2C.Props.C148_length",
    "F2C.Props.C148_nan"
   ],
   "note": "For coordinates up to 2^400 and routes of up to 2^27 parts. std::sqrt is rounded correctly; the 2^-320 is for squares that are too small for doubles."
  },
  {
   "property": "C149",
   "status": "proved",
   "theorems": [
    "F2C.Props.C149_defined",
    "F2C.Props.C149_grows",
    "F2C.Props.C149_nan",
    "F2C.Props.C149_sum"
   ],
   "note": ""
  }
 ]
}