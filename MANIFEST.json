{
 "claims": [
  {
   "property": "C01",
   "status": "proved",
   "theorems": [
    "Verif.Props.C01_switch_continuous",
    "Verif.Props.C01_trace_starts_at_init"
   ],
   "note": "For every edge of every returned simulation tree. Child start time is the parent time stamp after the rounding of node start times."
  },
  {
   "property": "C02",
   "status": "proved",
   "theorems": [
    "Verif.Props.C02_only_guarded_mode_changes"
   ],
   "note": "For every edge of every returned simulation tree."
  },
  {
   "property": "C03",
   "status": "partial",
   "theorems": [
    "Verif.Props.C03_first_switch_partial",
    "Verif.Props.C03_quiet_node",
    "Verif.Props.C03_assert_violated"
   ],
   "note": "Asserts of agents that have no transitions are ignored by the code (C03_assert_violated, C04); with that restriction the full statement."
  },
  {
   "property": "C04",
   "status": "partial",
   "theorems": [
    "Verif.Props.C04_assert_reported_partial",
    "Verif.Props.C04_assert_without_transition_violated"
   ],
   "note": "The code never checks asserts of an agent whose controller has no mode assignment: violation proved. For all other agents the full statement is proved."
  },
  {
   "property": "C05",
   "status": "partial",
   "theorems": [
    "Verif.Props.C05_exhaustive_partial",
    "Verif.Props.C05_resets_dropped_violated"
   ],
   "note": "Exhaustive for destination modes; transitions of an agent that share the destination mode are dropped except the first: violation proved."
  },
  {
   "property": "C06",
   "status": "proved",
   "theorems": [
    "Verif.Props.C06_ids_are_positions",
    "Verif.Props.C06_ids_unique_and_dense"
   ],
   "note": "For every worker and every completion order."
  },
  {
   "property": "C07",
   "status": "partial",
   "theorems": [
    "Verif.Props.C07_loop_computes_exploration",
    "Verif.Props.C07_schedule_independent",
    "Verif.Props.C07_parallel_sequential_simulate_partial",
    "Verif.Props.C07_parallel_simulate_loses_hits_violated"
   ],
   "note": "verify: proved in full. simulate: everything but assert_hits agrees; a parallel simulate loses assert_hits (violation proved)."
  },
  {
   "property": "C08",
   "status": "proved",
   "theorems": [
    "Verif.Props.C08_terminates",
    "Verif.Props.C08_terminates_if_finite",
    "Verif.Props.C08_height_bound",
    "Verif.Props.C08_expanded",
    "Verif.Props.C08_zeno_without_max_height"
   ],
   "note": "Termination for every schedule; the Zeno theorem shows max_height is needed."
  },
  {
   "property": "C09",
   "status": "proved",
   "theorems": [
    "Verif.Props.C09_nodes",
    "Verif.Props.C09_subs_are_nodes",
    "Verif.Props.C09_leaves",
    "Verif.Props.C09_height"
   ],
   "note": "Every finite tree."
  },
  {
   "property": "C10",
   "status": "partial",
   "theorems": [
    "Verif.Props.C10_roundtrip_partial",
    "Verif.Props.C10_load_unexpanded_violated",
    "Verif.Props.C10_simulate_simple_violated"
   ],
   "note": "Round trip proved for trees with distinct ids, root id 0 and a trace for every agent (what verify and simulate return without unexpanded nodes, see C06). Two violations proved: simulation trees with unexpanded nodes raise KeyError on load, simulate_simple trees (ids -1) cannot be loaded."
  },
  {
   "property": "C100",
   "status": "partial",
   "theorems": [
    "Verif.Props.C100_known_partial",
    "Verif.Props.C100_agents_partial",
    "Verif.Props.C100_order",
    "Verif.Props.C100_swap_violated",
    "Verif.Props.C100_replaced_violated"
   ],
   "note": "All sequences of set_map and add_agent: every lane of the current map is known, with an exact description of the modes; the order does not matter. False after swap_dl (the new decision logic knows no lanes) and, for the part that says only these lanes, after a map is replaced (the lanes of the old map stay)."
  },
  {
   "property": "C101",
   "status": "partial",
   "theorems": [
    "Verif.Props.C101_sample",
    "Verif.Props.C101_fails",
    "Verif.Props.C101_box",
    "Verif.Props.C101_tube",
    "Verif.Props.C101_flat_violated"
   ],
   "note": "Returned points are exactly the draws that are in the star set; at most N * (int(N * tol) + 1) draws; an exception means so many misses in a row; never for star sets that fill their rectangle. Violated: for flat star sets there is an exception unless random numbers coincide. Assumptions as in C42, C61 and C62."
  },
  {
   "property": "C102",
   "status": "partial",
   "theorems": [
    "Verif.Props.C102_returns",
    "Verif.Props.C102_trace_partial",
    "Verif.Props.C102_waypoints",
    "Verif.Props.C102_flight",
    "Verif.Props.C102_moves",
    "Verif.Props.C102_speed",
    "Verif.Props.C102_straight",
    "Verif.Props.C102_empty_violated",
    "Verif.Props.C102_beyond_violated"
   ],
   "note": "Horizons and times between waypoints that are positive multiples of the time step; round(x, 4) leaves multiples of the time step alone; the integrator is ideal for C102_flight, C102_moves, C102_speed. The only exception is that of get_next_point; none on a straight lane that is long enough. Violated: for the horizon 0 no row is returned; if the horizon is not a multiple of the time step there are rows beyond it."
  },
  {
   "property": "C103",
   "status": "partial",
   "theorems": [
    "Verif.Props.C103_covers_partial",
    "Verif.Props.C103_safe_partial",
    "Verif.Props.C103_later_violated"
   ],
   "note": "For nodes that are sharp: at the first step at which a guard may be satisfied all states satisfy one. Answers about guards, resets and asserts must be right; at most one path per variable; states are considered at the steps. Violated without sharpness: there is one child only, which starts at the first step of the transition, so executions that switch later are lost."
  },
  {
   "property": "C104",
   "status": "partial",
   "theorems": [
    "Verif.Props.C104_translation_partial",
    "Verif.Props.C104_exact_partial",
    "Verif.Props.C104_history_partial",
    "Verif.Props.C104_bounds_partial",
    "Verif.Props.C104_names_violated",
    "Verif.Props.C104_functions_violated"
   ],
   "note": "For sensors without control flow that use no reserved name (sin, cos, atan2, torch, atan2_crown_safe) for themselves, parameters or variables, and where torch computes the mathematical functions (no norm, atan2 in front or clearly to the left and not straight behind, arguments are tensors). Otherwise violated: a parameter called sin is not seen, an assignment to sin overwrites torch.sin for all later sensors, functions of plain numbers fail, the angle straight behind is 0."
  },
  {
   "property": "C105",
   "status": "partial",
   "theorems": [
    "Verif.Props.C105_circle_partial",
    "Verif.Props.C105_rect_inf_partial",
    "Verif.Props.C105_rect_partial",
    "Verif.Props.C105_ellipse_opposite",
    "Verif.Props.C105_ellipse_partial",
    "Verif.Props.C105_circle_violated",
    "Verif.Props.C105_rect_violated",
    "Verif.Props.C105_ellipse_violated"
   ],
   "note": "Circles: the result is the first time on the ray (a distance if the direction has length 1). Rectangles: for segments that do not run along the line of a side and, for the distance, start outside. Ellipses: without rotation. Violated otherwise: negative distances from inside, segments along a side are missed, rotation in the wrong sense."
  },
  {
   "property": "C106",
   "status": "partial",
   "theorems": [
    "Verif.Props.C106_loop_partial",
    "Verif.Props.C106_order_violated",
    "Verif.Props.C106_parallel",
    "Verif.Props.C106_distance_violated"
   ],
   "note": "Rounding to five digits is ignored in C106_loop_partial. Violated: the lane lists its segments in an order that is not the order of driving, so longitudinal coordinates jump; around (1, 1, 1) lanes are sqrt 12 widths apart."
  },
  {
   "property": "C107",
   "status": "partial",
   "theorems": [
    "Verif.Props.C107_same_partial",
    "Verif.Props.C107_absent",
    "Verif.Props.C107_case_partial",
    "Verif.Props.C107_assert_partial",
    "Verif.Props.C107_label_violated",
    "Verif.Props.C107_hole_violated",
    "Verif.Props.C107_order",
    "Verif.Props.C107_merge_partial",
    "Verif.Props.C107_none_violated"
   ],
   "note": "The printed text determines the value, for expressions without reductions inside. Violated: a variable without value and the constant None are the same for the parser, so that a variable set to None in one branch only is lost; an argument and a call of a function named Hole; labels of asserts."
  },
  {
   "property": "C108",
   "status": "partial",
   "theorems": [
    "Verif.Props.C108_frames_partial",
    "Verif.Props.C108_times",
    "Verif.Props.C108_last_partial",
    "Verif.Props.C108_zero",
    "Verif.Props.C108_pixels",
    "Verif.Props.C108_area_partial",
    "Verif.Props.C108_one_violated"
   ],
   "note": "Proved for trees that are not sampled. Violated: with max_frame_steps=1 there is only the frame of the first time, with 0 the program divides by zero."
  },
  {
   "property": "C109",
   "status": "partial",
   "theorems": [
    "Verif.Props.C109_shown_partial",
    "Verif.Props.C109_colours_partial",
    "Verif.Props.C109_equal_violated",
    "Verif.Props.C109_arc_violated",
    "Verif.Props.C109_zero_violated"
   ],
   "note": "Proved for pictures with lines or filled areas, and for detailed ones where every lane has a speed limit. Violated: no detailed picture if all speed limits are equal or absent; circular segments of lanes without limit are not drawn; a limit of 0 gives a colour outside the range."
  },
  {
   "property": "C11",
   "status": "partial",
   "theorems": [
    "Verif.Props.C11_contains_iff_partial",
    "Verif.Props.C11_reflexive_partial",
    "Verif.Props.C11_equal_iff_partial",
    "Verif.Props.C11_longer_partial",
    "Verif.Props.C11_agents",
    "Verif.Props.C11_projections_violated",
    "Verif.Props.C11_dropped_tail_violated",
    "Verif.Props.C11_early_end_violated",
    "Verif.Props.C11_simulation_violated"
   ],
   "note": "For verification trees on one time grid without prematurely ended branches the answer is characterised exactly (per agent, step and dimension) and reflexivity holds. Violations proved: rectangles are compared per dimension only, tails of longer branches are dropped, self comparison can raise IndexError, simulation trees are compared by interval logic."
  },
  {
   "property": "C110",
   "status": "partial",
   "theorems": [
    "Verif.Props.C110_inside",
    "Verif.Props.C110_outline_partial",
    "Verif.Props.C110_tree_partial",
    "Verif.Props.C110_kept",
    "Verif.Props.C110_skew_violated",
    "Verif.Props.C110_generators_violated",
    "Verif.Props.C110_dims_violated",
    "Verif.Props.C110_filter_violated"
   ],
   "note": "Nothing outside is enclosed: for all star sets. The margin of pi/99: for bases whose rows for the two dimensions equal the columns (star sets made from polytopes and rectangles). Violated: for other bases the outline can be a segment inside of the set; star sets with fewer or more vectors than dimensions cannot be drawn; x_dim and y_dim are ignored; with filter > 1 the tree is thinned out."
  },
  {
   "property": "C111",
   "status": "partial",
   "theorems": [
    "Verif.Props.C111_plain",
    "Verif.Props.C111_rebuild_partial",
    "Verif.Props.C111_circular3_partial",
    "Verif.Props.C111_again",
    "Verif.Props.C111_class_partial",
    "Verif.Props.C111_id_violated",
    "Verif.Props.C111_norm_violated",
    "Verif.Props.C111_ends_violated",
    "Verif.Props.C111_phases_violated",
    "Verif.Props.C111_start_violated",
    "Verif.Props.C111_nested_violated"
   ],
   "note": "With the name of the lane added to the description, straight and circular lanes and straight lanes in space are built again with all attributes but their place along a road; circular lanes in space if the normal vector is added as well and the phases are within one turn. Violated: the description as it is never builds a lane."
  },
  {
   "property": "C112",
   "status": "partial",
   "theorems": [
    "Verif.Props.C112_tubes_partial",
    "Verif.Props.C112_edges_partial",
    "Verif.Props.C112_hits_partial",
    "Verif.Props.C112_simulation_partial",
    "Verif.Props.C112_cuboid",
    "Verif.Props.C112_straight",
    "Verif.Props.C112_circular",
    "Verif.Props.C112_combine_violated",
    "Verif.Props.C112_missing_violated",
    "Verif.Props.C112_sampled_violated"
   ],
   "note": "Proved with combine_rect=None for the tree as it is after sampling (with the default rate, as it was before) if all nodes have all agents: surfaces, edges and marks are those of the rectangles. Lanes are drawn through a hundred evenly spaced points of their centres. Violated: with combine_rect nothing is drawn, with other sample rates wrong boxes are drawn, below a node without the agent nothing is drawn."
  },
  {
   "property": "C113",
   "status": "partial",
   "theorems": [
    "Verif.Props.C113_states_partial",
    "Verif.Props.C113_modes_partial",
    "Verif.Props.C113_once",
    "Verif.Props.C113_sensed_partial",
    "Verif.Props.C113_if_violated",
    "Verif.Props.C113_inherit_violated",
    "Verif.Props.C113_float_violated",
    "Verif.Props.C113_twice_violated",
    "Verif.Props.C113_annotation_violated",
    "Verif.Props.C113_member_violated",
    "Verif.Props.C113_typo_violated"
   ],
   "note": "Proved: exactly the classes outside of if and before the check for main are read, the last one of each name; the variables are those declared in the body, in order, by kind, with their annotations; none is lost or invented; the sensor shows values under these names. Violated: classes inside of if and inherited variables are lost, names with mode in them are discrete whatever their type, repeated declarations count twice, annotations other than names are rejected, annotated names without value count as modes, references to undefined modes are accepted."
  },
  {
   "property": "C114",
   "status": "partial",
   "theorems": [
    "Verif.Props.C114_options_partial",
    "Verif.Props.C114_start",
    "Verif.Props.C114_run_partial",
    "Verif.Props.C114_compare_partial",
    "Verif.Props.C114_answers_partial",
    "Verif.Props.C114_replace_partial",
    "Verif.Props.C114_keyword_violated",
    "Verif.Props.C114_local_violated",
    "Verif.Props.C114_seed_violated",
    "Verif.Props.C114_timesteps_violated",
    "Verif.Props.C114_second_violated",
    "Verif.Props.C114_replace_violated",
    "Verif.Props.C114_hits_violated"
   ],
   "note": "Proved: each letter sets its option and no other; run is the analysis asked for, and report shows the agents, nodes and leaves of its tree; compare_run without further arguments compares two successive analyses of the scenario, with the answers of contains, which by C11 say what is covered; replace_scenario sets scenario and options. Violated: the three options of the letters are refused by name; t stays among the other letters, and is ignored for the second scenario; keyword arguments such as the seed do not reach simulations; 0.3/0.1 counts two steps; every comparison with further arguments ends with an exception; hit counts are those of all runs so far."
  },
  {
   "property": "C115",
   "status": "partial",
   "theorems": [
    "Verif.Props.C115_tubes_partial",
    "Verif.Props.C115_axes",
    "Verif.Props.C115_made",
    "Verif.Props.C115_lines_partial",
    "Verif.Props.C115_animation",
    "Verif.Props.C115_boxes_partial",
    "Verif.Props.C115_missing_violated",
    "Verif.Props.C115_limits_violated",
    "Verif.Props.C115_blame_violated"
   ],
   "note": "Proved: the area covered by the rectangles, the black area, the lines, the boxes and the frames are exactly those of the rows of the tree, all inside the axes, whose limits are tight; and the picture is made whenever all nodes have a trace of rectangles. False in general: one node without the agent makes all plotters raise, the given limits are always widened, and an agent is marked as unsafe for the violated assertion of another one."
  },
  {
   "property": "C116",
   "status": "partial",
   "theorems": [
    "Verif.Props.C116_plain_partial",
    "Verif.Props.C116_bloated_partial",
    "Verif.Props.C116_first_miss",
    "Verif.Props.C116_all_miss",
    "Verif.Props.C116_no_segments",
    "Verif.Props.C116_hit_violated",
    "Verif.Props.C116_incremental_violated",
    "Verif.Props.C116_two_stars_violated"
   ],
   "note": "Proved: without incremental the cache plays no role and the tube covers all initial stars of one segment, for any sound way to compute it and for the one of the code. False with incremental: for every cache and every list of initial stars the computation raises (a name without a value), and two stars in a segment raise already when the cache is asked."
  },
  {
   "property": "C117",
   "status": "partial",
   "theorems": [
    "Verif.Props.C117_changes",
    "Verif.Props.C117_exists",
    "Verif.Props.C117_lane",
    "Verif.Props.C117_runs",
    "Verif.Props.C117_neighbours_partial",
    "Verif.Props.C117_heights",
    "Verif.Props.C117_members_violated",
    "Verif.Props.C117_neighbours_violated",
    "Verif.Props.C117_base_violated"
   ],
   "note": "Proved for texts, for all sequences of changes; the agreement with the neighbours for SimpleMap6. False: members of an enumeration are never found (the overriding methods drop the conversion of the base class), SimpleMap7 has no neighbours although moves are possible, and trans_func of the base class gives no lane of SimpleMap1."
  },
  {
   "property": "C118",
   "status": "partial",
   "theorems": [
    "Verif.Props.C118_first_partial",
    "Verif.Props.C118_energy",
    "Verif.Props.C118_methods",
    "Verif.Props.C118_raises_violated",
    "Verif.Props.C118_sideways_violated"
   ],
   "note": "Proved: the right-hand side describes free fall along the first coordinate (existence and uniqueness of the solution) and conserves energy; the same TC_simulate works for agents whose dynamics are methods. False: TC_simulate of Ball_g_agent raises TypeError for every input (staticmethod with a parameter self), and gravity acts on the horizontal velocity, not on the vertical one."
  },
  {
   "property": "C12",
   "status": "partial",
   "theorems": [
    "Verif.Props.C12_first_transitions_partial",
    "Verif.Props.C12_not_earliest_violated"
   ],
   "note": "Breadth-first order, not time order: violation proved. Proved: entry for exactly the agents whose mode changes on some edge, with the start time of such an edge of minimal depth."
  },
  {
   "property": "C13",
   "status": "partial",
   "theorems": [
    "Verif.Props.C13_extraction_covers_partial",
    "Verif.Props.C13_unconditional_assignment_violated",
    "Verif.Props.C13_same_value_in_both_branches_violated"
   ],
   "note": "Full statement for every decision logic under a naming discipline, without unconditional assignments to the output and without an if whose branches give a variable the same new value. Violations proved for the two last exclusions."
  },
  {
   "property": "C14",
   "status": "partial",
   "theorems": [
    "Verif.Props.C14_asserts_partial",
    "Verif.Props.C14_same_value_in_both_branches_violated"
   ],
   "note": "Both directions, under the naming discipline and without an if whose branches give a variable the same new value; violation proved for the latter."
  },
  {
   "property": "C15",
   "status": "proved",
   "theorems": [
    "Verif.Props.C15_chained_comparison"
   ],
   "note": "For every chain and every interpretation of the operators."
  },
  {
   "property": "C16",
   "status": "partial",
   "theorems": [
    "Verif.Props.C16_reduction_filters_partial",
    "Verif.Props.C16_unrolling_exact_partial",
    "Verif.Props.C97_condition_partial",
    "Verif.Props.C16_nested_violated"
   ],
   "note": "Filters folded into elements by the parser, for every list; unrolling by the verifier exact for every number of elements. Violated for a reduction inside the element of another one, which the verifier cannot unroll. The composition of parser and verifier is C97_condition_partial."
  },
  {
   "property": "C17",
   "status": "partial",
   "theorems": [
    "Verif.Props.C17_names_scoped_as_in_python_partial",
    "Verif.Props.C17_comprehension_variable_leaks_violated"
   ],
   "note": "A comprehension variable overwrites an outer variable of the same name: violation proved. Proved for code whose comprehension variables are used for nothing else."
  },
  {
   "property": "C18",
   "status": "partial",
   "theorems": [
    "Verif.Props.C18_inlining_preserves_meaning_partial",
    "Verif.Props.C18_argument_captured_violated",
    "Verif.Props.C18_conditional_expression_not_inlined_violated"
   ],
   "note": "Violations proved: capture by comprehension variables, parameters in conditional expressions. Proved for one-line helpers that do not do this."
  },
  {
   "property": "C19",
   "status": "partial",
   "theorems": [
    "Verif.Props.C19_switching_logic_accepted_partial",
    "Verif.Props.C19_reassigned_value_rejected_violated"
   ],
   "note": "Accepted: every switching logic (nested ifs over inputs, any/all/sum, modes and constants assigned, assertions) that does not reassign an attribute in a later if of the same block. Violation proved for the latter."
  },
  {
   "property": "C20",
   "status": "proved",
   "theorems": [
    "Verif.Props.C20_discrete_evaluation_exact"
   ],
   "note": ""
  },
  {
   "property": "C21",
   "status": "proved",
   "theorems": [
    "Verif.Props.C21_solver_query_exact"
   ],
   "note": ""
  },
  {
   "property": "C22",
   "status": "proved",
   "theorems": [
    "Verif.Props.C22_box_check_exact",
    "Verif.Props.C22_undecided_query_violated"
   ],
   "note": "Exact with a solver that is right and never gives up. Without the second assumption the property fails: an undecided query counts as not hit (violation proved)."
  },
  {
   "property": "C23",
   "status": "partial",
   "theorems": [
    "Verif.Props.C23_guard_pipeline_partial",
    "Verif.Props.C23_straight_map_query_partial",
    "Verif.Props.C23_middle_segment_violated"
   ],
   "note": "Violation proved: on lanes of several segments only the segments at two corners of the rectangle are looked at. Proved when each query is answered from one of these, and for straight lanes the enclosure part is discharged."
  },
  {
   "property": "C24",
   "status": "proved",
   "theorems": [
    "Verif.Props.C24_straight_lane_enclosures"
   ],
   "note": ""
  },
  {
   "property": "C25",
   "status": "partial",
   "theorems": [
    "Verif.Props.C25_circular_lateral",
    "Verif.Props.C25_circular_longitudinal_partial",
    "Verif.Props.C25_branch_cut_violated"
   ],
   "note": "Lateral distance: proved. Longitudinal position: violation proved where arctan2 jumps; proved for rectangles in a half plane of the center without a wrap of the angle."
  },
  {
   "property": "C26",
   "status": "partial",
   "theorems": [
    "Verif.Props.C26_reset_rectangle_partial",
    "Verif.Props.C26_affine_partial",
    "Verif.Props.C26_range_partial",
    "Verif.Props.C26_corners_partial",
    "Verif.Props.C26_defined_partial",
    "Verif.Props.C26_destinations_partial",
    "Verif.Props.C26_square_violated",
    "Verif.Props.C26_names_violated",
    "Verif.Props.C26_power_violated",
    "Verif.Props.C26_copied_mode_violated",
    "Verif.Props.C26_unknown_class_violated"
   ],
   "note": "Proved for expressions that are affine (more generally: between their end values) in each variable, with names that are not part of each other. False in general: x*x over [-1,1]; names where one begins with another; x**2 with negative x; a mode copied from another mode variable is ignored."
  },
  {
   "property": "C27",
   "status": "partial",
   "theorems": [
    "Verif.Props.C27_switch_covered_partial",
    "Verif.Props.C27_first_switch_partial",
    "Verif.Props.C27_gap_violated",
    "Verif.Props.C27_joint_violated"
   ],
   "note": "Proved for the steps the search reaches, if the guard answers are right and no guard for another variable may be satisfied elsewhere in the same step. False without these: steps after a gap in the hits, and resets of other variables that are possible elsewhere in the tube."
  },
  {
   "property": "C28",
   "status": "partial",
   "theorems": [
    "Verif.Props.C28_failure_recorded_partial",
    "Verif.Props.C28_recorded_fails",
    "Verif.Props.C28_precondition_violated",
    "Verif.Props.C28_unsafe_continue_violated"
   ],
   "note": "Proved when the precondition is certainly true on the whole step. False when it is true in part of the tube only; with unsafe_continue the analysis raises an exception instead of reporting."
  },
  {
   "property": "C29",
   "status": "proved",
   "theorems": [
    "Verif.Props.C29_partition"
   ],
   "note": "For every rectangle with time first, positive number and distinct requested dimensions. (The option partition_initial of verify_partitioned is never read: the initial set itself is never cut.)"
  },
  {
   "property": "C30",
   "status": "proved",
   "theorems": [
    "Verif.Props.C30_combine_rect",
    "Verif.Props.C30_combine_all",
    "Verif.Props.C30_combine_total",
    "Verif.Props.C30_union_traces"
   ],
   "note": "Tubes of different length (union raises or cuts to the first) are outside the theorem."
  },
  {
   "property": "C31",
   "status": "partial",
   "theorems": [
    "Verif.Props.C31_switch_covered_partial",
    "Verif.Props.C31_tube_covers",
    "Verif.Props.C31_later_step_violated",
    "Verif.Props.C31_other_path_violated"
   ],
   "note": "Proved for the first step at which a guard of the agent may be satisfied, with one path per variable. False for later steps (only the first hit rectangle is cut) and for a second path to the same mode (only the first combination of resets is applied)."
  },
  {
   "property": "C32",
   "status": "partial",
   "theorems": [
    "Verif.Props.C32_hit_partial",
    "Verif.Props.C32_reach_entries_partial",
    "Verif.Props.C32_node_tube_partial",
    "Verif.Props.C32_tolerance_violated",
    "Verif.Props.C32_horizon_violated"
   ],
   "note": "Agent, mode and initial rectangle up to the tolerance, for all histories. False: the requested upper corner may exceed the stored one by the tolerance, and the horizon of a cached tube is not checked."
  },
  {
   "property": "C33",
   "status": "proved",
   "theorems": [
    "Verif.Props.C33_hit",
    "Verif.Props.C33_reused"
   ],
   "note": "For all histories of updates by proc_result, any enumeration order of the interval trees."
  },
  {
   "property": "C34",
   "status": "partial",
   "theorems": [
    "Verif.Props.C34_kept_partial",
    "Verif.Props.C34_dropped_partial",
    "Verif.Props.C34_assignment_violated"
   ],
   "note": "Guards: proved. False for assignments: a segment whose branch now assigns another value is kept with the old destination."
  },
  {
   "property": "C35",
   "status": "proved",
   "theorems": [
    "Verif.Props.C35_set_init",
    "Verif.Props.C35_single",
    "Verif.Props.C35_last_call",
    "Verif.Props.C35_add_agent",
    "Verif.Props.C35_add_agent_single_violated"
   ],
   "note": "set_init, set_init_single and add_agent over a heap of list objects with deepcopy. Beyond the property: a single state given to the agent before add_agent is not doubled (C35_add_agent_single_violated). Modes and parameters are immutable values in the model."
  },
  {
   "property": "C36",
   "status": "partial",
   "theorems": [
    "Verif.Props.C36_straight_round_trip",
    "Verif.Props.C36_circular_round_trip_partial",
    "Verif.Props.C36_long_arc_violated",
    "Verif.Props.C36_lane_position",
    "Verif.Props.C36_circular_heading"
   ],
   "note": "Straight lanes: proved. Circular lanes: proved up to half a turn; violation proved for longer arcs."
  },
  {
   "property": "C37",
   "status": "partial",
   "theorems": [
    "Verif.Props.C37_nearest_segment_partial",
    "Verif.Props.C37_coordinates",
    "Verif.Props.C37_nearest_segment_violated"
   ],
   "note": "Violation proved: signed lateral distances are compared. Proved if no lateral distance is negative."
  },
  {
   "property": "C38",
   "status": "partial",
   "theorems": [
    "Verif.Props.C38_exists_iff_switchable",
    "Verif.Props.C38_physical_lane",
    "Verif.Props.C38_intersection_exists_violated"
   ],
   "note": "Proved for the h and h_exist of LaneMap; the intersection map overrides h but inherits h_exist on an empty table, so h_exist is always false there: violation proved."
  },
  {
   "property": "C39",
   "status": "partial",
   "theorems": [
    "Verif.Props.C39_brake",
    "Verif.Props.C39_table_maps",
    "Verif.Props.C39_neighbors",
    "Verif.Props.C39_intersection",
    "Verif.Props.C39_switch2_partial",
    "Verif.Props.C39_switch_left_violated"
   ],
   "note": "Proved for all shipped maps except that SwitchLeft is never possible on SimpleMap4Switch2 (violation proved); SwitchRight there is covered by the partial theorem."
  },
  {
   "property": "C40",
   "status": "partial",
   "theorems": [
    "Verif.Props.C40_center",
    "Verif.Props.C40_initial",
    "Verif.Props.C40_length",
    "Verif.Props.C40_training",
    "Verif.Props.C40_training_partial",
    "Verif.Props.C40_random",
    "Verif.Props.C40_global",
    "Verif.Props.C40_global_initial",
    "Verif.Props.C40_global_training_partial",
    "Verif.Props.C40_disc_partial",
    "Verif.Props.C40_disc_global",
    "Verif.Props.C40_disc_global_partial",
    "Verif.Props.C40_corner_violated",
    "Verif.Props.C40_disc_tiny_violated"
   ],
   "note": "Center trace and initial set: contained without condition. Training traces: contained if their initial points keep relative distance 1e-10 from the boundary, in general only in the tube enlarged by the factor 1 + 1e-10. Method GLOBAL: its rectangles contain those of PW, if the convex hull is right and simulations have increasing times from 0 on."
  },
  {
   "property": "C41",
   "status": "partial",
   "theorems": [
    "Verif.Props.C41_disc",
    "Verif.Props.C41_sized",
    "Verif.Props.C41_decomposition",
    "Verif.Props.C41_stationary_violated"
   ],
   "note": "The tube is sound for every decomposition function that bounds the dynamics. The function computed from a Jacobian bounds them if the minimizer is exact; violated for gradient minimizers that stop at a stationary corner. Continuous time: C81; dynamics from source text: C98."
  },
  {
   "property": "C42",
   "status": "proved",
   "theorems": [
    "Verif.Props.C42_affine",
    "Verif.Props.C42_linear_tube",
    "Verif.Props.C42_from_rectangle",
    "Verif.Props.C42_rectangle",
    "Verif.Props.C42_combine",
    "Verif.Props.C42_rectangle_tube"
   ],
   "note": "Affine maps: exact image, no exception. Rectangle and combination: contain all points and are the smallest such rectangles. Assumptions: linprog returns optimal solutions, box2poly describes the box, exact arithmetic."
  },
  {
   "property": "C43",
   "status": "partial",
   "theorems": [
    "Verif.Props.C43_empty_nonneg",
    "Verif.Props.C43_nonempty",
    "Verif.Props.C43_empty_partial",
    "Verif.Props.C43_satisfies_partial",
    "Verif.Props.C43_empty_violated",
    "Verif.Props.C43_satisfies_violated",
    "Verif.Props.C43_satisfies_transposed_violated"
   ],
   "note": "Sound if all coefficients are not negative (and the basis is symmetric for satisfies). Violated otherwise: linprog bounds variables below by 0 by default, and the basis is not transposed."
  },
  {
   "property": "C44",
   "status": "partial",
   "theorems": [
    "Verif.Props.C44_transposed",
    "Verif.Props.C44_symmetric_partial",
    "Verif.Props.C44_violated",
    "Verif.Props.C44_shape_violated"
   ],
   "note": "Exact for symmetric bases; what is computed in general; violated for other bases (points lost and points kept), and for as soon as there are more or fewer basis vectors than dimensions."
  },
  {
   "property": "C45",
   "status": "partial",
   "theorems": [
    "Verif.Props.C45_diff_partial",
    "Verif.Props.C45_diff_tight",
    "Verif.Props.C45_diff_violated"
   ],
   "note": "Exact except when the two widths add up to a turn or more and the difference of the lower and the upper end is in (-p, 0): there it is violated for every pair of intervals."
  },
  {
   "property": "C46",
   "status": "partial",
   "theorems": [
    "Verif.Props.C46_no_excess",
    "Verif.Props.C46_covers_partial",
    "Verif.Props.C46_straddle_violated",
    "Verif.Props.C46_three_violated"
   ],
   "note": "Never adds angles. Covers all when the intervals on each side of zero have a common point, or all are on one side. Otherwise intervals are lost."
  },
  {
   "property": "C47",
   "status": "partial",
   "theorems": [
    "Verif.Props.C47_fixed_point_partial",
    "Verif.Props.C47_early_leaf_violated",
    "Verif.Props.C47_early_leaf_example_violated",
    "Verif.Props.C47_discrete_violated"
   ],
   "note": "Proved both ways for trees with continuous-time tubes of aligned agents, relative to the end time of the first leaf. Violated for discrete-time tubes (rows are paired wrongly) and when the first leaf ends early or the argument T exceeds the horizon (always answers true). The solver is a parameter assumed sound or complete."
  },
  {
   "property": "C48",
   "status": "partial",
   "theorems": [
    "Verif.Props.C48_arguments",
    "Verif.Props.C48_sense_partial",
    "Verif.Props.C48_alone",
    "Verif.Props.C48_sim_values",
    "Verif.Props.C48_box_values",
    "Verif.Props.C48_mixed_violated",
    "Verif.Props.C48_second_list_violated"
   ],
   "note": "Exact contents of both dictionaries when the other agents fit the type declared for the first list argument. Violated for state vectors of different lengths (lists are not aligned) and for a second list argument (never filled)."
  },
  {
   "property": "C49",
   "status": "proved",
   "theorems": [
    "Verif.Props.C49_dedup",
    "Verif.Props.C49_near_split",
    "Verif.Props.C49_near_split_size",
    "Verif.Props.C49_wrap",
    "Verif.Props.C49_wrap_unique",
    "Verif.Props.C49_lmap",
    "Verif.Props.C49_not_zero",
    "Verif.Props.C49_sample"
   ],
   "note": "Over an ordered field with a floor function, half turn p > 0 (instantiable by the reals and pi); floating-point rounding is not modelled."
  },
  {
   "property": "C50",
   "status": "partial",
   "theorems": [
    "Verif.Props.C50_covers_partial",
    "Verif.Props.C50_branches",
    "Verif.Props.C50_chained_violated",
    "Verif.Props.C50_fallthrough_violated",
    "Verif.Props.C50_names_violated",
    "Verif.Props.C50_violated"
   ],
   "note": "Proved for functions that are one if/elif/else statement whose branches return, with one operator per comparison, called with variables named like the parameters; z3 Optimize is assumed correct (OptCorrect) and the bounds of the returned expressions sound. False otherwise, with counterexamples: chained comparisons are read as left op each right; a return after an if without else is not seen; the box uses the names at the call while conditions use parameter names."
  },
  {
   "property": "C51",
   "status": "partial",
   "theorems": [
    "Verif.Props.C51_progress_partial",
    "Verif.Props.C51_blocked_by_rejected_transition_violated"
   ],
   "note": "A transition rejected by the map ends the search for later transitions: violation proved; partial for the first sample with a satisfied guard."
  },
  {
   "property": "C52",
   "status": "proved",
   "theorems": [
    "Verif.Props.C52_next_lane_on_the_right",
    "Verif.Props.C52_next_curve_on_the_right",
    "Verif.Props.C52_intersection_connected"
   ],
   "note": "For every size, length, width and number of lanes."
  },
  {
   "property": "C53",
   "status": "partial",
   "theorems": [
    "Verif.Props.C53_segments",
    "Verif.Props.C53_shared_segment_violated",
    "Verif.Props.C36_lane_position",
    "Verif.Props.C24_straight_lane_enclosures"
   ],
   "note": "Lanes of the intersection share segment objects, and the constructor of a later lane overwrites the offsets of an earlier one: violation proved. For lanes that share no segment the two agree (C36_lane_position, C24_straight_lane_enclosures)."
  },
  {
   "property": "C54",
   "status": "partial",
   "theorems": [
    "Verif.Props.C54_reported_tubes_safe_partial",
    "Verif.Props.C54_rejected_violated"
   ],
   "note": "Proved when a child is created or no guard was hit (the reported tubes were all checked). False when the only transitions found are rejected by the map: the scan stopped, but the whole tube is reported."
  },
  {
   "property": "C55",
   "status": "partial",
   "theorems": [
    "Verif.Props.C55_covers_partial",
    "Verif.Props.C55_formulas_partial",
    "Verif.Props.C55_modes_partial",
    "Verif.Props.C55_gap_violated"
   ],
   "note": "Discrete time: states at the multiples of the time step, switches at steps (continuous time: C82). Proved for every execution with urgent transitions and any number of phases, for init_seg_length = 1, sound tubes of single agents (SoundTubes), and nodes that satisfy NodeOK: answers about guards right (C22, C23), no gap in the steps at which a guard may hold, one initial rectangle per step, tubes contained in a guard only after all executions have entered, mode changes permitted by the map. False without it: a guard that only some initial states meet cuts the tube for the others. States between steps are not considered. C55_formulas_partial is the same for controllers that are given by formulas, with the models of sensor and guard evaluation in place: that the answers about guards are right follows there from an assumption on the solver. C55_modes_partial is for controllers that switch modes and change nothing else: there the hypotheses on nodes are three conditions on how tubes meet guards (Crossed), and nothing is required of the transitions that are found."
  },
  {
   "property": "C56",
   "status": "proved",
   "theorems": [
    "Verif.Props.C56_children_justified"
   ],
   "note": "For the step of verify with rectangles."
  },
  {
   "property": "C57",
   "status": "partial",
   "theorems": [
    "Verif.Props.C57_reused_trace_partial",
    "Verif.Props.C57_start_violated",
    "Verif.Props.C57_horizon_violated"
   ],
   "note": "Proved if all nodes have the same start time and remaining time. False otherwise: the times of the cached trace are not shifted and it is not extended."
  },
  {
   "property": "C58",
   "status": "partial",
   "theorems": [
    "Verif.Props.C58_new_paths_partial",
    "Verif.Props.C58_unchanged_partial",
    "Verif.Props.C58_no_transition_violated",
    "Verif.Props.C58_additional_branch_violated"
   ],
   "note": "Proved for agents with recorded transitions. False for agents without: changed guards are never evaluated; an additional branch raises AttributeError."
  },
  {
   "property": "C59",
   "status": "partial",
   "theorems": [
    "Verif.Props.C59_groups_partial",
    "Verif.Props.C59_aligned_partial",
    "Verif.Props.C59_default_violated"
   ],
   "note": "Proved for init_seg_length = 1, and for groups up to the shift within a group. False with the default 1000."
  },
  {
   "property": "C60",
   "status": "partial",
   "theorems": [
    "Verif.Props.C60_polygons",
    "Verif.Props.C60_polygons_edges",
    "Verif.Props.C60_corners",
    "Verif.Props.C60_intersect_partial",
    "Verif.Props.C60_rotated_partial",
    "Verif.Props.C60_rotated_violated",
    "Verif.Props.C60_crossing_violated"
   ],
   "note": "Polygons: soundness of both negative answers, and the answer for the current positions is exactly the separating edge test. Rotated rectangles: exact for angle 0; violated otherwise (wrong direction of rotation), and crossing rectangles are missed."
  },
  {
   "property": "C61",
   "status": "proved",
   "theorems": [
    "Verif.Props.C61_contains_point",
    "Verif.Props.C61_containment_poly",
    "Verif.Props.C61_add_constraints",
    "Verif.Props.C61_projection"
   ],
   "note": "Assumption: the solver decides linear real arithmetic."
  },
  {
   "property": "C62",
   "status": "partial",
   "theorems": [
    "Verif.Props.C62_points",
    "Verif.Props.C62_tube",
    "Verif.Props.C62_retry",
    "Verif.Props.C62_unsampled_violated",
    "Verif.Props.C62_import_violated",
    "Verif.Props.C62_retry_violated"
   ],
   "note": "All sampled states are contained. When no factor is found the coefficients are between -1 and 1 in a second try, which raises an exception when the number of inequalities is not twice the number of vectors. States that were not sampled need not be. As committed, the class PCA is not imported, so that the option always raises an exception."
  },
  {
   "property": "C63",
   "status": "partial",
   "theorems": [
    "Verif.Props.C63_maximize_member",
    "Verif.Props.C63_maximize_symmetric_partial",
    "Verif.Props.C63_maximize_violated",
    "Verif.Props.C63_center_violated"
   ],
   "note": "Member of the star set; maximal for symmetric bases only; the center formula has an operator precedence mistake."
  },
  {
   "property": "C64",
   "status": "partial",
   "theorems": [
    "Verif.Props.C64_one_segment_partial",
    "Verif.Props.C64_segments_violated"
   ],
   "note": "Proved for at most segment-length many initial stars; otherwise only the last segment counts, and a segment of one star uses the first initial star."
  },
  {
   "property": "C65",
   "status": "partial",
   "theorems": [
    "Verif.Props.C65_between_partial",
    "Verif.Props.C65_between_inside",
    "Verif.Props.C65_between_violated",
    "Verif.Props.C65_parser_partial",
    "Verif.Props.C65_parser_violated",
    "Verif.Props.C65_span_rect_partial",
    "Verif.Props.C65_origin_partial",
    "Verif.Props.C65_origin_violated",
    "Verif.Props.C65_origin_bottom_violated"
   ],
   "note": "Proved over the real numbers with the exact arctan2; the boxes left out by the partial theorems for arctan2 and for the origin are exactly those of the violations."
  },
  {
   "property": "C66",
   "status": "proved",
   "theorems": [
    "Verif.Props.C66_in_wrapped",
    "Verif.Props.C66_full_turn_violated"
   ],
   "note": "For intervals shorter than a turn; the full turn itself is refused."
  },
  {
   "property": "C67",
   "status": "partial",
   "theorems": [
    "Verif.Props.C67_covers_partial",
    "Verif.Props.C67_splits_partial",
    "Verif.Props.C67_map_partial",
    "Verif.Props.C67_fixed_arguments",
    "Verif.Props.C67_branch_refused",
    "Verif.Props.C67_array_refused",
    "Verif.Props.C67_arctan2_partial",
    "Verif.Props.C67_minus_partial",
    "Verif.Props.C67_arctan2_lists_partial",
    "Verif.Props.C67_splits_lists_partial",
    "Verif.Props.C67_factor_violated",
    "Verif.Props.C67_violated"
   ],
   "note": "Proved, with any number of splits, when each assigned expression is plain (left to CROWN, assumed sound as CrownSound) or a call of a listed piecewise function; arctan2 and minus_angular calls separately over the real numbers, also with several intervals per argument; results with several intervals are merged over splits. Violated: everything around the call of an angular function is ignored."
  },
  {
   "property": "C68",
   "status": "partial",
   "theorems": [
    "Verif.Props.C68_covers_partial",
    "Verif.Props.C68_same_result_partial",
    "Verif.Props.C68_name_violated",
    "Verif.Props.C68_shape_violated"
   ],
   "note": "Proved for all histories in which calls with the same function name analyse the same function. Violated otherwise: the key has only the bounds and the name, also with cache=False. The form of the result depends on the cache as well. The text of the bounds and its md5 are taken as injective."
  },
  {
   "property": "C69",
   "status": "partial",
   "theorems": [
    "Verif.Props.C69_image_partial",
    "Verif.Props.C69_linear_partial",
    "Verif.Props.C69_destinations",
    "Verif.Props.C69_names_violated",
    "Verif.Props.C69_square_violated"
   ],
   "note": "Proved in both directions for expressions that are affine in the variables of the agent itself, with names of which none is part of another. False otherwise: names are replaced as text, and for an expression that is not affine only the center and the tips of the basis vectors are mapped."
  },
  {
   "property": "C70",
   "status": "partial",
   "theorems": [
    "Verif.Props.C70_guard_partial",
    "Verif.Props.C70_names_violated",
    "Verif.Props.C70_alpha_violated"
   ],
   "note": "Proved in both directions for any number of agents, any position of the agent in the scenario and any guard over variables, for names that are not mistaken for each other (Unmistakable) and a solver that is right and complete. False otherwise: dimensions are found from texts (ego inside category), and a variable named alpha_1 clashes with a coefficient. Lane queries: C71."
  },
  {
   "property": "C71",
   "status": "partial",
   "theorems": [
    "Verif.Props.C71_range_partial",
    "Verif.Props.C71_order_violated",
    "Verif.Props.C71_left_violated"
   ],
   "note": "Proved if the variables of the other agents are a prefix of those of the agent itself. False otherwise: the index of a variable of another agent is found in the list of the variables of the agent itself. After a lane query in one assertion, every later assertion of the step raises IndexError, because the temporary variable stays in the shared dictionary."
  },
  {
   "property": "C72",
   "status": "partial",
   "theorems": [
    "Verif.Props.C72_follows_partial",
    "Verif.Props.C72_path_partial",
    "Verif.Props.C72_terminates_partial",
    "Verif.Props.C72_static_violated",
    "Verif.Props.C72_in_place_violated",
    "Verif.Props.C72_no_paths_violated",
    "Verif.Props.C72_shared_mode_violated",
    "Verif.Props.C72_other_modes_violated",
    "Verif.Props.C72_no_message_violated",
    "Verif.Props.C72_zeno_violated"
   ],
   "note": "Proved for all agents, dynamics and decision logics with distinct names, no static variables, and decision logics that do not change their argument. Agents without extracted transitions are outside: their decision logic is never run. False otherwise, with counterexamples: static values become part of the state, changes of ego in place are ignored, two state definitions with the same mode variable, another agent in a mode that the controller does not know, or an assertion without message raise an exception, and without max_height the call need not return."
  },
  {
   "property": "C73",
   "status": "partial",
   "theorems": [
    "Verif.Props.C73_text_partial",
    "Verif.Props.C73_same_partial",
    "Verif.Props.C73_reset_eq_partial",
    "Verif.Props.C73_negative_violated"
   ],
   "note": "Python is represented by a lexer and a grammar (Spec/PyText) after the language reference, shown to be deterministic. Proved for expressions of any size made of names, numbers, strings without escapes, attributes, calls, subscripts, all unary and binary operators, and/or, comparisons with == != < <= > >= and conditional expressions. Missing: in, is, keyword and starred arguments, lists, tuples, dicts, comprehensions, lambda, slices, f-strings. False for a syntax tree with a negative number as base of a power: it is printed without parentheses."
  },
  {
   "property": "C74",
   "status": "partial",
   "theorems": [
    "Verif.Props.C74_straight_partial",
    "Verif.Props.C74_back",
    "Verif.Props.C74_circular_partial",
    "Verif.Props.C74_straight_violated",
    "Verif.Props.C74_left_violated"
   ],
   "note": "Straight lanes: longitudinal and lateral coordinates are exact for every point, and the way back is right up to an error that depends on how much the direction amplifies the rounding to five digits; for a direction whose second component is tiny and not zero the way back can end on the other side of the axis. Circular lanes: proved without rounding, for points off the axis of the circle; for right_rotate=False the way back mirrors the point."
  },
  {
   "property": "C75",
   "status": "partial",
   "theorems": [
    "Verif.Props.C75_travel",
    "Verif.Props.C75_ends_partial",
    "Verif.Props.C75_turn_violated",
    "Verif.Props.C75_quarter_violated",
    "Verif.Props.C75_half_violated",
    "Verif.Props.C75_norm_violated"
   ],
   "note": "The course of circular lanes given by centre and phases is proved for both values of right_rotate. Lanes given by their ends: proved without rounding for unit normal vectors orthogonal to the difference of the ends; start and end are right for all angles but pi, the angle only for right_rotate=False below pi and for right_rotate=True and 3 pi / 2. Counterexamples for half a turn, a quarter turn with right_rotate=True, a normal vector that is not a unit vector, and a whole turn from 2 pi to 0."
  },
  {
   "property": "C76",
   "status": "partial",
   "theorems": [
    "Verif.Props.C76_segment",
    "Verif.Props.C76_coordinates",
    "Verif.Props.C76_lateral",
    "Verif.Props.C76_longitudinal",
    "Verif.Props.C76_place_violated"
   ],
   "note": "C76_segment holds for lanes of all kinds of segments, relative to the coordinates of each. Lateral distance and longitudinal position: both directions, for any number of straight segments. False that every point of a lane has a place: the end of the lane itself and points on the outer side of a corner raise an exception."
  },
  {
   "property": "C77",
   "status": "partial",
   "theorems": [
    "Verif.Props.C77_guard",
    "Verif.Props.C77_chain",
    "Verif.Props.C77_step",
    "Verif.Props.C77_go",
    "Verif.Props.C77_history_violated",
    "Verif.Props.C77_end_violated",
    "Verif.Props.C77_length_violated"
   ],
   "note": "The chain of waypoints is proved for all lanes and calls, single waypoints for lanes of straight segments with the bound for rounding of C74. False: the waypoint also depends on earlier calls (also calls made on other branches of an analysis), because the segment of an earlier call is preferred to the nearest; near the end of a lane the call raises; at a joint the waypoint is shorter than asked for. Waypoints on circular segments are not considered."
  },
  {
   "property": "C78",
   "status": "partial",
   "theorems": [
    "Verif.Props.C78_neighbours",
    "Verif.Props.C78_symmetric",
    "Verif.Props.C78_symmetric_violated",
    "Verif.Props.C78_back_violated"
   ],
   "note": "Proved for every sequence of calls in which lanes are added once and paired after they have been added. False otherwise: adding a lane again empties its own lists only, and pairing with an unknown lane raises after the first list has been changed."
  },
  {
   "property": "C79",
   "status": "partial",
   "theorems": [
    "Verif.Props.C79_simulations_covered_partial",
    "Verif.Props.C79_together_violated"
   ],
   "note": "Proved for paths on which the guards of two agents never hold at the same sample (and with the hypotheses on nodes of C55). False without: when two agents can switch at once, simulate lets both switch, verify one at a time, so a node of simulate can have modes that no node of verify has."
  },
  {
   "property": "C80",
   "status": "partial",
   "theorems": [
    "Verif.Props.C80_safe_partial",
    "Verif.Props.C80_formulas_partial",
    "Verif.Props.C80_modes_partial",
    "Verif.Props.C80_gap_violated"
   ],
   "note": "Proved with the hypotheses on nodes of C55 and for preconditions of asserts that do not distinguish states of a step. False without: after a guard that only some states satisfy, the scan of the tube ends at the first step without a hit, and asserts after it are not looked at, though executions go on there. C80_formulas_partial is the same for controllers that are given by formulas, with the models of sensor and guard evaluation in place. C80_modes_partial: as C55_modes_partial."
  },
  {
   "property": "C81",
   "status": "partial",
   "theorems": [
    "Verif.Props.C81_steps_partial",
    "Verif.Props.C81_monotone_partial",
    "Verif.Props.C81_between_violated"
   ],
   "note": "Proved at the step times, for every decomposition function that is Lipschitz on bounded sets, with an exact integrator; and at all times if every component of the embedding system only grows or only shrinks during a step. False between the steps otherwise: the rectangle of a step is computed from the two ends of the step only."
  },
  {
   "property": "C82",
   "status": "partial",
   "theorems": [
    "Verif.Props.C82_sampled_partial",
    "Verif.Props.C82_urgent_partial",
    "Verif.Props.C82_late_violated"
   ],
   "note": "Time is any ordered field, e.g. the reals. With the hypotheses on nodes of C55. Controllers that look at the state at the multiples of the time step: a rectangle for the right time contains the state at every time. One agent whose controller looks at the state all the time: the rectangle can be one for a time that is earlier by up to one step per switch. False without this lag: the tube of the new mode is computed as if the switch happened at the beginning of the step."
  },
  {
   "property": "C83",
   "status": "partial",
   "theorems": [
    "Verif.Props.C83_sampled_partial",
    "Verif.Props.C83_urgent_partial",
    "Verif.Props.C83_together_violated"
   ],
   "note": "With the hypotheses of C80. Proved for controllers that look at the state at the multiples of the time step, and for one agent whose controller looks at it all the time. False for several agents in the second case: after a switch between two steps, the tube of the agent is ahead of the tubes of the others, and asserts compare states for different times."
  },
  {
   "property": "C84",
   "status": "partial",
   "theorems": [
    "Verif.Props.C84_view_partial",
    "Verif.Props.C84_single_violated",
    "Verif.Props.C84_mixed_violated"
   ],
   "note": "Proved, for the default sensor, for a list argument if all other agents are of its type. False for an argument that is one agent: its attributes are lists with one element. False for agents of several types: the objects in the list mix the variables of different agents."
  },
  {
   "property": "C85",
   "status": "partial",
   "theorems": [
    "Verif.Props.C85_cars_partial",
    "Verif.Props.C85_rest_partial",
    "Verif.Props.C85_others_partial",
    "Verif.Props.C85_motion",
    "Verif.Props.C85_robot_partial",
    "Verif.Props.C85_thermo_partial",
    "Verif.Props.C85_sign",
    "Verif.Props.C85_base_partial",
    "Verif.Props.C85_horizon_violated"
   ],
   "note": "Integrators are parameters, assumed exact (for all states, or at the rows of the trace); real arithmetic; rounding of times is assumed not to change multiples of the step. BaseAgent: only for horizons that are multiples of the step; otherwise false: the trace ends before the horizon and has fewer rows than those of other agents. The three dynamics of the spacecraft are a parameter; the quadrotor agent is not modelled."
  },
  {
   "property": "C86",
   "status": "partial",
   "theorems": [
    "Verif.Props.C86_steering",
    "Verif.Props.C86_forward",
    "Verif.Props.C86_cruise",
    "Verif.Props.C86_brake_partial",
    "Verif.Props.C86_accel_partial",
    "Verif.Props.C86_overshoot_violated",
    "Verif.Props.C86_stop_violated",
    "Verif.Props.C86_limit_violated"
   ],
   "note": "With an exact integrator. Braking and accelerating: for time steps of at most 1, and accelerating from at most the target speed. False for larger steps (the speed overshoots), above the target speed (the car brakes without limit in the mode Accel), and for the mode Stop (the car does not stop)."
  },
  {
   "property": "C87",
   "status": "partial",
   "theorems": [
    "Verif.Props.C87_keeps_partial",
    "Verif.Props.C87_turns_partial",
    "Verif.Props.C87_npc_turn_violated"
   ],
   "note": "With an exact integrator and time steps of at most 1; the mode Stop is excluded. For NPCAgent, the direction of the car must be the very number that the map gives; false for directions that differ by whole turns: it then steers away with the largest angle."
  },
  {
   "property": "C88",
   "status": "partial",
   "theorems": [
    "Verif.Props.C88_start",
    "Verif.Props.C88_given",
    "Verif.Props.C88_verify",
    "Verif.Props.C88_seed",
    "Verif.Props.C88_seed_plain",
    "Verif.Props.C88_multi",
    "Verif.Props.C88_multi_given",
    "Verif.Props.C88_combinations_violated",
    "Verif.Props.C88_verify_own_init_violated"
   ],
   "note": "Simulator, verifier and random generator are parameters. Violations proved: with a seed, agents with the same initial rectangle always start in the same state; for an agent that was given its initial condition after it was added, verify raises unless simulate was called before."
  },
  {
   "property": "C89",
   "status": "partial",
   "theorems": [
    "Verif.Props.C89_tubes_partial",
    "Verif.Props.C89_outline_region",
    "Verif.Props.C89_axes",
    "Verif.Props.C89_simulation",
    "Verif.Props.C89_simulation_hits",
    "Verif.Props.C89_reach_hits_partial",
    "Verif.Props.C89_short_violated",
    "Verif.Props.C89_short_plot_violated",
    "Verif.Props.C89_ribbon_violated",
    "Verif.Props.C89_combine_violated",
    "Verif.Props.C89_sampled_violated",
    "Verif.Props.C89_odd_violated",
    "Verif.Props.C89_sim_sampled_violated",
    "Verif.Props.C89_reach_hits_violated"
   ],
   "note": "Tubes: proved for the default sample_rate and combine_rect, for tubes that move. Violations proved: of a tube with a single rectangle only the lower corner is drawn; with combine_rect None or 2 parts of the rectangles are not in the polygons; with another sample_rate, rectangles and the ends of simulations are not drawn and are deleted from the tree, corners of different rectangles are drawn as one rectangle, or IndexError is raised; reachtube_tree marks no violated assertions unless labels are asked for. Maps, colours and labels of modes are not modelled."
  },
  {
   "property": "C90",
   "status": "partial",
   "theorems": [
    "Verif.Props.C90_slice_partial",
    "Verif.Props.C90_anime_partial",
    "Verif.Props.C90_sim_anime_partial",
    "Verif.Props.C90_slice_cut_violated",
    "Verif.Props.C90_slice_still_violated",
    "Verif.Props.C90_anime_violated",
    "Verif.Props.C90_sim_start_violated"
   ],
   "note": "Slices: for rectangles whose time interval lies in the slice, of tubes that move. Violations proved: rectangles whose interval is only partly in the slice are not drawn; a tube with a single rectangle is drawn (as a point) in every slice; in animations of tubes the first four rectangles of every node that starts after time 0 are missing; the animation of a simulation that starts after time 0 raises KeyError. Slices with combined rectangles and the trail mode are not modelled."
  },
  {
   "property": "C91",
   "status": "partial",
   "theorems": [
    "Verif.Props.C91_named_partial",
    "Verif.Props.C91_names",
    "Verif.Props.C91_short",
    "Verif.Props.C91_static_violated",
    "Verif.Props.C91_short_violated",
    "Verif.Props.C91_single_simulate",
    "Verif.Props.C91_single_partial",
    "Verif.Props.C91_single_violated",
    "Verif.Props.C91_star_violated"
   ],
   "note": "ThermoSensor, CraftSensor, QuadrotorSensor: proved for agents with enough variables, without static parameters. SingleSensor: in simulate it is the default sensor (C48); in verify proved for two agents. Violations proved: static parameters are not shown; in simulate an agent with too few variables makes the lists refer to different agents; SingleSensor in verify shows only the last other agent; CraftStarSensor in simulate gives every variable the value of the first one."
  },
  {
   "property": "C92",
   "status": "partial",
   "theorems": [
    "Verif.Props.C92_distance_partial",
    "Verif.Props.C92_diameter_partial",
    "Verif.Props.C92_bound",
    "Verif.Props.C92_steps_partial",
    "Verif.Props.C92_all_steps_partial",
    "Verif.Props.C92_fallback_partial",
    "Verif.Props.C92_wide_violated",
    "Verif.Props.C92_gap_violated"
   ],
   "note": "Proved for stars whose points differ by at most half of 2^20 - 1 in each coordinate, with a solver of mixed integer programs that is right, and for windows of time that all contain a star. Violations proved: the diameter of [0, 1000000] is given as 524287.5; steps without stars are left out of the list, so that later entries move forward."
  },
  {
   "property": "C93",
   "status": "partial",
   "theorems": [
    "Verif.Props.C93_covers_partial",
    "Verif.Props.C93_tight",
    "Verif.Props.C93_cache_partial",
    "Verif.Props.C93_norm_partial",
    "Verif.Props.C93_atan2_partial",
    "Verif.Props.C93_map_partial",
    "Verif.Props.C93_map_inner",
    "Verif.Props.C93_crown_partial",
    "Verif.Props.C93_cache_violated",
    "Verif.Props.C93_sim_violated",
    "Verif.Props.C93_zero_splits_violated",
    "Verif.Props.C93_norm_violated",
    "Verif.Props.C93_atan2_violated",
    "Verif.Props.C93_map_violated"
   ],
   "note": "Proved for the sensor after its functions are replaced by those for torch, with CROWN assumed to be right on each part, at least one split, and a cache in which names determine sensors. This also gives the assumption on CROWN of C67. Violations proved: sensors of the same name share cache entries; sim always raises an exception; 0 splits give no bounds; the replaced norm is 1/10000 at 0; the replaced atan2 is 0 straight behind and above pi close to the y axis; a map function is bounded by values that an optimizer happens to find."
  },
  {
   "property": "C94",
   "status": "partial",
   "theorems": [
    "Verif.Props.C94_straight",
    "Verif.Props.C94_straight_axis",
    "Verif.Props.C94_circular_partial",
    "Verif.Props.C94_heading",
    "Verif.Props.C94_arc_violated",
    "Verif.Props.C94_zero_violated"
   ],
   "note": "Complete for straight lanes (over the real numbers); for circular lanes proved up to half a turn from the beginning. Violations proved: a point on the axis of a lane of three quarters of a turn has a large distance from it and is neither on the lane nor is the lane reachable from it; after_end ignores a given coordinate that is 0."
  },
  {
   "property": "C95",
   "status": "partial",
   "theorems": [
    "Verif.Props.C95_angles",
    "Verif.Props.C95_point_partial",
    "Verif.Props.C95_point_tight",
    "Verif.Props.C95_box_partial",
    "Verif.Props.C95_box_tight",
    "Verif.Props.C95_wide_violated",
    "Verif.Props.C95_box_violated"
   ],
   "note": "Complete for one position and angle errors below half a turn (over the real numbers). For boxes the optimizer is assumed to find values that are not above those in the box. Violations proved: with an angle error of half a turn possible errors are missed; an optimizer that finds values in the box but not the least ones gives bounds that miss errors."
  },
  {
   "property": "C96",
   "status": "partial",
   "theorems": [
    "Verif.Props.C96_left_partial",
    "Verif.Props.C96_right_partial",
    "Verif.Props.C96_map_partial",
    "Verif.Props.C96_joined_partial",
    "Verif.Props.C96_right_violated",
    "Verif.Props.C96_curve_violated",
    "Verif.Props.C96_last_violated",
    "Verif.Props.C96_shoulder_violated",
    "Verif.Props.C96_order_violated",
    "Verif.Props.C96_switch_violated"
   ],
   "note": "Proved for lanes listed from the reference line outwards that are all to drive or walk on: segments follow the reference line in the middle of the lane with its width (left: lines and curves in both directions narrower than the radius; right: lines and curves to the left), and join; maps without lanes to drive on to the right have exactly these lanes with the right neighbours, and changing lanes (at most ten) leads to them. Violated: any lane to drive on to the right makes the parser fail; right lanes in curves to the right get negative lengths; the last road is ignored; the widths of shoulders and other lanes are not counted; lanes listed outermost first are taken for innermost; with twelve lanes changing lanes leads to a wrong lane."
  },
  {
   "property": "C97",
   "status": "partial",
   "theorems": [
    "Verif.Props.C97_reading_partial",
    "Verif.Props.C97_written",
    "Verif.Props.C97_no_queries",
    "Verif.Props.C97_condition_partial",
    "Verif.Props.C97_transition_partial",
    "Verif.Props.C97_assert_partial",
    "Verif.Props.C97_fine_partial",
    "Verif.Props.C97_rule_partial",
    "Verif.Props.C97_verified_partial",
    "Verif.Props.C97_rule_violated",
    "Verif.Props.C97_assert_violated"
   ],
   "note": "Composition of C13, C14, C16, C17, C23 and C80. Restrictions: those of these theorems (naming discipline, no assignment to the output at top level, an ideal solver); expressions of the forms the guard model has (no conditional expressions); map queries under the condition of C23 (QueriesFit, for verify MapsFit), which is void for guards without them; a list of coordinates is a call of a reserved name in the parser model; evaluation in Python raises no type error; Python objects for numbers, strings and truth values compute as in the field (assumption Agrees). What is read is characterised both ways: truth is the same, and every guard can be written."
  },
  {
   "property": "C98",
   "status": "partial",
   "theorems": [
    "Verif.Props.C98_tube_partial",
    "Verif.Props.C98_order_violated",
    "Verif.Props.C98_aug_violated",
    "Verif.Props.C98_end_violated",
    "Verif.Props.C98_before_violated",
    "Verif.Props.C98_dt_violated",
    "Verif.Props.C98_names_violated"
   ],
   "note": "Proved for functions of the form of the examples (unpack args and x, Begin, one assignment per variable in the order of the state and over the old values only, End, return), for all sizes and expressions with arithmetic, given an exact minimizer (hypothesis; see C41) and a sympify that preserves values. False for other forms, each with a function for which the tube is wrong or not computed."
  },
  {
   "property": "C99",
   "status": "partial",
   "theorems": [
    "Verif.Props.C99_rect_partial",
    "Verif.Props.C99_sim_partial",
    "Verif.Props.C99_sim_exact_partial",
    "Verif.Props.C99_branches_violated",
    "Verif.Props.C99_modes_violated",
    "Verif.Props.C99_dims_violated"
   ],
   "note": "Proved for states in the tubes of the same node, for simulations whose states have the same number of entries, and (exactness only) for mode sequences with different keys. False for states in different nodes, for modes whose joined texts agree and for states with different numbers of entries."
  }
 ]
}
