# Formal model of Verse-library in Lean 4: design

## Layout

* `lean/Verif/Model/*.lean`  – executable model, one file per source file (or per part of a big one). Every
  definition cites file and lines of /repo.
* `lean/Verif/Spec/*.lean`   – small independent specifications (what the English property talks about:
  Python semantics of a program, set of points of a star, ...). They never use helpers of the model.
* `lean/Verif/Proofs/*.lean` – helper lemmas.
* `lean/Verif/Props/*.lean`  – the property theorems, each with an `example` that its hypotheses are satisfiable
  on a non-trivial case, and, where the code violates the property, a theorem `..._violated` with a concrete witness.
* `seeded/LOG.jsonl` – tests of the theorems against wrong programs: one line per edit of the model.

## Conventions

* Python floats are modelled as exact numbers: `ℚ`, or any linearly ordered field, or `ℝ` where `arctan2`, `sqrt`, `pi`
  occur. Rounding error is outside the model.
* Exceptions are values (`Except`/`Option`), never defaults.
* External code (z3, scipy.linprog, user `TC_simulate`, `ray`) is a parameter; what is assumed of it is a hypothesis of the
  theorem and listed in the trusted base.
* Python dicts are association lists in insertion order.
* When the unchanged code violates a property: the negation is proved with a concrete witness (`..._violated`) and the
  provable part is named `..._partial`. The doc comment of a partial theorem says what is missing.

## Properties

"partial" means that the full statement is not proved, in nearly all cases because it is false of the code: then a
`_violated` theorem shows a counterexample and the `_partial` theorems what does hold.

| id | property | status | file | theorems | how proved, what is missing |
|----|----|----|----|----|----|
| C01 | simulate: states are continuous across a mode switch | proved | Sim.lean | `C01_switch_continuous` `C01_trace_starts_at_init` | Invariant of the exploration over all edges. For every edge of every returned simulation tree. Child start time is the parent time stamp after the rounding of node start times. |
| C02 | simulate: only agents with a satisfied guard change mode | proved | Sim.lean | `C02_only_guarded_mode_changes` | Membership in the product of transitions. For every edge of every returned simulation tree. |
| C03 | simulate: switches happen at the first sample where a guard holds | partial | Sim.lean SimWitness.lean | `C03_first_switch_partial` `C03_quiet_node` `C03_assert_violated` | Induction on the trace. Asserts of agents that have no transitions are ignored by the code (C03_assert_violated, C04); with that restriction the full statement. |
| C04 | simulate: a failing assertion stops the node and is reported | partial | Sim.lean SimWitness.lean | `C04_assert_reported_partial` `C04_assert_without_transition_violated` | Induction on the trace; priority of asserts. The code never checks asserts of an agent whose controller has no mode assignment: violation proved. For all other agents the full statement is proved. |
| C05 | simulate: nondeterminism is explored exhaustively | partial | Sim.lean SimWitness.lean | `C05_exhaustive_partial` `C05_resets_dropped_violated` | Product of per-agent alternatives. Exhaustive for destination modes; transitions of an agent that share the destination mode are dropped except the first: violation proved. |
| C06 | node ids are unique and dense | proved | Engine.lean | `C06_ids_are_positions` `C06_ids_unique_and_dense` | Invariant of the loop for every schedule. For every worker and every completion order. |
| C07 | parallel and sequential exploration return the same tree | partial | Engine.lean | `C07_loop_computes_exploration` `C07_schedule_independent` `C07_parallel_sequential_simulate_partial` `C07_parallel_simulate_loses_hits_violated` | Refinement of the loop to a recursive unfolding. verify: proved in full. simulate: everything but assert_hits agrees; a parallel simulate loses assert_hits (violation proved). |
| C08 | max_height bounds the tree and the exploration terminates | proved | Engine.lean | `C08_terminates` `C08_terminates_if_finite` `C08_height_bound` `C08_expanded` `C08_zeno_without_max_height` | Termination measure and invariant. Termination for every schedule; the Zeno theorem shows max_height is needed. |
| C09 | tree traversal visits every node once; leaves and height agree with it | proved | Tree.lean | `C09_nodes` `C09_subs_are_nodes` `C09_leaves` `C09_height` | Induction on trees. Every finite tree. |
| C10 | dump followed by load restores the tree | partial | Tree.lean | `C10_roundtrip_partial` `C10_load_unexpanded_violated` `C10_simulate_simple_violated` | Induction on trees over association lists. Round trip proved for trees with distinct ids, root id 0 and a trace for every agent (what verify and simulate return without unexpanded nodes, see C06). Two violations proved: simulation trees with unexpanded nodes raise KeyError on load, simulate_simple trees (ids -1) cannot be loaded. |
| C11 | tree containment is sound and reflexive | partial | Contains.lean | `C11_contains_iff_partial` `C11_reflexive_partial` `C11_equal_iff_partial` `C11_longer_partial` `C11_agents` `C11_projections_violated` `C11_dropped_tail_violated` `C11_early_end_violated` `C11_simulation_violated` | Characterisation of the interval computations. For verification trees on one time grid without prematurely ended branches the answer is characterised exactly (per agent, step and dimension) and reflexivity holds. Violations proved: rectangles are compared per dimension only, tails of longer branches are dropped, self comparison can raise IndexError, simulation trees are compared by interval logic. |
| C12 | first_transitions reports each agent's first mode change | partial | Tree.lean | `C12_first_transitions_partial` `C12_not_earliest_violated` | Breadth-first order of edges. Breadth-first order, not time order: violation proved. Proved: entry for exactly the agents whose mode changes on some edge, with the start time of such an edge of minimal depth. |
| C13 | controller extraction covers the sequential program | partial | Parser.lean | `C13_extraction_covers_partial` `C13_unconditional_assignment_violated` `C13_same_value_in_both_branches_violated` | Simulation relation between symbolic environments and Python stores, induction on programs. Full statement for every decision logic under a naming discipline, without unconditional assignments to the output and without an if whose branches give a variable the same new value. Violations proved for the two last exclusions. |
| C14 | asserts are extracted with their path condition | partial | Parser.lean | `C14_asserts_partial` `C14_same_value_in_both_branches_violated` | As C13, for asserts with path conditions. Both directions, under the naming discipline and without an if whose branches give a variable the same new value; violation proved for the latter. |
| C15 | chained comparisons mean what Python means | proved | Parser.lean | `C15_chained_comparison` | Induction on chains. For every chain and every interpretation of the operators. |
| C16 | any/all/sum over other agents, with filters, unroll to the right formula | partial | Guard.lean Parser.lean Source.lean | `C16_reduction_filters_partial` `C16_unrolling_exact_partial` `C97_condition_partial` `C16_nested_violated` | Induction on the list of agents. Filters folded into elements by the parser, for every list; unrolling by the verifier exact for every number of elements. Violated for a reduction inside the element of another one, which the verifier cannot unroll. The composition of parser and verifier is C97_condition_partial. |
| C17 | local names in decision logic are scoped as in Python | partial | Parser.lean | `C17_names_scoped_as_in_python_partial` `C17_comprehension_variable_leaks_violated` | As C13, with a naming discipline. A comprehension variable overwrites an outer variable of the same name: violation proved. Proved for code whose comprehension variables are used for nothing else. |
| C18 | inlining a helper function preserves its meaning | partial | Parser.lean | `C18_inlining_preserves_meaning_partial` `C18_argument_captured_violated` `C18_conditional_expression_not_inlined_violated` | Substitution lemma. Violations proved: capture by comprehension variables, parameters in conditional expressions. Proved for one-line helpers that do not do this. |
| C19 | every well-formed if-program is accepted by the parser | partial | Parser.lean | `C19_switching_logic_accepted_partial` `C19_reassigned_value_rejected_violated` | Induction on programs: no merge raises. Accepted: every switching logic (nested ifs over inputs, any/all/sum, modes and constants assigned, assertions) that does not reassign an attribute in a later if of the same block. Violation proved for the latter. |
| C20 | discrete-mode evaluation of guards is exact on modes and never drops a feasible guard | proved | Guard.lean | `C20_discrete_evaluation_exact` | Induction on formulas.  |
| C21 | translation of guards to the solver preserves meaning | proved | Guard.lean | `C21_solver_query_exact` | Induction on formulas.  |
| C22 | guard/box check is exact | proved | Guard.lean | `C22_box_check_exact` `C22_undecided_query_violated` | Solver as a parameter. Exact with a solver that is right and never gives up. Without the second assumption the property fails: an undecided query counts as not hit (violation proved). |
| C23 | whole guard pipeline over-approximates | partial | Guard.lean | `C23_guard_pipeline_partial` `C23_straight_map_query_partial` `C23_middle_segment_violated` | Composition of C20, C21, C22, C24. Violation proved: on lanes of several segments only the segments at two corners of the rectangle are looked at. Proved when each query is answered from one of these, and for straight lanes the enclosure part is discharged. |
| C24 | lane distances over a box are enclosed (straight lanes) | proved | Lane.lean | `C24_straight_lane_enclosures` | Linear functions over boxes.  |
| C25 | lane distances over a box are enclosed (circular lanes) | partial | Lane.lean | `C25_circular_lateral` `C25_circular_longitudinal_partial` `C25_branch_cut_violated` | Real analysis of arctan2. Lateral distance: proved. Longitudinal position: violation proved where arctan2 jumps; proved for rectangles in a half plane of the center without a wrap of the angle. |
| C26 | set reset encloses all concrete resets | partial | Reset.lean ResetCorners.lean | `C26_reset_rectangle_partial` `C26_affine_partial` `C26_range_partial` `C26_corners_partial` `C26_defined_partial` `C26_destinations_partial` `C26_square_violated` `C26_names_violated` `C26_power_violated` `C26_copied_mode_violated` `C26_unknown_class_violated` | Vertex hull, induction on expressions. Proved for expressions that are affine (more generally: between their end values) in each variable, with names that are not part of each other. False in general: x*x over [-1,1]; names where one begins with another; x**2 with negative x; a mode copied from another mode variable is ignored. |
| C27 | guard hits are collected over the whole tube | partial | Verifier.lean VerifierEx.lean | `C27_switch_covered_partial` `C27_first_switch_partial` `C27_gap_violated` `C27_joint_violated` | Induction on the scan. Proved for the steps the search reaches, if the guard answers are right and no guard for another variable may be satisfied elsewhere in the same step. False without these: steps after a gap in the hits, and resets of other variables that are possible elsewhere in the tube. |
| C28 | verify reports every reachable assertion violation | partial | Verifier.lean VerifierEx.lean | `C28_failure_recorded_partial` `C28_recorded_fails` `C28_precondition_violated` `C28_unsafe_continue_violated` | Induction on the scan. Proved when the precondition is certainly true on the whole step. False when it is true in part of the tube only; with unsafe_continue the analysis raises an exception instead of reporting. |
| C29 | partitioning a rectangle covers it | proved | Rect.lean | `C29_partition` | Induction on dimensions. For every rectangle with time first, positive number and distinct requested dimensions. (The option partition_initial of verify_partitioned is never read: the initial set itself is never cut.) |
| C30 | combining rectangles and tubes only grows them | proved | Rect.lean | `C30_combine_rect` `C30_combine_all` `C30_combine_total` `C30_union_traces` | Induction on tubes. Tubes of different length (union raises or cuts to the first) are outside the theorem. |
| C31 | verify_partitioned covers all switching states | partial | Partitioned.lean | `C31_switch_covered_partial` `C31_tube_covers` `C31_later_step_violated` `C31_other_path_violated` | Induction on the scan. Proved for the first step at which a guard of the agent may be satisfied, with one path per variable. False for later steps (only the first hit rectangle is cut) and for a second path to the same mode (only the first combination of resets is applied). |
| C32 | a reach-tube cache hit is a sound answer | partial | Incremental.lean | `C32_hit_partial` `C32_reach_entries_partial` `C32_node_tube_partial` `C32_tolerance_violated` `C32_horizon_violated` | Invariant over histories. Agent, mode and initial rectangle up to the tolerance, for all histories. False: the requested upper corner may exceed the stored one by the tolerance, and the horizon of a cached tube is not checked. |
| C33 | a simulation cache hit is a sound answer | proved | Incremental.lean | `C33_hit` `C33_reused` | Invariant over histories. For all histories of updates by proc_result, any enumeration order of the interval trees. |
| C34 | incremental simulation only reuses unaffected segments | partial | IncDropped.lean Incremental.lean | `C34_kept_partial` `C34_dropped_partial` `C34_assignment_violated` | Case analysis of the comparison. Guards: proved. False for assignments: a segment whose branch now assigns another value is kept with the old destination. |
| C35 | initial sets are attached to the right agents and are isolated | proved | Scenario.lean | `C35_set_init` `C35_single` `C35_last_call` `C35_add_agent` `C35_add_agent_single_violated` | Heap of list objects. set_init, set_init_single and add_agent over a heap of list objects with deepcopy. Beyond the property: a single state given to the agent before add_agent is not doubled (C35_add_agent_single_violated). Modes and parameters are immutable values in the model. |
| C36 | lane coordinates round-trip | partial | Lane.lean LaneMore.lean | `C36_straight_round_trip` `C36_circular_round_trip_partial` `C36_long_arc_violated` `C36_lane_position` `C36_circular_heading` | Linear algebra, trigonometry. Straight lanes: proved. Circular lanes: proved up to half a turn; violation proved for longer arcs. |
| C37 | a multi-segment lane uses the nearest segment | partial | Lane.lean LaneMore.lean | `C37_nearest_segment_partial` `C37_coordinates` `C37_nearest_segment_violated` | Minimum of a list. Violation proved: signed lateral distances are compared. Proved if no lateral distance is negative. |
| C38 | map mode switching agrees with the existence query and with the lanes of the map | partial | Lane.lean Maps.lean | `C38_exists_iff_switchable` `C38_physical_lane` `C38_intersection_exists_violated` | Tables. Proved for the h and h_exist of LaneMap; the intersection map overrides h but inherits h_exist on an empty table, so h_exist is always false there: violation proved. |
| C39 | example maps implement their documented lane changes | partial | Maps.lean | `C39_brake` `C39_table_maps` `C39_neighbors` `C39_intersection` `C39_switch2_partial` `C39_switch_left_violated` | Per map, symbolic lane indices. Proved for all shipped maps except that SwitchLeft is never possible on SimpleMap4Switch2 (violation proved); SwitchRight there is covered by the partial theorem. |
| C40 | simulation-based reach tubes contain the simulations they were built from | partial | Dryvr.lean DryvrGlobal.lean | `C40_center` `C40_initial` `C40_length` `C40_training` `C40_training_partial` `C40_random` `C40_global` `C40_global_initial` `C40_global_training_partial` `C40_disc_partial` `C40_disc_global` `C40_disc_global_partial` `C40_corner_violated` `C40_disc_tiny_violated` | Bounds on sensitivities. Center trace and initial set: contained without condition. Training traces: contained if their initial points keep relative distance 1e-10 from the boundary, in general only in the tube enlarged by the factor 1 + 1e-10. Method GLOBAL: its rectangles contain those of PW, if the convex hull is right and simulations have increasing times from 0 on. |
| C41 | mixed-monotone reach tubes contain all trajectories | partial | MixMono.lean | `C41_disc` `C41_sized` `C41_decomposition` `C41_stationary_violated` | Induction on steps. The tube is sound for every decomposition function that bounds the dynamics. The function computed from a Jacobian bounds them if the minimizer is exact; violated for gradient minimizers that stop at a stationary corner. Continuous time: C81; dynamics from source text: C98. |
| C42 | star sets: affine maps and rectangular over-approximation are sound | proved | Star.lean | `C42_affine` `C42_linear_tube` `C42_from_rectangle` `C42_rectangle` `C42_combine` `C42_rectangle_tube` | Linear algebra over an ordered field. Affine maps: exact image, no exception. Rectangle and combination: contain all points and are the smallest such rectangles. Assumptions: linprog returns optimal solutions, box2poly describes the box, exact arithmetic. |
| C43 | star sets: emptiness and satisfaction tests are sound | partial | Star.lean | `C43_empty_nonneg` `C43_nonempty` `C43_empty_partial` `C43_satisfies_partial` `C43_empty_violated` `C43_satisfies_violated` `C43_satisfies_transposed_violated` | LP as a parameter. Sound if all coefficients are not negative (and the basis is symmetric for satisfies). Violated otherwise: linprog bounds variables below by 0 by default, and the basis is not transposed. |
| C44 | star sets: intersection with a half space is exact | partial | Star.lean | `C44_transposed` `C44_symmetric_partial` `C44_violated` `C44_shape_violated` | Linear algebra. Exact for symmetric bases; what is computed in general; violated for other bases (points lost and points kept), and for as soon as there are more or fewer basis vectors than dimensions. |
| C45 | angular interval arithmetic is sound across the wrap-around | partial | Angular.lean | `C45_diff_partial` `C45_diff_tight` `C45_diff_violated` | Case analysis over an ordered field with floor. Exact except when the two widths add up to a turn or more and the difference of the lower and the upper end is in (-p, 0): there it is violated for every pair of intervals. |
| C46 | merging angular intervals loses no angle | partial | Angular.lean | `C46_no_excess` `C46_covers_partial` `C46_straddle_violated` `C46_three_violated` | Case analysis of the reformatting. Never adds angles. Covers all when the intervals on each side of zero have a common point, or all are on one side. Otherwise intervals are lost. |
| C47 | fixed-point test is containment of the new reach set in the old one | partial | FixedPoint.lean | `C47_fixed_point_partial` `C47_early_leaf_violated` `C47_early_leaf_example_violated` `C47_discrete_violated` | Logic of the query. Proved both ways for trees with continuous-time tubes of aligned agents, relative to the end time of the first leaf. Violated for discrete-time tubes (rows are paired wrongly) and when the first leaf ends early or the argument T exceeds the horizon (always answers true). The solver is a parameter assumed sound or complete. |
| C48 | sensing presents all other agents, aligned | partial | Sensor.lean | `C48_arguments` `C48_sense_partial` `C48_alone` `C48_sim_values` `C48_box_values` `C48_mixed_violated` `C48_second_list_violated` | Induction on the agents. Exact contents of both dictionaries when the other agents fit the type declared for the first list argument. Violated for state vectors of different lengths (lists are not aligned) and for a second list argument (never filled). |
| C49 | small numeric utilities obey their contracts | proved | Utils.lean | `C49_dedup` `C49_near_split` `C49_near_split_size` `C49_wrap` `C49_wrap_unique` `C49_lmap` `C49_not_zero` `C49_sample` | Per function. Over an ordered field with a floor function, half turn p > 0 (instantiable by the reals and pi); floating-point rounding is not modelled. |
| C50 | piecewise function bounds cover every branch that can be taken | partial | Piecewise.lean PiecewiseMore.lean | `C50_covers_partial` `C50_branches` `C50_chained_violated` `C50_fallthrough_violated` `C50_names_violated` `C50_violated` | Induction on conditions and branches. Proved for functions that are one if/elif/else statement whose branches return, with one operator per comparison, called with variables named like the parameters; z3 Optimize is assumed correct (OptCorrect) and the bounds of the returned expressions sound. False otherwise, with counterexamples: chained comparisons are read as left op each right; a return after an if without else is not seen; the box uses the names at the call while conditions use parameter names. |
| C51 | simulate: an enabled, permitted transition is taken | partial | Sim.lean SimWitness.lean | `C51_progress_partial` `C51_blocked_by_rejected_transition_violated` | Induction on the scan. A transition rejected by the map ends the search for later transitions: violation proved; partial for the first sample with a satisfied guard. |
| C52 | the lanes of the shipped intersection are connected and lie side by side | proved | Maps.lean | `C52_next_lane_on_the_right` `C52_next_curve_on_the_right` `C52_intersection_connected` | Linear arithmetic on the shipped coordinates. For every size, length, width and number of lanes. |
| C53 | verifier and simulator agree on the longitudinal position along a lane | partial | Lane.lean Maps.lean | `C53_segments` `C53_shared_segment_violated` `C36_lane_position` `C24_straight_lane_enclosures` | Induction on segments. Lanes of the intersection share segment objects, and the constructor of a later lane overwrites the offsets of an earlier one: violation proved. For lanes that share no segment the two agree (C36_lane_position, C24_straight_lane_enclosures). |
| C54 | verify: reported tubes are safe when no assert is reported | partial | Verifier2.lean | `C54_reported_tubes_safe_partial` `C54_rejected_violated` | Induction on the scan. Proved when a child is created or no guard was hit (the reported tubes were all checked). False when the only transitions found are rejected by the map: the scan stopped, but the whole tube is reported. |
| C55 | the tree computed by verify covers every execution | partial | Assembled.lean Crossing.lean Execution.lean | `C55_covers_partial` `C55_formulas_partial` `C55_modes_partial` `C55_gap_violated` | Induction on phases; each phase by induction on steps. Discrete time: states at the multiples of the time step, switches at steps (continuous time: C82). Proved for every execution with urgent transitions and any number of phases, for init_seg_length = 1, sound tubes of single agents (SoundTubes), and nodes that satisfy NodeOK: answers about guards right (C22, C23), no gap in the steps at which a guard may hold, one initial rectangle per step, tubes contained in a guard only after all executions have entered, mode changes permitted by the map. False without it: a guard that only some initial states meet cuts the tube for the others. States between steps are not considered. C55_formulas_partial is the same for controllers that are given by formulas, with the models of sensor and guard evaluation in place: that the answers about guards are right follows there from an assumption on the solver. C55_modes_partial is for controllers that switch modes and change nothing else: there the hypotheses on nodes are three conditions on how tubes meet guards (Crossed), and nothing is required of the transitions that are found. |
| C56 | every child in the tree of verify is justified | proved | Verifier2.lean | `C56_children_justified` | Inversion of the step. For the step of verify with rectangles. |
| C57 | a trace reused by incremental simulation is the trace of the node | partial | Incremental.lean | `C57_reused_trace_partial` `C57_start_violated` `C57_horizon_violated` | Invariant over histories. Proved if all nodes have the same start time and remaining time. False otherwise: the times of the cached trace are not shifted and it is not extended. |
| C58 | incremental analysis evaluates every guard that is new | partial | Incremental.lean | `C58_new_paths_partial` `C58_unchanged_partial` `C58_no_transition_violated` `C58_additional_branch_violated` | Case analysis of the comparison. Proved for agents with recorded transitions. False for agents without: changed guards are never evaluated; an additional branch raises AttributeError. |
| C59 | the tube of a node with several initial rectangles covers all of them in time | partial | FullTube.lean | `C59_groups_partial` `C59_aligned_partial` `C59_default_violated` | Induction on initial rectangles. Proved for init_seg_length = 1, and for groups up to the shift within a group. False with the default 1000. |
| C60 | geometric helper tests are right | partial | Utils.lean | `C60_polygons` `C60_polygons_edges` `C60_corners` `C60_intersect_partial` `C60_rotated_partial` `C60_rotated_violated` `C60_crossing_violated` | Case analysis, linear arithmetic. Polygons: soundness of both negative answers, and the answer for the current positions is exactly the separating edge test. Rotated rectangles: exact for angle 0; violated otherwise (wrong direction of rotation), and crossing rectangles are missed. |
| C61 | star sets: membership tests are exact | proved | Star.lean | `C61_contains_point` `C61_containment_poly` `C61_add_constraints` `C61_projection` | LP as a parameter. Assumption: the solver decides linear real arithmetic. |
| C62 | star sets generated from simulations contain the simulated states | partial | Star.lean | `C62_points` `C62_tube` `C62_retry` `C62_unsampled_violated` `C62_import_violated` `C62_retry_violated` | Linear algebra. All sampled states are contained. When no factor is found the coefficients are between -1 and 1 in a second try, which raises an exception when the number of inequalities is not twice the number of vectors. States that were not sampled need not be. As committed, the class PCA is not imported, so that the option always raises an exception. |
| C63 | star sets: the point that maximizes a direction is right | partial | Star.lean | `C63_maximize_member` `C63_maximize_symmetric_partial` `C63_maximize_violated` `C63_center_violated` | LP as a parameter. Member of the star set; maximal for symmetric bases only; the center formula has an operator precedence mistake. |
| C64 | the tube of several initial stars covers all of them | partial | Star.lean | `C64_one_segment_partial` `C64_segments_violated` | Induction on segments. Proved for at most segment-length many initial stars; otherwise only the last segment counts, and a segment of one star uses the first initial star. |
| C65 | direction intervals cover every direction | partial | LaneMore.lean Span.lean | `C65_between_partial` `C65_between_inside` `C65_between_violated` `C65_parser_partial` `C65_parser_violated` `C65_span_rect_partial` `C65_origin_partial` `C65_origin_violated` `C65_origin_bottom_violated` | Trigonometry over the reals. Proved over the real numbers with the exact arctan2; the boxes left out by the partial theorems for arctan2 and for the origin are exactly those of the violations. |
| C66 | membership in a wrapped interval is decided exactly | proved | Angular.lean | `C66_in_wrapped` `C66_full_turn_violated` | Case analysis with floor. For intervals shorter than a turn; the full turn itself is refused. |
| C67 | bounds of a sensor function contain the values of all its variables | partial | MapCalls.lean ParserLists.lean ParserWrap.lean | `C67_covers_partial` `C67_splits_partial` `C67_map_partial` `C67_fixed_arguments` `C67_branch_refused` `C67_array_refused` `C67_arctan2_partial` `C67_minus_partial` `C67_arctan2_lists_partial` `C67_splits_lists_partial` `C67_factor_violated` `C67_violated` | Induction on assignments and splits. Proved, with any number of splits, when each assigned expression is plain (left to CROWN, assumed sound as CrownSound) or a call of a listed piecewise function; arctan2 and minus_angular calls separately over the real numbers, also with several intervals per argument; results with several intervals are merged over splits. Violated: everything around the call of an angular function is ignored. |
| C68 | cached bounds of sensor functions belong to the given function | partial | ParserWrap.lean | `C68_covers_partial` `C68_same_result_partial` `C68_name_violated` `C68_shape_violated` | Invariant over histories. Proved for all histories in which calls with the same function name analyse the same function. Violated otherwise: the key has only the bounds and the name, also with cache=False. The form of the result depends on the cache as well. The text of the bounds and its md5 are taken as injective. |
| C69 | star sets: the image of a set under the resets of a transition is exact | partial | StarReset.lean | `C69_image_partial` `C69_linear_partial` `C69_destinations` `C69_names_violated` `C69_square_violated` | Linear algebra and text substitution. Proved in both directions for expressions that are affine in the variables of the agent itself, with names of which none is part of another. False otherwise: names are replaced as text, and for an expression that is not affine only the center and the tips of the basis vectors are mapped. |
| C70 | star sets: guards are evaluated exactly | partial | StarGuard.lean | `C70_guard_partial` `C70_names_violated` `C70_alpha_violated` | Texts of names; constraints as points; solver as a parameter. Proved in both directions for any number of agents, any position of the agent in the scenario and any guard over variables, for names that are not mistaken for each other (Unmistakable) and a solver that is right and complete. False otherwise: dimensions are found from texts (ego inside category), and a variable named alpha_1 clashes with a coefficient. Lane queries: C71. |
| C71 | star sets: lane queries use the range of the right variable | partial | StarGuard.lean | `C71_range_partial` `C71_order_violated` `C71_left_violated` | Order of the dictionary; LP as a parameter. Proved if the variables of the other agents are a prefix of those of the agent itself. False otherwise: the index of a variable of another agent is found in the list of the variables of the agent itself. After a lane query in one assertion, every later assertion of the step raises IndexError, because the temporary variable stays in the shared dictionary. |
| C72 | simulate_simple follows the decision logic run by Python | partial | SimSimple.lean | `C72_follows_partial` `C72_path_partial` `C72_terminates_partial` `C72_static_violated` `C72_in_place_violated` `C72_no_paths_violated` `C72_shared_mode_violated` `C72_other_modes_violated` `C72_no_message_violated` `C72_zeno_violated` | Invariant of the queue; induction on samples. Proved for all agents, dynamics and decision logics with distinct names, no static variables, and decision logics that do not change their argument. Agents without extracted transitions are outside: their decision logic is never run. False otherwise, with counterexamples: static values become part of the state, changes of ego in place are ignored, two state definitions with the same mode variable, another agent in a mode that the controller does not know, or an assertion without message raise an exception, and without max_height the call need not return. |
| C73 | the text of an expression means the expression | partial | Unparse.lean | `C73_text_partial` `C73_same_partial` `C73_reset_eq_partial` `C73_negative_violated` | Determinism of the grammar; induction on expressions. Python is represented by a lexer and a grammar (Spec/PyText) after the language reference, shown to be deterministic. Proved for expressions of any size made of names, numbers, strings without escapes, attributes, calls, subscripts, all unary and binary operators, and/or, comparisons with == != < <= > >= and conditional expressions. Missing: in, is, keyword and starred arguments, lists, tuples, dicts, comprehensions, lambda, slices, f-strings. False for a syntax tree with a negative number as base of a power: it is printed without parentheses. |
| C74 | coordinates on 3D lanes are right | partial | Lane3d.lean | `C74_straight_partial` `C74_back` `C74_circular_partial` `C74_straight_violated` `C74_left_violated` | Orthonormal frames and trigonometry over the reals. Straight lanes: longitudinal and lateral coordinates are exact for every point, and the way back is right up to an error that depends on how much the direction amplifies the rounding to five digits; for a direction whose second component is tiny and not zero the way back can end on the other side of the axis. Circular lanes: proved without rounding, for points off the axis of the circle; for right_rotate=False the way back mirrors the point. |
| C75 | circular 3D lanes run from their start to their end | partial | Lane3d.lean | `C75_travel` `C75_ends_partial` `C75_turn_violated` `C75_quarter_violated` `C75_half_violated` `C75_norm_violated` | Rotations; linear algebra and trigonometry over the reals. The course of circular lanes given by centre and phases is proved for both values of right_rotate. Lanes given by their ends: proved without rounding for unit normal vectors orthogonal to the difference of the ends; start and end are right for all angles but pi, the angle only for right_rotate=False below pi and for right_rotate=True and 3 pi / 2. Counterexamples for half a turn, a quarter turn with right_rotate=True, a normal vector that is not a unit vector, and a whole turn from 2 pi to 0. |
| C76 | the place of a point on a 3D lane of several segments is right | partial | LaneMore.lean Map3d.lean | `C76_segment` `C76_coordinates` `C76_lateral` `C76_longitudinal` `C76_place_violated` | Induction on the scan; projections onto lines. C76_segment holds for lanes of all kinds of segments, relative to the coordinates of each. Lateral distance and longitudinal position: both directions, for any number of straight segments. False that every point of a lane has a place: the end of the lane itself and points on the outer side of a corner raise an exception. |
| C77 | waypoints on 3D lanes follow each other along the lane | partial | Map3d.lean | `C77_guard` `C77_chain` `C77_step` `C77_go` `C77_history_violated` `C77_end_violated` `C77_length_violated` | Induction on calls; linear algebra over the reals. The chain of waypoints is proved for all lanes and calls, single waypoints for lanes of straight segments with the bound for rounding of C74. False: the waypoint also depends on earlier calls (also calls made on other branches of an analysis), because the segment of an earlier call is preferred to the nearest; near the end of a lane the call raises; at a joint the waypoint is shorter than asked for. Waypoints on circular segments are not considered. |
| C78 | neighbours of 3D lanes are symmetric | partial | Neighbour3d.lean | `C78_neighbours` `C78_symmetric` `C78_symmetric_violated` `C78_back_violated` | Induction on calls. Proved for every sequence of calls in which lanes are added once and paired after they have been added. False otherwise: adding a lane again empties its own lists only, and pairing with an unknown lane raises after the first list has been changed. |
| C79 | what simulate shows, verify contains | partial | Both.lean BothEx.lean | `C79_simulations_covered_partial` `C79_together_violated` | Simulation paths as executions of C55. Proved for paths on which the guards of two agents never hold at the same sample (and with the hypotheses on nodes of C55). False without: when two agents can switch at once, simulate lets both switch, verify one at a time, so a node of simulate can have modes that no node of verify has. |
| C80 | a safe verdict is right | partial | Assembled.lean Crossing.lean Safe.lean | `C80_safe_partial` `C80_formulas_partial` `C80_modes_partial` `C80_gap_violated` | Induction on the phases of C55; answers about asserts. Proved with the hypotheses on nodes of C55 and for preconditions of asserts that do not distinguish states of a step. False without: after a guard that only some states satisfy, the scan of the tube ends at the first step without a hit, and asserts after it are not looked at, though executions go on there. C80_formulas_partial is the same for controllers that are given by formulas, with the models of sensor and guard evaluation in place. C80_modes_partial: as C55_modes_partial. |
| C81 | mixed-monotone tubes in continuous time contain all trajectories | partial | MixCont.lean | `C81_steps_partial` `C81_monotone_partial` `C81_between_violated` | Gronwall inequality for the distance from the box; induction on steps. Proved at the step times, for every decomposition function that is Lipschitz on bounded sets, with an exact integrator; and at all times if every component of the embedding system only grows or only shrinks during a step. False between the steps otherwise: the rectangle of a step is computed from the two ends of the step only. |
| C82 | the tree of verify contains the states at all times | partial | Between.lean BetweenEx.lean | `C82_sampled_partial` `C82_urgent_partial` `C82_late_violated` | Set-valued steps: C55 for phases that have a set of states in each step; a continuous execution gives one. Time is any ordered field, e.g. the reals. With the hypotheses on nodes of C55. Controllers that look at the state at the multiples of the time step: a rectangle for the right time contains the state at every time. One agent whose controller looks at the state all the time: the rectangle can be one for a time that is earlier by up to one step per switch. False without this lag: the tube of the new mode is computed as if the switch happened at the beginning of the step. |
| C83 | a safe verdict is right at all times | partial | Between.lean BetweenEx.lean | `C83_sampled_partial` `C83_urgent_partial` `C83_together_violated` | As C82, with the asserts of C80. With the hypotheses of C80. Proved for controllers that look at the state at the multiples of the time step, and for one agent whose controller looks at it all the time. False for several agents in the second case: after a switch between two steps, the tube of the agent is ahead of the tubes of the others, and asserts compare states for different times. |
| C84 | simulate gives controllers the states of the agents | partial | PackEnv.lean | `C84_view_partial` `C84_single_violated` `C84_mixed_violated` | Texts of names; induction on the dictionaries of the sensor. Proved, for the default sensor, for a list argument if all other agents are of its type. False for an argument that is one agent: its attributes are lists with one element. False for agents of several types: the objects in the list mix the variables of different agents. |
| C85 | traces of agents are samples of their dynamics | partial | Agents.lean | `C85_cars_partial` `C85_rest_partial` `C85_others_partial` `C85_motion` `C85_robot_partial` `C85_thermo_partial` `C85_sign` `C85_base_partial` `C85_horizon_violated` | Induction on the loop; integrator as a parameter. Integrators are parameters, assumed exact (for all states, or at the rows of the trace); real arithmetic; rounding of times is assumed not to change multiples of the step. BaseAgent: only for horizons that are multiples of the step; otherwise false: the trace ends before the horizon and has fewer rows than those of other agents. The three dynamics of the spacecraft are a parameter; the quadrotor agent is not modelled. |
| C86 | cars keep to their limits | partial | Cars.lean | `C86_steering` `C86_forward` `C86_cruise` `C86_brake_partial` `C86_accel_partial` `C86_overshoot_violated` `C86_stop_violated` `C86_limit_violated` | Closed form of the speed; induction on rows. With an exact integrator. Braking and accelerating: for time steps of at most 1, and accelerating from at most the target speed. False for larger steps (the speed overshoots), above the target speed (the car brakes without limit in the mode Accel), and for the mode Stop (the car does not stop). |
| C87 | cars follow their lanes | partial | Cars.lean | `C87_keeps_partial` `C87_turns_partial` `C87_npc_turn_violated` | Closed form of straight motion; induction on rows. With an exact integrator and time steps of at most 1; the mode Stop is excluded. For NPCAgent, the direction of the car must be the very number that the map gives; false for directions that differ by whole turns: it then steers away with the largest angle. |
| C88 | every analysis starts from what was given | partial | Session.lean | `C88_start` `C88_given` `C88_verify` `C88_seed` `C88_seed_plain` `C88_multi` `C88_multi_given` `C88_combinations_violated` `C88_verify_own_init_violated` | Inversion of the calls; induction on runs; generator as a parameter. Simulator, verifier and random generator are parameters. Violations proved: with a seed, agents with the same initial rectangle always start in the same state; for an agent that was given its initial condition after it was added, verify raises unless simulate was called before. |
| C89 | plots show the whole tree | partial | Plot.lean | `C89_tubes_partial` `C89_outline_region` `C89_axes` `C89_simulation` `C89_simulation_hits` `C89_reach_hits_partial` `C89_short_violated` `C89_short_plot_violated` `C89_ribbon_violated` `C89_combine_violated` `C89_sampled_violated` `C89_odd_violated` `C89_sim_sampled_violated` `C89_reach_hits_violated` | Induction on the work list; convex hulls for what is not drawn. Tubes: proved for the default sample_rate and combine_rect, for tubes that move. Violations proved: of a tube with a single rectangle only the lower corner is drawn; with combine_rect None or 2 parts of the rectangles are not in the polygons; with another sample_rate, rectangles and the ends of simulations are not drawn and are deleted from the tree, corners of different rectangles are drawn as one rectangle, or IndexError is raised; reachtube_tree marks no violated assertions unless labels are asked for. Maps, colours and labels of modes are not modelled. |
| C90 | slices and animations show what happens at their times | partial | PlotTime.lean | `C90_slice_partial` `C90_anime_partial` `C90_sim_anime_partial` `C90_slice_cut_violated` `C90_slice_still_violated` `C90_anime_violated` `C90_sim_start_violated` | Induction on the work lists and on rows. Slices: for rectangles whose time interval lies in the slice, of tubes that move. Violations proved: rectangles whose interval is only partly in the slice are not drawn; a tube with a single rectangle is drawn (as a point) in every slice; in animations of tubes the first four rectangles of every node that starts after time 0 are missing; the animation of a simulation that starts after time 0 raises KeyError. Slices with combined rectangles and the trail mode are not modelled. |
| C91 | the example sensors show the states of all agents | partial | ExampleSensors.lean | `C91_named_partial` `C91_names` `C91_short` `C91_static_violated` `C91_short_violated` `C91_single_simulate` `C91_single_partial` `C91_single_violated` `C91_star_violated` | Reduction to the default sensor (C48); for SingleSensor two updates of a dictionary. ThermoSensor, CraftSensor, QuadrotorSensor: proved for agents with enough variables, without static parameters. SingleSensor: in simulate it is the default sensor (C48); in verify proved for two agents. Violations proved: static parameters are not shown; in simulate an agent with too few variables makes the lists refer to different agents; SingleSensor in verify shows only the last other agent; CraftStarSensor in simulate gives every variable the value of the first one. |
| C92 | diameters of star sets | partial | Diameter.lean DiameterSteps.lean | `C92_distance_partial` `C92_diameter_partial` `C92_bound` `C92_steps_partial` `C92_all_steps_partial` `C92_fallback_partial` `C92_wide_violated` `C92_gap_violated` | The rows of the program are shown to say what they should (sums over blocks of columns), in both directions; induction on rows, agents and nodes. Proved for stars whose points differ by at most half of 2^20 - 1 in each coordinate, with a solver of mixed integer programs that is right, and for windows of time that all contain a star. Violations proved: the diameter of [0, 1000000] is given as 524287.5; steps without stars are left out of the list, so that later entries move forward. |
| C93 | bounds of sensors contain their values | partial | SensorParser.lean | `C93_covers_partial` `C93_tight` `C93_cache_partial` `C93_norm_partial` `C93_atan2_partial` `C93_map_partial` `C93_map_inner` `C93_crown_partial` `C93_cache_violated` `C93_sim_violated` `C93_zero_splits_violated` `C93_norm_violated` `C93_atan2_violated` `C93_map_violated` | Induction on the parts of the box and on the history of calls; trigonometry for atan2. Proved for the sensor after its functions are replaced by those for torch, with CROWN assumed to be right on each part, at least one split, and a cache in which names determine sensors. This also gives the assumption on CROWN of C67. Violations proved: sensors of the same name share cache entries; sim always raises an exception; 0 splits give no bounds; the replaced norm is 1/10000 at 0; the replaced atan2 is 0 straight behind and above pi close to the y axis; a map function is bounded by values that an optimizer happens to find. |
| C94 | where a position is relative to a lane | partial | LaneQueries.lean | `C94_straight` `C94_straight_axis` `C94_circular_partial` `C94_heading` `C94_arc_violated` `C94_zero_violated` | Reduction to the round trips of C36; the distance is the least by cases on the side of the lane. Complete for straight lanes (over the real numbers); for circular lanes proved up to half a turn from the beginning. Violations proved: a point on the axis of a lane of three quarters of a turn has a large distance from it and is neither on the lane nor is the lane reachable from it; after_end ignores a given coordinate that is 0. |
| C95 | errors of positions from distances and angles | partial | RangeError.lean | `C95_angles` `C95_point_partial` `C95_point_tight` `C95_box_partial` `C95_box_tight` `C95_wide_violated` `C95_box_violated` | Sine and cosine over an interval are largest at an end or at a quarter of a turn; products of intervals; cases on signs. Complete for one position and angle errors below half a turn (over the real numbers). For boxes the optimizer is assumed to find values that are not above those in the box. Violations proved: with an angle error of half a turn possible errors are missed; an optimizer that finds values in the box but not the least ones gives bounds that miss errors. |
| C96 | Maps read from OpenDRIVE files have the lanes of the roads | partial | OpenDrive.lean | `C96_left_partial` `C96_right_partial` `C96_map_partial` `C96_joined_partial` `C96_right_violated` `C96_curve_violated` `C96_last_violated` `C96_shoulder_violated` `C96_order_violated` `C96_switch_violated` | roads as lists of geometries and lanes; each segment is compared with the reference line of the standard by trigonometry; the loop over lanes is a running sum, equal to the sum over lanes with smaller numbers by induction on the list Proved for lanes listed from the reference line outwards that are all to drive or walk on: segments follow the reference line in the middle of the lane with its width (left: lines and curves in both directions narrower than the radius; right: lines and curves to the left), and join; maps without lanes to drive on to the right have exactly these lanes with the right neighbours, and changing lanes (at most ten) leads to them. Violated: any lane to drive on to the right makes the parser fail; right lanes in curves to the right get negative lengths; the last road is ignored; the widths of shoulders and other lanes are not counted; lanes listed outermost first are taken for innermost; with twelve lanes changing lanes leads to a wrong lane. |
| C97 | verify answers for the decision logic that was written | partial | Source.lean SourceVerify.lean | `C97_reading_partial` `C97_written` `C97_no_queries` `C97_condition_partial` `C97_transition_partial` `C97_assert_partial` `C97_fine_partial` `C97_rule_partial` `C97_verified_partial` `C97_rule_violated` `C97_assert_violated` | the reading is a partial function from Python expressions to guards; truth in Python and truth of the guard agree by induction on the expression; the theorems of the parser, of the guard checks and of verify are then composed Composition of C13, C14, C16, C17, C23 and C80. Restrictions: those of these theorems (naming discipline, no assignment to the output at top level, an ideal solver); expressions of the forms the guard model has (no conditional expressions); map queries under the condition of C23 (QueriesFit, for verify MapsFit), which is void for guards without them; a list of coordinates is a call of a reserved name in the parser model; evaluation in Python raises no type error; Python objects for numbers, strings and truth values compute as in the field (assumption Agrees). What is read is characterised both ways: truth is the same, and every guard can be written. |
| C98 | Discrete mixed-monotone tubes from the source of the dynamics | partial | MixText.lean | `C98_tube_partial` `C98_order_violated` `C98_aug_violated` `C98_end_violated` `C98_before_violated` `C98_dt_violated` `C98_names_violated` | the scan of the body computes the right-hand sides and the names; running the body in a store gives the same values; the decomposition then bounds the dynamics on every box and C41_sized applies Proved for functions of the form of the examples (unpack args and x, Begin, one assignment per variable in the order of the state and over the old values only, End, return), for all sizes and expressions with arithmetic, given an exact minimizer (hypothesis; see C41) and a sympify that preserves values. False for other forms, each with a function for which the tube is wrong or not computed. |
| C99 | Diameters of reach tubes and of simulations | partial | Diams.lean | `C99_rect_partial` `C99_sim_partial` `C99_sim_exact_partial` `C99_branches_violated` `C99_modes_violated` `C99_dims_violated` | the windows of one and a tenth step contain exactly the rectangles of one step; the walk over the simulations groups the states by the key of their path (invariant of the queue); minimum and maximum per entry give the smallest rectangle Proved for states in the tubes of the same node, for simulations whose states have the same number of entries, and (exactness only) for mode sequences with different keys. False for states in different nodes, for modes whose joined texts agree and for states with different numbers of entries. |
| C100 | Agents know the lanes of the map | partial | Tracks.lean | `C100_known_partial` `C100_agents_partial` `C100_order` `C100_swap_violated` `C100_replaced_violated` | induction over the sequence of calls, with the exact set of modes as invariant All sequences of set_map and add_agent: every lane of the current map is known, with an exact description of the modes; the order does not matter. False after swap_dl (the new decision logic knows no lanes) and, for the part that says only these lanes, after a map is replaced (the lanes of the old map stay). |
| C101 | Sampling from star sets | partial | Sampling.lean | `C101_sample` `C101_fails` `C101_box` `C101_tube` `C101_flat_violated` | invariant of the loop: the points so far are the hits among the draws, the last draws are misses; the pair of missing points and allowed misses decreases Returned points are exactly the draws that are in the star set; at most N * (int(N * tol) + 1) draws; an exception means so many misses in a row; never for star sets that fill their rectangle. Violated: for flat star sets there is an exception unless random numbers coincide. Assumptions as in C42, C61 and C62. |
| C102 | Flights of the quadrotor | partial | Quadrotor.lean | `C102_returns` `C102_trace_partial` `C102_waypoints` `C102_flight` `C102_moves` `C102_speed` `C102_straight` `C102_empty_violated` `C102_beyond_violated` | induction over the remaining steps with the rows and the waypoints so far as invariant; uniqueness of solutions for constant accelerations gives the closed form of each step Horizons and times between waypoints that are positive multiples of the time step; round(x, 4) leaves multiples of the time step alone; the integrator is ideal for C102_flight, C102_moves, C102_speed. The only exception is that of get_next_point; none on a straight lane that is long enough. Violated: for the horizon 0 no row is returned; if the horizon is not a multiple of the time step there are rows beyond it. |
| C103 | Trees of verify_partitioned cover the executions | partial | PartExec.lean | `C103_covers_partial` `C103_safe_partial` `C103_later_violated` | induction over the phases of an execution with an invariant that relates the phase to the node: modes, initial rectangles and inherited tubes contain the states; C31 gives the child of each switch For nodes that are sharp: at the first step at which a guard may be satisfied all states satisfy one. Answers about guards, resets and asserts must be right; at most one path per variable; states are considered at the steps. Violated without sharpness: there is one child only, which starts at the first step of the transition, so executions that switch later are lost. |
| C104 | Translation of sensors to torch | partial | TorchText.lean | `C104_translation_partial` `C104_exact_partial` `C104_history_partial` `C104_bounds_partial` `C104_names_violated` `C104_functions_violated` | mutual induction over expressions: the translated expression has the value of the source expression with replaced functions, up to the names of functions; induction over assignments and over histories; composition with C93 For sensors without control flow that use no reserved name (sin, cos, atan2, torch, atan2_crown_safe) for themselves, parameters or variables, and where torch computes the mathematical functions (no norm, atan2 in front or clearly to the left and not straight behind, arguments are tensors). Otherwise violated: a parameter called sin is not seen, an assignment to sin overwrites torch.sin for all later sensors, functions of plain numbers fail, the angle straight behind is 0. |
| C105 | Distances along rays and segments | partial | RayDist.lean | `C105_circle_partial` `C105_rect_inf_partial` `C105_rect_partial` `C105_ellipse_opposite` `C105_ellipse_partial` `C105_circle_violated` `C105_rect_violated` `C105_ellipse_violated` | sign of a polynomial of degree 2; the strips of a rectangle as intervals of times in the forms bounded, all, none; three intervals that meet pairwise have a common point Circles: the result is the first time on the ray (a distance if the direction has length 1). Rectangles: for segments that do not run along the line of a side and, for the distance, start outside. Ellipses: without rotation. Violated otherwise: negative distances from inside, segments along a side are missed, rotation in the wrong sense. |
| C106 | The loops of the 3D example maps are closed and smooth | partial | Loop3d.lean | `C106_loop_partial` `C106_order_violated` `C106_parallel` `C106_distance_violated` | the ends in the frame of the normal vector; the frame of the opposite vector; on the axes of a frame the computed angle does not depend on the length of the normal vector; derivatives of the curves Rounding to five digits is ignored in C106_loop_partial. Violated: the lane lists its segments in an order that is not the order of driving, so longitudinal coordinates jump; around (1, 1, 1) lanes are sqrt 12 widths apart. |
| C107 | Symbolic values that are treated as equal are equal | partial | IrText.lean | `C107_same_partial` `C107_absent` `C107_case_partial` `C107_assert_partial` `C107_label_violated` `C107_hole_violated` `C107_order` `C107_merge_partial` `C107_none_violated` | tokens of the text; the grammar of C73 reads the expressions inside it in only one way; lists by induction The printed text determines the value, for expressions without reductions inside. Violated: a variable without value and the constant None are the same for the parser, so that a variable set to None in one branch only is lost; an argument and a call of a function named Hole; labels of asserts. |
| C108 | Videos show all reachtubes up to the time of the frame | partial | Video.lean | `C108_frames_partial` `C108_times` `C108_last_partial` `C108_zero` `C108_pixels` `C108_area_partial` `C108_one_violated` | invariants of the scan over breadth-first order; the cursor splits the sorted times; affine maps keep betweenness Proved for trees that are not sampled. Violated: with max_frame_steps=1 there is only the frame of the first time, with 0 the program divides by zero. |
| C109 | Pictures of maps show all lanes | partial | DrawMap.lean | `C109_shown_partial` `C109_colours_partial` `C109_equal_violated` `C109_arc_violated` `C109_zero_violated` | induction over lanes and segments; convex hull of the corners; chords against arcs by trigonometric identities Proved for pictures with lines or filled areas, and for detailed ones where every lane has a speed limit. Violated: no detailed picture if all speed limits are equal or absent; circular segments of lanes without limit are not drawn; a limit of 0 gives a colour outside the range. |
| C110 | Pictures of star sets show the star sets | partial | StarPlot.lean | `C110_inside` `C110_outline_partial` `C110_tree_partial` `C110_kept` `C110_skew_violated` `C110_generators_violated` `C110_dims_violated` `C110_filter_violated` | support functions: every direction is within pi/99 of one of the hundred; nearest point of the convex hull in the plane; induction on the work list Nothing outside is enclosed: for all star sets. The margin of pi/99: for bases whose rows for the two dimensions equal the columns (star sets made from polytopes and rectangles). Violated: for other bases the outline can be a segment inside of the set; star sets with fewer or more vectors than dimensions cannot be drawn; x_dim and y_dim are ignored; with filter > 1 the tree is thinned out. |
| C111 | Lanes can be described by plain data and built again | partial | LaneConfig.lean | `C111_plain` `C111_rebuild_partial` `C111_circular3_partial` `C111_again` `C111_class_partial` `C111_id_violated` `C111_norm_violated` `C111_ends_violated` `C111_phases_violated` `C111_start_violated` `C111_nested_violated` | the five constructors as functions of their keyword arguments; reading back each entry of the description; phases and normal vectors that the constructor keeps With the name of the lane added to the description, straight and circular lanes and straight lanes in space are built again with all attributes but their place along a road; circular lanes in space if the normal vector is added as well and the phases are within one turn. Violated: the description as it is never builds a lane. |
| C112 | Plots in space show what was computed | partial | Plot3d.lean | `C112_tubes_partial` `C112_edges_partial` `C112_hits_partial` `C112_simulation_partial` `C112_cuboid` `C112_straight` `C112_circular` `C112_combine_violated` `C112_missing_violated` `C112_sampled_violated` | a mesh is a list of triangles; by cases over the twelve triangles of a box their union is its surface; induction over the traversal for the tree; distance of points of a circle for lanes Proved with combine_rect=None for the tree as it is after sampling (with the default rate, as it was before) if all nodes have all agents: surfaces, edges and marks are those of the rectangles. Lanes are drawn through a hundred evenly spaced points of their centres. Violated: with combine_rect nothing is drawn, with other sample rates wrong boxes are drawn, below a node without the agent nothing is drawn. |
| C113 | State variables and modes are those the classes declare | partial | Classes.lean | `C113_states_partial` `C113_modes_partial` `C113_once` `C113_sensed_partial` `C113_if_violated` `C113_inherit_violated` `C113_float_violated` `C113_twice_violated` `C113_annotation_violated` `C113_member_violated` `C113_typo_violated` | induction over the statements of the file and of the class; the lists of variables as filters of the declarations; composed with the theorem on the sensor Proved: exactly the classes outside of if and before the check for main are read, the last one of each name; the variables are those declared in the body, in order, by kind, with their annotations; none is lost or invented; the sensor shows values under these names. Violated: classes inside of if and inherited variables are lost, names with mode in them are discrete whatever their type, repeated declarations count twice, annotations other than names are rejected, annotated names without value count as modes, references to undefined modes are accepted. |
| C114 | Experiments do what their command line says | partial | Bench.lean | `C114_options_partial` `C114_start` `C114_run_partial` `C114_compare_partial` `C114_answers_partial` `C114_replace_partial` `C114_keyword_violated` `C114_local_violated` `C114_seed_violated` `C114_timesteps_violated` `C114_second_violated` `C114_replace_violated` `C114_hits_violated` | each step of run and compare_run is followed through the possible exceptions; the numbers and answers are those of the theorems on trees and containment Proved: each letter sets its option and no other; run is the analysis asked for, and report shows the agents, nodes and leaves of its tree; compare_run without further arguments compares two successive analyses of the scenario, with the answers of contains, which by C11 say what is covered; replace_scenario sets scenario and options. Violated: the three options of the letters are refused by name; t stays among the other letters, and is ignored for the second scenario; keyword arguments such as the seed do not reach simulations; 0.3/0.1 counts two steps; every comparison with further arguments ends with an exception; hit counts are those of all runs so far. |
| C115 | Static pictures and the animation show every node, inside the axes | partial | Static.lean | `C115_tubes_partial` `C115_axes` `C115_made` `C115_lines_partial` `C115_animation` `C115_boxes_partial` `C115_missing_violated` `C115_limits_violated` `C115_blame_violated` | the loops over the queue and the stack visit every node; the limits are folds of min and max; each frame is the list of the rows with its time Proved: the area covered by the rectangles, the black area, the lines, the boxes and the frames are exactly those of the rows of the tree, all inside the axes, whose limits are tight; and the picture is made whenever all nodes have a trace of rectangles. False in general: one node without the agent makes all plotters raise, the given limits are always widened, and an agent is marked as unsafe for the violated assertion of another one. |
| C116 | Incremental verification with star sets gives the tubes of plain verification | partial | StarInc.lean | `C116_plain_partial` `C116_bloated_partial` `C116_first_miss` `C116_all_miss` `C116_no_segments` `C116_hit_violated` `C116_incremental_violated` `C116_two_stars_violated` | with incremental each path through the loop ends in an exception; without it the theorems on combined stars and on tubes of rectangles apply Proved: without incremental the cache plays no role and the tube covers all initial stars of one segment, for any sound way to compute it and for the one of the code. False with incremental: for every cache and every list of initial stars the computation raises (a name without a value), and two stars in a segment raise already when the cache is asked. |
| C117 | In the example maps in space an agent changes between neighbouring levels | partial | Levels.lean | `C117_changes` `C117_exists` `C117_lane` `C117_runs` `C117_neighbours_partial` `C117_heights` `C117_members_violated` `C117_neighbours_violated` `C117_base_violated` | the table is shown equal to the steps between neighbouring levels for all texts; runs by induction on the list of modes with the level as invariant Proved for texts, for all sequences of changes; the agreement with the neighbours for SimpleMap6. False: members of an enumeration are never found (the overriding methods drop the conversion of the base class), SimpleMap7 has no neighbours although moves are possible, and trans_func of the base class gives no lane of SimpleMap1. |
| C118 | A ball under gravity falls | partial | Falling.lean | `C118_first_partial` `C118_energy` `C118_methods` `C118_raises_violated` `C118_sideways_violated` | solutions of the differential equation are compared with the closed form component by component (a function with derivative zero is constant) Proved: the right-hand side describes free fall along the first coordinate (existence and uniqueness of the solution) and conserves energy; the same TC_simulate works for agents whose dynamics are methods. False: TC_simulate of Ball_g_agent raises TypeError for every input (staticmethod with a parameter self), and gravity acts on the horizontal velocity, not on the vertical one. |

## Where the code and the property disagree

Each line is a disagreement found while modelling; those with a theorem `_violated` in the table are proved, the others
are remarks.

* C03: the assertions of an agent without transitions are not looked at, so that the trace of a node can be cut by a switch although such an assertion fails before it.
* C04: asserts of an agent whose controller has no transitions are never checked by simulate.
* C05: of several transitions of an agent to the same mode only the first is kept, so other resets are lost.
* C07: a parallel simulate loses `assert_hits`.
* C08: without `max_height` a Zeno scenario is explored forever.
* C10: simulation trees with unexpanded nodes raise `KeyError` on load; `simulate_simple` gives every node the id -1.
* C11: `contains` compares dimension by dimension, ignores the tail of longer branches, can raise `IndexError` on equal trees; the branch for simulations is dead (Enum compared with str).
* C12: `first_transitions` uses breadth-first order, not time order.
* C13, C14: an unconditional assignment to the output is dropped; an `if` whose branches give a variable the same value loses it.
* C16: in `verify`, a guard with a reduction inside the element of another one raises `AttributeError`.
* C17: a comprehension variable overwrites the variable of the same name outside.
* C18: arguments can be captured by comprehension variables of the helper; parameters in conditional expressions are not replaced.
* C19: reassigning an attribute in a later `if` of the same block can be rejected.
* C22: the answer `unknown` of the solver counts as "not hit".
* C23: on lanes of several segments only the segments at two corners of the rectangle are looked at.
* C25: the enclosure of the longitudinal position is wrong where `arctan2` jumps.
* C26: `x*x` over [-1, 1]; names that begin with other names; `x**2` with negative `x` (text replacement gives `-1**2`); a mode copied from another mode variable, or set to a member of an unknown class, is ignored.
* C27: the scan ends at the first gap in the hits; resets for other variables that are possible elsewhere in the tube are combined.
* C28: an assert whose precondition is true in part of the tube only is not reported; `unsafe_continue` raises `TypeError`.
* C29: the option `partition_initial` is never read.
* C31: only the first rectangle with a hit is cut, and only the first combination of resets is applied.
* C32: tolerance in the wrong direction; the horizon of a cached tube is not checked; cached arrays are changed in place (they only grow).
* C34: a changed assignment keeps the old destination.
* C35: a single state given to the agent before `add_agent` is not doubled; both corners are then the same list object; `verify` does not call `_get_init_from_agent`.
* C36: arcs longer than half a turn do not round-trip.
* C37: signed lateral distances are compared.
* C38: `h_exist` of the intersection map is always false.
* C39: `SwitchLeft` is never possible on `SimpleMap4Switch2`.
* C40: a training trace that starts in a corner leaves the tube by a relative 1e-10; `dryvr_disc` with radii in (0, 1e-10).
* C41: a gradient minimizer can stop at a stationary corner.
* C43, C44, C63: `linprog` bounds variables below by 0 by default; the basis is not transposed; operator precedence in `get_true_center`.
* C45: widths that add up to a turn or more.
* C46: intervals that straddle zero, or more than one per side, are lost by the reformatting.
* C47: discrete tubes are paired wrongly; a first leaf that ends early, or T beyond the horizon, makes the test always true; end times are compared as floats.
* C48: state vectors of different lengths misalign the lists; a second list argument is never filled; the key "others" is hard-coded.
* C50: chained comparisons; fall-through return; names at the call versus parameters.
* C51: a transition rejected by the map ends the scan.
* C53: lanes that share segments overwrite each other's `longitudinal_start`.
* C54: when the map rejects all transitions that were found, the rest of the tube is reported without being checked.
* C57: times of a cached trace are not shifted, and the trace is not extended to the horizon.
* C58: for a segment without transitions changed guards are never evaluated; an additional branch raises `AttributeError`.
* C55: the tube of a node is cut after the last step at which a guard may be satisfied. If a guard can be satisfied by some states of the tube only
  (and at no later step), the executions that do not satisfy it are lost after this step (`C55_gap_violated`).
* C59: `init_seg_length = 1000` merges initial rectangles of different times.
* C60: rotation in the wrong direction; crossing rectangles are missed.
* C62: the import of PCA is commented out, so that the default configuration raises `NameError`; states that are not sampled are not covered.  For a star set whose number of inequalities is not twice the number of vectors the second try of the fit raises an exception (`C62_retry_violated`).
* C64: only the tube of the last segment is kept; a segment with one star uses the first initial star; incremental analysis with stars raises `NameError`.
* C65: origin on the upper edge of the box; crossing rectangles; origin on the left edge or box standing on the x axis.
* C66: the full turn is refused.
* C67: everything around the call of an angular function is ignored; returned expressions and arguments that are not names as well.
* C68: the cache key has only the bounds and the name of the function; `cache=False` still reads; the form of the result depends on the cache.
* C69: reset expressions of star sets are evaluated on texts with names replaced (`ego.x` inside `ego.x2`); an expression that is not affine is
  approximated from the center and the tips of the basis vectors, without error bound.
* C70: with star sets, the dimensions of a star are found from texts: a variable of another agent whose name contains `ego` shifts the dimensions of
  the agent itself, if it is listed before; a variable named `alpha_1` is confused with a coefficient. In both cases guards are missed.
* C71: with star sets, the range of a variable of another agent is taken at the index that the variable has in the agent itself; a lane query in an
  assertion leaves a temporary variable in the dictionary, on which every later assertion of the step raises `IndexError`.
* C72: `simulate_simple` appends static variables to the continuous state after a switch, ignores a decision logic that changes `ego` in place, never
  runs a decision logic without transitions (its assertions are not checked), raises `KeyError` if two state definitions share a mode variable or another agent is in a mode that the controller does not know and
  `IndexError` if an assertion without message fails, and does not return for a decision logic that always changes the mode unless `max_height` is given.
* C73: a negative number as base of a power is printed without parentheses, and read back as the negation of the power. Python's parser does not build
  such trees; they arise if a negative value is put in place of a variable (as text, C26).
* C74: on 3D lanes, the sine is rounded to five digits and then multiplied by n_x n_z / n_y; if n_y is tiny but not zero (as after a rounding error), the
  angle is wrong, and `position` leads to the other side of the lane. On circular lanes with `right_rotate=False`, `local_coordinates` uses the flag and `position`
  does not, so that points above the lane are taken for points below it.
* C75: `get_center_radius` halves the radius for half a turn; uses `phase - pi` for angles above pi; a quarter turn with `right_rotate=True` becomes three
  quarters of a turn; `get_theta_by_coor` assumes a unit normal vector, but `CircularLane_3d_v2` passes the one given by the user.
* C76: the end of a 3D lane, and points on the outer side of a corner more than one unit from it, are on no segment: the queries for them raise.
* C77: `get_next_point` keeps the segment of an earlier call although another is nearer (the map is shared by all branches of an analysis), raises near the end
  of a lane, and shortens the waypoint at a joint.
* C78: adding a 3D lane again makes the neighbours one-sided, as does pairing with an unknown lane.
* C79: when two agents can switch at the same step, `simulate` lets both switch and `verify` only one at a time: `simulate` reaches modes that are in no node of `verify`.
* C80: when some states of a tube satisfy a guard and, at the next step, none, the scan of the tube ends there. Executions that did not satisfy the guard go on, and asserts that they violate later are not reported: `verify` shows no failed assert although an execution violates one.
* C81: the rectangle of a step of a mixed-monotone tube in continuous time is computed from the states at both ends of the step; states between them can be outside (an oscillator with a turning point in the step).
* C82: when a guard becomes true between two steps and the controller looks at the state all the time, the agent switches there, but the tube of the new mode is computed as if it had switched at the beginning of the step. After the switch the state can be outside of every rectangle for its time; it is in a rectangle for a time at most one step per switch earlier.
* C83: for the same reason, after such a switch asserts about several agents are evaluated with rectangles for different times. `verify` shows no failed assert although an execution violates one between the steps.
* C84: for a controller with an argument that is one agent and no list, `simulate` evaluates guards with an object whose attributes are one-element lists. With agents whose state vectors have different lengths, the objects of a list argument mix the variables of different agents.
* C85: `BaseAgent.TC_simulate` ends before the horizon if the horizon is no multiple of the time step (2.4 steps: rows for 0, 1, 2), while the traces of cars and signs have one row more.
* C86: with a time step above 1, a car in the mode `Accel` gets faster than `speed`. In the mode `Accel` above `speed`, it brakes with `v - speed`, without limit. In the mode `Stop` it keeps its speed.
* C87: `NPCAgent` does not wrap the difference between the direction of the lane and its own: with directions that differ by a whole turn, it leaves its lane with the largest steering angle. `CarAgent` wraps it.
* C88: `sample_rect` seeds the generator again for every agent, so with a seed agents with the same initial rectangle always start in the same state; `verify` does not look at initial conditions that agents got after they were added.
* C89: `reachtube_tree_single` tests with all rows but the last whether a tube is a single point, so that a tube with one rectangle is drawn as a point; the polygons for combined rectangles leave out corners; `sample_trace` compares the type of the root (a member of a plain Enum) with a string, so that its branch for reachtubes is never taken: with `sample_rate=2` only the lower corners of all rectangles are left, which are then drawn in pairs as if they were rectangles (an odd number of them raises IndexError), and the tree itself is changed; `reachtube_tree` marks hits only with `label_mode`.
* C90: `reachtube_tree_single_slice` draws only rectangles whose interval lies in the slice, and the test for single points does not look at the times; `reachtube_anime` drops the first eight rows of traces that start after 0; `simulation_anime` looks up frame 0.
* C91: the example sensors with fixed names drop static parameters and in simulate do not test the number of variables; `SingleSensor` overwrites the values of other agents in verify; `CraftStarSensor` in simulate gives all variables the value of the first.
* C92: the big number of the program for the diameter, 2^20 - 1, limits the distance in each coordinate to half of it; for wider stars a number that is too small is given, and counts as found. `time_step_diameter` leaves out steps without stars, so that the position in the list does not tell the step.
* C93: the cache of `parsed_sensor` uses the name of the function, not its code; with `sim=True` a name is used before it is assigned, so that simulation never works; the replacements of `norm` (by 1/10000 too large at 0) and `atan2` (straight behind, and close to the y axis) have other values than the functions they replace, so that right bounds for them need not contain the values of the sensor; the bounds for map functions are values found by an optimizer, which may miss others.
* C94: positions more than half a turn from the beginning of a circular lane get negative coordinates, so that points on its axis count as far away, not on the lane, and the lane as not reachable; `after_end` treats a given coordinate 0 as not given.
* C95: for errors of the angles of half a turn or more, the interval of angles collapses and errors are missed; the bounds for a box rest on `differential_evolution` finding the least values.
* C96: maps from OpenDRIVE files. `condense_matrix` fails with an IndexError for every file with a lane to drive on to the right, as the widths of these lanes are not recorded (`C96_right_violated`). Segments of lanes to the right in curves to the right are not marked as clockwise and so have negative lengths (`C96_curve_violated`). The last road of a file is ignored, so a file with one road makes no map (`C96_last_violated`). Shoulders and other lanes count as if they had no width (`C96_shoulder_violated`). Lanes are taken in the order of the file, not of their numbers; the files in the repository list the outermost first (`C96_order_violated`). The names of the modes between lanes use the last digit of the lanes only, so with twelve lanes changing to the left from the first one leads to the last one (`C96_switch_violated`).
* C98: assignments in another order than the state, and `+=`, give tubes that miss the trajectory; assignments after "End Dynamic", constants before "Begin Dynamic", another name for `dt` and uses of newly assigned names end in an error.
* C99: `time_step_diameter_rect` takes the largest diameter of a single node, so that two branches far apart get diameter 0; `sim_traces_to_diameters` joins the texts of a mode without a separator and so merges different modes, and ignores states with fewer entries than the largest.
* C100: `swap_dl` gives an agent a decision logic without the lanes of the map; the lanes of a replaced map stay track modes.
* C101: `sample_star` raises an exception for star sets with points when they are flat (for example the segment from (-1, -1) to (1, 1)).
* C102: the quadrotor returns no row at all for the horizon 0, and rows beyond a horizon that is not a multiple of the time step.
* C103: `verify_partitioned` makes one child per new mode, which starts at the first step at which the guard may be satisfied; executions that
  satisfy the guard at a later step only are in no path of the tree.
* C104: `TorchTransformer` replaces names without regard to scopes: a sensor with a parameter `sin` fails, and a sensor that assigns to a variable `sin` overwrites
  `torch.sin`, so that other sensors fail afterwards. Functions of plain numbers (`cos(0)`) raise an exception. `atan2(0, -1)` is 0.
* C105: `distance_to_rect` returns a negative number if the segment starts inside the rectangle, and infinity for segments along some sides (nan).
  `distance_to_circle` returns a multiple of the distance if the direction has not the length 1, and infinity on the circle when the ray leaves it.
  `point_in_ellipse` rotates in the wrong sense.
* C106: the lanes of `SimpleMap3` to `SimpleMap6` list the segment that leads back to the start second; the longitudinal coordinate jumps at the end of the first segment and
  falls back at the end of the last. The distance of the lanes around (1, 1, 1) is `2 * width * sqrt(3)`, because `n` is not normalised.
* C107: a variable that has no value and one whose value is `None` are equal for the parser: an assignment of `None` in one branch of an `if` is lost. The argument `x` and the call
  `Hole(x)` are equal for the parser. Asserts are compared without their labels. Apart from this the text determines the value, which justifies that `Model/Parser` compares trees.
* C108: `reachtube_tree_video` with `max_frame_steps=1` has one frame, for the first time: what follows is never shown. With `max_frame_steps=0` it raises ZeroDivisionError.
* C109: `draw_map` with `fill_type="detailed"` raises an exception if all lanes have the same speed limit (ZeroDivisionError) or none has one (ValueError, the minimum of an empty list). It does not
  draw circular segments of lanes without speed limit. A speed limit of 0 is dropped from the list of limits, so that its colour is outside 0 to 255.
* C110: `get_verts` maximizes a direction with the transposed basis (C63), so that the outline of a star set can be a segment in its interior, and fails if the numbers of vectors and dimensions
  differ; `plot_reachtube_stars` ignores `x_dim` and `y_dim` and deletes the star sets that it does not draw from the tree.
* C111: `from_config(to_config()["config"])` always raises `TypeError`, because the configuration has no `id`; circular lanes in space lack `norm_vec` as well, and `CircularLane_3d_v2` writes a configuration with keywords its
  constructor does not take. A circular lane in space of length 0 comes back as a full circle, `longitudinal_start` is lost, and `class_from_path` does not find classes inside classes.
* C112: with `combine_rect` given, `reachtube_tree_3d` draws nothing, though the documentation promises fewer rectangles. With a sample rate other than 1 the tree itself is thinned out and boxes between the lower corners of neighbouring rectangles
  are drawn. Below a node without an agent the tubes of this agent are not drawn.
* C113: classes of states and modes inside of `if` are read and forgotten; inherited variables are missing; a variable with `mode` in its name is discrete even if it is annotated `float`; a variable declared twice is two variables; an
  annotation that is not a plain name, as in `x: "float"`, is `NotImplementedError`; in classes of modes annotated names without a value are listed; `CarMode.Typo` is accepted as a mode.
* C114: `Benchmark(argv, parallel=True)` (or `incremental`, `try_local`) is a `TypeError`; the letter `t` is not removed from the letters that select a variant, and `replace_scenario` ignores it; `run(…, seed=4)` of a simulation drops the
  seed (demo/quadrotor/m6_2q/m6_2q_sim.py does this); the number of time steps is cut off, so horizon 0.3 with step 0.1 has 2; `compare_run` with further arguments takes a text for the scenario and always raises; the cache hits reported for the second run include
  those of the first.
* C97: after an `if` whose branches assign the same value the rule is missing, and an assert is checked with the value from before the `if`, so a program that always fails is verified.
* C115: `plot_reachtube_tree`, `plot_simulation_tree` and `plot3dReachtube` raise `KeyError` for a tree with a node without the agent, such as a node that was not expanded; limits of axes the caller gives are always widened by one unit or more; the
  last rectangle of an agent is drawn in black if an assertion of any agent is violated in the node.
* C116: `verify` with `STAR_SETS` and `incremental=True` raises for every scenario: `combined_rect` has no value in `calculate_full_bloated_tube_stars`; with two initial stars `check_cache_bloated_tube_stars` raises before (`np.array` of a star has no
  dimensions).
* C117: `h` and `h_exist` of `SimpleMap6` and `SimpleMap7` never find modes that are members of an enumeration, `SimpleMap7` has no upper or lower neighbours although its agents can move there, and the inherited `trans_func` of `SimpleMap1` gives names of no lane.
* C118: `TC_simulate` of `Ball_g_agent` raises `TypeError` always, because `dynamics` is a `staticmethod` with the parameter `self`; its right-hand side lets gravity act on `vx`, so the second coordinate never falls.
* Not stated as properties: a guard hit without an available destination raises `TypeError`; an assert that fails at a later scanned step drops all transitions of the node; the methods DRYVR_DISC, NEU_REACH, MIXMONO_* only use the first initial rectangle; `reach_trans_suit` ignores the discrete modes of other agents; `near_split` with a negative number of bins returns `[]`; the method GLOBAL of dryvr.py evaluates its bounds at absolute times although it computes them from times relative to the start of the simulation (they agree for simulations that start at 0); the nodes of a tree refer to the `agent_dict` of the scenario, so an agent added later appears in earlier trees.

## Trusted base

* Lean 4.33.0's kernel. No axioms are added; no `sorry`, `admit`, `native_decide` or `bv_decide`.
* The reading of the Python source: nothing is executed. Line numbers in the comments of `Model/` refer to /repo at the pinned commit.
* Python itself: integers unbounded, dicts in insertion order, `sorted` stable; floats replaced by exact numbers.

### Assumptions on external code (each is a hypothesis of the theorems that need it)

* z3 `Solver.check` (guards, star membership, fixed points): a parameter; assumed right, and where stated to decide every query. `And()` and `Or()` of nothing are true and false.
* z3 `Optimize` (piecewise functions): `OptCorrect`, with `looseOpt` as a witness that it can be satisfied.
* `scipy.optimize.linprog`: `LPCorrect` (optimal solution of the given problem, or the status infeasible); `polytope.box2poly`: `BoxCorrect`.
* The tube of one agent in one mode (DryVR, mixed monotonicity): a parameter of `verify`; for C55 assumed sound at the steps (`SoundTubes`).
* `scipy.spatial.ConvexHull` (method GLOBAL of DryVR): `IsHull`.
* `auto_LiRPA` (CROWN bounds): `CrownSound`. `differential_evolution` for map functions: a parameter, no soundness claimed.
* `scipy.optimize.minimize` (mixed monotone): exactness is a hypothesis of `C41_decomposition` and `C98_tube_partial`.
* `sympy` (C98): `sympify` keeps the value of expressions wherever they have one and adds no symbols; `free_symbols` lists the symbols once each (hypothesis `Lawful`).
* `scipy.integrate.ode` (`dopri5`): exact at the end of each step (`ExactSteps`) for C81.
* `TC_simulate` of agents (in all modules but `Agents`), `sensor.sense` and compiled guards in the simulator: arbitrary functions. `ray.wait`: an arbitrary schedule.
* `scipy.integrate.ode` and `odeint` in agents: parameters; exactness is a hypothesis of the theorems that need it. The map in agents: arbitrary functions for widths, lateral distances and headings.
* `np.random`: a generator whose state after `seed(s)` depends on `s` only; `uniform` gives `lo + u (hi - lo)` for `u` in [0, 1) (`Fair`).
* `IntervalTree`: set of intervals with arbitrary enumeration order. `portion`: finite unions of closed intervals.
* `json`, `pickle`, `md5` of the text of bounds: inverse or injective on the values that occur.
* `arctan2`, `sqrt`, `sin`, `cos`: the exact real functions (`Complex.arg` for `arctan2`).

### Parts of the code that are modelled

| model | source |
|---|---|
| `Parser`, `Ast` | verse/parser/parser.py (symbolic execution, merging, helpers, reductions) |
| `Guard`, `Road` | verse/automaton/guard.py (unrolling, discrete evaluation, lane queries, solver queries; rectangles) |
| `Lane`, `Maps` | verse/map/lane_segment.py, lane.py, lane_map.py, example_map/* |
| `Simulator`, `Engine`, `Incremental` | verse/analysis/simulator.py (simulate, simulate_one, transitions, caches), incremental.py |
| `Verifier`, `Partitioned`, `Rect`, `Reset`, `Engine` | verse/analysis/verifier.py (rectangles, partitioned, resets, loop) |
| `Assembled` | verse/analysis/verifier.py, 1015-1180: `Verifier` with `Sensor` and `Guard` in place of its parameters (`C55_formulas_partial`, `C80_formulas_partial`) |
| `Tree`, `Contains` | verse/analysis/analysis_tree.py |
| `Scenario` | verse/scenario/scenario.py, verse/agents/base_agent.py (initial conditions) |
| `Sensor` | verse/sensor/base_sensor.py |
| `Session` | verse/scenario/scenario.py 70-73, 206-373 (without `ray.init` and prints); `sample_rect` of verse/utils/utils.py; `root_from_inits` of analysis_tree.py |
| `Plot` | verse/plotter/plotter2D.py: `sample_trace`, `reachtube_tree(_single)`, `simulation_tree(_single)`, `check_dim` (the dimensions shown), `reachtube_tree_slice` with the default `combine_rect`, the frames of `reachtube_anime` and of `simulation_anime` in normal mode; without maps, colours, labels of modes |
| `ExampleSensors` | verse/sensor/example_sensor: thermo_sensor.py, craft_sensor.py, quadrotor_sensor.py, single_sensor.py (`SingleSensor`), craft_star_sensor.py (in simulate) |
| `Diameter` | verse/utils/star_manhattan.py; verse/utils/star_diams.py (`time_step_diameter`, `reach_star`, `manhattan`); `scipy.optimize.milp` is a parameter, assumed to give the least value if it gives one |
| `SensorParser` | verse/analysis/parsed_wrap/sensor_parser.py (`parsed_sensor`, `parsed_sensor_expr`, cache, `norm`, `atan2_crown_safe`), bounded_map.py; torch with CROWN and `differential_evolution` are parameters |
| `Falling` | verse/agents/example_agent/ballg_agent.py 11-36; verse/agents/base_agent.py 88-93 (with exceptions); assumption: `odeint` calls its function at least once |
| `Levels` | verse/map/example_map/simple_map_3d.py 15-33 (names), 136-208 (names, neighbours, table), 211-257; verse/map/lane_map_3d.py 32-34, 44-60 |
| `StarInc` | verse/analysis/verifier.py 66-235, 831-839, 431-456: the tube of an agent with star sets, with the cache as an arbitrary function |
| `Static` | verse/plotter/plotter2D_old.py 16-86, 120-223 and verse/plotter/plotter3D.py 14-19, 41-89: matplotlib, pyvista and polytope are left out, `pc.box2poly` is modelled by its documented result and the existence of a shell is a parameter |
| `Bench` | verse/scenario/scenario.py 423-574: command line and `Benchmark` without `swap_dl`; scenario and analyses are parameters, times and sizes are left out; with `Contains` and `Tree` for the answers and the numbers |
| `Classes` | verse/parser/parser.py 50-66, 427-446, 725-752, 781-782, 797-846: classes, `if` and the check for `__main__`; values, decorators and base classes are not looked at; with `Sensor` for what agents see |
| `Plot3d` | verse/plotter/plotter3D_new.py 35-476, 686-705, verse/map/lane_segment_3d.py 261-270, 447-468: coordinates, triangles and texts of what is added to the figure; colours, names, hover texts, legends and axis titles are left out; plotly is not modelled |
| `LaneConfig` | verse/map/lane_segment.py 211-229, 289-309, lane_segment_3d.py 272-290, 470-491, verse/utils/utils.py 22-25, 37-44, with the constructors; keyword arguments by names and defaults; an argument of a wrong kind is an error; importlib is a parameter |
| `StarPlot` | verse/stars/starset.py 412-460 (`get_verts`), verse/plotter/plotterStar.py 14-36, 54-106; real numbers, linprog as in `Star`; `plot_agent_trace` and `plot_reach_tube` are left out |
| `DrawMap` | verse/plotter/plotter2D.py 2093-2262 (`draw_map`); exact real numbers; styles, the texts of colours and the marker for the scale are left out |
| `Video` | verse/plotter/plotter2D.py 765-1065 (`reachtube_tree_video`: collecting, thinning, the cursor over times), 1101-1779 (`_export_reachtube_video_direct`: the indices painted per frame, `_to_px`, the rectangles of pixels); colours, texts, sliders, extra traces and files are left out; rounding to pixels is a parameter, assumed monotone and exact on integers |
| `IrText` | verse/parser/parser.py 90-179, 331-367, 604-691 (`dump`, `ir_eq`, the `__eq__` methods, `merge_if_val`, one step of `merge_if_single`); functions as values and reductions inside expressions are left out |
| `Loop3d` | verse/map/example_map/simple_map_3d.py 56-175, 260-262; verse/map/lane_segment_3d.py 389-399; verse/map/lane_3d.py 18-22; as `Lane3d` |
| `RayDist` | verse/utils/utils.py 94-110, 363-413; floating-point numbers are real numbers, infinities and nan; one zero |
| `TorchText` | verse/analysis/parsed_wrap/sensor_parser.py 17-24, 125-187: `FUNC_MAP`, `TorchFuncModule`; functions without control flow and with positional arguments; tensors have one element; the semantics of Python for these functions (local and global names, attributes of modules) is part of the model |
| `PartExec` (proofs; `partStep` in `Partitioned`) | verse/analysis/verifier.py 1515-1613 (loop of `compute_full_reachtube_partitioned`); an exception of a worker is kept as the hits of its node |
| `Quadrotor` | verse/agents/example_agent/quadrotor_agent.py 29-238 (dynamics, `action_handler`, `runModel`, `TC_simulate`); the network, `round(x, 4)` and the integrator are parameters |
| `Sampling` | verse/stars/starset.py 606-619, 707-722 (`sample_star`, `gen_starsets_post_sim`); the random numbers are a parameter |
| `Tracks` | verse/scenario/scenario.py 84-97, 113-119, 570-571 (`set_map`, `add_agent`, `_update_agent_lane_mode`, `swap_dl`); of maps only the names of the lanes, of agents only the track modes |
| `Diams` | verse/utils/star_diams.py 70-86, 116-171 (`time_step_diameter_rect`, `sim_traces_to_diameters`); `hash` of strings is a parameter |
| `MixText` | verse/analysis/mixmonotone.py 34-52, 207-291: the statements and expressions of `dynamics` are syntax trees with arithmetic only; `sympify`, `free_symbols` and `minimize` are parameters |
| `Reading` | verse/automaton/guard.py 280-352, 742-905, 1170-1240: which Python expressions are which guards; 424-448, 492-518: map queries with a list of coordinates; conditional expressions and bare names are not read |
| `OpenDrive` | verse/map/opendrive_parser.py from the elements of the file on; speed limits, styles, mean widths (unused) left out; a curvature of 0 is an error |
| `RangeError` | verse/analysis/parsed_wrap/bounded_angular.py 25-149 over the real numbers; `differential_evolution` is a parameter |
| `LaneQueries` | verse/map/lane_segment.py 93-153 (`on_lane`, `is_reachable_from`, `after_end`, `distance`, `distance_with_heading`) over the real numbers |
| `Agents` | verse/agents/base_agent.py: `TC_simulate`; verse/agents/example_agent: car_agent.py, sign_agent.py, ball_agent.py, line_agent.py, origin_agent.py (the dynamics of `craft_agent` are a parameter) |
| `PackEnv` | verse/analysis/simulator.py: `pack_env` |
| `Dryvr`, `DryvrGlobal`, `MixMono`, `MixCont` | verse/analysis/dryvr.py (PW, GLOBAL), dryvr_disc.py (PW), mixmonotone.py (discrete and continuous) |
| `Star`, `StarReset` | verse/stars/starset.py, tube of several stars and apply_reset_stars in verifier.py |
| `StarGuard` | star set branches of verse/automaton/guard.py, verse/sensor/base_sensor_stars.py, `add_constraints` |
| `SimSimple` | verse/analysis/simulator.py: `simulate_simple`, `get_transition_simulate_simple`, `convertStrToEnum`, `disc_field` |
| `Unparse` | verse/parser/astunparser.py (operators, names, constants, attributes, calls, subscripts, conditional expressions), `ResetExpression` in verse/automaton/reset.py |
| `Lane3d` | verse/map/lane_segment_3d.py (straight and circular lanes) |
| `Map3d` | verse/map/lane_3d.py; waypoints and neighbours of verse/map/lane_map_3d.py |
| `FixedPoint`, `Utils` | verse/utils/fixed_points.py, utils.py |
| `Angular`, `Piecewise`, `ParserWrap` | verse/analysis/parsed_wrap/ |

### Parts that are not modelled

The rest of the plotters (`plot_map` and `plot3dMap` of the old ones, styles); the rest of astunparser.py; reading the text of OpenDRIVE files; the rest of lane_map_3d.py and the 3D example maps; NeuReach; `FakeSensor4` and `CraftStarSensor` in verify
(they are parameters); control flow in the source text of sensors that are translated to torch; `atan2_crown`; `over_approx_rectangle` of star_diams.py; logging.

### Axioms of each theorem

Grouped by the axioms that `#print axioms` reports.

* propext, Classical.choice, Quot.sound: `C01_switch_continuous` `C01_trace_starts_at_init` `C02_only_guarded_mode_changes` `C03_first_switch_partial` `C03_quiet_node` `C03_assert_violated` `C04_assert_reported_partial` `C04_assert_without_transition_violated` `C05_exhaustive_partial` `C05_resets_dropped_violated` `C06_ids_are_positions` `C06_ids_unique_and_dense` `C07_loop_computes_exploration` `C07_schedule_independent` `C07_parallel_sequential_simulate_partial` `C07_parallel_simulate_loses_hits_violated` `C08_terminates` `C08_terminates_if_finite` `C08_height_bound` `C08_expanded` `C08_zeno_without_max_height` `C09_nodes` `C09_subs_are_nodes` `C09_leaves` `C09_height` `C10_roundtrip_partial` `C10_load_unexpanded_violated` `C10_simulate_simple_violated` `C100_agents_partial` `C101_sample` `C101_fails` `C101_box` `C101_tube` `C101_flat_violated` `C102_returns` `C102_trace_partial` `C102_waypoints` `C102_flight` `C102_moves` `C102_speed` `C102_straight` `C102_empty_violated` `C102_beyond_violated` `C103_covers_partial` `C103_safe_partial` `C103_later_violated` `C104_translation_partial` `C104_exact_partial` `C104_history_partial` `C104_bounds_partial` `C104_names_violated` `C104_functions_violated` `C105_circle_partial` `C105_rect_inf_partial` `C105_rect_partial` `C105_ellipse_opposite` `C105_ellipse_partial` `C105_circle_violated` `C105_rect_violated` `C105_ellipse_violated` `C106_loop_partial` `C106_order_violated` `C106_parallel` `C106_distance_violated` `C107_same_partial` `C107_absent` `C107_case_partial` `C107_assert_partial` `C107_label_violated` `C107_hole_violated` `C107_order` `C107_merge_partial` `C107_none_violated` `C108_frames_partial` `C108_times` `C108_last_partial` `C108_pixels` `C108_area_partial` `C108_one_violated` `C109_shown_partial` `C109_colours_partial` `C109_equal_violated` `C109_arc_violated` `C109_zero_violated` `C11_contains_iff_partial` `C11_reflexive_partial` `C11_equal_iff_partial` `C11_longer_partial` `C11_agents` `C11_projections_violated` `C11_dropped_tail_violated` `C11_early_end_violated` `C11_simulation_violated` `C110_inside` `C110_outline_partial` `C110_tree_partial` `C110_kept` `C110_skew_violated` `C110_generators_violated` `C110_dims_violated` `C110_filter_violated` `C111_plain` `C111_rebuild_partial` `C111_circular3_partial` `C111_again` `C111_id_violated` `C111_norm_violated` `C111_ends_violated` `C111_phases_violated` `C111_start_violated` `C112_tubes_partial` `C112_edges_partial` `C112_hits_partial` `C112_simulation_partial` `C112_cuboid` `C112_straight` `C112_circular` `C112_missing_violated` `C112_sampled_violated` `C113_states_partial` `C113_modes_partial` `C113_once` `C113_sensed_partial` `C113_if_violated` `C113_inherit_violated` `C113_float_violated` `C113_twice_violated` `C113_annotation_violated` `C113_member_violated` `C114_run_partial` `C114_compare_partial` `C114_answers_partial` `C114_keyword_violated` `C114_seed_violated` `C114_timesteps_violated` `C114_second_violated` `C114_hits_violated` `C115_tubes_partial` `C115_made` `C115_lines_partial` `C115_animation` `C115_boxes_partial` `C115_missing_violated` `C115_limits_violated` `C115_blame_violated` `C116_plain_partial` `C116_bloated_partial` `C117_lane` `C117_runs` `C117_neighbours_partial` `C117_heights` `C117_base_violated` `C118_first_partial` `C118_energy` `C118_methods` `C118_raises_violated` `C118_sideways_violated` `C12_first_transitions_partial` `C12_not_earliest_violated` `C13_extraction_covers_partial` `C13_unconditional_assignment_violated` `C13_same_value_in_both_branches_violated` `C14_asserts_partial` `C14_same_value_in_both_branches_violated` `C16_reduction_filters_partial` `C16_unrolling_exact_partial` `C97_condition_partial` `C17_names_scoped_as_in_python_partial` `C17_comprehension_variable_leaks_violated` `C18_inlining_preserves_meaning_partial` `C18_argument_captured_violated` `C18_conditional_expression_not_inlined_violated` `C19_switching_logic_accepted_partial` `C19_reassigned_value_rejected_violated` `C20_discrete_evaluation_exact` `C21_solver_query_exact` `C22_box_check_exact` `C22_undecided_query_violated` `C23_guard_pipeline_partial` `C23_straight_map_query_partial` `C23_middle_segment_violated` `C24_straight_lane_enclosures` `C25_circular_lateral` `C25_circular_longitudinal_partial` `C25_branch_cut_violated` `C26_reset_rectangle_partial` `C26_affine_partial` `C26_range_partial` `C26_corners_partial` `C26_defined_partial` `C26_destinations_partial` `C26_square_violated` `C26_names_violated` `C26_power_violated` `C26_copied_mode_violated` `C26_unknown_class_violated` `C27_switch_covered_partial` `C27_first_switch_partial` `C27_gap_violated` `C27_joint_violated` `C28_failure_recorded_partial` `C28_recorded_fails` `C28_precondition_violated` `C28_unsafe_continue_violated` `C29_partition` `C30_combine_rect` `C30_combine_all` `C30_union_traces` `C31_switch_covered_partial` `C31_tube_covers` `C31_later_step_violated` `C31_other_path_violated` `C32_node_tube_partial` `C32_tolerance_violated` `C32_horizon_violated` `C33_hit` `C33_reused` `C34_kept_partial` `C34_dropped_partial` `C35_set_init` `C35_single` `C35_last_call` `C36_straight_round_trip` `C36_circular_round_trip_partial` `C36_long_arc_violated` `C36_lane_position` `C36_circular_heading` `C37_nearest_segment_partial` `C37_coordinates` `C37_nearest_segment_violated` `C38_intersection_exists_violated` `C39_table_maps` `C39_neighbors` `C39_intersection` `C39_switch2_partial` `C39_switch_left_violated` `C40_center` `C40_initial` `C40_length` `C40_training` `C40_training_partial` `C40_random` `C40_global` `C40_global_initial` `C40_global_training_partial` `C40_disc_partial` `C40_disc_global` `C40_disc_global_partial` `C40_corner_violated` `C40_disc_tiny_violated` `C41_disc` `C41_sized` `C41_decomposition` `C41_stationary_violated` `C42_affine` `C42_linear_tube` `C42_from_rectangle` `C42_rectangle` `C42_combine` `C42_rectangle_tube` `C43_empty_nonneg` `C43_nonempty` `C43_empty_partial` `C43_satisfies_partial` `C43_empty_violated` `C43_satisfies_violated` `C43_satisfies_transposed_violated` `C44_transposed` `C44_symmetric_partial` `C44_violated` `C44_shape_violated` `C45_diff_partial` `C45_diff_tight` `C45_diff_violated` `C46_no_excess` `C46_covers_partial` `C46_straddle_violated` `C46_three_violated` `C47_fixed_point_partial` `C47_early_leaf_violated` `C47_early_leaf_example_violated` `C47_discrete_violated` `C48_arguments` `C48_sense_partial` `C48_alone` `C48_mixed_violated` `C48_second_list_violated` `C49_near_split` `C49_near_split_size` `C49_wrap` `C49_wrap_unique` `C49_lmap` `C49_not_zero` `C49_sample` `C50_covers_partial` `C50_branches` `C50_chained_violated` `C50_fallthrough_violated` `C50_names_violated` `C50_violated` `C51_progress_partial` `C51_blocked_by_rejected_transition_violated` `C52_next_lane_on_the_right` `C52_next_curve_on_the_right` `C52_intersection_connected` `C53_segments` `C53_shared_segment_violated` `C54_reported_tubes_safe_partial` `C54_rejected_violated` `C55_covers_partial` `C55_formulas_partial` `C55_modes_partial` `C55_gap_violated` `C56_children_justified` `C57_reused_trace_partial` `C57_start_violated` `C57_horizon_violated` `C58_new_paths_partial` `C58_unchanged_partial` `C59_groups_partial` `C59_aligned_partial` `C59_default_violated` `C60_polygons` `C60_polygons_edges` `C60_corners` `C60_intersect_partial` `C60_rotated_partial` `C60_rotated_violated` `C60_crossing_violated` `C61_contains_point` `C61_containment_poly` `C61_add_constraints` `C61_projection` `C62_points` `C62_tube` `C62_retry` `C62_unsampled_violated` `C63_maximize_member` `C63_maximize_symmetric_partial` `C63_maximize_violated` `C63_center_violated` `C64_one_segment_partial` `C64_segments_violated` `C65_between_partial` `C65_between_inside` `C65_between_violated` `C65_parser_partial` `C65_parser_violated` `C65_span_rect_partial` `C65_origin_partial` `C65_origin_violated` `C65_origin_bottom_violated` `C66_in_wrapped` `C66_full_turn_violated` `C67_covers_partial` `C67_splits_partial` `C67_map_partial` `C67_fixed_arguments` `C67_branch_refused` `C67_arctan2_partial` `C67_minus_partial` `C67_arctan2_lists_partial` `C67_splits_lists_partial` `C67_factor_violated` `C67_violated` `C68_covers_partial` `C68_name_violated` `C68_shape_violated` `C69_image_partial` `C69_linear_partial` `C69_destinations` `C69_names_violated` `C69_square_violated` `C70_guard_partial` `C70_names_violated` `C70_alpha_violated` `C71_range_partial` `C71_order_violated` `C71_left_violated` `C72_follows_partial` `C72_path_partial` `C72_terminates_partial` `C72_static_violated` `C72_in_place_violated` `C72_no_paths_violated` `C72_shared_mode_violated` `C72_other_modes_violated` `C72_no_message_violated` `C72_zeno_violated` `C73_text_partial` `C73_same_partial` `C73_reset_eq_partial` `C73_negative_violated` `C74_straight_partial` `C74_back` `C74_circular_partial` `C74_straight_violated` `C74_left_violated` `C75_travel` `C75_ends_partial` `C75_turn_violated` `C75_quarter_violated` `C75_half_violated` `C75_norm_violated` `C76_segment` `C76_coordinates` `C76_lateral` `C76_longitudinal` `C76_place_violated` `C77_guard` `C77_chain` `C77_step` `C77_go` `C77_history_violated` `C77_end_violated` `C77_length_violated` `C78_neighbours` `C78_symmetric` `C78_back_violated` `C79_simulations_covered_partial` `C79_together_violated` `C80_safe_partial` `C80_formulas_partial` `C80_modes_partial` `C80_gap_violated` `C81_steps_partial` `C81_monotone_partial` `C81_between_violated` `C82_sampled_partial` `C82_urgent_partial` `C82_late_violated` `C83_sampled_partial` `C83_urgent_partial` `C83_together_violated` `C84_view_partial` `C84_single_violated` `C84_mixed_violated` `C85_cars_partial` `C85_rest_partial` `C85_others_partial` `C85_motion` `C85_robot_partial` `C85_thermo_partial` `C85_sign` `C85_base_partial` `C85_horizon_violated` `C86_steering` `C86_forward` `C86_cruise` `C86_brake_partial` `C86_accel_partial` `C86_overshoot_violated` `C86_stop_violated` `C86_limit_violated` `C87_keeps_partial` `C87_turns_partial` `C87_npc_turn_violated` `C88_start` `C88_given` `C88_multi_given` `C88_combinations_violated` `C88_verify_own_init_violated` `C89_tubes_partial` `C89_outline_region` `C89_axes` `C89_simulation` `C89_simulation_hits` `C89_reach_hits_partial` `C89_short_plot_violated` `C89_ribbon_violated` `C89_combine_violated` `C89_sampled_violated` `C89_odd_violated` `C89_sim_sampled_violated` `C89_reach_hits_violated` `C90_slice_partial` `C90_anime_partial` `C90_sim_anime_partial` `C90_slice_cut_violated` `C90_anime_violated` `C90_sim_start_violated` `C91_named_partial` `C91_single_simulate` `C91_single_partial` `C91_single_violated` `C91_star_violated` `C92_distance_partial` `C92_diameter_partial` `C92_bound` `C92_steps_partial` `C92_all_steps_partial` `C92_fallback_partial` `C92_wide_violated` `C92_gap_violated` `C93_covers_partial` `C93_cache_partial` `C93_norm_partial` `C93_atan2_partial` `C93_map_partial` `C93_crown_partial` `C93_cache_violated` `C93_zero_splits_violated` `C93_norm_violated` `C93_atan2_violated` `C93_map_violated` `C94_straight` `C94_straight_axis` `C94_circular_partial` `C94_heading` `C94_arc_violated` `C94_zero_violated` `C95_angles` `C95_point_partial` `C95_point_tight` `C95_box_partial` `C95_box_tight` `C95_wide_violated` `C95_box_violated` `C96_left_partial` `C96_right_partial` `C96_map_partial` `C96_joined_partial` `C96_right_violated` `C96_curve_violated` `C96_last_violated` `C96_shoulder_violated` `C96_order_violated` `C96_switch_violated` `C97_reading_partial` `C97_transition_partial` `C97_assert_partial` `C97_fine_partial` `C97_rule_partial` `C97_verified_partial` `C97_rule_violated` `C97_assert_violated` `C98_tube_partial` `C98_order_violated` `C98_aug_violated` `C98_end_violated` `C98_before_violated` `C98_dt_violated` `C98_names_violated` `C99_rect_partial` `C99_sim_partial` `C99_sim_exact_partial` `C99_branches_violated` `C99_modes_violated` `C99_dims_violated`
* propext, Quot.sound: `C100_known_partial` `C100_order` `C108_zero` `C112_combine_violated` `C114_options_partial` `C114_start` `C114_replace_partial` `C114_local_violated` `C114_replace_violated` `C115_axes` `C116_first_miss` `C116_all_miss` `C116_no_segments` `C116_hit_violated` `C116_incremental_violated` `C116_two_stars_violated` `C117_changes` `C117_exists` `C117_members_violated` `C15_chained_comparison` `C16_nested_violated` `C32_hit_partial` `C32_reach_entries_partial` `C34_assignment_violated` `C35_add_agent` `C35_add_agent_single_violated` `C38_exists_iff_switchable` `C38_physical_lane` `C39_brake` `C48_box_values` `C49_dedup` `C58_additional_branch_violated` `C62_import_violated` `C62_retry_violated` `C67_array_refused` `C68_same_result_partial` `C88_verify` `C88_seed` `C88_seed_plain` `C88_multi` `C89_short_violated` `C90_slice_still_violated` `C91_short` `C93_tight` `C93_map_inner` `C93_sim_violated` `C97_written` `C97_no_queries`
* none: `C100_swap_violated` `C100_replaced_violated` `C113_typo_violated` `C48_sim_values`
* propext: `C111_class_partial` `C111_nested_violated` `C117_neighbours_violated` `C30_combine_total` `C58_no_transition_violated` `C78_symmetric_violated` `C91_names` `C91_static_violated` `C91_short_violated`

