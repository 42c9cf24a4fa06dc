{"id": "C01", "title": "simulate: states are continuous across a mode switch", "statement": "In the tree returned by Scenario.simulate, for every parent/child edge, the child's start_time is the time stamp of the last row of the parent's trace, every agent that does not switch starts the child at exactly the state in the last row of its parent trace, and every agent that switches starts the child at its reset state.", "quantifier": "every scenario, every controller, every trace returned by the agents' TC_simulate, every node of every tree", "why_tests_cant": "a test only walks the edges of the trees it happens to generate; the claim ranges over all transition functions, all numbers of agents and all truncation points", "anchors": ["verse/analysis/simulator.py:simulate_one", "verse/analysis/simulator.py:proc_result", "verse/analysis/analysis_tree.py:AnalysisTreeNode.new_child"]}
{"id": "C02", "title": "simulate: only agents with a satisfied guard change mode", "statement": "In the tree returned by Scenario.simulate the mode of an agent differs between a node and its child only if that agent has a satisfied guard at the switching sample, and then the child's mode is the destination of one of its enabled transitions; static parameters of all agents are inherited unchanged.", "quantifier": "every node, every agent, every choice of nondeterministic branches", "why_tests_cant": "quantifies over all agents, all combinations of simultaneous transitions and all trees", "anchors": ["verse/analysis/simulator.py:simulate_one", "verse/analysis/simulator.py:check_sim_transitions", "verse/analysis/simulator.py:get_transition_simulate"]}
{"id": "C03", "title": "simulate: switches happen at the first sample where a guard holds", "statement": "If a node's trace is cut by a switch at sample k, then some guard of some agent holds at sample k and no guard of any agent and no assertion failure occurs at a sample before k; if no sample has a satisfied guard or failing assertion the node has no children and keeps its full trace.", "quantifier": "every list of sampled states of any length, every set of guards and asserts", "why_tests_cant": "first-index claims over arbitrary-length traces and arbitrary predicates", "anchors": ["verse/analysis/simulator.py:get_transition_simulate", "verse/analysis/simulator.py:check_sim_transitions"]}
{"id": "C04", "title": "simulate: a failing assertion stops the node and is reported", "statement": "At a sample where an agent's assert has a true precondition and a false condition, simulate reports exactly the labels of those asserts for that agent and takes no transition from that sample; without unsafe_continue the node's trace ends before that sample and the node has no children.", "quantifier": "every sample, every agent, every set of asserts, every set of simultaneously enabled guards", "why_tests_cant": "interaction of asserts and guards over arbitrary sets of both", "anchors": ["verse/analysis/simulator.py:check_sim_transitions", "verse/analysis/simulator.py:get_transition_simulate", "verse/analysis/simulator.py:simulate_one"]}
{"id": "C05", "title": "simulate: nondeterminism is explored exhaustively", "statement": "When several guards of an agent hold at the switching sample, the agent gets one transition for every choice of one enabled assignment per written variable, and the node gets one child for every combination of one transition per switching agent (nothing dropped, nothing invented).", "quantifier": "every number of agents, variables and enabled assignments", "why_tests_cant": "a cartesian-product completeness claim over arbitrary sizes; dropping one combination is invisible to example runs", "anchors": ["verse/analysis/simulator.py:check_sim_transitions", "verse/analysis/simulator.py:get_transition_simulate", "verse/analysis/simulator.py:simulate_one"]}
{"id": "C06", "title": "node ids are unique and dense", "statement": "In the tree returned by Scenario.simulate or Scenario.verify all node ids are distinct and are exactly 0..n-1 for a tree with n nodes, whatever order results of nodes come back in.", "quantifier": "every scenario and every completion order of the worker tasks", "why_tests_cant": "ranges over all interleavings of task completion", "anchors": ["verse/analysis/simulator.py:Simulator.proc_result", "verse/analysis/simulator.py:Simulator.simulate", "verse/analysis/verifier.py:Verifier.proc_result"]}
{"id": "C07", "title": "parallel and sequential exploration return the same tree", "statement": "With a node-expansion step that depends only on the node, the tree returned by the exploration loop is the same for every order in which pending nodes are completed, up to node ids: it is the tree obtained by recursively expanding the root; in particular parallel and sequential runs agree.", "quantifier": "every expansion function, every completion order (schedule)", "why_tests_cant": "schedules cannot be enumerated by tests", "anchors": ["verse/analysis/simulator.py:Simulator.simulate", "verse/analysis/simulator.py:Simulator.proc_result", "verse/analysis/verifier.py:Verifier.compute_full_reachtube"]}
{"id": "C08", "title": "max_height bounds the tree and the exploration terminates", "statement": "With max_height = h, exploration terminates, no node of the returned tree is deeper than h-1 (the root being depth 0), nodes at depth h-1 are never expanded, and every node above that depth with remaining time is expanded.", "quantifier": "every expansion function, including ones that switch at every sample", "why_tests_cant": "termination and a depth bound for all expansion functions", "anchors": ["verse/analysis/simulator.py:Simulator.simulate", "verse/analysis/verifier.py:Verifier.compute_full_reachtube"]}
{"id": "C09", "title": "tree traversal visits every node once; leaves and height agree with it", "statement": "AnalysisTree.nodes lists every node of the tree exactly once with parents before children; leaves counts, and get_leaf_nodes lists, exactly the nodes without children; height is the number of nodes on the longest root-to-leaf path.", "quantifier": "every finite tree shape", "why_tests_cant": "quantifies over all trees", "anchors": ["verse/analysis/analysis_tree.py:AnalysisTree._get_all_nodes", "verse/analysis/analysis_tree.py:AnalysisTree.leaves", "verse/analysis/analysis_tree.py:AnalysisTree.get_leaf_nodes", "verse/analysis/analysis_tree.py:AnalysisTree.height"]}
{"id": "C10", "title": "dump followed by load restores the tree", "statement": "Loading a dumped analysis tree gives back a tree equal to the original (shape, order of children and node contents).", "quantifier": "every tree returned by simulate, simulate_simple or verify", "why_tests_cant": "a round-trip over all trees; fails only for particular id assignments", "anchors": ["verse/analysis/analysis_tree.py:AnalysisTree.dump", "verse/analysis/analysis_tree.py:AnalysisTree.load", "verse/analysis/analysis_tree.py:AnalysisTree._to_dict", "verse/analysis/analysis_tree.py:AnalysisTree._from_dict", "verse/analysis/simulator.py:simulate_simple"]}
{"id": "C11", "title": "tree containment is sound and reflexive", "statement": "A tree contains itself; is_equal(t) holds for t itself; and if contains(other) answers true for reachability trees then every rectangle of other is covered (up to tol) by this tree's rectangles for the same agent and time step.", "quantifier": "every pair of trees of the same type and every tolerance", "why_tests_cant": "a soundness claim of a decision procedure over all trees", "anchors": ["verse/analysis/analysis_tree.py:AnalysisTree.contains", "verse/analysis/analysis_tree.py:AnalysisTree.is_equal"]}
{"id": "C12", "title": "first_transitions reports each agent's first mode change", "statement": "first_transitions has an entry for exactly the agents whose mode changes across some edge of the tree, and the entry is the start time of the earliest child across whose edge that agent's mode changes.", "quantifier": "every tree", "why_tests_cant": "minimum over all edges of arbitrary trees", "anchors": ["verse/analysis/analysis_tree.py:first_transitions"]}
{"id": "C13", "title": "controller extraction covers the sequential program", "statement": "For a decision logic written with nested if/elif/else, assignments, local variables and returns, and for every valuation, the value that running the Python function would give to each output variable is either its unchanged input value or the value of an extracted transition whose guard holds in that valuation.", "quantifier": "every program in the supported fragment (arbitrary nesting) and every valuation", "why_tests_cant": "ranges over all programs and all states; a missing path is only visible on the states that take it", "anchors": ["verse/parser/parser.py:proc", "verse/parser/parser.py:merge_if", "verse/parser/parser.py:merge_if_val", "verse/parser/parser.py:ControllerIR.from_env"]}
{"id": "C14", "title": "asserts are extracted with their path condition", "statement": "A state makes some extracted assert fail (precondition true, condition false) if and only if executing the decision logic reaches an assert whose condition is false in that state.", "quantifier": "every program in the supported fragment and every valuation", "why_tests_cant": "all programs, all states", "anchors": ["verse/parser/parser.py:merge_assert", "verse/parser/parser.py:proc"]}
{"id": "C15", "title": "chained comparisons mean what Python means", "statement": "A chained comparison a op1 b op2 c ... in a guard is treated as the conjunction of its neighbouring comparisons (a op1 b) and (b op2 c) and ... .", "quantifier": "every chain length, all operators, all valuations", "why_tests_cant": "all chain lengths and all values", "anchors": ["verse/parser/parser.py:proc", "verse/analysis/parsed_wrap/bounded_piecewise.py:ast_to_z3_condition"]}
{"id": "C16", "title": "any/all/sum over other agents, with filters, unroll to the right formula", "statement": "any(e(o) for o in others if c(o)), all(...) and sum(...) in a guard evaluate, for every number of other agents and every sensor valuation, exactly as the Python built-ins over the list of others would.", "quantifier": "every list of other agents (including the empty list) and every valuation", "why_tests_cant": "unbounded number of agents and valuations", "anchors": ["verse/parser/parser.py:proc", "verse/automaton/guard.py:GuardExpressionAst.parse_any_all_new", "verse/automaton/guard.py:GuardExpressionAst.unroll_any_all_new", "verse/automaton/guard.py:ValueSubstituter"]}
{"id": "C17", "title": "local names in decision logic are scoped as in Python", "statement": "Names bound by a comprehension or a lambda in the decision logic do not change the meaning of the enclosing function's local variables of the same name.", "quantifier": "every program and every choice of names", "why_tests_cant": "depends on accidental name collisions", "anchors": ["verse/parser/parser.py:Env.set", "verse/parser/parser.py:Env.add_hole", "verse/parser/parser.py:proc"]}
{"id": "C18", "title": "inlining a helper function preserves its meaning", "statement": "A call to a user-defined helper lambda/function inside a guard means the helper's body evaluated with parameters bound to the values of the arguments at the call.", "quantifier": "every body and argument expression", "why_tests_cant": "name capture shows only for particular combinations of bound names and arguments", "anchors": ["verse/parser/parser.py:Lambda.apply", "verse/parser/parser.py:ArgSubstituter"]}
{"id": "C19", "title": "every well-formed if-program is accepted by the parser", "statement": "The parser extracts transitions from every decision logic consisting of assignments and nested conditionals, without raising an exception.", "quantifier": "every program of nested ifs and assignments", "why_tests_cant": "crashes occur only for particular coincidences of assigned values", "anchors": ["verse/parser/parser.py:merge_if_val", "verse/parser/parser.py:merge_if"]}
{"id": "C20", "title": "discrete-mode evaluation of guards is exact on modes and never drops a feasible guard", "statement": "Evaluating the discrete part of a guard replaces mode comparisons by their truth values without changing the truth value of the guard in any continuous state, and it reports the guard as disabled only if the guard is false in every continuous state.", "quantifier": "every guard expression (arbitrary nesting of and/or/not/comparisons), every mode assignment and every continuous state", "why_tests_cant": "all formulas, all modes, all states", "anchors": ["verse/automaton/guard.py:GuardExpressionAst.evaluate_guard_disc", "verse/automaton/guard.py:GuardExpressionAst._evaluate_guard_disc"]}
{"id": "C21", "title": "translation of guards to the solver preserves meaning", "statement": "The formula handed to the SMT solver has the same truth value as the guard (and as the conjunction of the guard list) in every state.", "quantifier": "every guard expression and every valuation", "why_tests_cant": "all formulas, all states", "anchors": ["verse/automaton/guard.py:GuardExpressionAst.generate_z3_expression", "verse/automaton/guard.py:GuardExpressionAst._generate_z3_expression_node"]}
{"id": "C22", "title": "guard/box check is exact", "statement": "For a box of states, the guard check reports 'may hit' iff some state in the box satisfies the guard and 'contained' iff every state of the box does (given a correct solver).", "quantifier": "every box and every guard", "why_tests_cant": "infinitely many states in every box", "anchors": ["verse/automaton/guard.py:GuardExpressionAst.evaluate_guard_cont"]}
{"id": "C23", "title": "whole guard pipeline over-approximates", "statement": "If some state in a reach-tube rectangle, with the current modes, satisfies a guard built from comparisons, and, or, not and lane-distance calls, then the verifier's guard evaluation (discrete, hybrid, continuous stages) reports a hit for that rectangle.", "quantifier": "every guard, mode assignment, rectangle and state in it", "why_tests_cant": "all formulas and all states of a rectangle", "anchors": ["verse/automaton/guard.py:GuardExpressionAst.evaluate_guard_disc", "verse/automaton/guard.py:GuardExpressionAst.evaluate_guard_hybrid", "verse/automaton/guard.py:GuardExpressionAst.evaluate_guard_cont", "verse/analysis/verifier.py:Verifier.get_transition_verify_opt"]}
{"id": "C24", "title": "lane distances over a box are enclosed (straight lanes)", "statement": "For a straight lane segment and any rectangle of positions, the interval computed for lateral distance (resp. longitudinal position) contains the lateral distance (longitudinal position) of every point in the rectangle, and both end points are attained.", "quantifier": "every straight segment, every rectangle, every point in it", "why_tests_cant": "continuum of points", "anchors": ["verse/automaton/guard.py:GuardExpressionAst._handle_lateral_set", "verse/automaton/guard.py:GuardExpressionAst._handle_longitudinal_set", "verse/map/lane_segment.py:StraightLane"]}
{"id": "C25", "title": "lane distances over a box are enclosed (circular lanes)", "statement": "For a circular lane segment and any rectangle of positions, the interval computed for lateral distance (resp. longitudinal position) contains the lateral distance (longitudinal position) of every point in the rectangle.", "quantifier": "every circular segment, every rectangle, every point in it", "why_tests_cant": "continuum of points and the angular branch cut", "anchors": ["verse/automaton/guard.py:GuardExpressionAst._handle_lateral_set", "verse/automaton/guard.py:GuardExpressionAst._handle_longitudinal_set", "verse/map/lane_segment.py:CircularLane"]}
{"id": "C26", "title": "set reset encloses all concrete resets", "statement": "For a reset assignment x := e and a rectangle of pre-states, the post rectangle computed by the verifier contains the reset state of every pre-state in the rectangle.", "quantifier": "every arithmetic reset expression, every rectangle, every state in it", "why_tests_cant": "continuum of states; corner evaluation looks right on examples", "anchors": ["verse/analysis/verifier.py:Verifier.apply_reset", "verse/analysis/verifier.py:Verifier._get_combinations"]}
{"id": "C27", "title": "guard hits are collected over the whole tube", "statement": "For every time step of a node's reach tube at which some state in the tube satisfies a transition's guard, before the step at which the tube is wholly inside a guard, the verifier's tree contains a child for that transition whose initial set covers the reset of those states.", "quantifier": "every reach tube of any length, every pattern of hits", "why_tests_cant": "all hit patterns over arbitrary-length tubes", "anchors": ["verse/analysis/verifier.py:Verifier.get_transition_verify_opt", "verse/analysis/verifier.py:Verifier.compute_full_reachtube_step"]}
{"id": "C28", "title": "verify reports every reachable assertion violation", "statement": "If some state of a node's reach tube, at a step the verifier scans, makes an assert's precondition true and its condition false, then verify records an assertion hit for that agent.", "quantifier": "every tube, assert and state", "why_tests_cant": "continuum of states; depends on may/must precondition", "anchors": ["verse/analysis/verifier.py:Verifier.get_transition_verify_opt", "verse/analysis/verifier.py:Verifier.compute_full_reachtube_step"]}
{"id": "C29", "title": "partitioning a rectangle covers it", "statement": "The pieces into which verify_partitioned cuts a rectangle cover it, lie inside it and overlap only on their boundaries; there are as many as requested (the given number for every requested dimension, other than time, in which the rectangle is not flat), with equal sides.", "quantifier": "every rectangle, every positive number of partitions and every list of distinct dimensions", "why_tests_cant": "continuum of points, arbitrary dimension and count", "anchors": ["verse/analysis/verifier.py:Verifier._partition_rect"]}
{"id": "C30", "title": "combining rectangles and tubes only grows them", "statement": "The rectangle (tube) obtained by combining a list of rectangles (tubes) contains each of them, and it is the smallest rectangle doing so.", "quantifier": "every nonempty list", "why_tests_cant": "all lists and all points", "anchors": ["verse/analysis/verifier.py:combine_rect", "verse/analysis/verifier.py:_union_traces", "verse/analysis/incremental.py:combine_all"]}
{"id": "C31", "title": "verify_partitioned covers all switching states", "statement": "In a tree from Scenario.verify_partitioned, the initial set of the child for a transition covers the reset of every tube rectangle that may satisfy the guard.", "quantifier": "every tube and hit pattern", "why_tests_cant": "only visible when the guard is hit at several steps", "anchors": ["verse/analysis/verifier.py:Verifier.compute_full_reachtube_step_partitioned"]}
{"id": "C32", "title": "a reach-tube cache hit is a sound answer", "statement": "A tube returned by the incremental verification cache was computed for a mode equal to the requested one and an initial set containing the requested one, and it covers the requested time horizon.", "quantifier": "every history of cache insertions and every query", "why_tests_cant": "all histories", "anchors": ["verse/analysis/incremental.py:TubeCache.add_tube", "verse/analysis/incremental.py:TubeCache.check_hit", "verse/analysis/verifier.py:Verifier.check_cache_bloated_tube"]}
{"id": "C33", "title": "a simulation cache hit is a sound answer", "statement": "A cache hit for incremental simulation was stored for the same agent mode and for initial values that differ from the requested ones by at most the tolerance in every continuous variable, and a recorded transition is only reused at nodes whose initial values differ by less than the tolerance in every continuous variable of every agent.", "quantifier": "every history of insertions and every query", "why_tests_cant": "all histories", "anchors": ["verse/analysis/incremental.py:SimTraceCache.add_segment", "verse/analysis/incremental.py:SimTraceCache.check_hit", "verse/analysis/incremental.py:sim_trans_suit"]}
{"id": "C34", "title": "incremental simulation only reuses unaffected segments", "statement": "A cached segment is reused after the decision logic changed only if every transition recorded in the segment comes from a path still present (same guard and assignment) in the new logic; otherwise it is recomputed.", "quantifier": "every pair of old and new decision logics and every cached segment", "why_tests_cant": "all pairs of programs", "anchors": ["verse/analysis/incremental.py:to_simulate"]}
{"id": "C35", "title": "initial sets are attached to the right agents and are isolated", "statement": "After set_init with matching lists, every agent's initial set and mode are those given at the agent's position; a single state is a degenerate rectangle; later mutation of the caller's lists does not change the scenario; other agents are unaffected.", "quantifier": "every list of agents and initial conditions, every sequence of calls", "why_tests_cant": "all call histories", "anchors": ["verse/scenario/scenario.py:Scenario.set_init", "verse/scenario/scenario.py:Scenario.set_init_single", "verse/agents/base_agent.py:BaseAgent.set_initial"]}
{"id": "C36", "title": "lane coordinates round-trip", "statement": "For straight and circular lanes, converting (longitudinal, lateral) to a world position and back gives the same coordinates (within the lane's angular range for circular lanes), and heading-aligned displacement keeps lateral distance.", "quantifier": "every lane, every coordinate pair in range", "why_tests_cant": "continuum of points", "anchors": ["verse/map/lane_segment.py:StraightLane.position", "verse/map/lane_segment.py:StraightLane.local_coordinates", "verse/map/lane_segment.py:CircularLane.position", "verse/map/lane_segment.py:CircularLane.local_coordinates"]}
{"id": "C37", "title": "a multi-segment lane uses the nearest segment", "statement": "For a lane made of several segments, the lateral distance reported for a point is measured to the segment, among those whose extent the point projects onto, that is nearest to the point.", "quantifier": "every lane and every point", "why_tests_cant": "continuum of points", "anchors": ["verse/map/lane.py:Lane.get_lane_segment", "verse/map/lane.py:Lane.get_lateral_distance"]}
{"id": "C38", "title": "map mode switching agrees with the existence query and with the lanes of the map", "statement": "h_exist(m, s, d) is true exactly if h(m, s, d) yields a lane-mode, and lane names derived from composite lane-change modes name existing physical lanes.", "quantifier": "every map dictionary and every query", "why_tests_cant": "all maps and all strings", "anchors": ["verse/map/lane_map.py:LaneMap.h", "verse/map/lane_map.py:LaneMap.h_exist", "verse/map/lane_map.py:LaneMap.get_phys_lane"]}
{"id": "C39", "title": "example maps implement their documented lane changes", "statement": "On each shipped example map a lane-change request that is possible yields a mode whose physical lane is the adjacent lane in the requested direction.", "quantifier": "every mode and lane of the shipped maps", "why_tests_cant": "finite tables, but rarely-taken branches are never exercised", "anchors": ["verse/map/example_map/simple_map2.py", "verse/map/example_map/intersection.py"]}
{"id": "C40", "title": "simulation-based reach tubes contain the simulations they were built from", "statement": "The reach tube computed from simulation traces with the piecewise method contains the center trace and every training trace at every sample time, and its first rectangle contains the initial set.", "quantifier": "every set of traces of equal shape, every radius vector", "why_tests_cant": "all traces; containment fails only by tolerance terms", "anchors": ["verse/analysis/dryvr.py:get_reachtube_segment", "verse/analysis/dryvr.py:all_sensitivities_calc", "verse/analysis/dryvr.py:calc_bloated_tube"]}
{"id": "C41", "title": "mixed-monotone reach tubes contain all trajectories", "statement": "If the decomposition function bounds the dynamics, every trajectory of the (discrete-time) system from the initial box under every disturbance sequence in the uncertainty box stays in the computed tube at every step.", "quantifier": "every initial state, disturbance sequence and number of steps", "why_tests_cant": "infinitely many trajectories", "anchors": ["verse/analysis/mixmonotone.py:compute_reachtube_mixmono_disc", "verse/analysis/mixmonotone.py:calculate_bloated_tube_mixmono_disc"]}
{"id": "C42", "title": "star sets: affine maps and rectangular over-approximation are sound", "statement": "For a star set, applying an affine reset or linear post yields exactly the image of the set; the rectangle over-approximation and combination of stars contain every point of the stars.", "quantifier": "every star set (any number of generators and constraints) and every point", "why_tests_cant": "continuum of points", "anchors": ["verse/stars/starset.py:StarSet.apply_reset", "verse/stars/starset.py:StarSet.superposition", "verse/stars/starset.py:StarSet.overapprox_rectangle", "verse/stars/starset.py:StarSet.combine_stars"]}
{"id": "C43", "title": "star sets: emptiness and satisfaction tests are sound", "statement": "is_empty is true only for a star set without points, and a star reported as satisfying (inside) a half space contains no point outside it.", "quantifier": "every star set", "why_tests_cant": "continuum of points", "anchors": ["verse/stars/starset.py:StarSet.is_empty", "verse/stars/starset.py:StarSet.satisfies"]}
{"id": "C44", "title": "star sets: intersection with a half space is exact", "statement": "Intersecting a star set with a half space yields exactly the points of the star set in the half space.", "quantifier": "every star set and half space", "why_tests_cant": "continuum of points; only wrong for non-symmetric bases", "anchors": ["verse/stars/starset.py:StarSet.intersection_halfspace", "verse/stars/starset.py:StarSet.intersection_poly"]}
{"id": "C45", "title": "angular interval arithmetic is sound across the wrap-around", "statement": "The interval computed for the wrapped difference of two angles contains the wrapped difference of every pair of angles in the operand intervals.", "quantifier": "every pair of angle intervals and every pair of angles", "why_tests_cant": "continuum of angles and the branch cut", "anchors": ["verse/analysis/parsed_wrap/bounded_angular.py:angular_bounds_diff_correct", "verse/analysis/parsed_wrap/bounded_angular.py:wrap_angle"]}
{"id": "C46", "title": "merging angular intervals loses no angle", "statement": "The result of combining a list of angular bounds covers every angle covered by one of them.", "quantifier": "every list of intervals and every angle", "why_tests_cant": "continuum of angles, arbitrary lists", "anchors": ["verse/analysis/parsed_wrap/bounded_angular.py:combine_angular_bounds", "verse/analysis/parsed_wrap/bounded_angular.py:_format_bounds"]}
{"id": "C47", "title": "fixed-point test is containment of the new reach set in the old one", "statement": "fixed_points_fix answers true iff every state reachable at the end of the horizon (per mode) is covered by the union of the rectangles reachable before (given a correct solver).", "quantifier": "every tree and horizon", "why_tests_cant": "continuum of states", "anchors": ["verse/utils/fixed_points.py:fixed_points_fix", "verse/utils/fixed_points.py:contain_all_fix", "verse/utils/fixed_points.py:reach_at_fix"]}
{"id": "C48", "title": "sensing presents all other agents, aligned", "statement": "For the ego agent the sensed dictionaries contain exactly the ego's own state and, for every attribute, the list of the other agents' values in scenario order with the same agent at the same index in every list.", "quantifier": "every number of agents and all states", "why_tests_cant": "unbounded number of agents", "anchors": ["verse/sensor/base_sensor.py:BaseSensor.sense"]}
{"id": "C49", "title": "small numeric utilities obey their contracts", "statement": "dedup keeps exactly the first element for each key in order; near_split splits a total into parts that differ by at most one and add up to the total; wrap_to_pi returns an angle in [-pi, pi) congruent to its argument.", "quantifier": "every list, every integer, every angle", "why_tests_cant": "all inputs", "anchors": ["verse/utils/utils.py:dedup", "verse/utils/utils.py:near_split", "verse/utils/utils.py:wrap_to_pi"]}
{"id": "C50", "title": "piecewise function bounds cover every branch that can be taken", "statement": "The interval returned for a piecewise function over a box contains the function's value at every point of the box.", "quantifier": "every piecewise function, box and point", "why_tests_cant": "continuum of points", "anchors": ["verse/analysis/parsed_wrap/bounded_piecewise.py:bounded_piecewise_z3", "verse/analysis/parsed_wrap/bounded_piecewise.py:ast_to_z3_condition"]}
{"id": "C51", "title": "simulate: an enabled, permitted transition is taken", "statement": "If at some sample of a node's traces an agent has an enabled transition that the map permits, and no assertion fails up to that sample, the node gets a child (at that sample or earlier).", "quantifier": "every scenario, every node, every sample of traces of any length", "why_tests_cant": "depends on the history of guards at all earlier samples", "anchors": ["verse/analysis/simulator.py:get_transition_simulate", "verse/analysis/simulator.py:simulate_one"]}
{"id": "C52", "title": "the lanes of the shipped intersection are connected and lie side by side", "statement": "On the shipped intersection map, the segments of a lane join without a gap, and the next-numbered lane of the same approach runs parallel to it exactly one lane width to the right, on the straight roads and on the turns inside the intersection.", "quantifier": "every intersection size, road length, lane width and number of lanes, every approach, every lane", "why_tests_cant": "continuum of parameters; a test only draws one map", "anchors": ["verse/map/example_map/intersection.py:Intersection"]}
{"id": "C53", "title": "verifier and simulator agree on the longitudinal position along a lane", "statement": "For every lane of a map and every position on it, the interval the verifier computes for get_longitudinal_position over a rectangle contains the value the simulator reports for every position in the rectangle.", "quantifier": "every map, lane, rectangle and position", "why_tests_cant": "continuum of positions; the defect needs two lanes that share a segment", "anchors": ["verse/map/lane.py:Lane", "verse/automaton/guard.py:GuardExpressionAst._handle_longitudinal_set", "verse/map/example_map/intersection.py:Intersection"]}
{"id": "C54", "title": "verify: reported tubes are safe when no assert is reported", "statement": "If verify reports no failed assert for a node, then every state in the tubes reported for that node satisfies every assert of every agent.", "quantifier": "every scenario, every node, every step of its tubes and every state in them", "why_tests_cant": "continuum of states and arbitrary guard outcomes at all steps", "anchors": ["verse/analysis/verifier.py:Verifier.get_transition_verify_opt", "verse/analysis/verifier.py:Verifier.compute_full_reachtube_step"]}
{"id": "C55", "title": "the tree computed by verify covers every execution", "statement": "For every execution of the scenario from the initial set in which transitions are taken as soon as a guard holds, there is a path in the tree returned by verify whose modes are those of the execution and whose tubes contain its states at the right times.", "quantifier": "every scenario, initial state and execution of any length", "why_tests_cant": "infinitely many executions; the claim is an induction over transitions", "anchors": ["verse/scenario/scenario.py:Scenario.verify", "verse/analysis/verifier.py:Verifier.compute_full_reachtube", "verse/analysis/verifier.py:Verifier.compute_full_reachtube_step"]}
{"id": "C56", "title": "every child in the tree of verify is justified", "statement": "For every child of a node in the tree of verify there is an agent whose mode changed to a mode the resets prescribe and the map permits, at a step where guards of exactly the applied resets may be satisfied; the initial rectangles of the child agree with the rectangles of the tube in all variables that these resets do not write, and all other agents keep the rest of their tubes.", "quantifier": "every scenario, every node and child", "why_tests_cant": "all guard outcomes at all steps", "anchors": ["verse/analysis/verifier.py:Verifier.get_transition_verify_opt", "verse/analysis/verifier.py:Verifier.compute_full_reachtube_step", "verse/analysis/verifier.py:Verifier.apply_reset"]}
{"id": "C57", "title": "a trace reused by incremental simulation is the trace of the node", "statement": "With incremental analysis enabled, the trace of a node begins at the start time of the node and reaches to the horizon, like the one that is computed without the cache.", "quantifier": "every history of earlier nodes and runs, every node", "why_tests_cant": "the defect needs a node with the same mode and state but another start time or horizon", "anchors": ["verse/analysis/incremental.py:SimTraceCache.check_hit", "verse/analysis/simulator.py:Simulator.simulate_one"]}
{"id": "C58", "title": "incremental analysis evaluates every guard that is new", "statement": "After the decision logic changed, every branch of the new logic is evaluated again unless the old logic had a branch for the same variable with the same guard whose transitions are reused; with an unchanged logic everything is reused.", "quantifier": "every pair of old and new decision logics and every set of cached segments", "why_tests_cant": "all pairs of programs and all histories", "anchors": ["verse/analysis/incremental.py:to_simulate", "verse/analysis/simulator.py:Simulator.get_transition_simulate"]}
{"id": "C59", "title": "the tube of a node with several initial rectangles covers all of them in time", "statement": "When a transition into a node is possible during several steps, an execution that starts in the initial rectangle of the i-th of these steps is, j steps later, in the rectangle number i + j of the tube of the node.", "quantifier": "every list of initial rectangles and every execution", "why_tests_cant": "continuum of executions; the defect depends on speed and on the number of rectangles", "anchors": ["verse/analysis/verifier.py:Verifier.calculate_full_bloated_tube_simple", "verse/scenario/scenario.py:ScenarioConfig.init_seg_length"]}
{"id": "C60", "title": "geometric helper tests are right", "statement": "Polygons reported as not intersecting (or not going to intersect during a displacement) have no common point; a point is reported inside a rotated rectangle iff it is; rotated rectangles reported as not intersecting have no common point.", "quantifier": "every pair of polygons or rectangles, every displacement and point", "why_tests_cant": "continuum of points", "anchors": ["verse/utils/utils.py:are_polygons_intersecting", "verse/utils/utils.py:point_in_rotated_rectangle", "verse/utils/utils.py:rotated_rectangles_intersect"]}
{"id": "C61", "title": "star sets: membership tests are exact", "statement": "contains_point and containment_poly answer true exactly for the points of the star set, and the constraints that a star set adds to a guard check allow exactly its points.", "quantifier": "every star set and point", "why_tests_cant": "continuum of points", "anchors": ["verse/stars/starset.py:StarSet.contains_point", "verse/stars/starset.py:containment_poly", "verse/stars/starset.py:StarSet.add_constraints"]}
{"id": "C62", "title": "star sets generated from simulations contain the simulated states", "statement": "With the option pca, the star computed for a time contains the states of all sampled simulations at that time, and every state that is reachable from the initial star at that time.", "quantifier": "every initial star, simulator and set of samples", "why_tests_cant": "continuum of initial states", "anchors": ["verse/stars/starset.py:gen_starset", "verse/stars/starset.py:post_cont_pca", "verse/stars/starset.py:gen_starsets_post_sim"]}
{"id": "C63", "title": "star sets: the point that maximizes a direction is right", "statement": "The point returned for a direction is a point of the star set, and no point of the star set is further in that direction; the true center is the center of the bounding rectangle.", "quantifier": "every star set and direction", "why_tests_cant": "continuum of points; only wrong for non-symmetric bases", "anchors": ["verse/stars/starset.py:StarSet.maximize", "verse/stars/starset.py:StarSet.get_true_center"]}
{"id": "C64", "title": "the tube of several initial stars covers all of them", "statement": "With star sets, the tube of a node with several initial stars is computed from stars that together contain all initial stars.", "quantifier": "every list of initial stars and every segment length", "why_tests_cant": "needs more initial stars than the segment length", "anchors": ["verse/analysis/verifier.py:Verifier.calculate_full_bloated_tube_stars", "verse/stars/starset.py:StarSet.combine_stars"]}
{"id": "C65", "title": "direction intervals cover every direction", "statement": "The interval computed for arctan2 over a box, for the directions from a rectangle to the origin, and for the directions from one rectangle to another contains the direction of every vector in question.", "quantifier": "every box or pair of rectangles, every point or pair of points", "why_tests_cant": "continuum of points; the defects need the origin on an edge or rectangles that cross", "anchors": ["verse/analysis/parsed_wrap/bounded_angular.py:angular_span_rect_parser", "verse/analysis/parsed_wrap/bounded_angular.py:angular_span_between_rects", "verse/analysis/parsed_wrap/bounded_angular.py:angular_bounds_rectangle"]}
{"id": "C66", "title": "membership in a wrapped interval is decided exactly", "statement": "angle_in_wrapped_interval is true exactly when the angle, after some number of whole turns, lies between the two ends.", "quantifier": "every angle and every interval", "why_tests_cant": "continuum of angles and intervals", "anchors": ["verse/analysis/parsed_wrap/bounded_angular.py:angle_in_wrapped_interval", "verse/analysis/parsed_wrap/bounded_angular.py:wrap_angle"]}
{"id": "C67", "title": "bounds of a sensor function contain the values of all its variables", "statement": "parse_function and parse_function_array, with any number of splits, return bounds that contain the value of every variable of the function at its return, for all arguments in the given bounds.", "quantifier": "every function of assignments, every box and number of splits, all arguments in the box", "why_tests_cant": "continuum of arguments", "anchors": ["verse/analysis/parsed_wrap/parser_wrapper.py:parse_function", "verse/analysis/parsed_wrap/parser_wrapper.py:parse_function_array", "verse/analysis/parsed_wrap/parser_wrapper.py:compute_expression_bounds_with_parsed_sensor"]}
{"id": "C68", "title": "cached bounds of sensor functions belong to the given function", "statement": "After any sequence of calls of parse_function and parse_function_array, the bounds returned by a call contain the values of the variables of the function given in that call, whether or not they come from the cache.", "quantifier": "every sequence of calls with any functions, boxes, splits and cache settings", "why_tests_cant": "all call histories, including those of earlier processes", "anchors": ["verse/analysis/parsed_wrap/parser_wrapper.py:parse_function", "verse/analysis/parsed_wrap/parser_wrapper.py:parse_function_array", "verse/analysis/parsed_wrap/parser_wrapper.py:get_cache_key"]}
{"id": "C69", "title": "star sets: the image of a set under the resets of a transition is exact", "statement": "With star sets, the star after a transition contains exactly the states that the reset expressions of the transition make out of the points of the star, with all resets read from the state before the transition; the destination modes are the same as with rectangles.", "quantifier": "every star set, every set of reset expressions, every point", "why_tests_cant": "continuum of points; the defects depend on the names of variables and on the form of the expressions", "anchors": ["verse/analysis/verifier.py:Verifier.apply_reset_stars", "verse/stars/starset.py:StarSet.apply_reset"]}
{"id": "C70", "title": "star sets: guards are evaluated exactly", "statement": "With star sets, a guard is reported as hit if and only if it is true in some state in which every agent is in its star set, and as contained if and only if it is true in all of these states.", "quantifier": "every guard over the variables of the agents, every number of agents, all star sets and their points, all names of variables", "why_tests_cant": "continuum of points; the defects depend on the names of variables and on the order of the agents", "anchors": ["verse/automaton/guard.py:GuardExpressionAst.evaluate_guard_cont", "verse/automaton/guard.py:GuardExpressionAst.get_agent_dictionaries", "verse/sensor/base_sensor_stars.py:BaseStarSensor.sense", "verse/stars/starset.py:StarSet.add_constraints"]}
{"id": "C71", "title": "star sets: lane queries use the range of the right variable", "statement": "With star sets, the range that a lane query in a guard uses for a variable goes exactly from the least to the greatest value of this variable in the states in which every agent is in its star set, no matter which guards or assertions have been evaluated before.", "quantifier": "all star sets and their points, all lists of variables, every number of agents, every history of evaluations that share a dictionary", "why_tests_cant": "continuum of points; all orders of variables; histories", "anchors": ["verse/automaton/guard.py:GuardExpressionAst.evaluate_guard_hybrid", "verse/automaton/guard.py:GuardExpressionAst.get_agent_variable_indices", "verse/stars/starset.py:StarSet.get_max_min"]}
{"id": "C72", "title": "simulate_simple follows the decision logic run by Python", "statement": "simulate_simple returns one run: each node holds the simulated traces of all agents from its initial state up to the first sample at which the decision logic of some agent, called with the state at that sample, returns another state or fails an assertion; failing assertions end the run and are reported with exactly the agents and messages that fail; otherwise the next node starts at that time with the returned modes and states of the agents that change, and the current ones of the others. With a bound on the height the call ends.", "quantifier": "every number of agents, every decision logic, dynamics and horizon", "why_tests_cant": "all programs and all lengths of runs", "anchors": ["verse/analysis/simulator.py:Simulator.simulate_simple", "verse/analysis/simulator.py:Simulator.get_transition_simulate_simple", "verse/scenario/scenario.py:Scenario.simulate_simple"]}
{"id": "C73", "title": "the text of an expression means the expression", "statement": "Verse turns expressions of the decision logic into text (reset expressions, guards), compares them as text and gives the text back to Python: Python reads the text of an expression as exactly this expression, so that reset expressions compare equal exactly if they assign the same expression to the same variable.", "quantifier": "every expression, of any depth, with any names, numbers and strings", "why_tests_cant": "all syntax trees; the defects depend on precedence, on signs of numbers and on what stands next to each other", "anchors": ["verse/parser/astunparser.py:Unparser", "verse/parser/parser.py:unparse", "verse/automaton/reset.py:ResetExpression"]}
{"id": "C74", "title": "coordinates on 3D lanes are right", "statement": "On a lane in space, the longitudinal coordinate of a point is the place of the nearest point of the axis of the lane, the lateral coordinate is the distance to it, and position gives back the point from its coordinates.", "quantifier": "every straight or circular lane and every point", "why_tests_cant": "continuum of lanes and points; the defects depend on the direction of the lane", "anchors": ["verse/map/lane_segment_3d.py:StraightLane_3d", "verse/map/lane_segment_3d.py:CircularLane_3d_v1", "verse/map/lane_segment_3d.py:get_theta_by_coor", "verse/map/lane_segment_3d.py:get_coor_by_rt"]}
{"id": "C75", "title": "circular 3D lanes run from their start to their end", "statement": "A circular lane in space runs on the circle around its centre in the plane orthogonal to its normal vector, at unit speed, from its start phase to its end phase; a lane that is given by its two ends and the angle starts at the first, ends at the second and turns through the angle.", "quantifier": "every circular lane, all pairs of points, normal vectors and angles", "why_tests_cant": "continuum of lanes; the defects depend on the angle and on the normal vector", "anchors": ["verse/map/lane_segment_3d.py:CircularLane_3d_v1", "verse/map/lane_segment_3d.py:CircularLane_3d_v2", "verse/map/lane_segment_3d.py:get_center_radius"]}
{"id": "C76", "title": "the place of a point on a 3D lane of several segments is right", "statement": "On a lane of several segments in space, the lateral distance of a point is the least distance to a segment onto which it projects, and its longitudinal position is the length of the segments before that segment and the place of the projection on it; every point of the lane has a place.", "quantifier": "every lane of straight segments, of any number, and every point", "why_tests_cant": "continuum of lanes and points; the defects are at ends and corners", "anchors": ["verse/map/lane_3d.py:Lane_3d.get_lane_segment", "verse/map/lane_3d.py:Lane_3d.get_longitudinal_position", "verse/map/lane_3d.py:Lane_3d.get_lateral_distance"]}
{"id": "C77", "title": "waypoints on 3D lanes follow each other along the lane", "statement": "The waypoints that get_next_point makes for an agent follow each other without gaps, each with the length that the agent covers, along the segment nearest to the agent and towards its axis, and at the end of a segment on to the segment that lies most in the direction of the velocity; the waypoint depends only on the arguments and the map; check_guard_box tells whether the agent is in the box around the end of its waypoint.", "quantifier": "every lane of straight segments, every position, velocity and length, every sequence of calls", "why_tests_cant": "continuum of positions; histories of calls", "anchors": ["verse/map/lane_map_3d.py:LaneMap_3d.get_next_point", "verse/map/lane_map_3d.py:LaneMap_3d.check_guard_box"]}
{"id": "C78", "title": "neighbours of 3D lanes are symmetric", "statement": "After lanes have been added to a 3D map and paired, lane y is on a side of lane x exactly if it was paired so from one of the two ends; so that x is on the opposite side of y. has_left, has_right, has_up and has_down tell whether there is a neighbour, and left_lane, right_lane, up_lane and down_lane give one.", "quantifier": "every sequence of additions and pairings", "why_tests_cant": "histories of calls", "anchors": ["verse/map/lane_map_3d.py:LaneMap_3d.add_lanes", "verse/map/lane_map_3d.py:LaneMap_3d.pair_lanes", "verse/map/lane_map_3d.py:LaneMap_3d.has_left", "verse/map/lane_map_3d.py:LaneMap_3d.left_lane"]}
{"id": "C79", "title": "what simulate shows, verify contains", "statement": "If simulate and verify are run on the same scenario, with the same horizon and time step, from an initial state in the initial set, then every path of the tree of simulate is contained in a path of the tree of verify: the modes are the same node by node, and every simulated state is in a rectangle for its time.", "quantifier": "every scenario without unsafe hits, every initial state, every path of the simulation, any number of agents, modes and transitions", "why_tests_cant": "relates two analyses over all initial states and all paths; a test compares a few runs", "anchors": ["verse/analysis/simulator.py:simulate_one", "verse/analysis/verifier.py:compute_full_reachtube", "verse/scenario/scenario.py:Scenario.simulate", "verse/scenario/scenario.py:Scenario.verify"]}
{"id": "C80", "title": "a safe verdict is right", "statement": "If verify returns a tree in which no node reports a failed assert, then no execution of the scenario from the initial set violates an assert of a controller before the time horizon.", "quantifier": "every scenario, every execution from the initial set with any number of switches, every step before the horizon", "why_tests_cant": "continuum of executions over trees of any size; this is the purpose of the tool", "anchors": ["verse/scenario/scenario.py:Scenario.verify", "verse/analysis/verifier.py:Verifier.compute_full_reachtube", "verse/analysis/verifier.py:Verifier.compute_full_reachtube_step", "verse/automaton/guard.py:GuardExpressionAst"]}
{"id": "C81", "title": "mixed-monotone tubes in continuous time contain all trajectories", "statement": "For an agent with a decomposition function for its continuous dynamics, the tube that is computed with the method MIXMONO_CONT contains the state of every trajectory at every time up to the horizon, from every initial state in the box and for parameters that change over time within their bounds.", "quantifier": "every dynamics with a decomposition function, every box, horizon and step, every trajectory and every time", "why_tests_cant": "continuum of trajectories, disturbances and times", "anchors": ["verse/analysis/mixmonotone.py:compute_reachtube_mixmono_cont", "verse/analysis/mixmonotone.py:calculate_bloated_tube_mixmono_cont"]}
{"id": "C82", "title": "the tree of verify contains the states at all times", "statement": "For every execution in continuous time from the initial set there is a path in the tree of verify with the same modes, and at every time before the horizon, also between the steps, the tubes of the node have a rectangle for this time that contains the state of each agent.", "quantifier": "every scenario, every execution in continuous time with any number of switches, every time before the horizon; controllers that look at the state at the steps, and controllers that look at it all the time", "why_tests_cant": "continuum of executions and of times", "anchors": ["verse/scenario/scenario.py:Scenario.verify", "verse/analysis/verifier.py:Verifier.compute_full_reachtube", "verse/analysis/verifier.py:Verifier.compute_full_reachtube_step", "verse/analysis/verifier.py:Verifier.calculate_full_bloated_tube_simple"]}
{"id": "C83", "title": "a safe verdict is right at all times", "statement": "If verify returns a tree in which no node reports a failed assert, then in no execution in continuous time from the initial set the state violates an assert of a controller at any time before the horizon, also between the steps.", "quantifier": "every scenario, every execution in continuous time with any number of switches, every time before the horizon", "why_tests_cant": "continuum of executions and of times", "anchors": ["verse/scenario/scenario.py:Scenario.verify", "verse/analysis/verifier.py:Verifier.compute_full_reachtube_step", "verse/automaton/guard.py:GuardExpressionAst"]}
{"id": "C84", "title": "simulate gives controllers the states of the agents", "statement": "In simulate, the guards, resets and asserts of an agent are evaluated with: ego, an object with the variables of the agent itself; for an argument that is a list of agents, one object for each of the other agents, with the values of its variables; for an argument that is a single agent, the object of this agent; and the map.", "quantifier": "every controller, every number of agents, all states, all names of variables and arguments", "why_tests_cant": "all numbers and types of agents; the defects need agents of several types or an argument that is no list", "anchors": ["verse/analysis/simulator.py:pack_env", "verse/sensor/base_sensor.py:BaseSensor.sense"]}
{"id": "C85", "title": "traces of agents are samples of their dynamics", "statement": "TC_simulate of the agents that come with the library returns a trace that starts with the given state at time 0, has one row for each multiple of the time step up to the first one that is not before the horizon, and in which each row is the state that the dynamics of the agent reach from the row before in one time step, with the control of that row for cars; simulating on from a row gives the rest of the trace.", "quantifier": "every agent class, mode, map, initial state, horizon and time step", "why_tests_cant": "continuum of states, horizons and steps; all lengths of traces", "anchors": ["verse/agents/example_agent/car_agent.py:CarAgent.TC_simulate", "verse/agents/example_agent/car_agent.py:NPCAgent.TC_simulate", "verse/agents/example_agent/origin_agent.py:thermo_agent.TC_simulate", "verse/agents/example_agent/sign_agent.py:SignAgent.TC_simulate", "verse/agents/base_agent.py:BaseAgent.TC_simulate"]}
{"id": "C86", "title": "cars keep to their limits", "statement": "The steering angle of the cars that come with the library is at most 0.61; they never drive backwards; in modes that keep or change the lane they keep their speed; in the mode Brake they slow down, by at most accel per time, and in the mode Accel they speed up, by at most accel per time, to at most speed; in the mode Stop they stop.", "quantifier": "every car class, mode, map, initial state, horizon and time step", "why_tests_cant": "continuum of states and parameters; all lengths of traces", "anchors": ["verse/agents/example_agent/car_agent.py:CarAgent.action_handler", "verse/agents/example_agent/car_agent.py:NPCAgent.action_handler", "verse/agents/example_agent/car_agent.py:CarAgentSwitch2.action_handler", "verse/agents/example_agent/car_agent.py:CarAgent.TC_simulate"]}
{"id": "C87", "title": "cars follow their lanes", "statement": "A car that is on the axis of its lane (in a mode that switches lanes: on the axis of the lane it switches to) and drives in the direction of the lane stays there as long as the lane is straight; a car beside this line steers towards it.", "quantifier": "every car class, mode, map with a straight stretch of lane in any direction, initial state, horizon and time step", "why_tests_cant": "continuum of states, maps and parameters; all lengths of traces", "anchors": ["verse/agents/example_agent/car_agent.py:CarAgent.action_handler", "verse/agents/example_agent/car_agent.py:NPCAgent.action_handler", "verse/agents/example_agent/car_agent.py:CarAgentSwitch2.action_handler"]}
{"id": "C88", "title": "every analysis starts from what was given", "statement": "simulate and simulate_simple start each agent in a state of its initial set, in its initial mode and with its parameters; any combination of such states of the agents is possible. verify starts from the whole initial sets. Each run is recorded after the earlier ones. A seed determines the initial state, and without incremental mode the tree, whatever was run or drawn before. simulate_multi returns, in order, what simulate returns for the seeds seed, seed+1, ..., or for the given initial states.", "quantifier": "every scenario, random generator, seed, number of runs and history of earlier runs", "why_tests_cant": "all seeds, histories and numbers of agents", "anchors": ["verse/scenario/scenario.py: simulate, simulate_multi, simulate_simple, verify, _get_init_from_agent", "verse/utils/utils.py: sample_rect", "verse/analysis/analysis_tree.py: root_from_inits"]}
{"id": "C89", "title": "plots show the whole tree", "statement": "reachtube_tree draws every rectangle of every tube of every node, and simulation_tree draws every trace of every node as a line through all its points, and nothing else; the axes show all of it; the violated assertions of each agent are marked at the end of its trace; and plotting leaves the tree as it was.", "quantifier": "every tree, any number of nodes and agents, every choice of dimensions, sample rates and ways to combine rectangles", "why_tests_cant": "all trees; the defects depend on the number of rows and on the movement of the agents", "anchors": ["verse/plotter/plotter2D.py:reachtube_tree", "verse/plotter/plotter2D.py:reachtube_tree_single", "verse/plotter/plotter2D.py:simulation_tree", "verse/plotter/plotter2D.py:simulation_tree_single", "verse/plotter/plotter2D.py:sample_trace"]}
{"id": "C90", "title": "slices and animations show what happens at their times", "statement": "reachtube_tree_slice draws the rectangles of all tubes whose time meets the slice and nothing else; each frame of reachtube_anime shows all rectangles that start at its time, and each frame of simulation_anime all states at its time, for all agents and nodes, and nothing else; every node can be animated.", "quantifier": "every tree, any number of nodes and agents, every slice and every time", "why_tests_cant": "all trees and times; the defects need slices between the steps or nodes below the root", "anchors": ["verse/plotter/plotter2D.py:reachtube_tree_slice", "verse/plotter/plotter2D.py:reachtube_tree_single_slice", "verse/plotter/plotter2D.py:reachtube_anime", "verse/plotter/plotter2D.py:simulation_anime"]}
{"id": "C91", "title": "the example sensors show the states of all agents", "statement": "The sensors that come with the library show a decision logic exactly the values of the variables, modes and static parameters of its own agent, and the list of the values of all other agents, in one order of the agents for all variables; in simulate and in verify.", "quantifier": "every number of agents, all states, each sensor class, both analyses", "why_tests_cant": "all numbers of agents and all states; the defects need several other agents or static parameters", "anchors": ["verse/sensor/example_sensor/thermo_sensor.py:ThermoSensor.sense", "verse/sensor/example_sensor/craft_sensor.py:CraftSensor.sense", "verse/sensor/example_sensor/quadrotor_sensor.py:QuadrotorSensor.sense", "verse/sensor/example_sensor/single_sensor.py:SingleSensor.sense", "verse/sensor/example_sensor/craft_star_sensor.py:CraftStarSensor.sense"]}
{"id": "C92", "title": "diameters of star sets", "statement": "star_manhattan_distance gives the greatest Manhattan distance of two points of a star set; time_step_diameter gives, for every time step, the greatest diameter among the star sets of all agents and nodes at that step.", "quantifier": "every star set of any dimension and number of vectors and constraints; every tree, horizon and time step", "why_tests_cant": "all star sets and pairs of their points; all trees and windows of time", "anchors": ["verse/utils/star_manhattan.py: star_manhattan_distance", "verse/utils/star_diams.py: time_step_diameter, reach_star, manhattan"]}
{"id": "C93", "title": "bounds of sensors contain their values", "statement": "The bounds that parsed_sensor and parsed_sensor_expr give for a box of inputs contain the outputs of the sensor for all inputs in the box, for every number of splits, also when results come from the cache; with sim the outputs are computed. The bounds of heading, lateral distance and longitudinal position over a box contain their values at all positions in the box.", "quantifier": "every sensor, box, number of splits and history of calls; every map and box", "why_tests_cant": "continuum of inputs; all histories of the cache", "anchors": ["verse/analysis/parsed_wrap/sensor_parser.py: parsed_sensor, parsed_sensor_expr, norm, atan2_crown_safe, get_cache_key", "verse/analysis/parsed_wrap/bounded_map.py"]}
{"id": "C94", "title": "where a position is relative to a lane", "statement": "on_lane says whether a position is at most half the width and the margin from the axis of the lane and at most a vehicle length before its beginning or behind its end; is_reachable_from whether it is at most two widths from the axis of a lane that is not forbidden, and not before its beginning; after_end whether it is less than half a vehicle length before the end; coordinates that are given are used. distance is the least distance in lane coordinates to a point of the axis, so 0 exactly on the axis; distance_with_heading adds the weighted angle, between 0 and pi, to the direction of the lane.", "quantifier": "every straight and circular lane, position, margin, heading and weight", "why_tests_cant": "continuum of lanes and positions", "anchors": ["verse/map/lane_segment.py: AbstractLane.on_lane, is_reachable_from, after_end, distance, distance_with_heading"]}
{"id": "C95", "title": "errors of positions from distances and angles", "statement": "For a position, an error bound on the sensed distance and one on the two sensed angles, point_error_general gives the greatest and the least error of a coordinate of the sensed position: all possible errors are between them and both can happen. box_extreme_error gives bounds of the errors for all positions in a box.", "quantifier": "every position, error bounds, axis and box; all possible readings", "why_tests_cant": "continuum of positions and readings", "anchors": ["verse/analysis/parsed_wrap/bounded_angular.py: projection_bounds_general, point_error_general, box_extreme_error"]}
{"id": "C96", "title": "Maps read from OpenDRIVE files have the lanes of the roads", "statement": "A lane map made from an OpenDRIVE file has one lane for each lane of the road to drive on. At each fraction of its length, each of its segments is beside the same fraction of the reference line of the road, at the distance of the middle of the lane (the widths of all lanes in between and half its own), on the side where the lane is, and has the width of the lane. Segments join where the geometries of the road do. The neighbours of a lane in the map, and the lanes that changing lanes leads to, are the neighbours on the road.", "quantifier": "all headings, positions, lengths and curvatures of geometries, all lists of lanes and widths, all numbers of roads and geometries, all points along and across a lane", "why_tests_cant": "The claim ranges over real headings, curvatures and positions and over all numbers of lanes, roads and geometries; one map from one file shows neither turns in the other direction, nor lanes on the other side, nor other orders of lanes.", "anchors": ["verse/map/opendrive_parser.py:opendrive_map", "verse/map/opendrive_parser.py:road_traverser", "verse/map/opendrive_parser.py:condense_matrix", "verse/map/lane_segment.py:StraightLane", "verse/map/lane_segment.py:CircularLane"]}
{"id": "C97", "title": "verify answers for the decision logic that was written", "statement": "What the verifier checks is the decision logic as written in Python. In every state in which running the decision logic gives a variable a new value, the verifier finds that the transition may be taken; in every state in which running it stops at an assertion, the verifier finds that this assertion may fail. So when verify reports no failed assertion, then in no execution, at no step before the horizon, does running the decision logic of any agent stop at an assertion.", "quantifier": "all decision logics of the supported form, all states and all bindings of names to objects with the values of the state, all rectangles around the state, all scenarios, executions and steps", "why_tests_cant": "The claim ranges over programs, states and executions, and joins four components (parser, guard reader, solver translation, reachability loop) that tests look at one at a time.", "anchors": ["verse/parser/parser.py:ControllerIR.parse", "verse/parser/parser.py:Env.trans_args", "verse/automaton/guard.py:GuardExpressionAst", "verse/analysis/verifier.py:Verifier", "verse/analysis/verifier.py:Verifier.compute_full_reachtube"]}
{"id": "C98", "title": "Discrete mixed-monotone tubes from the source of the dynamics", "statement": "When an agent has only a Python function for its discrete dynamics, the reach tube is computed from the text of this function. The tube contains every trajectory of the function as Python runs it: for all initial states in the box and all sequences of parameters in their range, the rectangle from step k to step k + 1 contains the states at both. The tube reaches the horizon.", "quantifier": "all dynamics functions, initial boxes, parameter ranges, time steps, horizons, trajectories and steps", "why_tests_cant": "The claim compares a text-based extraction with the semantics of every possible function body, over a continuum of states and parameters.", "anchors": ["verse/analysis/mixmonotone.py:calculate_bloated_tube_mixmono_disc", "verse/analysis/mixmonotone.py:find_min_symbolic", "verse/analysis/mixmonotone.py:find_max_symbolic"]}
{"id": "C99", "title": "Diameters of reach tubes and of simulations", "statement": "time_step_diameter_rect gives, for every time step, the largest distance of two states that are reachable during this step. sim_traces_to_diameters gives, for every sequence of modes and every time, the size of the smallest rectangle around the simulated states; so no two simulations that went through the same modes are ever further apart at the same time than the sizes given.", "quantifier": "all trees of reach tubes or simulations, agents, modes, time steps and times", "why_tests_cant": "The numbers are maxima over all nodes, rectangles and pairs of states; a run shows one number and cannot show that no pair is further apart.", "anchors": ["verse/utils/star_diams.py:time_step_diameter_rect", "verse/utils/star_diams.py:sim_traces_to_diameters"]}
{"id": "C100", "title": "Agents know the lanes of the map", "statement": "An agent whose decision logic has track modes knows every lane of the map of the scenario as a track mode, and only its own modes and these lanes, whatever the order in which agents are added, maps are set or replaced, and decision logics are exchanged. Setting the map before, between or after adding the agents makes no difference.", "quantifier": "all sequences of calls, maps and agents", "why_tests_cant": "The lanes depend on the whole history of calls; a test fixes one order.", "anchors": ["verse/scenario/scenario.py:Scenario.set_map", "verse/scenario/scenario.py:Scenario.add_agent", "verse/scenario/scenario.py:Scenario._update_agent_lane_mode", "verse/scenario/scenario.py:Benchmark.swap_dl"]}
{"id": "C101", "title": "Sampling from star sets", "statement": "For every star set that has points, sample_star returns as many points as asked for, all of them in the star set, for all random numbers; and it always ends. The tube that is computed from simulations contains the simulated states of that many initial states of the star set.", "quantifier": "all star sets, numbers of points, tolerances, random numbers, simulations", "why_tests_cant": "Random numbers: a test sees one sequence of draws, and cannot see that the loop ends for all.", "anchors": ["verse/stars/starset.py:sample_star", "verse/stars/starset.py:gen_starsets_post_sim", "verse/utils/utils.py:sample_rect"]}
{"id": "C102", "title": "Flights of the quadrotor", "statement": "For every map, network, start, horizon and time step, simulating a quadrotor agent ends and returns one row for each multiple of the time step from 0 to the horizon and none beyond it. The recorded waypoints form a chain that starts at the initial position. In each step the craft is accelerated by the input that the network rates best for the differences from the point that moves along the current waypoint, so that velocities and positions differ from those of the start by at most what the largest accelerations allow.", "quantifier": "all lanes, networks, starts, velocities, horizons, time steps, times between waypoints", "why_tests_cant": "The controller is a neural network and the loop ends by a condition on rounded times and a guard; a test flies a few routes.", "anchors": ["verse/agents/example_agent/quadrotor_agent.py:QuadrotorAgent.TC_simulate", "verse/agents/example_agent/quadrotor_agent.py:QuadrotorAgent.runModel", "verse/agents/example_agent/quadrotor_agent.py:QuadrotorAgent.dynamics", "verse/agents/example_agent/quadrotor_agent.py:QuadrotorAgent.action_handler"]}
{"id": "C103", "title": "Trees of verify_partitioned cover the executions", "statement": "For every scenario, the tree that verify_partitioned returns without failed asserts contains every execution from the initial set: there is a path from the root whose nodes have the modes of the execution and whose tubes contain its states at the right times. All states of the execution before the horizon satisfy the asserts.", "quantifier": "all scenarios, numbers of parts, cut dimensions, horizons, time steps, schedules of the workers, executions", "why_tests_cant": "The tubes of the parts are united, one child stands for all steps of a transition, and children inherit tubes: a test sees one tree and finitely many executions.", "anchors": ["verse/scenario/scenario.py:Scenario.verify_partitioned", "verse/analysis/verifier.py:Verifier.compute_full_reachtube_partitioned", "verse/analysis/verifier.py:Verifier.compute_full_reachtube_step_partitioned"]}
{"id": "C104", "title": "Translation of sensors to torch", "statement": "The function on tensors that is made of the source text of a sensor returns what the source text returns, for all inputs, and after any history of calls of other sensors. So the bounds that are computed for a sensor contain the outputs of its source text.", "quantifier": "all source texts of sensors, inputs, boxes, numbers of splits, histories of calls", "why_tests_cant": "The translation replaces names in any program text: a test sees a few programs, and calls them in one order.", "anchors": ["verse/analysis/parsed_wrap/sensor_parser.py:TorchFuncModule", "verse/analysis/parsed_wrap/sensor_parser.py:FUNC_MAP", "verse/analysis/parsed_wrap/sensor_parser.py:parsed_sensor_expr"]}
{"id": "C105", "title": "Distances along rays and segments", "statement": "distance_to_circle returns the distance from the origin to the disk along a direction: 0 from inside, infinity if the ray misses it. distance_to_rect returns the distance from the start of a segment to the first of its points in the rectangle, and infinity exactly if the segment does not meet the rectangle. point_in_ellipse tells whether a point is inside a rotated ellipse.", "quantifier": "all circles, rectangles, ellipses, rays, segments, points", "why_tests_cant": "The functions decide by signs of polynomials and by three pairwise tests of intervals; that the pairwise tests suffice holds for all positions, parallel sides divide by zero.", "anchors": ["verse/utils/utils.py:distance_to_circle", "verse/utils/utils.py:distance_to_rect", "verse/utils/utils.py:solve_trinom", "verse/utils/utils.py:point_in_ellipse"]}
{"id": "C106", "title": "The loops of the 3D example maps are closed and smooth", "statement": "The four segments from which the example maps 3 to 6 build a lane make a closed curve without gaps and corners: three quarters of a circle, a straight part, three quarters of a circle the other way around, a straight part back. The longitudinal coordinate grows along the curve. The lanes of a map are parallel, two widths apart.", "quantifier": "every centre, radius, normal vector, and length of the straight parts beyond the radius", "why_tests_cant": "The ends of the segments are computed through frames, tangents and inverse tangents; that they meet, with equal directions, is an identity for all parameters, not a matter of the few maps in the repository.", "anchors": ["verse/map/example_map/simple_map_3d.py:SimpleMap3", "verse/map/example_map/simple_map_3d.py:SimpleMap6", "verse/map/example_map/simple_map_3d.py:get_end", "verse/map/lane_segment_3d.py:CircularLane_3d_v1.get_start_end_tang", "verse/map/lane_segment_3d.py:CircularLane_3d_v2"]}
{"id": "C107", "title": "Symbolic values that are treated as equal are equal", "statement": "While it reads a decision logic, the parser compares the symbolic values of variables by their printed text. It treats two values (expressions, reductions over agents, conditional values, objects with attributes) as equal only if they are the same, so that after an if statement a variable has exactly the values that the branch taken gives it, besides those it had before.", "quantifier": "every pair of values that a program can build, and all conditions", "why_tests_cant": "Different syntax trees could print to the same text for some program; only an argument about all texts excludes it.", "anchors": ["verse/parser/parser.py:ControllerIR.dump", "verse/parser/parser.py:ControllerIR.ir_eq", "verse/parser/parser.py:CondValCase.__eq__", "verse/parser/parser.py:_Assert.__eq__", "verse/parser/parser.py:merge_if_val", "verse/parser/parser.py:merge_if_single"]}
{"id": "C108", "title": "Videos show all reachtubes up to the time of the frame", "statement": "The frame of a time in a video of reachtubes (a page in HTML, a GIF or an MP4) shows exactly the rectangles of all agents and nodes that begin at this time or before it; the frames go forward in time, at most as many as max_frame_steps, and the last one shows the complete reachtubes. In a GIF or MP4 every point of a rectangle has a painted pixel inside the drawing area.", "quantifier": "every tree, all agents, dimensions, bounds on the number of frames and sizes of the picture", "why_tests_cant": "The frames are assembled incrementally with a cursor over sorted times and thinned out by rounding; whether a rectangle is lost depends on all times in the tree.", "anchors": ["verse/plotter/plotter2D.py:reachtube_tree_video", "verse/plotter/plotter2D.py:_export_reachtube_video_direct"]}
{"id": "C109", "title": "Pictures of maps show all lanes", "statement": "The picture of a map shows every segment of every lane and nothing else: a straight segment by exactly the rectangle of the points on it, a circular one by a closed line whose corners are on its edges and that is never further from them than (radius + width/2) * (1 - cos(angle/198)); all of it is inside the ranges of the axes. In a detailed picture lanes with a higher speed limit are darker, from white for the lowest to black for the highest.", "quantifier": "every map, all its lanes, segments and speed limits, all kinds of picture", "why_tests_cant": "Maps are arbitrary collections of segments in the plane; that the drawn polygon is the area of the lane is a statement about infinitely many points.", "anchors": ["verse/plotter/plotter2D.py:draw_map", "verse/map/lane_segment.py:StraightLane", "verse/map/lane_segment.py:CircularLane"]}
{"id": "C110", "title": "Pictures of star sets show the star sets", "statement": "The picture of a star set in two dimensions is a closed curve through points of the star set: nothing outside of the star set is inside the curve, and no point of the star set is further outside of it than pi/99 of the diameter of the star set. plot_reachtube_stars draws this for the star sets of all agents and nodes (every filter-th of them) in the dimensions that are asked for, and leaves the tree as it was.", "quantifier": "every star set of any dimension and number of vectors and constraints; every tree, filter and pair of dimensions", "why_tests_cant": "The outline is found with 100 linear programs; that it encloses the set is a statement about infinitely many points and all directions.", "anchors": ["verse/stars/starset.py:StarSet.get_verts", "verse/stars/starset.py:StarSet.maximize", "verse/plotter/plotterStar.py:plot_reachtube_stars", "verse/plotter/plotterStar.py:reachtube_tree_single", "verse/plotter/plotterStar.py:sample_trace"]}
{"id": "C111", "title": "Lanes can be described by plain data and built again", "statement": "to_config() of a lane of any class describes the lane by plain data. from_config, of the class that the class path names, builds from the description a lane with the same attributes, which gives the same answers to all questions; doing it twice with the same description gives the same lane.", "quantifier": "every class of lanes, every lane its constructor can build, wherever it was placed along a road; every description", "why_tests_cant": "The round trip must hold for all lanes, among them lanes whose constructor changes its arguments.", "anchors": ["verse/map/lane_segment.py:StraightLane.to_config", "verse/map/lane_segment.py:StraightLane.from_config", "verse/map/lane_segment.py:CircularLane.to_config", "verse/map/lane_segment.py:CircularLane.from_config", "verse/map/lane_segment_3d.py:StraightLane_3d.to_config", "verse/map/lane_segment_3d.py:CircularLane_3d_v1.to_config", "verse/map/lane_segment_3d.py:CircularLane_3d_v1.from_config", "verse/utils/utils.py:get_class_path", "verse/utils/utils.py:class_from_path", "verse/utils/utils.py:to_serializable"]}
{"id": "C112", "title": "Plots in space show what was computed", "statement": "A plot of reachtubes in space shows, for every agent, the surfaces and the edges of the boxes of all its rectangles in the three chosen dimensions, and nothing else; a plot of simulations shows lines through all states in order; violated assertions are marked where the traces end; a map is drawn along the centres of its lanes. Options change how this is drawn, not what is shown.", "quantifier": "every analysis tree, all agents, dimensions, sample rates and values of combine_rect; all straight and circular lanes in space", "why_tests_cant": "A surface made of triangles must be right for all boxes, and a rectangle may be missing in any node of any tree.", "anchors": ["verse/plotter/plotter3D_new.py:reachtube_tree_3d", "verse/plotter/plotter3D_new.py:reachtube_tree_single_3d", "verse/plotter/plotter3D_new.py:simulation_tree_3d", "verse/plotter/plotter3D_new.py:simulation_tree_single_3d", "verse/plotter/plotter3D_new.py:draw_map_3d", "verse/plotter/plotter3D_new.py:reachtube_anime_3d", "verse/plotter/plotter3D_new.py:check_dim", "verse/map/lane_segment_3d.py:StraightLane_3d.get_lane_center", "verse/map/lane_segment_3d.py:CircularLane_3d_v1.get_lane_center"]}
{"id": "C113", "title": "State variables and modes are those the classes declare", "statement": "The state variables of an agent are the variables that its class of states declares, inherited ones included, each once, continuous ones in the order of their declaration; the modes of a class of modes are the members of the Enum; a reference to a mode that does not exist is an error. Decision logic sees the i-th value of a state as the i-th declared continuous variable.", "quantifier": "every file of decision logic, every number and order of classes and variables, all agents and states", "why_tests_cant": "Names, order and kinds of variables are free, and a shift by one would silently exchange variables.", "anchors": ["verse/parser/parser.py:StateDef", "verse/parser/parser.py:ModeDef", "verse/parser/parser.py:proc", "verse/parser/parser.py:is_main_check", "verse/parser/parser.py:Env.parse", "verse/sensor/base_sensor.py:BaseSensor.sense"]}
{"id": "C114", "title": "Experiments do what their command line says", "statement": "Benchmark(argv, **options) sets exactly the options whose letters are in the first argument and those given by name; run performs the analysis asked for with the given times and keyword arguments and report shows the numbers of that run; compare_run runs twice, the second time with the options and scenario of the further arguments when there are any, and says truly which tree contains which.", "quantifier": "every command line, every scenario and analysis, all times and keyword arguments", "why_tests_cant": "Arguments, scenarios and results are unbounded, and a dropped option shows only as a different result.", "anchors": ["verse/scenario/scenario.py:ExprConfig.from_arg", "verse/scenario/scenario.py:Benchmark.__init__", "verse/scenario/scenario.py:Benchmark.run", "verse/scenario/scenario.py:Benchmark.report", "verse/scenario/scenario.py:Benchmark.compare_run", "verse/scenario/scenario.py:Benchmark.replace_scenario"]}
{"id": "C115", "title": "Static pictures and the animation show every node, inside the axes", "statement": "plot_reachtube_tree, plot_simulation_tree and plot3dReachtube draw, for the chosen agent and dimensions, exactly the rectangles, lines or boxes of the rows of that agent in all nodes of the tree; everything drawn is within the axes, which are the ones given or the smallest that fit; what is marked as unsafe belongs to the agent; generate_simulation_anime shows in the frame of each time exactly the agents at that time", "quantifier": "all trees, agents, lists of dimensions, limits of axes, rounding and trigonometric functions", "why_tests_cant": "the pictures are drawn over every shape of tree and cannot be compared pixel by pixel", "anchors": ["verse/plotter/plotter2D_old.py:plot", "verse/plotter/plotter2D_old.py:plot_reachtube_tree", "verse/plotter/plotter2D_old.py:plot_simulation_tree", "verse/plotter/plotter2D_old.py:generate_simulation_anime", "verse/plotter/plotter3D.py:plot3dReachtube"]}
{"id": "C116", "title": "Incremental verification with star sets gives the tubes of plain verification", "statement": "With the reachability method STAR_SETS, verify computes for each agent in each node a tube that contains all states reached from any of its initial stars, and turning on incremental changes neither the tubes nor whether they are computed", "quantifier": "all lists of initial stars, segment lengths, contents of the cache, ways to combine stars and to compute tubes", "why_tests_cant": "a cache can be in any state and the initial sets can have any number of stars; each run exercises one of them", "anchors": ["verse/analysis/verifier.py:Verifier.check_cache_bloated_tube_stars", "verse/analysis/verifier.py:Verifier.calculate_full_bloated_tube_stars", "verse/analysis/verifier.py:Verifier.compute_full_reachtube"]}
{"id": "C117", "title": "In the example maps in space an agent changes between neighbouring levels", "statement": "In SimpleMap6 and SimpleMap7, h_exist is true exactly for the changes of modes that h answers; these are the moves to the level above or below and their ends; after any sequence of changes trans_func gives the lane the agent is on or moves to, as many levels from its first lane as it has moved up less down; a move is possible exactly if has_up or has_down says there is a lane, for modes given as texts or as members of an enumeration", "quantifier": "all lane modes, modes and sequences of changes of modes", "why_tests_cant": "a decision logic can make any sequence of changes, and the names can be any texts or members of enumerations", "anchors": ["verse/map/example_map/simple_map_3d.py:SimpleMap6", "verse/map/example_map/simple_map_3d.py:SimpleMap7", "verse/map/lane_map_3d.py:LaneMap_3d.h", "verse/map/lane_map_3d.py:LaneMap_3d.trans_func"]}
{"id": "C118", "title": "A ball under gravity falls", "statement": "The trace of Ball_g_agent is the motion of a point with constant horizontal velocity and constant downward acceleration g_acc; its energy is conserved; and TC_simulate returns a trace for every start, horizon and time step", "quantifier": "all accelerations, positions, velocities, horizons and time steps", "why_tests_cant": "the motion is a solution of a differential equation for all real starts and times", "anchors": ["verse/agents/example_agent/ballg_agent.py:Ball_g_agent", "verse/agents/base_agent.py:BaseAgent.TC_simulate"]}
