# Axioms of the theorems in MANIFEST.json

Written by `tools/axioms.py` from `#print axioms`.

## Classical.choice, Quot.sound, propext

* `Maliput.Props.aabb_contained_exact`
* `Maliput.Props.aabb_contained_iff`
* `Maliput.Props.aabb_contains_iff`
* `Maliput.Props.aabb_default`
* `Maliput.Props.aabb_disjointed_iff`
* `Maliput.Props.aabb_getIntersection`
* `Maliput.Props.aabb_getIntersection_contains`
* `Maliput.Props.aabb_intersected_iff`
* `Maliput.Props.aabb_make_iff`
* `Maliput.Props.absolute_path_not_absolute`
* `Maliput.Props.abstract_numbers_differ`
* `Maliput.Props.accepted_updates_not_consolidated`
* `Maliput.Props.adding_self_wrong`
* `Maliput.Props.adding_to_subvector`
* `Maliput.Props.adding_vectors_partial`
* `Maliput.Props.adjacency_correct`
* `Maliput.Props.almost_equal_iff`
* `Maliput.Props.almost_equal_symmetric`
* `Maliput.Props.almost_equal_values`
* `Maliput.Props.almost_equal_zero_partial`
* `Maliput.Props.analyzeConfluent_components`
* `Maliput.Props.angular_distance_angle`
* `Maliput.Props.angular_distance_metric`
* `Maliput.Props.antiderivative_cubic`
* `Maliput.Props.antiderivative_dense`
* `Maliput.Props.antiderivative_error`
* `Maliput.Props.antiderivative_returns`
* `Maliput.Props.antiderivative_simpson`
* `Maliput.Props.applied_updates`
* `Maliput.Props.arithmetic_refuses`
* `Maliput.Props.arithmetic_values`
* `Maliput.Props.bounding_box_apart`
* `Maliput.Props.bounding_box_contained`
* `Maliput.Props.bounding_box_contains`
* `Maliput.Props.bounding_box_far`
* `Maliput.Props.bounding_box_make`
* `Maliput.Props.bounding_box_missed`
* `Maliput.Props.bounding_box_near`
* `Maliput.Props.bounding_box_orientation`
* `Maliput.Props.bounding_box_overlaps_partial`
* `Maliput.Props.bounding_box_vertices`
* `Maliput.Props.bounds_numbers`
* `Maliput.Props.box_contained_rounded`
* `Maliput.Props.box_contains_rounded`
* `Maliput.Props.box_intersected_rounded`
* `Maliput.Props.box_numbers`
* `Maliput.Props.box_position_double`
* `Maliput.Props.box_position_nan`
* `Maliput.Props.box_refuses`
* `Maliput.Props.branch_arrow`
* `Maliput.Props.branch_diamond`
* `Maliput.Props.branch_point_mesh`
* `Maliput.Props.branch_point_mesh_refused`
* `Maliput.Props.branch_point_negative`
* `Maliput.Props.branch_point_rendered`
* `Maliput.Props.branch_points_apart`
* `Maliput.Props.buildGraph_wellFormed`
* `Maliput.Props.build_meshes`
* `Maliput.Props.build_meshes_bad_segment`
* `Maliput.Props.bulbGroup_make_iff`
* `Maliput.Props.changes_complete`
* `Maliput.Props.checkIdIndexing_built`
* `Maliput.Props.checkIdIndexing_iff_partial`
* `Maliput.Props.checkInvariants_empty_iff`
* `Maliput.Props.clamped_spline`
* `Maliput.Props.cloning_state`
* `Maliput.Props.close_bounds`
* `Maliput.Props.close_lanePositionResult`
* `Maliput.Props.close_nan`
* `Maliput.Props.close_refl`
* `Maliput.Props.close_roadPositionResult`
* `Maliput.Props.close_routePositionResult`
* `Maliput.Props.close_symm`
* `Maliput.Props.close_trans`
* `Maliput.Props.close_triple`
* `Maliput.Props.coefficients_polynomial`
* `Maliput.Props.collection_has_events`
* `Maliput.Props.collections_added_and_copied`
* `Maliput.Props.collector_counts`
* `Maliput.Props.compareMatrices_rows`
* `Maliput.Props.compareVectors_absolute`
* `Maliput.Props.compareVectors_relative_infinite`
* `Maliput.Props.compareVectors_relative_partial`
* `Maliput.Props.compare_bulb_throws`
* `Maliput.Props.compare_directionUsage`
* `Maliput.Props.compare_discreteValueRule_partial`
* `Maliput.Props.compare_discreteValueRule_plain`
* `Maliput.Props.compare_laneEnd`
* `Maliput.Props.compare_nextPhase_throws`
* `Maliput.Props.compare_nextPhases_partial`
* `Maliput.Props.compare_phase_partial`
* `Maliput.Props.compare_rangeValueRule`
* `Maliput.Props.compare_rightOfWayResult`
* `Maliput.Props.compare_rightOfWay_missed`
* `Maliput.Props.compare_rightOfWay_partial`
* `Maliput.Props.compare_route`
* `Maliput.Props.compare_speedLimit`
* `Maliput.Props.compare_trafficLight_partial`
* `Maliput.Props.compilers_conform`
* `Maliput.Props.computeRoutes_backwards`
* `Maliput.Props.computeRoutes_complete_partial`
* `Maliput.Props.computeRoutes_costs`
* `Maliput.Props.computeRoutes_endpoints`
* `Maliput.Props.computeRoutes_interfaces`
* `Maliput.Props.computeRoutes_misses_neighbour`
* `Maliput.Props.computeRoutes_needs_switch`
* `Maliput.Props.computeRoutes_noSwitch_partial`
* `Maliput.Props.computeRoutes_phases`
* `Maliput.Props.computeRoutes_rejects`
* `Maliput.Props.computeRoutes_terminates`
* `Maliput.Props.computeRoutes_throws_despite_route`
* `Maliput.Props.computeRoutes_undefined`
* `Maliput.Props.concatenation`
* `Maliput.Props.constraint_bounds`
* `Maliput.Props.constraint_one_sided`
* `Maliput.Props.constraint_satisfied`
* `Maliput.Props.constraint_tolerance_mono`
* `Maliput.Props.constraints_history`
* `Maliput.Props.constraints_whole`
* `Maliput.Props.context_made`
* `Maliput.Props.context_shape_kept`
* `Maliput.Props.contexts_read`
* `Maliput.Props.continuous_state_iff`
* `Maliput.Props.continuous_state_invariants`
* `Maliput.Props.continuous_state_parts`
* `Maliput.Props.contour_closed`
* `Maliput.Props.contour_closed_dropped`
* `Maliput.Props.contour_complete`
* `Maliput.Props.contour_misses_hole`
* `Maliput.Props.contour_simplified_partial`
* `Maliput.Props.contour_vanishes`
* `Maliput.Props.copied_outcome`
* `Maliput.Props.copyable_ptr_no_leak`
* `Maliput.Props.copyable_ptr_owned`
* `Maliput.Props.copyable_ptr_values`
* `Maliput.Props.copying_overlap`
* `Maliput.Props.copying_vector`
* `Maliput.Props.cubic_hermite`
* `Maliput.Props.cubic_hermite_smooth`
* `Maliput.Props.current_groups`
* `Maliput.Props.defaultProvider_ok`
* `Maliput.Props.defaultStates_discrete`
* `Maliput.Props.defaultStates_range`
* `Maliput.Props.default_port_names`
* `Maliput.Props.defaults_restored`
* `Maliput.Props.dense_output_is_spline_partial`
* `Maliput.Props.derivative_polynomial`
* `Maliput.Props.derivative_values`
* `Maliput.Props.derivatives_after_steps`
* `Maliput.Props.derivatives_ticket`
* `Maliput.Props.deriveLaneSRoutes_connected_partial`
* `Maliput.Props.deriveLaneSRoutes_disconnected`
* `Maliput.Props.deriveLaneSRoutes_not_traversed`
* `Maliput.Props.diagram_collections`
* `Maliput.Props.difference_equation_iff`
* `Maliput.Props.directionUsage_staticState`
* `Maliput.Props.discreteProvider_reports_partial`
* `Maliput.Props.discreteStateOf_exact`
* `Maliput.Props.discreteState_spec`
* `Maliput.Props.discreteValueRule_make_iff`
* `Maliput.Props.discrete_updates`
* `Maliput.Props.distanceToALine_least`
* `Maliput.Props.distanceToAPlane_least`
* `Maliput.Props.dot_so_not_found`
* `Maliput.Props.dotted_suffix_finds_nothing`
* `Maliput.Props.double_next_sample_stuck`
* `Maliput.Props.double_product`
* `Maliput.Props.double_round_trip_exact`
* `Maliput.Props.double_round_trip_fails`
* `Maliput.Props.double_round_trip_near`
* `Maliput.Props.double_sum`
* `Maliput.Props.douglasPeucker_simplifies`
* `Maliput.Props.due_now_not_reported`
* `Maliput.Props.empty_path_appended`
* `Maliput.Props.ends_spline`
* `Maliput.Props.energy_tickets_stand_for_nothing`
* `Maliput.Props.equal_equivalence`
* `Maliput.Props.equal_iff_values_partial`
* `Maliput.Props.equal_order_of_variables`
* `Maliput.Props.equal_sound`
* `Maliput.Props.eval_answers`
* `Maliput.Props.eval_keeps`
* `Maliput.Props.eval_transparent`
* `Maliput.Props.eval_written`
* `Maliput.Props.evaluate_accurate_partial`
* `Maliput.Props.evaluate_after_exception`
* `Maliput.Props.evaluate_again`
* `Maliput.Props.evaluate_bounds`
* `Maliput.Props.evaluate_cubic`
* `Maliput.Props.evaluate_error`
* `Maliput.Props.evaluate_fresh`
* `Maliput.Props.evaluate_history`
* `Maliput.Props.evaluate_increment`
* `Maliput.Props.evaluate_inverse`
* `Maliput.Props.evaluate_never_returns`
* `Maliput.Props.evaluate_reaches`
* `Maliput.Props.evaluate_returns`
* `Maliput.Props.evaluate_simpson`
* `Maliput.Props.evaluate_terminates`
* `Maliput.Props.evaluate_unusable`
* `Maliput.Props.event_collections_partial`
* `Maliput.Props.event_pointers_stay`
* `Maliput.Props.exact_solver_exists`
* `Maliput.Props.factor_zero_power`
* `Maliput.Props.feedthrough_exact_partial`
* `Maliput.Props.feedthrough_questions`
* `Maliput.Props.feedthrough_sound_partial`
* `Maliput.Props.final_segment_removed`
* `Maliput.Props.findAllEdgeSequences_exact`
* `Maliput.Props.findAllEdgeSequences_partial`
* `Maliput.Props.findByPosition_iff_partial`
* `Maliput.Props.findByPosition_misses`
* `Maliput.Props.findByPosition_partial`
* `Maliput.Props.findConfluent_reachable`
* `Maliput.Props.findIntersections_iff`
* `Maliput.Props.findLaneSequences_accepts_uTurn`
* `Maliput.Props.findLaneSequences_duplicates`
* `Maliput.Props.findLaneSequences_exact`
* `Maliput.Props.findLaneSequences_noUTurn_partial`
* `Maliput.Props.findLaneSequences_rejects_straight`
* `Maliput.Props.findLaneSequences_uTurnsAllowed`
* `Maliput.Props.findNode_partial`
* `Maliput.Props.findPhasePositionOf_outside`
* `Maliput.Props.findPhasePositionOf_partial`
* `Maliput.Props.findPhasePositionOf_wrong`
* `Maliput.Props.findPhasePosition_closest`
* `Maliput.Props.findRoadPositions_exact`
* `Maliput.Props.findRoadPositions_rejects`
* `Maliput.Props.findRoutePositionOf_spec`
* `Maliput.Props.findRoutePosition_closest`
* `Maliput.Props.find_positions_moved`
* `Maliput.Props.first_order_hold`
* `Maliput.Props.first_order_segment_appended`
* `Maliput.Props.fix_all_inputs`
* `Maliput.Props.fix_from_fails_partial`
* `Maliput.Props.fix_from_same_shape`
* `Maliput.Props.fix_from_succeeds`
* `Maliput.Props.fix_outdates`
* `Maliput.Props.fix_value_checked`
* `Maliput.Props.fixed_value_is_last`
* `Maliput.Props.flatLanes_dense`
* `Maliput.Props.fresnel_accurate_partial`
* `Maliput.Props.fresnel_far`
* `Maliput.Props.fresnel_far_inaccurate`
* `Maliput.Props.fresnel_odd`
* `Maliput.Props.fromOpposingSides_partial`
* `Maliput.Props.from_two_vectors_down`
* `Maliput.Props.from_two_vectors_opposite`
* `Maliput.Props.from_two_vectors_partial`
* `Maliput.Props.from_two_vectors_short`
* `Maliput.Props.full_directory_stays`
* `Maliput.Props.function_before`
* `Maliput.Props.function_curve`
* `Maliput.Props.function_error`
* `Maliput.Props.function_falls`
* `Maliput.Props.function_monotone_partial`
* `Maliput.Props.function_point`
* `Maliput.Props.function_quadratic`
* `Maliput.Props.function_resting`
* `Maliput.Props.function_sliver`
* `Maliput.Props.function_sliver_partial`
* `Maliput.Props.function_terminates`
* `Maliput.Props.function_then_evaluate`
* `Maliput.Props.function_unusable`
* `Maliput.Props.function_value`
* `Maliput.Props.getBulbGroup_iff`
* `Maliput.Props.getBulb_iff`
* `Maliput.Props.getStateAt_negative_s`
* `Maliput.Props.getStateAt_spec`
* `Maliput.Props.goodRing_loads`
* `Maliput.Props.graph_drawn_partial`
* `Maliput.Props.group_appended`
* `Maliput.Props.hash_default`
* `Maliput.Props.hash_equal`
* `Maliput.Props.hash_injective`
* `Maliput.Props.hash_outcome`
* `Maliput.Props.hermite_segment_appended`
* `Maliput.Props.idIndex_faithful`
* `Maliput.Props.identifier_equal`
* `Maliput.Props.identifier_invalid_throws`
* `Maliput.Props.identifier_order`
* `Maliput.Props.identifier_safe_compare`
* `Maliput.Props.identifier_text`
* `Maliput.Props.identifier_valid`
* `Maliput.Props.ids_unique`
* `Maliput.Props.implicit_residual_iff`
* `Maliput.Props.implicit_residual_zero`
* `Maliput.Props.index_after_throw`
* `Maliput.Props.index_arithmetic`
* `Maliput.Props.index_compare`
* `Maliput.Props.index_compare_unsigned`
* `Maliput.Props.index_history`
* `Maliput.Props.index_made`
* `Maliput.Props.index_move_to_self`
* `Maliput.Props.index_without_assertions`
* `Maliput.Props.inertial_position_iff`
* `Maliput.Props.input_port_after_throw`
* `Maliput.Props.input_port_declared`
* `Maliput.Props.input_ports_as_declared`
* `Maliput.Props.integral_of_constant`
* `Maliput.Props.integral_of_stairs`
* `Maliput.Props.integral_polynomial`
* `Maliput.Props.integral_values`
* `Maliput.Props.interpolation_refuses`
* `Maliput.Props.intersectionBook_get`
* `Maliput.Props.intersectionBook_list`
* `Maliput.Props.intersectionDoc_loads`
* `Maliput.Props.intersection_loader_complete`
* `Maliput.Props.intersection_loader_duplicate`
* `Maliput.Props.intersection_loader_errors`
* `Maliput.Props.intersection_loader_failure_changes`
* `Maliput.Props.intersection_loader_queries`
* `Maliput.Props.intersection_loader_shared_ring`
* `Maliput.Props.intersection_loader_sound`
* `Maliput.Props.intersection_loader_with_loaded_rings`
* `Maliput.Props.invariants_close`
* `Maliput.Props.isIncluded_iff_partial`
* `Maliput.Props.isIncluded_not_complete`
* `Maliput.Props.isIncluded_sound_partial`
* `Maliput.Props.is_affine_iff`
* `Maliput.Props.is_affine_sound`
* `Maliput.Props.ivp_after_exception`
* `Maliput.Props.ivp_conserves`
* `Maliput.Props.ivp_constant`
* `Maliput.Props.ivp_denseSolve_joins`
* `Maliput.Props.ivp_denseSolve_solve`
* `Maliput.Props.ivp_denseSolve_terminates`
* `Maliput.Props.ivp_empty`
* `Maliput.Props.ivp_equilibrium`
* `Maliput.Props.ivp_exceptions`
* `Maliput.Props.ivp_smooth_of_bounded`
* `Maliput.Props.ivp_solve_accurate`
* `Maliput.Props.ivp_solve_fresh`
* `Maliput.Props.ivp_solve_never_returns`
* `Maliput.Props.ivp_solve_reaches`
* `Maliput.Props.ivp_solve_returns`
* `Maliput.Props.ivp_solve_terminates`
* `Maliput.Props.kdFindRoadPositions_complete_partial`
* `Maliput.Props.kdFindRoadPositions_misses`
* `Maliput.Props.kdFindRoadPositions_sound`
* `Maliput.Props.kdToRoadPosition_bound`
* `Maliput.Props.kdToRoadPosition_hint`
* `Maliput.Props.kdTree_nearest`
* `Maliput.Props.kdTree_rangeSearch`
* `Maliput.Props.kdTree_rangeSearch_exact_partial`
* `Maliput.Props.kdTree_rangeSearch_misses`
* `Maliput.Props.kdTree_rejects`
* `Maliput.Props.known_written`
* `Maliput.Props.lagrange_aborts`
* `Maliput.Props.lagrange_interpolates`
* `Maliput.Props.laneSRange_contains_iff`
* `Maliput.Props.laneSRange_getIntersection`
* `Maliput.Props.laneSRange_intersects_iff`
* `Maliput.Props.laneSRoute_begins_partial`
* `Maliput.Props.laneSRoute_complete`
* `Maliput.Props.laneSRoute_diverges`
* `Maliput.Props.laneSRoute_intersects_comm_partial`
* `Maliput.Props.laneSRoute_intersects_iff_partial`
* `Maliput.Props.laneSRoute_intersects_not_complete`
* `Maliput.Props.laneSRoute_intersects_sound_partial`
* `Maliput.Props.laneSRoute_sound`
* `Maliput.Props.laneSRoute_start_outside`
* `Maliput.Props.laneSRoute_terminates_partial`
* `Maliput.Props.laneSRoute_wrong_start`
* `Maliput.Props.lane_contains`
* `Maliput.Props.lane_contains_rounded`
* `Maliput.Props.lane_contains_throws`
* `Maliput.Props.lane_contains_volume`
* `Maliput.Props.lane_faces_pushed`
* `Maliput.Props.lane_index`
* `Maliput.Props.lane_mesh`
* `Maliput.Props.lane_mesh_refused`
* `Maliput.Props.lane_position_iff`
* `Maliput.Props.lane_position_round_trip`
* `Maliput.Props.late_declarations_fail`
* `Maliput.Props.leaf_system_history`
* `Maliput.Props.library_types_register`
* `Maliput.Props.lightBook_get`
* `Maliput.Props.lightBook_list`
* `Maliput.Props.light_loader_errors`
* `Maliput.Props.light_loader_iff`
* `Maliput.Props.light_loader_queries`
* `Maliput.Props.lightsDoc_loads`
* `Maliput.Props.loaded_rings_built`
* `Maliput.Props.loaded_rowRings_built`
* `Maliput.Props.loaded_rows_have_states`
* `Maliput.Props.loaded_rulebook_mirrors`
* `Maliput.Props.loaded_rules_have_states`
* `Maliput.Props.loaded_unknown_phase`
* `Maliput.Props.mark_lane_ends_faces`
* `Maliput.Props.mark_lane_ends_separate`
* `Maliput.Props.material_by_name`
* `Maliput.Props.material_documented_names`
* `Maliput.Props.material_of_type`
* `Maliput.Props.matrix_determinant`
* `Maliput.Props.matrix_determinant_mul`
* `Maliput.Props.matrix_inverse`
* `Maliput.Props.matrix_loops`
* `Maliput.Props.matrix_make`
* `Maliput.Props.matrix_of_quaternion`
* `Maliput.Props.matrix_operations`
* `Maliput.Props.matrix_singular_small`
* `Maliput.Props.matrix_spline_clamped`
* `Maliput.Props.matrix_spline_columns`
* `Maliput.Props.matrix_spline_derivative_sizes`
* `Maliput.Props.matrix_spline_end_sizes`
* `Maliput.Props.matrix_spline_ends`
* `Maliput.Props.matrix_spline_firstOrder`
* `Maliput.Props.matrix_spline_hermite`
* `Maliput.Props.matrix_spline_lagrange`
* `Maliput.Props.matrix_spline_lagrange_sizes`
* `Maliput.Props.matrix_spline_shapePreserving`
* `Maliput.Props.matrix_spline_sizes`
* `Maliput.Props.matrix_spline_zeroOrder`
* `Maliput.Props.matrix_text`
* `Maliput.Props.matrix_trajectory_block`
* `Maliput.Props.matrix_trajectory_integral`
* `Maliput.Props.matrix_trajectory_mul`
* `Maliput.Props.matrix_trajectory_reshape`
* `Maliput.Props.matrix_trajectory_setBlock`
* `Maliput.Props.matrix_trajectory_value_total`
* `Maliput.Props.mkdirs_complete_partial`
* `Maliput.Props.mkdirs_differ`
* `Maliput.Props.modelled_port_declared`
* `Maliput.Props.modify_outdates`
* `Maliput.Props.monomial_factor`
* `Maliput.Props.moved_geometries_agree`
* `Maliput.Props.named_polynomial`
* `Maliput.Props.named_polynomials_differ_partial`
* `Maliput.Props.nan_never_inside`
* `Maliput.Props.nearest_answer_iff`
* `Maliput.Props.network_contains_foreign`
* `Maliput.Props.network_contains_lane`
* `Maliput.Props.network_contains_position_partial`
* `Maliput.Props.next_sample_double_exact`
* `Maliput.Props.next_sample_time_iff`
* `Maliput.Props.next_update_time_iff`
* `Maliput.Props.no_simplification`
* `Maliput.Props.none_highlighted`
* `Maliput.Props.obj_file`
* `Maliput.Props.obj_file_opacity_lost`
* `Maliput.Props.obj_file_zero_tolerance`
* `Maliput.Props.offset_values`
* `Maliput.Props.one_bad_library_hides_all`
* `Maliput.Props.only_group`
* `Maliput.Props.optimized_mesh_constant_width`
* `Maliput.Props.optimized_mesh_faces`
* `Maliput.Props.output_port_declared`
* `Maliput.Props.parameters_cloned`
* `Maliput.Props.parameters_set_from`
* `Maliput.Props.periodic_events_grouped`
* `Maliput.Props.perturbed_time_reports`
* `Maliput.Props.phaseBook_clash_throws`
* `Maliput.Props.phaseBook_find_partial`
* `Maliput.Props.phaseBook_one_ring_partial`
* `Maliput.Props.phaseBook_rejects_partial`
* `Maliput.Props.phase_make_iff`
* `Maliput.Props.phase_ordered_partial`
* `Maliput.Props.phase_unordered`
* `Maliput.Props.phase_wellFormed`
* `Maliput.Props.phasedStateAt_spec`
* `Maliput.Props.pick_grid_unit`
* `Maliput.Props.pick_grid_unit_range`
* `Maliput.Props.piecewise_derivative`
* `Maliput.Props.piecewise_scalar_extrapolates`
* `Maliput.Props.piecewise_scalar_partial`
* `Maliput.Props.piecewise_segment`
* `Maliput.Props.piecewise_total`
* `Maliput.Props.piecewise_value`
* `Maliput.Props.plugins_available`
* `Maliput.Props.polynomial_canonical`
* `Maliput.Props.polynomial_evaluation_fails`
* `Maliput.Props.polynomial_flag_lost`
* `Maliput.Props.polynomial_flag_zero_id`
* `Maliput.Props.polynomial_meaning`
* `Maliput.Props.polynomial_minus_one_text`
* `Maliput.Props.polynomial_partial_evaluation`
* `Maliput.Props.polynomial_repeated_variable`
* `Maliput.Props.polynomial_text_determines_partial`
* `Maliput.Props.polynomial_text_other_ids`
* `Maliput.Props.polynomial_text_read_partial`
* `Maliput.Props.polynomial_text_readable`
* `Maliput.Props.polynomial_text_value_partial`
* `Maliput.Props.polynomial_univariate_complete`
* `Maliput.Props.polynomial_univariate_sound`
* `Maliput.Props.pool_accounting`
* `Maliput.Props.pool_finish_can_return`
* `Maliput.Props.pool_finish_runs_all`
* `Maliput.Props.pool_finish_without_start`
* `Maliput.Props.pool_no_deadlock`
* `Maliput.Props.pool_rejects_after_finish`
* `Maliput.Props.pool_started_fifo`
* `Maliput.Props.pool_started_prefix`
* `Maliput.Props.pool_terminates`
* `Maliput.Props.port_by_index`
* `Maliput.Props.port_lookup`
* `Maliput.Props.port_names_distinct`
* `Maliput.Props.ports_stay`
* `Maliput.Props.precise_mesh_constant_width_partial`
* `Maliput.Props.precise_mesh_faces`
* `Maliput.Props.precise_mesh_gap`
* `Maliput.Props.precise_mesh_strip`
* `Maliput.Props.producer_allocates`
* `Maliput.Props.producer_calculates`
* `Maliput.Props.producer_generic`
* `Maliput.Props.producer_made`
* `Maliput.Props.provider_accepts`
* `Maliput.Props.provider_getPhase`
* `Maliput.Props.publishing_events`
* `Maliput.Props.quaternion_angle_axis`
* `Maliput.Props.quaternion_of_matrix`
* `Maliput.Props.quote_not_escaped`
* `Maliput.Props.rangeLt_iff`
* `Maliput.Props.rangeLt_lex`
* `Maliput.Props.rangeLt_strictWeak`
* `Maliput.Props.rangeProvider_reports_partial`
* `Maliput.Props.rangeStateOf_exact`
* `Maliput.Props.rangeValidator_absolute_iff`
* `Maliput.Props.rangeValidator_closest_partial`
* `Maliput.Props.rangeValidator_defined_iff`
* `Maliput.Props.rangeValidator_idempotent`
* `Maliput.Props.rangeValidator_inner`
* `Maliput.Props.rangeValidator_make_throws`
* `Maliput.Props.rangeValidator_monotone`
* `Maliput.Props.rangeValidator_moves_little`
* `Maliput.Props.rangeValidator_rejects`
* `Maliput.Props.rangeValidator_relative_half`
* `Maliput.Props.rangeValidator_relative_iff`
* `Maliput.Props.rangeValidator_undefined`
* `Maliput.Props.rangeValidator_wellFormed`
* `Maliput.Props.rangeValueRule_make_iff`
* `Maliput.Props.reading_vector`
* `Maliput.Props.registry_accepts`
* `Maliput.Props.registry_buildDiscrete`
* `Maliput.Props.registry_buildRange`
* `Maliput.Props.registry_discreteTypes`
* `Maliput.Props.registry_loader_complete`
* `Maliput.Props.registry_loader_errors`
* `Maliput.Props.registry_loader_sound`
* `Maliput.Props.registry_rangeTypes`
* `Maliput.Props.registry_reports`
* `Maliput.Props.registry_rulebook_complete`
* `Maliput.Props.registry_rulebook_sound`
* `Maliput.Props.rejected_iff_duplicate`
* `Maliput.Props.relation_iff`
* `Maliput.Props.relation_self`
* `Maliput.Props.relation_succession`
* `Maliput.Props.relation_swap`
* `Maliput.Props.relation_unknown_iff`
* `Maliput.Props.relation_unrelated_iff`
* `Maliput.Props.removes_only`
* `Maliput.Props.reversed_values`
* `Maliput.Props.rightOfWay_make`
* `Maliput.Props.rightOfWay_staticState`
* `Maliput.Props.ring_bulbs_partial`
* `Maliput.Props.ring_loader_abort`
* `Maliput.Props.ring_loader_bulb_state`
* `Maliput.Props.ring_loader_complete`
* `Maliput.Props.ring_loader_errors`
* `Maliput.Props.ring_loader_keeps_state`
* `Maliput.Props.ring_loader_sound`
* `Maliput.Props.ring_loader_ub`
* `Maliput.Props.ring_loader_unknown_rule`
* `Maliput.Props.ring_make_iff`
* `Maliput.Props.ring_next_partial`
* `Maliput.Props.ring_wellFormed_partial`
* `Maliput.Props.road_geometry_mesh`
* `Maliput.Props.road_text_lines`
* `Maliput.Props.road_text_tells_apart`
* `Maliput.Props.roots_polynomial`
* `Maliput.Props.rotation_apply`
* `Maliput.Props.rotation_compose`
* `Maliput.Props.rotation_distance`
* `Maliput.Props.rotation_distance_reverse`
* `Maliput.Props.rotation_fromRpy`
* `Maliput.Props.rotation_inverse`
* `Maliput.Props.rotation_isometry`
* `Maliput.Props.rotation_matrix`
* `Maliput.Props.rotation_reverse`
* `Maliput.Props.rotation_reverse_distance`
* `Maliput.Props.rotation_reverse_sign`
* `Maliput.Props.rotation_rpy`
* `Maliput.Props.rotation_unit`
* `Maliput.Props.rounding_is_nearest_even`
* `Maliput.Props.rounding_overflows`
* `Maliput.Props.routeAlong_traverses_partial`
* `Maliput.Props.route_drawn_partial`
* `Maliput.Props.router_bound_is_largest_double`
* `Maliput.Props.rowRingDoc_loads`
* `Maliput.Props.rowRing_loader_complete`
* `Maliput.Props.rowRing_loader_errors`
* `Maliput.Props.rowRing_loader_mirrored`
* `Maliput.Props.rowRing_loader_no_mirror`
* `Maliput.Props.rowRing_loader_sound`
* `Maliput.Props.rowRing_loader_with_loaded_rulebook`
* `Maliput.Props.rowState_spec`
* `Maliput.Props.row_calls`
* `Maliput.Props.row_state_latest`
* `Maliput.Props.rpy_derivative`
* `Maliput.Props.rpy_each_angle`
* `Maliput.Props.rpy_of_quaternion`
* `Maliput.Props.rpy_of_quaternion_error`
* `Maliput.Props.rpy_order`
* `Maliput.Props.rpy_quaternion`
* `Maliput.Props.rpy_range`
* `Maliput.Props.rpy_roundtrip`
* `Maliput.Props.rulebook_findRules_negative`
* `Maliput.Props.rulebook_findRules_partial`
* `Maliput.Props.rulebook_get_partial`
* `Maliput.Props.rulebook_loader_complete`
* `Maliput.Props.rulebook_loader_sound`
* `Maliput.Props.rulebook_rejects_partial`
* `Maliput.Props.rulebook_remove_repeated_lane`
* `Maliput.Props.rulebook_rules_partial`
* `Maliput.Props.run_history`
* `Maliput.Props.run_passes_every_time`
* `Maliput.Props.saturate_double`
* `Maliput.Props.scalar_ivp_accurate`
* `Maliput.Props.scalar_ivp_dense`
* `Maliput.Props.scalar_ivp_exceptions`
* `Maliput.Props.scalar_ivp_reaches`
* `Maliput.Props.scalar_ivp_terminates`
* `Maliput.Props.scaled_values`
* `Maliput.Props.segmentLane_defined`
* `Maliput.Props.segment_junction`
* `Maliput.Props.segment_mesh`
* `Maliput.Props.segment_mesh_refused`
* `Maliput.Props.segment_position_iff`
* `Maliput.Props.set_from_outcome`
* `Maliput.Props.set_from_partly`
* `Maliput.Props.setting_element`
* `Maliput.Props.setting_state`
* `Maliput.Props.setting_vector`
* `Maliput.Props.shape_not_preserved`
* `Maliput.Props.shape_preserving_partial`
* `Maliput.Props.shifted_values`
* `Maliput.Props.simple_variable_partial`
* `Maliput.Props.simplify_faces`
* `Maliput.Props.simplify_outcome`
* `Maliput.Props.simplify_partition`
* `Maliput.Props.simplify_planes`
* `Maliput.Props.slerp_arc`
* `Maliput.Props.slerp_ends`
* `Maliput.Props.slerp_near`
* `Maliput.Props.slice_values`
* `Maliput.Props.smooth_of_bounded`
* `Maliput.Props.speedLimit_make_iff`
* `Maliput.Props.speedLimits_double`
* `Maliput.Props.spiral_heading`
* `Maliput.Props.splines_reject`
* `Maliput.Props.srange_contains_iff`
* `Maliput.Props.srange_contains_intersects`
* `Maliput.Props.srange_contains_mono`
* `Maliput.Props.srange_contains_refl`
* `Maliput.Props.srange_contains_rounded`
* `Maliput.Props.srange_contains_trans`
* `Maliput.Props.srange_getIntersection_close`
* `Maliput.Props.srange_getIntersection_exact`
* `Maliput.Props.srange_getIntersection_isSome`
* `Maliput.Props.srange_intersects_comm`
* `Maliput.Props.srange_intersects_flip`
* `Maliput.Props.srange_intersects_iff`
* `Maliput.Props.srange_intersects_neg_iff`
* `Maliput.Props.srange_intersects_not_symmetric`
* `Maliput.Props.srange_intersects_rounded`
* `Maliput.Props.srange_intersects_throws_iff`
* `Maliput.Props.srange_nan_tolerance`
* `Maliput.Props.srange_negative_tolerance`
* `Maliput.Props.srange_numbers`
* `Maliput.Props.stateEq_iff`
* `Maliput.Props.stateEq_not_symm`
* `Maliput.Props.stateEq_of_same`
* `Maliput.Props.stateEq_refl`
* `Maliput.Props.stateEq_symm_partial`
* `Maliput.Props.stateEq_trans`
* `Maliput.Props.stateProvider_latest`
* `Maliput.Props.state_reads`
* `Maliput.Props.states_history`
* `Maliput.Props.step_extend_iff`
* `Maliput.Props.steps_refine`
* `Maliput.Props.stripes_faces`
* `Maliput.Props.stripes_outside_segment`
* `Maliput.Props.subs_not_collected`
* `Maliput.Props.subs_value`
* `Maliput.Props.substitute_beside_others`
* `Maliput.Props.substitute_partial`
* `Maliput.Props.system_constraints_satisfied`
* `Maliput.Props.system_constraints_stop`
* `Maliput.Props.tickets_documented_partial`
* `Maliput.Props.toLeft_toRight`
* `Maliput.Props.toRoadPosition_best_partial`
* `Maliput.Props.toRoadPosition_bound_partial`
* `Maliput.Props.toRoadPosition_drifts`
* `Maliput.Props.toRoadPosition_empty`
* `Maliput.Props.toRoadPosition_hint`
* `Maliput.Props.toRoadPosition_near`
* `Maliput.Props.to_position_moved`
* `Maliput.Props.trafficLight_make_iff`
* `Maliput.Props.trajectories_approx`
* `Maliput.Props.type_hash_collides`
* `Maliput.Props.type_hash_input`
* `Maliput.Props.type_hash_one_character`
* `Maliput.Props.type_hash_stable`
* `Maliput.Props.type_hash_text`
* `Maliput.Props.type_hash_unsupported`
* `Maliput.Props.uniqueGroupId_less`
* `Maliput.Props.uniqueId_injective`
* `Maliput.Props.uniqueId_less`
* `Maliput.Props.uniqueId_resolves`
* `Maliput.Props.unique_discrete_timing_iff`
* `Maliput.Props.univariate_derivative`
* `Maliput.Props.univariate_value`
* `Maliput.Props.unrestricted_updates`
* `Maliput.Props.unsigned_compare_index_partial`
* `Maliput.Props.unsigned_compare_index_wrong`
* `Maliput.Props.unsound_timing_aborts`
* `Maliput.Props.update_accepts_iff`
* `Maliput.Props.update_after_failure_undefined`
* `Maliput.Props.urdf_not_escaped`
* `Maliput.Props.urdf_paths`
* `Maliput.Props.urdf_reads_partial`
* `Maliput.Props.urdf_slash`
* `Maliput.Props.validate_exceptions`
* `Maliput.Props.validate_foreign_value`
* `Maliput.Props.validate_iff_partial`
* `Maliput.Props.validate_null_undefined`
* `Maliput.Props.validate_unknown_rule`
* `Maliput.Props.validator_returns_extreme`
* `Maliput.Props.validator_rounded_partial`
* `Maliput.Props.validator_wide_epsilon`
* `Maliput.Props.value_anonymous_confusion`
* `Maliput.Props.variable_name_injective_partial`
* `Maliput.Props.variable_name_round_trip`
* `Maliput.Props.variable_names_collide`
* `Maliput.Props.variables_iff`
* `Maliput.Props.variables_sorted`
* `Maliput.Props.vector_constraint_declared`
* `Maliput.Props.vector_constraint_fixed_throws`
* `Maliput.Props.vector_constraint_means`
* `Maliput.Props.vector_cross`
* `Maliput.Props.vector_cross_units`
* `Maliput.Props.vector_dense_output_partial`
* `Maliput.Props.vector_dense_output_samples_partial`
* `Maliput.Props.vector_histories`
* `Maliput.Props.vector_norm`
* `Maliput.Props.vector_normalized`
* `Maliput.Props.vector_reduce`
* `Maliput.Props.vector_text_malformed`
* `Maliput.Props.vector_text_read_partial`
* `Maliput.Props.vector_text_round_trip`
* `Maliput.Props.vector_update_accepts_iff`
* `Maliput.Props.waypoints_empty`
* `Maliput.Props.waypoints_outcome`
* `Maliput.Props.waypoints_partial`
* `Maliput.Props.waypoints_reversed`
* `Maliput.Props.waypoints_short`
* `Maliput.Props.waypoints_spacing`
* `Maliput.Props.witness_sides`
* `Maliput.Props.witness_triggers`
* `Maliput.Props.witness_zero_found`
* `Maliput.Props.writing_parts`
* `Maliput.Props.written_numbers_are_read_back`
* `Maliput.Props.zero_order_hold`
* `Maliput.Props.zero_order_hold_end`
* `Maliput.Props.zeroing_vector`

## Quot.sound, propext

* `Maliput.Props.abstract_port_needs_model`
* `Maliput.Props.abstract_port_value`
* `Maliput.Props.abstract_state_written`
* `Maliput.Props.adding_to_itself`
* `Maliput.Props.all_files_listed`
* `Maliput.Props.antiderivative_make`
* `Maliput.Props.append_locates_partial`
* `Maliput.Props.bad_partition_accepted`
* `Maliput.Props.bounds_refuse`
* `Maliput.Props.branchPoint_consistent`
* `Maliput.Props.buildGraph_loses_branchPoint`
* `Maliput.Props.built_rings`
* `Maliput.Props.bulb_defaultState`
* `Maliput.Props.bulb_make_iff`
* `Maliput.Props.checkIdIndexing_finds_rejected`
* `Maliput.Props.checkIdIndexing_misses_branchPoints`
* `Maliput.Props.checkInvariants_reports`
* `Maliput.Props.checkInvariants_total`
* `Maliput.Props.compare_phase_missed`
* `Maliput.Props.composite_calls`
* `Maliput.Props.concatenation_refuses`
* `Maliput.Props.constraint_check_errors`
* `Maliput.Props.continuous_port_value_partial`
* `Maliput.Props.copying_wrong`
* `Maliput.Props.defaultProvider_phases`
* `Maliput.Props.default_is_ongoing`
* `Maliput.Props.degree_of_product_wrong`
* `Maliput.Props.degree_polynomial`
* `Maliput.Props.different_diagrams`
* `Maliput.Props.directionUsage_make`
* `Maliput.Props.discreteState_sound`
* `Maliput.Props.discrete_made`
* `Maliput.Props.discrete_port_value`
* `Maliput.Props.double_comparison`
* `Maliput.Props.eval_time_derivatives`
* `Maliput.Props.evaluate_below`
* `Maliput.Props.every_combination_mem`
* `Maliput.Props.feedthrough_default_missed`
* `Maliput.Props.file_read_partial`
* `Maliput.Props.files_with_suffix_partial`
* `Maliput.Props.findAllEdgeSequences_misses`
* `Maliput.Props.findAllEdgeSequences_rejects`
* `Maliput.Props.findByDiscrete_spec`
* `Maliput.Props.findByLight_spec`
* `Maliput.Props.findByRow_spec`
* `Maliput.Props.findConfluent_unattached`
* `Maliput.Props.findConfluent_without_lanes`
* `Maliput.Props.function_fresh`
* `Maliput.Props.hash_one_character`
* `Maliput.Props.hermite_segment_refused`
* `Maliput.Props.implicit_residual_failed`
* `Maliput.Props.implicit_residual_size`
* `Maliput.Props.index_is_valid`
* `Maliput.Props.intersectionBook_add_partial`
* `Maliput.Props.intersectionBook_duplicate_undefined`
* `Maliput.Props.intersection_setPhase`
* `Maliput.Props.intersection_states`
* `Maliput.Props.intersection_unknown_phase`
* `Maliput.Props.ivp_defaults`
* `Maliput.Props.ivp_denseSolve_fresh`
* `Maliput.Props.ivp_refuses`
* `Maliput.Props.last_plugin_prevails`
* `Maliput.Props.level_restored`
* `Maliput.Props.library_stop_then_go`
* `Maliput.Props.library_stop_values`
* `Maliput.Props.library_values`
* `Maliput.Props.lightBook_add`
* `Maliput.Props.loader_made`
* `Maliput.Props.manager_kept`
* `Maliput.Props.manager_made`
* `Maliput.Props.matrix_index`
* `Maliput.Props.matrix_trajectory_add_sub`
* `Maliput.Props.matrix_trajectory_append`
* `Maliput.Props.matrix_trajectory_concatenate`
* `Maliput.Props.matrix_trajectory_concatenate_throws`
* `Maliput.Props.matrix_trajectory_derivative`
* `Maliput.Props.matrix_trajectory_offset`
* `Maliput.Props.matrix_trajectory_range`
* `Maliput.Props.matrix_trajectory_remove_shift`
* `Maliput.Props.matrix_trajectory_reshape_negative`
* `Maliput.Props.matrix_trajectory_reverse_scale`
* `Maliput.Props.matrix_trajectory_scalar`
* `Maliput.Props.matrix_trajectory_scalarValue`
* `Maliput.Props.matrix_trajectory_slice`
* `Maliput.Props.matrix_trajectory_value`
* `Maliput.Props.mesh_faces_decode`
* `Maliput.Props.mesh_operations_defined`
* `Maliput.Props.mesh_stores_once`
* `Maliput.Props.messages_delivered`
* `Maliput.Props.mkdirs_harmless`
* `Maliput.Props.mkdirs_sound`
* `Maliput.Props.models_found`
* `Maliput.Props.multivariate_no_coefficients`
* `Maliput.Props.no_updates_throw`
* `Maliput.Props.not_behind`
* `Maliput.Props.obj_faces_read`
* `Maliput.Props.obj_lines`
* `Maliput.Props.off_silences`
* `Maliput.Props.only_segment_removed`
* `Maliput.Props.path_queries`
* `Maliput.Props.pe_ticket_stale`
* `Maliput.Props.phaseBook_get_partial`
* `Maliput.Props.phaseBook_rejected_add_stays`
* `Maliput.Props.piecewise_empty`
* `Maliput.Props.plugins_listed`
* `Maliput.Props.polynomial_evaluation_error`
* `Maliput.Props.pool_finish_race`
* `Maliput.Props.queries_until_consolidated`
* `Maliput.Props.registry_loader_malformed`
* `Maliput.Props.registry_rulebook_both_kinds`
* `Maliput.Props.registry_rulebook_errors`
* `Maliput.Props.registry_rulebook_related_required`
* `Maliput.Props.registry_types_disjoint`
* `Maliput.Props.rejected_addLane_not_indexed`
* `Maliput.Props.rejected_call_changes_nothing_partial`
* `Maliput.Props.reserve_dangles`
* `Maliput.Props.ring_bulbs_differ`
* `Maliput.Props.ring_make_empty`
* `Maliput.Props.ring_undefined`
* `Maliput.Props.ring_unknown_next`
* `Maliput.Props.rollback_undoes_update`
* `Maliput.Props.router_accepts`
* `Maliput.Props.rowState_sound`
* `Maliput.Props.rulebook_ids_unique`
* `Maliput.Props.rulebook_loader_errors`
* `Maliput.Props.rulebook_loader_zone_start`
* `Maliput.Props.scalar_ivp_like_vector`
* `Maliput.Props.scalar_ivp_make`
* `Maliput.Props.scalar_ivp_refuses`
* `Maliput.Props.setState_extra_ids`
* `Maliput.Props.setting_from_itself`
* `Maliput.Props.simple_variable_coefficient`
* `Maliput.Props.srange_refuses`
* `Maliput.Props.stateProvider_accepts`
* `Maliput.Props.state_port_declared`
* `Maliput.Props.state_written`
* `Maliput.Props.step_and_initialization_events`
* `Maliput.Props.subvector_contents`
* `Maliput.Props.subvector_iff`
* `Maliput.Props.subvector_reads_beyond`
* `Maliput.Props.trajectories_approx_empty`
* `Maliput.Props.uniqueId_iff`
* `Maliput.Props.update_of_trajectory_undefined`
* `Maliput.Props.value_of_polynomial`
* `Maliput.Props.values_history_partial`
* `Maliput.Props.values_independent`
* `Maliput.Props.vector_elements`
* `Maliput.Props.vector_index`
* `Maliput.Props.vector_make`
* `Maliput.Props.vector_step_extend_iff`
* `Maliput.Props.vector_step_samples`
* `Maliput.Props.velocity_maps`
* `Maliput.Props.witness_not_missed`
* `Maliput.Props.written_bulb_states_are_read_back`
* `Maliput.Props.written_related_keys_are_read_back`
* `Maliput.Props.written_yield_groups_are_read_back`

## none

* `Maliput.Props.compare_isLaneEndEqual_null`
* `Maliput.Props.current_groups_null`
* `Maliput.Props.default_name_taken`
* `Maliput.Props.failed_read_hangs`
* `Maliput.Props.identifier_unarmed_invalid`
* `Maliput.Props.index_spoilt_by_throw`
* `Maliput.Props.index_sub_least`
* `Maliput.Props.index_truncated`
* `Maliput.Props.network_constructed`
* `Maliput.Props.null_network_returned`
* `Maliput.Props.producer_invalid`
* `Maliput.Props.unimplemented_throws`
* `Maliput.Props.vector_text_refused`
* `Maliput.Props.warning_refused`

## propext

* `Maliput.Props.bulb_isValidState`
* `Maliput.Props.compare_discreteValues_missed`
* `Maliput.Props.compare_isLaneEndEqual_partial`
* `Maliput.Props.composite_has_events`
* `Maliput.Props.continuous_port_stale`
* `Maliput.Props.continuous_state_written`
* `Maliput.Props.copyable_ptr_own_address`
* `Maliput.Props.copyable_ptr_shared_address`
* `Maliput.Props.default_is_last`
* `Maliput.Props.discreteValueEq_iff`
* `Maliput.Props.environment_paths`
* `Maliput.Props.eval_again`
* `Maliput.Props.eval_controls`
* `Maliput.Props.eval_frozen`
* `Maliput.Props.face_lengths`
* `Maliput.Props.fix_from_cuts`
* `Maliput.Props.fix_from_not_atomic`
* `Maliput.Props.fix_from_short_ub`
* `Maliput.Props.library_row_values_partial`
* `Maliput.Props.other_objects_unchanged`
* `Maliput.Props.others_unchanged`
* `Maliput.Props.overwritten_vector_aborts`
* `Maliput.Props.rangeEq_iff`
* `Maliput.Props.rejected_addBranch_changes`
* `Maliput.Props.stale_model_used`
* `Maliput.Props.uniqueId_string_collides`
* `Maliput.Props.value_access_exact`
* `Maliput.Props.value_access_release`
* `Maliput.Props.witness_once`
* `Maliput.Props.writing_apart`
* `Maliput.Props.written_directions_are_read_back`
* `Maliput.Props.written_names_unreadable`
