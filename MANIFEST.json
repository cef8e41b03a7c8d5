{
 "claims": [
  {
   "property": "C01",
   "status": "proved",
   "theorems": [
    "Maliput.Props.srange_intersects_iff",
    "Maliput.Props.srange_intersects_neg_iff",
    "Maliput.Props.srange_intersects_throws_iff",
    "Maliput.Props.srange_intersects_comm",
    "Maliput.Props.srange_intersects_flip"
   ],
   "note": "doubles are rationals"
  },
  {
   "property": "C02",
   "status": "proved",
   "theorems": [
    "Maliput.Props.srange_getIntersection_isSome",
    "Maliput.Props.srange_getIntersection_exact",
    "Maliput.Props.srange_getIntersection_close"
   ],
   "note": ""
  },
  {
   "property": "C03",
   "status": "proved",
   "theorems": [
    "Maliput.Props.srange_contains_iff",
    "Maliput.Props.srange_contains_refl",
    "Maliput.Props.srange_contains_trans",
    "Maliput.Props.srange_contains_mono",
    "Maliput.Props.srange_contains_intersects"
   ],
   "note": ""
  },
  {
   "property": "C04",
   "status": "partial",
   "theorems": [
    "Maliput.Props.laneSRoute_intersects_not_complete",
    "Maliput.Props.laneSRoute_intersects_sound_partial",
    "Maliput.Props.laneSRoute_intersects_iff_partial",
    "Maliput.Props.laneSRoute_intersects_comm_partial"
   ],
   "note": "false as stated (witness theorem): only the first range of the other route on a lane is compared; exact when the other route lists each lane at most once"
  },
  {
   "property": "C05",
   "status": "partial",
   "theorems": [
    "Maliput.Props.isIncluded_not_complete",
    "Maliput.Props.isIncluded_sound_partial",
    "Maliput.Props.isIncluded_iff_partial"
   ],
   "note": "false as stated (witness theorem): the first range whose lane is near decides; exact when at most one range is on a near lane"
  },
  {
   "property": "C06",
   "status": "proved",
   "theorems": [
    "Maliput.Props.aabb_make_iff",
    "Maliput.Props.aabb_contains_iff",
    "Maliput.Props.aabb_disjointed_iff",
    "Maliput.Props.aabb_contained_iff",
    "Maliput.Props.aabb_contained_exact",
    "Maliput.Props.aabb_intersected_iff",
    "Maliput.Props.aabb_getIntersection",
    "Maliput.Props.aabb_getIntersection_contains",
    "Maliput.Props.aabb_default"
   ],
   "note": ""
  },
  {
   "property": "C07",
   "status": "proved",
   "theorems": [
    "Maliput.Props.kdTree_nearest",
    "Maliput.Props.kdTree_rejects"
   ],
   "note": "std::nth_element enters as its standard contract"
  },
  {
   "property": "C08",
   "status": "partial",
   "theorems": [
    "Maliput.Props.kdTree_rangeSearch",
    "Maliput.Props.kdTree_rangeSearch_exact_partial",
    "Maliput.Props.kdTree_rangeSearch_misses"
   ],
   "note": "exact for tolerance 0; false as stated for boxes with a positive tolerance (witness theorem)"
  },
  {
   "property": "C09",
   "status": "proved",
   "theorems": [
    "Maliput.Props.pool_started_fifo",
    "Maliput.Props.pool_started_prefix",
    "Maliput.Props.pool_accounting"
   ],
   "note": ""
  },
  {
   "property": "C10",
   "status": "proved",
   "theorems": [
    "Maliput.Props.pool_finish_runs_all",
    "Maliput.Props.pool_finish_race"
   ],
   "note": "one user thread, as the class requires; with concurrent Queue and Finish it is false (witness pool_finish_race)"
  },
  {
   "property": "C11",
   "status": "proved",
   "theorems": [
    "Maliput.Props.pool_no_deadlock",
    "Maliput.Props.pool_terminates",
    "Maliput.Props.pool_finish_can_return",
    "Maliput.Props.pool_finish_without_start",
    "Maliput.Props.pool_rejects_after_finish"
   ],
   "note": "Finish without Start never returns (pool_finish_without_start)"
  },
  {
   "property": "C12",
   "status": "proved",
   "theorems": [
    "Maliput.Props.branchPoint_consistent"
   ],
   "note": ""
  },
  {
   "property": "C13",
   "status": "proved",
   "theorems": [
    "Maliput.Props.default_is_ongoing",
    "Maliput.Props.default_is_last"
   ],
   "note": ""
  },
  {
   "property": "C14",
   "status": "partial",
   "theorems": [
    "Maliput.Props.rejected_addBranch_changes",
    "Maliput.Props.rejected_call_changes_nothing_partial"
   ],
   "note": "false as stated (witness theorem): adding a lane end that another branch point owns throws after it was inserted"
  },
  {
   "property": "C15",
   "status": "proved",
   "theorems": [
    "Maliput.Props.lane_index",
    "Maliput.Props.segmentLane_defined",
    "Maliput.Props.toLeft_toRight"
   ],
   "note": "after any history of calls, failed ones included"
  },
  {
   "property": "C16",
   "status": "proved",
   "theorems": [
    "Maliput.Props.idIndex_faithful",
    "Maliput.Props.ids_unique",
    "Maliput.Props.rejected_iff_duplicate",
    "Maliput.Props.segment_junction",
    "Maliput.Props.rejected_addLane_not_indexed"
   ],
   "note": "for successful histories, as stated; rejected_addLane_not_indexed shows that a rejected AddLane leaves a lane in the graph that the index does not know"
  },
  {
   "property": "C47",
   "status": "proved",
   "theorems": [
    "Maliput.Props.laneSRange_intersects_iff",
    "Maliput.Props.laneSRange_contains_iff",
    "Maliput.Props.laneSRange_getIntersection"
   ],
   "note": ""
  },
  {
   "property": "C17",
   "status": "proved",
   "theorems": [
    "Maliput.Props.findRoadPositions_exact",
    "Maliput.Props.findRoadPositions_rejects",
    "Maliput.Props.kdFindRoadPositions_sound",
    "Maliput.Props.kdFindRoadPositions_complete_partial",
    "Maliput.Props.kdFindRoadPositions_misses"
   ],
   "note": "the kd-tree results are only a subset (witness kdFindRoadPositions_misses)"
  },
  {
   "property": "C18",
   "status": "partial",
   "theorems": [
    "Maliput.Props.toRoadPosition_hint",
    "Maliput.Props.toRoadPosition_empty",
    "Maliput.Props.toRoadPosition_near",
    "Maliput.Props.toRoadPosition_bound_partial",
    "Maliput.Props.toRoadPosition_best_partial",
    "Maliput.Props.toRoadPosition_drifts"
   ],
   "note": "false as stated (witness toRoadPosition_drifts): the threshold accumulates over lanes; proved with the threshold times the number of lanes, and exactly for distances that are equal or more than the threshold apart"
  },
  {
   "property": "C48",
   "status": "proved",
   "theorems": [
    "Maliput.Props.kdToRoadPosition_bound",
    "Maliput.Props.kdToRoadPosition_hint",
    "Maliput.Props.flatLanes_dense"
   ],
   "note": ""
  },
  {
   "property": "C19",
   "status": "proved",
   "theorems": [
    "Maliput.Props.findLaneSequences_exact",
    "Maliput.Props.findLaneSequences_duplicates"
   ],
   "note": "Sound, complete and terminating on every finite lane graph; duplicates are possible when two lanes are joined at both ends."
  },
  {
   "property": "C20",
   "status": "partial",
   "theorems": [
    "Maliput.Props.findLaneSequences_noUTurn_partial",
    "Maliput.Props.findLaneSequences_uTurnsAllowed",
    "Maliput.Props.findLaneSequences_rejects_straight",
    "Maliput.Props.findLaneSequences_accepts_uTurn"
   ],
   "note": "Proved when every connection joins a finish to a start and no lane is joined to the same lane at both ends. False in general: two witnesses with mixed lane directions."
  },
  {
   "property": "C21",
   "status": "partial",
   "theorems": [
    "Maliput.Props.deriveLaneSRoutes_connected_partial",
    "Maliput.Props.routeAlong_traverses_partial",
    "Maliput.Props.deriveLaneSRoutes_disconnected",
    "Maliput.Props.deriveLaneSRoutes_not_traversed"
   ],
   "note": "Proved when no lane is joined to the same lane at both ends; an intermediate lane is traversed entirely unless the sequence makes a U-turn. Witnesses show both restrictions are needed."
  },
  {
   "property": "C22",
   "status": "partial",
   "theorems": [
    "Maliput.Props.findAllEdgeSequences_exact",
    "Maliput.Props.findAllEdgeSequences_rejects",
    "Maliput.Props.findAllEdgeSequences_partial",
    "Maliput.Props.fromOpposingSides_partial",
    "Maliput.Props.findAllEdgeSequences_misses"
   ],
   "note": "Search exact on every consistent graph relative to the check for opposing sides; that check is proved to mean opposing sides when segment ends share all or none of their branch points and the shared branch points agree. findAllEdgeSequences_misses shows the claim is false without agreement."
  },
  {
   "property": "C49",
   "status": "partial",
   "theorems": [
    "Maliput.Props.buildGraph_wellFormed",
    "Maliput.Props.findNode_partial",
    "Maliput.Props.buildGraph_loses_branchPoint"
   ],
   "note": "Consistency proved in general; FindNode proved when segment ends share all or none of their branch points. False otherwise: a branch point is lost."
  },
  {
   "property": "C23",
   "status": "partial",
   "theorems": [
    "Maliput.Props.computeRoutes_endpoints",
    "Maliput.Props.computeRoutes_phases",
    "Maliput.Props.computeRoutes_interfaces",
    "Maliput.Props.computeRoutes_costs",
    "Maliput.Props.computeRoutes_complete_partial",
    "Maliput.Props.computeRoutes_backwards",
    "Maliput.Props.computeRoutes_misses_neighbour",
    "Maliput.Props.computeRoutes_rejects",
    "Maliput.Props.computeRoutes_terminates",
    "Maliput.Props.computeRoutes_noSwitch_partial",
    "Maliput.Props.computeRoutes_needs_switch",
    "Maliput.Props.computeRoutes_throws_despite_route",
    "Maliput.Props.computeRoutes_undefined",
    "Maliput.Props.router_accepts",
    "Maliput.Props.router_bound_is_largest_double"
   ],
   "note": "Endpoints, phases, connectivity and costs proved for all networks. allow_lane_switch=false proved when lanes of joined segments are joined in order; false otherwise (computeRoutes_needs_switch). Every way between the two nodes becomes a route; a route back to the neighbouring segment is missed (computeRoutes_misses_neighbour). Two further defects have witnesses: a request that throws although there is a route, and undefined behaviour on a cul-de-sac."
  },
  {
   "property": "C24",
   "status": "partial",
   "theorems": [
    "Maliput.Props.rulebook_rules_partial",
    "Maliput.Props.rulebook_ids_unique",
    "Maliput.Props.rulebook_findRules_partial",
    "Maliput.Props.rulebook_findRules_negative",
    "Maliput.Props.rulebook_get_partial",
    "Maliput.Props.rulebook_rejects_partial",
    "Maliput.Props.rulebook_remove_repeated_lane"
   ],
   "note": "Refinement to a finite map for all histories in which no zone names a lane twice. Without that restriction RemoveRule throws after changing the book (rulebook_remove_repeated_lane)."
  },
  {
   "property": "C30",
   "status": "proved",
   "theorems": [
    "Maliput.Props.registry_reports",
    "Maliput.Props.registry_accepts",
    "Maliput.Props.registry_types_disjoint",
    "Maliput.Props.registry_rangeTypes",
    "Maliput.Props.registry_discreteTypes",
    "Maliput.Props.registry_buildRange",
    "Maliput.Props.registry_buildDiscrete"
   ],
   "note": "All registration histories, accepted and rejected."
  },
  {
   "property": "C31",
   "status": "partial",
   "theorems": [
    "Maliput.Props.stateEq_iff",
    "Maliput.Props.stateEq_refl",
    "Maliput.Props.stateEq_trans",
    "Maliput.Props.stateEq_symm_partial",
    "Maliput.Props.stateEq_of_same",
    "Maliput.Props.discreteValueEq_iff",
    "Maliput.Props.rangeEq_iff",
    "Maliput.Props.stateEq_not_symm"
   ],
   "note": "Reflexive and transitive for all states; symmetric when both list the same number of ids under each name, without repetition. Not symmetric in general (stateEq_not_symm)."
  },
  {
   "property": "C50",
   "status": "proved",
   "theorems": [
    "Maliput.Props.discreteValueRule_make_iff",
    "Maliput.Props.rangeValueRule_make_iff"
   ],
   "note": "Exact conditions for both constructors."
  },
  {
   "property": "C51",
   "status": "proved",
   "theorems": [
    "Maliput.Props.rangeLt_iff",
    "Maliput.Props.rangeLt_strictWeak",
    "Maliput.Props.rangeLt_lex"
   ],
   "note": ""
  },
  {
   "property": "C25",
   "status": "partial",
   "theorems": [
    "Maliput.Props.ring_make_iff",
    "Maliput.Props.ring_make_empty",
    "Maliput.Props.ring_wellFormed_partial",
    "Maliput.Props.ring_bulbs_partial",
    "Maliput.Props.ring_next_partial",
    "Maliput.Props.ring_unknown_next",
    "Maliput.Props.ring_bulbs_differ",
    "Maliput.Props.ring_undefined"
   ],
   "note": "Exact conditions of the constructor; non-empty, same rules and next-phase keys proved for every ring. False of the code: next phases outside the ring are accepted, phases with different bulbs are accepted if the first has none, and the other order is undefined behaviour (witnesses)."
  },
  {
   "property": "C26",
   "status": "partial",
   "theorems": [
    "Maliput.Props.phaseBook_get_partial",
    "Maliput.Props.phaseBook_find_partial",
    "Maliput.Props.phaseBook_one_ring_partial",
    "Maliput.Props.phaseBook_rejects_partial",
    "Maliput.Props.phaseBook_clash_throws",
    "Maliput.Props.phaseBook_rejected_add_stays"
   ],
   "note": "Refinement to the list of rings for all histories in which no addition is rejected because of a shared rule. Such a rejected addition leaves the ring in the book and corrupts later lookups (phaseBook_rejected_add_stays)."
  },
  {
   "property": "C27",
   "status": "proved",
   "theorems": [
    "Maliput.Props.provider_getPhase",
    "Maliput.Props.provider_accepts",
    "Maliput.Props.defaultProvider_phases",
    "Maliput.Props.defaultProvider_ok"
   ],
   "note": "All histories of calls, accepted and rejected; also the provider populated from a book."
  },
  {
   "property": "C28",
   "status": "partial",
   "theorems": [
    "Maliput.Props.stateProvider_latest",
    "Maliput.Props.stateProvider_accepts",
    "Maliput.Props.discreteProvider_reports_partial",
    "Maliput.Props.rangeProvider_reports_partial",
    "Maliput.Props.discreteStateOf_exact",
    "Maliput.Props.rangeStateOf_exact",
    "Maliput.Props.setState_extra_ids",
    "Maliput.Props.defaultStates_discrete",
    "Maliput.Props.defaultStates_range"
   ],
   "note": "Latest accepted call proved in general. A reported state is a state of the rule up to additional related ids; exactly one of them if it lists none. False in general because equality of states is not symmetric (setState_extra_ids)."
  },
  {
   "property": "C29",
   "status": "proved",
   "theorems": [
    "Maliput.Props.rowState_sound",
    "Maliput.Props.discreteState_sound",
    "Maliput.Props.rowState_spec",
    "Maliput.Props.discreteState_spec"
   ],
   "note": "Soundness for every book and provider whatever their history; exact result, including the throwing cases, for every book reachable without rule-clashing additions (C26)."
  },
  {
   "property": "C52",
   "status": "proved",
   "theorems": [
    "Maliput.Props.getStateAt_spec",
    "Maliput.Props.phasedStateAt_spec",
    "Maliput.Props.getStateAt_negative_s"
   ],
   "note": "Both manual providers and the phased one."
  },
  {
   "property": "C37",
   "status": "partial",
   "theorems": [
    "Maliput.Props.rangeValidator_absolute_iff",
    "Maliput.Props.rangeValidator_relative_iff",
    "Maliput.Props.rangeValidator_make_throws",
    "Maliput.Props.rangeValidator_wellFormed",
    "Maliput.Props.rangeValidator_rejects",
    "Maliput.Props.rangeValidator_undefined",
    "Maliput.Props.rangeValidator_defined_iff",
    "Maliput.Props.rangeValidator_closest_partial",
    "Maliput.Props.rangeValidator_relative_half",
    "Maliput.Props.rangeValidator_monotone",
    "Maliput.Props.rangeValidator_idempotent",
    "Maliput.Props.rangeValidator_moves_little",
    "Maliput.Props.rangeValidator_inner"
   ],
   "note": "The closest value is proved where [min + eps, max - eps] is not empty. The constructor also accepts an eps larger than half of the range, for which std::clamp is undefined (rangeValidator_undefined, rangeValidator_defined_iff). Exact arithmetic instead of doubles."
  },
  {
   "property": "C40",
   "status": "partial",
   "theorems": [
    "Maliput.Props.phase_make_iff",
    "Maliput.Props.phase_wellFormed",
    "Maliput.Props.phase_ordered_partial",
    "Maliput.Props.phase_unordered",
    "Maliput.Props.findPhasePosition_closest",
    "Maliput.Props.findPhasePositionOf_outside",
    "Maliput.Props.findPhasePositionOf_partial",
    "Maliput.Props.findPhasePositionOf_wrong"
   ],
   "note": "The constructor does not enforce the right-to-left order (phase_unordered), and for road positions the first range on the lane is returned, even if the position is on another one (findPhasePositionOf_wrong). Everything else is proved for all phases."
  },
  {
   "property": "C41",
   "status": "proved",
   "theorems": [
    "Maliput.Props.relation_iff",
    "Maliput.Props.relation_unknown_iff",
    "Maliput.Props.relation_unrelated_iff",
    "Maliput.Props.relation_self",
    "Maliput.Props.relation_swap",
    "Maliput.Props.relation_succession"
   ],
   "note": "Exact description of every relation by the first places of the two ranges."
  },
  {
   "property": "C42",
   "status": "partial",
   "theorems": [
    "Maliput.Props.laneSRoute_sound",
    "Maliput.Props.laneSRoute_begins_partial",
    "Maliput.Props.laneSRoute_terminates_partial",
    "Maliput.Props.laneSRoute_complete",
    "Maliput.Props.laneSRoute_start_outside",
    "Maliput.Props.laneSRoute_diverges",
    "Maliput.Props.laneSRoute_wrong_start"
   ],
   "note": "Soundness for all routes; beginning at the start, termination and completeness for routes in which no range covers another one. Without that the loop can run forever (laneSRoute_diverges) or begin with a wrong range (laneSRoute_wrong_start)."
  },
  {
   "property": "C53",
   "status": "proved",
   "theorems": [
    "Maliput.Props.findRoutePosition_closest",
    "Maliput.Props.findRoutePositionOf_spec"
   ],
   "note": "Closest up to one comparison threshold (epsilon) per compared candidate."
  },
  {
   "property": "C43",
   "status": "partial",
   "theorems": [
    "Maliput.Props.intersectionBook_add_partial",
    "Maliput.Props.intersectionBook_duplicate_undefined",
    "Maliput.Props.intersectionBook_get",
    "Maliput.Props.intersectionBook_list",
    "Maliput.Props.findByLight_spec",
    "Maliput.Props.findByDiscrete_spec",
    "Maliput.Props.findByRow_spec",
    "Maliput.Props.findByPosition_partial",
    "Maliput.Props.findByPosition_iff_partial",
    "Maliput.Props.findByPosition_misses",
    "Maliput.Props.findIntersections_iff"
   ],
   "note": "Lookups by id, light and rule are exact for every history. False of the code: adding an id in use has undefined behaviour (intersectionBook_duplicate_undefined); FindIntersection(position) can miss the intersection (findByPosition_misses), it is exact where at most one lane of each region is within tolerance."
  },
  {
   "property": "C44",
   "status": "proved",
   "theorems": [
    "Maliput.Props.bulb_make_iff",
    "Maliput.Props.bulb_defaultState",
    "Maliput.Props.bulb_isValidState",
    "Maliput.Props.bulbGroup_make_iff",
    "Maliput.Props.trafficLight_make_iff",
    "Maliput.Props.getBulb_iff",
    "Maliput.Props.getBulbGroup_iff",
    "Maliput.Props.uniqueId_iff",
    "Maliput.Props.uniqueId_injective",
    "Maliput.Props.uniqueId_resolves",
    "Maliput.Props.uniqueId_less",
    "Maliput.Props.uniqueGroupId_less",
    "Maliput.Props.uniqueId_string_collides"
   ],
   "note": "Equality and order of unique ids identify the bulb; only the string form of ids that contain the delimiter collides (uniqueId_string_collides)."
  },
  {
   "property": "C54",
   "status": "proved",
   "theorems": [
    "Maliput.Props.lightBook_get",
    "Maliput.Props.lightBook_list",
    "Maliput.Props.lightBook_add"
   ],
   "note": ""
  },
  {
   "property": "C55",
   "status": "proved",
   "theorems": [
    "Maliput.Props.intersection_setPhase",
    "Maliput.Props.intersection_states",
    "Maliput.Props.intersection_unknown_phase"
   ],
   "note": "SetPhase does not check that the phase is in the ring: intersection_unknown_phase shows the later failure."
  },
  {
   "property": "C56",
   "status": "proved",
   "theorems": [
    "Maliput.Props.rightOfWay_make",
    "Maliput.Props.directionUsage_make",
    "Maliput.Props.speedLimit_make_iff",
    "Maliput.Props.rightOfWay_staticState",
    "Maliput.Props.directionUsage_staticState"
   ],
   "note": ""
  },
  {
   "property": "C45",
   "status": "partial",
   "theorems": [
    "Maliput.Props.validate_iff_partial",
    "Maliput.Props.validate_exceptions",
    "Maliput.Props.validate_null_undefined",
    "Maliput.Props.validate_foreign_value",
    "Maliput.Props.validate_unknown_rule"
   ],
   "note": "Exact description of every check for all networks whose books have any history of calls. Not as documented: a phase's state only has to resemble a state of its rule (validate_foreign_value), null pointers are followed before they are checked (validate_null_undefined), and an unknown rule gives std::out_of_range (validate_unknown_rule)."
  },
  {
   "property": "C57",
   "status": "proved",
   "theorems": [
    "Maliput.Props.checkInvariants_total",
    "Maliput.Props.checkInvariants_reports",
    "Maliput.Props.checkInvariants_empty_iff",
    "Maliput.Props.invariants_close"
   ],
   "note": "For road geometries without null pointers; reversing a rotation twice is assumed to keep distances, which rotation_reverse_distance proves of api::Rotation."
  },
  {
   "property": "C33",
   "status": "proved",
   "theorems": [
    "Maliput.Props.mesh_faces_decode",
    "Maliput.Props.mesh_stores_once",
    "Maliput.Props.mesh_operations_defined",
    "Maliput.Props.face_lengths"
   ],
   "note": "AddFacesFrom is modelled for another mesh object than the one it is called on."
  },
  {
   "property": "C34",
   "status": "proved",
   "theorems": [
    "Maliput.Props.obj_faces_read",
    "Maliput.Props.obj_lines"
   ],
   "note": "Lines of the file are modelled before the formatting of numbers."
  },
  {
   "property": "C36",
   "status": "partial",
   "theorems": [
    "Maliput.Props.douglasPeucker_simplifies",
    "Maliput.Props.contour_simplified_partial",
    "Maliput.Props.contour_closed_dropped",
    "Maliput.Props.contour_vanishes"
   ],
   "note": "False as stated when two kept neighbours are at the same position: the line is then undefined (NaN) and everything between is dropped (contour_closed_dropped). Also a contour smaller than the tolerance becomes a face of two vertices (contour_vanishes). Termination is the totality of the model function."
  },
  {
   "property": "C58",
   "status": "proved",
   "theorems": [
    "Maliput.Props.distanceToALine_least",
    "Maliput.Props.distanceToAPlane_least"
   ],
   "note": "Over real numbers."
  },
  {
   "property": "C46",
   "status": "proved",
   "theorems": [
    "Maliput.Props.simplify_partition",
    "Maliput.Props.simplify_faces",
    "Maliput.Props.simplify_outcome",
    "Maliput.Props.simplify_planes"
   ],
   "note": "For meshes built with PushFace and AddFacesFrom; doubles are real numbers. With normals that are not unit vectors the tolerance is scaled by their length. If the normals of the plane and of a vertex are both null vectors the code aborts, the model answers no."
  },
  {
   "property": "C59",
   "status": "proved",
   "theorems": [
    "Maliput.Props.contour_closed",
    "Maliput.Props.contour_complete",
    "Maliput.Props.contour_misses_hole"
   ],
   "note": "contour_misses_hole shows that the proviso of contour_complete (documented as simply connected) is needed."
  },
  {
   "property": "C60",
   "status": "proved",
   "theorems": [
    "Maliput.Props.adjacency_correct"
   ],
   "note": ""
  },
  {
   "property": "C35",
   "status": "proved",
   "theorems": [
    "Maliput.Props.findConfluent_reachable",
    "Maliput.Props.analyzeConfluent_components",
    "Maliput.Props.findConfluent_without_lanes",
    "Maliput.Props.findConfluent_unattached"
   ],
   "note": "For road geometries built on the geometry base with every lane end added to a branch point. A segment without lanes yields an empty set although the documentation says the seed is included; a lane end without a branch point is undefined behaviour."
  },
  {
   "property": "C32",
   "status": "partial",
   "theorems": [
    "Maliput.Props.waypoints_partial",
    "Maliput.Props.waypoints_spacing",
    "Maliput.Props.waypoints_outcome",
    "Maliput.Props.waypoints_reversed",
    "Maliput.Props.waypoints_short",
    "Maliput.Props.waypoints_empty"
   ],
   "note": "Proved for ranges travelled in the direction of increasing s. False for reversed ranges (waypoints_reversed): only the ends are returned. An empty route is undefined behaviour."
  },
  {
   "property": "C38",
   "status": "proved",
   "theorems": [
    "Maliput.Props.hash_equal",
    "Maliput.Props.hash_injective",
    "Maliput.Props.hash_outcome",
    "Maliput.Props.hash_default"
   ],
   "note": "For the types hash_append is overloaded for. operator== is numeric for doubles (both zeros are equal); NaN terminates the program. Memory is taken as little-endian."
  },
  {
   "property": "C61",
   "status": "proved",
   "theorems": [
    "Maliput.Props.hash_one_character"
   ],
   "note": ""
  },
  {
   "property": "C62",
   "status": "proved",
   "theorems": [
    "Maliput.Props.matrix_determinant",
    "Maliput.Props.matrix_operations",
    "Maliput.Props.matrix_determinant_mul",
    "Maliput.Props.matrix_inverse",
    "Maliput.Props.matrix_singular_small"
   ],
   "note": "For all sizes over an ordered field; the bounds checks of indices are not modelled."
  },
  {
   "property": "C39",
   "status": "proved",
   "theorems": [
    "Maliput.Props.rotation_matrix",
    "Maliput.Props.rotation_isometry",
    "Maliput.Props.rotation_compose",
    "Maliput.Props.rotation_inverse",
    "Maliput.Props.rpy_quaternion",
    "Maliput.Props.rpy_order"
   ],
   "note": "Over the reals."
  },
  {
   "property": "C63",
   "status": "proved",
   "theorems": [
    "Maliput.Props.quaternion_of_matrix",
    "Maliput.Props.matrix_of_quaternion"
   ],
   "note": "Over the reals."
  },
  {
   "property": "C64",
   "status": "partial",
   "theorems": [
    "Maliput.Props.quaternion_angle_axis",
    "Maliput.Props.from_two_vectors_partial",
    "Maliput.Props.from_two_vectors_opposite",
    "Maliput.Props.from_two_vectors_down",
    "Maliput.Props.from_two_vectors_short"
   ],
   "note": "FromTwoVectors is as documented for vectors that are neither short nor opposite. From straight down to straight up there is no rotation (from_two_vectors_down), and between short vectors the rotation is the identity (from_two_vectors_short)."
  },
  {
   "property": "C65",
   "status": "proved",
   "theorems": [
    "Maliput.Props.slerp_arc",
    "Maliput.Props.slerp_ends",
    "Maliput.Props.slerp_near"
   ],
   "note": "Over the reals. Between quaternions the code takes for the same, interpolation is linear, and the norm is one up to the tolerance."
  },
  {
   "property": "C66",
   "status": "proved",
   "theorems": [
    "Maliput.Props.angular_distance_metric",
    "Maliput.Props.angular_distance_angle"
   ],
   "note": "Over the reals."
  },
  {
   "property": "C67",
   "status": "proved",
   "theorems": [
    "Maliput.Props.rpy_range",
    "Maliput.Props.rpy_of_quaternion",
    "Maliput.Props.rpy_of_quaternion_error",
    "Maliput.Props.rpy_roundtrip"
   ],
   "note": "Over the reals. Exact unless near a gimbal lock; there within the tolerance of the code (rpy_of_quaternion_error)."
  },
  {
   "property": "C68",
   "status": "proved",
   "theorems": [
    "Maliput.Props.rpy_derivative",
    "Maliput.Props.rpy_each_angle"
   ],
   "note": ""
  },
  {
   "property": "C69",
   "status": "proved",
   "theorems": [
    "Maliput.Props.rotation_unit",
    "Maliput.Props.rotation_apply",
    "Maliput.Props.rotation_fromRpy",
    "Maliput.Props.rotation_reverse",
    "Maliput.Props.rotation_reverse_sign",
    "Maliput.Props.rotation_reverse_distance",
    "Maliput.Props.rotation_distance",
    "Maliput.Props.rotation_distance_reverse",
    "Maliput.Props.rotation_rpy"
   ],
   "note": "Over the reals. Reversing twice gives the same rotation although the sign of the quaternion changes (rotation_reverse_sign)."
  },
  {
   "property": "C70",
   "status": "partial",
   "theorems": [
    "Maliput.Props.bounding_box_make",
    "Maliput.Props.bounding_box_contains",
    "Maliput.Props.bounding_box_vertices",
    "Maliput.Props.bounding_box_orientation"
   ],
   "note": "Exact description of the set of points for all boxes. Not as documented: the box is turned by the inverse of the orientation (bounding_box_orientation)."
  },
  {
   "property": "C71",
   "status": "partial",
   "theorems": [
    "Maliput.Props.bounding_box_contained",
    "Maliput.Props.bounding_box_overlaps_partial",
    "Maliput.Props.bounding_box_far",
    "Maliput.Props.bounding_box_near",
    "Maliput.Props.bounding_box_missed",
    "Maliput.Props.bounding_box_apart"
   ],
   "note": "kContained is exact for all orientations, kDisjointed and kIntersected for boxes that are not rotated. False for rotated boxes: the translation is not expressed in the frame of the box, so boxes that overlap can be kDisjointed (bounding_box_missed) and boxes that are apart kIntersected (bounding_box_apart). For all orientations: boxes near enough are not kDisjointed and boxes far enough are not kIntersected."
  },
  {
   "property": "C72",
   "status": "partial",
   "theorems": [
    "Maliput.Props.collector_counts",
    "Maliput.Props.compare_route",
    "Maliput.Props.compare_laneEnd",
    "Maliput.Props.compare_isLaneEndEqual_partial",
    "Maliput.Props.compare_isLaneEndEqual_null",
    "Maliput.Props.compare_speedLimit",
    "Maliput.Props.compare_directionUsage",
    "Maliput.Props.compare_rangeValueRule",
    "Maliput.Props.compare_discreteValueRule_partial",
    "Maliput.Props.compare_discreteValueRule_plain",
    "Maliput.Props.compare_rightOfWay_partial",
    "Maliput.Props.compare_rightOfWayResult",
    "Maliput.Props.compare_trafficLight_partial",
    "Maliput.Props.compare_bulb_throws",
    "Maliput.Props.compare_phase_partial",
    "Maliput.Props.compare_nextPhases_partial",
    "Maliput.Props.compare_phase_missed",
    "Maliput.Props.compare_nextPhase_throws",
    "Maliput.Props.compare_rightOfWay_missed",
    "Maliput.Props.compare_discreteValues_missed"
   ],
   "note": "Exact for routes, lane ends, speed limits, direction usage rules, range value rules, discrete value rules without related rules, and right-of-way results. For the others the exact condition of the code is proved; it is weaker than equality: phases with different right-of-way states, discrete values with another severity, and related bulb groups of the second rule are missed, and missing keys or optionals throw or are undefined."
  },
  {
   "property": "C73",
   "status": "partial",
   "theorems": [
    "Maliput.Props.close_triple",
    "Maliput.Props.close_bounds",
    "Maliput.Props.close_lanePositionResult",
    "Maliput.Props.close_roadPositionResult",
    "Maliput.Props.close_routePositionResult",
    "Maliput.Props.close_symm",
    "Maliput.Props.close_refl",
    "Maliput.Props.close_trans",
    "Maliput.Props.close_nan",
    "Maliput.Props.compareVectors_absolute",
    "Maliput.Props.compareVectors_relative_partial",
    "Maliput.Props.compareVectors_relative_infinite",
    "Maliput.Props.compareMatrices_rows"
   ],
   "note": "Exact conditions for all numbers. As claimed for numbers that are not NaN; NaN is reported close to everything (close_nan), and with a relative tolerance infinity is reported equal to every number (compareVectors_relative_infinite)."
  },
  {
   "property": "C74",
   "status": "partial",
   "theorems": [
    "Maliput.Props.checkIdIndexing_iff_partial",
    "Maliput.Props.checkIdIndexing_built",
    "Maliput.Props.checkIdIndexing_finds_rejected",
    "Maliput.Props.checkIdIndexing_misses_branchPoints"
   ],
   "note": "Exact for road geometries with a junction. Without a junction branch points are not checked (checkIdIndexing_misses_branchPoints)."
  },
  {
   "property": "C75",
   "status": "proved",
   "theorems": [
    "Maliput.Props.rulebook_loader_sound",
    "Maliput.Props.rulebook_loader_complete",
    "Maliput.Props.rulebook_loader_errors",
    "Maliput.Props.rulebook_loader_zone_start"
   ],
   "note": "For all parsed documents (the parsing of text is not modelled). The start of a range is not checked (rulebook_loader_zone_start)."
  },
  {
   "property": "C76",
   "status": "proved",
   "theorems": [
    "Maliput.Props.registry_loader_sound",
    "Maliput.Props.registry_loader_complete",
    "Maliput.Props.registry_loader_errors",
    "Maliput.Props.registry_loader_malformed"
   ],
   "note": "For all parsed documents. Entries with unknown keys are accepted next to well-formed ones, which the specification says (registry_loader_malformed)."
  },
  {
   "property": "C77",
   "status": "proved",
   "theorems": [
    "Maliput.Props.registry_rulebook_sound",
    "Maliput.Props.registry_rulebook_complete",
    "Maliput.Props.registry_rulebook_errors",
    "Maliput.Props.registry_rulebook_both_kinds",
    "Maliput.Props.registry_rulebook_related_required"
   ],
   "note": "For all parsed documents and all registries that can be built. Completeness is for entries that have values or ranges, not both; with both, the values are dropped (registry_rulebook_both_kinds)."
  },
  {
   "property": "C78",
   "status": "partial",
   "theorems": [
    "Maliput.Props.every_combination_mem",
    "Maliput.Props.library_values",
    "Maliput.Props.library_types_register",
    "Maliput.Props.library_stop_values",
    "Maliput.Props.library_row_values_partial",
    "Maliput.Props.library_stop_then_go"
   ],
   "note": "Registration in every order; exact condition for derived right-of-way rules: false for the value StopThenGo, which the library registers as StopAndGo (library_stop_then_go)."
  },
  {
   "property": "C79",
   "status": "proved",
   "theorems": [
    "Maliput.Props.light_loader_iff",
    "Maliput.Props.light_loader_queries",
    "Maliput.Props.light_loader_errors",
    "Maliput.Props.lightsDoc_loads"
   ],
   "note": "For all parsed documents. The orientation is the quaternion as written; that Rotation normalizes it is C69."
  },
  {
   "property": "C80",
   "status": "proved",
   "theorems": [
    "Maliput.Props.ring_loader_complete",
    "Maliput.Props.ring_loader_sound",
    "Maliput.Props.ring_loader_errors",
    "Maliput.Props.goodRing_loads",
    "Maliput.Props.ring_loader_keeps_state",
    "Maliput.Props.ring_loader_bulb_state",
    "Maliput.Props.ring_loader_unknown_rule",
    "Maliput.Props.ring_loader_abort",
    "Maliput.Props.ring_loader_ub"
   ],
   "note": "For all parsed documents. What the code does with states that are not named, unknown rules and missing bulb states is part of the specification; the witnesses show it."
  },
  {
   "property": "C81",
   "status": "proved",
   "theorems": [
    "Maliput.Props.rowRing_loader_complete",
    "Maliput.Props.rowRing_loader_sound",
    "Maliput.Props.rowRing_loader_errors",
    "Maliput.Props.loaded_rulebook_mirrors",
    "Maliput.Props.rowRing_loader_with_loaded_rulebook",
    "Maliput.Props.rowRing_loader_mirrored",
    "Maliput.Props.rowRingDoc_loads",
    "Maliput.Props.rowRing_loader_no_mirror"
   ],
   "note": "For all parsed documents. Without a mirroring discrete value rule an std::out_of_range escapes (rowRing_loader_no_mirror)."
  },
  {
   "property": "C82",
   "status": "proved",
   "theorems": [
    "Maliput.Props.built_rings",
    "Maliput.Props.intersection_loader_sound",
    "Maliput.Props.intersection_loader_complete",
    "Maliput.Props.intersection_loader_errors",
    "Maliput.Props.intersection_loader_queries",
    "Maliput.Props.loaded_rings_built",
    "Maliput.Props.loaded_rowRings_built",
    "Maliput.Props.intersection_loader_with_loaded_rings",
    "Maliput.Props.intersectionDoc_loads",
    "Maliput.Props.intersection_loader_shared_ring",
    "Maliput.Props.intersection_loader_failure_changes",
    "Maliput.Props.intersection_loader_duplicate"
   ],
   "note": "For all parsed documents. A repeated id is undefined behaviour (see C43); a rule that is not in the rulebook lets an std::out_of_range escape after the provider was changed."
  },
  {
   "property": "C83",
   "status": "partial",
   "theorems": [
    "Maliput.Props.precise_mesh_faces",
    "Maliput.Props.precise_mesh_strip",
    "Maliput.Props.precise_mesh_constant_width_partial",
    "Maliput.Props.precise_mesh_gap",
    "Maliput.Props.lane_faces_pushed"
   ],
   "note": "For all lanes; that all points between the bounds are covered holds for lanes of constant width and for strips with as many faces at both ends, and is false for lanes whose width changes (precise_mesh_gap). precise_mesh_faces says what is covered."
  },
  {
   "property": "C84",
   "status": "proved",
   "theorems": [
    "Maliput.Props.optimized_mesh_faces",
    "Maliput.Props.optimized_mesh_constant_width",
    "Maliput.Props.lane_faces_pushed"
   ],
   "note": "For all lanes and distances."
  },
  {
   "property": "C85",
   "status": "proved",
   "theorems": [
    "Maliput.Props.stripes_faces",
    "Maliput.Props.stripes_outside_segment",
    "Maliput.Props.lane_faces_pushed"
   ],
   "note": "For all lanes. The stripes at the border of a segment are partly outside of its bounds (stripes_outside_segment)."
  },
  {
   "property": "C86",
   "status": "proved",
   "theorems": [
    "Maliput.Props.mark_lane_ends_faces",
    "Maliput.Props.mark_lane_ends_separate",
    "Maliput.Props.lane_faces_pushed"
   ],
   "note": "For all lanes."
  },
  {
   "property": "C87",
   "status": "proved",
   "theorems": [
    "Maliput.Props.pick_grid_unit",
    "Maliput.Props.pick_grid_unit_range"
   ],
   "note": "For all lanes."
  },
  {
   "property": "C88",
   "status": "partial",
   "theorems": [
    "Maliput.Props.branch_point_rendered",
    "Maliput.Props.branch_points_apart",
    "Maliput.Props.branch_arrow",
    "Maliput.Props.branch_diamond",
    "Maliput.Props.branch_point_negative"
   ],
   "note": "For all branch points whose first lane end is upright. That faces are in counterclockwise order when seen from where their normals point to is proved for arrows and false for diamonds (branch_diamond)."
  },
  {
   "property": "C89",
   "status": "proved",
   "theorems": [
    "Maliput.Props.build_meshes",
    "Maliput.Props.no_simplification",
    "Maliput.Props.none_highlighted",
    "Maliput.Props.build_meshes_bad_segment"
   ],
   "note": "For all road geometries, with simplification of faces as a parameter; what the faces of lanes cover is in C83-C86. Null pointers to the first lane are undefined behaviour (build_meshes_bad_segment)."
  },
  {
   "property": "C90",
   "status": "proved",
   "theorems": [
    "Maliput.Props.obj_file",
    "Maliput.Props.obj_file_zero_tolerance",
    "Maliput.Props.obj_file_opacity_lost"
   ],
   "note": "For all road geometries with a positive tolerance. A tolerance of zero is undefined behaviour before the exception (obj_file_zero_tolerance), and the opacity of materials is rounded to the digits that the tolerance needs (obj_file_opacity_lost). Logarithms are exact, files can be opened."
  },
  {
   "property": "C91",
   "status": "partial",
   "theorems": [
    "Maliput.Props.material_of_type",
    "Maliput.Props.material_by_name",
    "Maliput.Props.material_documented_names",
    "Maliput.Props.lane_mesh",
    "Maliput.Props.lane_mesh_refused",
    "Maliput.Props.segment_mesh",
    "Maliput.Props.segment_mesh_refused",
    "Maliput.Props.branch_point_mesh",
    "Maliput.Props.branch_point_mesh_refused",
    "Maliput.Props.road_geometry_mesh"
   ],
   "note": "For all road geometries. The names of materials that are documented for GetMaterialByName are not those it knows (material_documented_names); unknown ids are undefined behaviour."
  },
  {
   "property": "C92",
   "status": "partial",
   "theorems": [
    "Maliput.Props.polynomial_meaning",
    "Maliput.Props.polynomial_evaluation_fails",
    "Maliput.Props.polynomial_evaluation_error",
    "Maliput.Props.polynomial_canonical",
    "Maliput.Props.polynomial_partial_evaluation",
    "Maliput.Props.polynomial_univariate_sound",
    "Maliput.Props.polynomial_univariate_complete",
    "Maliput.Props.polynomial_repeated_variable",
    "Maliput.Props.polynomial_flag_lost",
    "Maliput.Props.polynomial_flag_zero_id"
   ],
   "note": "For all expressions over fields. Not for monomials that list a variable twice in a row (polynomial_repeated_variable); the flag for one variable is sound for positive ids (polynomial_flag_zero_id) and not complete for polynomials from which a variable disappeared (polynomial_flag_lost). p += p is undefined behaviour and not modelled."
  },
  {
   "property": "C93",
   "status": "partial",
   "theorems": [
    "Maliput.Props.univariate_value",
    "Maliput.Props.univariate_derivative",
    "Maliput.Props.derivative_polynomial",
    "Maliput.Props.integral_polynomial",
    "Maliput.Props.coefficients_polynomial",
    "Maliput.Props.roots_polynomial",
    "Maliput.Props.multivariate_no_coefficients",
    "Maliput.Props.degree_polynomial",
    "Maliput.Props.degree_of_product_wrong",
    "Maliput.Props.integral_of_constant"
   ],
   "note": "For all polynomials in one variable. Integral throws for polynomials with a constant monomial and no variable (integral_of_constant). Roots are returned up to degree one; for higher degrees the function throws.  The degree of a polynomial in several variables is not the total degree (degree_of_product_wrong)."
  },
  {
   "property": "C94",
   "status": "partial",
   "theorems": [
    "Maliput.Props.variable_name_round_trip",
    "Maliput.Props.variable_name_injective_partial",
    "Maliput.Props.variable_names_collide",
    "Maliput.Props.named_polynomial",
    "Maliput.Props.named_polynomials_differ_partial"
   ],
   "note": "For names of up to four characters. Longer names are accepted when the 32 bit product overflows, and become the same variable as short ones (variable_names_collide)."
  },
  {
   "property": "C95",
   "status": "partial",
   "theorems": [
    "Maliput.Props.substitute_partial",
    "Maliput.Props.subs_value",
    "Maliput.Props.substitute_beside_others",
    "Maliput.Props.subs_not_collected"
   ],
   "note": "For variables that are alone in their monomials. Beside other variables Substitute adds where it should multiply (substitute_beside_others); Subs gives the right values but does not collect monomials (subs_not_collected)."
  },
  {
   "property": "C96",
   "status": "partial",
   "theorems": [
    "Maliput.Props.piecewise_segment",
    "Maliput.Props.piecewise_value",
    "Maliput.Props.piecewise_total",
    "Maliput.Props.piecewise_derivative",
    "Maliput.Props.piecewise_empty",
    "Maliput.Props.piecewise_scalar_partial",
    "Maliput.Props.piecewise_scalar_extrapolates"
   ],
   "note": "For scalar trajectories over ordered fields. scalarValue is the same inside the domain only: outside it extrapolates although it is documented to be equivalent to value (piecewise_scalar_extrapolates)."
  },
  {
   "property": "C97",
   "status": "proved",
   "theorems": [
    "Maliput.Props.zero_order_hold",
    "Maliput.Props.zero_order_hold_end",
    "Maliput.Props.first_order_hold",
    "Maliput.Props.cubic_hermite",
    "Maliput.Props.interpolation_refuses",
    "Maliput.Props.cubic_hermite_smooth"
   ],
   "note": "For all lists of samples over ordered fields; continuity of the cubic interpolant and of its derivative over the reals. The last sample of ZeroOrderHold only sets the end time (zero_order_hold_end)."
  },
  {
   "property": "C98",
   "status": "partial",
   "theorems": [
    "Maliput.Props.shape_preserving_partial",
    "Maliput.Props.shape_not_preserved"
   ],
   "note": "With zero end point derivatives for all samples; without, for samples whose slopes are zero or more than 1e-10 in size. With smaller slopes the interpolant overshoots (shape_not_preserved)."
  },
  {
   "property": "C99",
   "status": "proved",
   "theorems": [
    "Maliput.Props.concatenation",
    "Maliput.Props.concatenation_refuses",
    "Maliput.Props.final_segment_removed",
    "Maliput.Props.only_segment_removed",
    "Maliput.Props.hermite_segment_appended",
    "Maliput.Props.hermite_segment_refused",
    "Maliput.Props.first_order_segment_appended",
    "Maliput.Props.slice_values"
   ],
   "note": "For all valid scalar trajectories and all orders of derivatives."
  },
  {
   "property": "C100",
   "status": "partial",
   "theorems": [
    "Maliput.Props.shifted_values",
    "Maliput.Props.scaled_values",
    "Maliput.Props.reversed_values",
    "Maliput.Props.derivative_values",
    "Maliput.Props.integral_values",
    "Maliput.Props.integral_of_stairs",
    "Maliput.Props.arithmetic_values",
    "Maliput.Props.arithmetic_refuses"
   ],
   "note": "For all valid scalar trajectories in one variable; the value of a reversed trajectory at a jump is that of the other side. integral throws for trajectories with a constant segment such as every ZeroOrderHold (integral_of_stairs), because Polynomial::Integral refuses polynomials without a variable."
  },
  {
   "property": "C101",
   "status": "proved",
   "theorems": [
    "Maliput.Props.evaluate_reaches",
    "Maliput.Props.evaluate_simpson",
    "Maliput.Props.evaluate_inverse",
    "Maliput.Props.evaluate_cubic",
    "Maliput.Props.evaluate_bounds",
    "Maliput.Props.evaluate_error"
   ],
   "note": "For all ordered fields (the error bound over the reals), right hand sides, configurations and histories of calls. Rounding is not modelled; the parameter vector k is any type with equality; the cube root of the step size control is any function that is at most one up to one."
  },
  {
   "property": "C102",
   "status": "partial",
   "theorems": [
    "Maliput.Props.evaluate_terminates",
    "Maliput.Props.function_terminates",
    "Maliput.Props.evaluate_returns",
    "Maliput.Props.smooth_of_bounded",
    "Maliput.Props.evaluate_below",
    "Maliput.Props.evaluate_unusable",
    "Maliput.Props.evaluate_never_returns"
   ],
   "note": "For positive maximum step sizes. With a maximum step size of zero, which is the default of IntegratorConfiguration, Evaluate never returns for any point above the lower bound (evaluate_never_returns)."
  },
  {
   "property": "C103",
   "status": "partial",
   "theorems": [
    "Maliput.Props.evaluate_again",
    "Maliput.Props.evaluate_fresh",
    "Maliput.Props.evaluate_increment",
    "Maliput.Props.evaluate_history"
   ],
   "note": "The same point again gives the same value, smaller points and other parameters give the value of a new integrator, larger ones grow from the value of the call before. The value for a larger point depends on the points asked for before, and values of two new integrators may have the wrong order (evaluate_history)."
  },
  {
   "property": "C104",
   "status": "partial",
   "theorems": [
    "Maliput.Props.evaluate_accurate_partial",
    "Maliput.Props.evaluate_after_exception"
   ],
   "note": "If no earlier call has thrown. After an exception the context keeps the rejected step, and the same call then returns a value from it that may have any error (evaluate_after_exception)."
  },
  {
   "property": "C105",
   "status": "partial",
   "theorems": [
    "Maliput.Props.function_curve",
    "Maliput.Props.function_value",
    "Maliput.Props.function_unusable",
    "Maliput.Props.function_fresh",
    "Maliput.Props.function_then_evaluate",
    "Maliput.Props.function_quadratic",
    "Maliput.Props.function_error",
    "Maliput.Props.function_monotone_partial",
    "Maliput.Props.function_falls"
   ],
   "note": "For all right hand sides, configurations and histories. The values grow if the largest value of the right hand side is at most three times its smallest one; in general the function may fall although the integrand is nowhere negative (function_falls)."
  },
  {
   "property": "C106",
   "status": "partial",
   "theorems": [
    "Maliput.Props.function_sliver_partial",
    "Maliput.Props.function_before",
    "Maliput.Props.function_sliver",
    "Maliput.Props.function_point",
    "Maliput.Props.function_resting"
   ],
   "note": "For smooth right hand sides making a function only throws if a step ends less than 2^-52 before the end of the interval. That happens: for the end of a full step plus a bit (function_sliver), for the interval that is just the lower bound, where the failure also makes the following Evaluate throw (function_point), and for an initial step size of zero (function_resting)."
  },
  {
   "property": "C107",
   "status": "proved",
   "theorems": [
    "Maliput.Props.context_made",
    "Maliput.Props.eval_written",
    "Maliput.Props.known_written",
    "Maliput.Props.eval_answers",
    "Maliput.Props.changes_complete"
   ],
   "note": "For leaf systems and their contexts. Calculators are programs that read sources and evaluate cache entries and have no other effects; what prerequisites stand for is as the trackers are wired (see C112 for the documentation)."
  },
  {
   "property": "C108",
   "status": "proved",
   "theorems": [
    "Maliput.Props.eval_transparent",
    "Maliput.Props.eval_keeps",
    "Maliput.Props.eval_frozen",
    "Maliput.Props.eval_controls"
   ],
   "note": "For the systems, calculators and histories of C107."
  },
  {
   "property": "C109",
   "status": "proved",
   "theorems": [
    "Maliput.Props.modify_outdates",
    "Maliput.Props.fix_outdates",
    "Maliput.Props.eval_again"
   ],
   "note": "For the systems, calculators and histories of C107; the granularity of a change is that of the access the context gives."
  },
  {
   "property": "C110",
   "status": "proved",
   "theorems": [
    "Maliput.Props.steps_refine",
    "Maliput.Props.derivatives_after_steps"
   ],
   "note": "For one state variable over ordered fields. The result is the step of the model of C101 to C106, which has no cache."
  },
  {
   "property": "C111",
   "status": "partial",
   "theorems": [
    "Maliput.Props.feedthrough_exact_partial",
    "Maliput.Props.feedthrough_sound_partial",
    "Maliput.Props.feedthrough_questions",
    "Maliput.Props.feedthrough_default_missed"
   ],
   "note": "For outputs with explicit prerequisites. Outputs with the default prerequisites are never reported, because the code which assumed feedthrough for them is commented out (feedthrough_default_missed)."
  },
  {
   "property": "C112",
   "status": "partial",
   "theorems": [
    "Maliput.Props.tickets_documented_partial",
    "Maliput.Props.derivatives_ticket",
    "Maliput.Props.energy_tickets_stand_for_nothing",
    "Maliput.Props.pe_ticket_stale"
   ],
   "note": "For the tickets of sources and their groups (configuration and kinematics include z against their documentation) and of the time derivatives. The tickets of the energies and powers are not wired to their cache entries: a computation which depends on one of them goes stale (pe_ticket_stale)."
  },
  {
   "property": "C113",
   "status": "partial",
   "theorems": [
    "Maliput.Props.vector_text_round_trip",
    "Maliput.Props.vector_text_read_partial",
    "Maliput.Props.vector_text_refused",
    "Maliput.Props.vector_text_malformed"
   ],
   "note": "Texts in the format and texts with a wrong number of braces or commas. Other malformed texts are accepted or throw an exception of the standard library instead of an assertion_error (vector_text_malformed). stod and the writing of numbers are parameters."
  },
  {
   "property": "C114",
   "status": "partial",
   "theorems": [
    "Maliput.Props.mkdirs_sound",
    "Maliput.Props.mkdirs_harmless",
    "Maliput.Props.mkdirs_complete_partial",
    "Maliput.Props.mkdirs_differ"
   ],
   "note": "Returning true is sound and nothing is ever harmed. Complete for paths that do not exist yet, do not end in a slash and do not begin with a one-character directory; the others return false, and the last do not make the directories (mkdirs_differ). No symbolic links, . or .."
  },
  {
   "property": "C115",
   "status": "partial",
   "theorems": [
    "Maliput.Props.append_locates_partial",
    "Maliput.Props.empty_path_appended",
    "Maliput.Props.path_queries",
    "Maliput.Props.absolute_path_not_absolute",
    "Maliput.Props.removes_only",
    "Maliput.Props.full_directory_stays"
   ],
   "note": "For paths that are not empty; appending to an empty path makes it absolute (empty_path_appended). A directory that is not empty is not removed, against the documentation of the result (full_directory_stays). is_absolute is false for an absolute path at which there is nothing (absolute_path_not_absolute)."
  },
  {
   "property": "C116",
   "status": "partial",
   "theorems": [
    "Maliput.Props.all_files_listed",
    "Maliput.Props.files_with_suffix_partial",
    "Maliput.Props.dotted_suffix_finds_nothing",
    "Maliput.Props.dot_so_not_found",
    "Maliput.Props.environment_paths"
   ],
   "note": "A suffix that has a dot finds nothing (dot_so_not_found), although the paths must only end with it."
  },
  {
   "property": "C117",
   "status": "partial",
   "theorems": [
    "Maliput.Props.file_read_partial",
    "Maliput.Props.failed_read_hangs"
   ],
   "note": "A file that can be opened but not read to its end, such as a directory, makes the call run forever (failed_read_hangs)."
  },
  {
   "property": "C118",
   "status": "proved",
   "theorems": [
    "Maliput.Props.manager_made",
    "Maliput.Props.plugins_available",
    "Maliput.Props.last_plugin_prevails",
    "Maliput.Props.plugins_listed",
    "Maliput.Props.loader_made",
    "Maliput.Props.manager_kept",
    "Maliput.Props.one_bad_library_hides_all",
    "Maliput.Props.null_network_returned"
   ],
   "note": "The dynamic linker is a parameter. Also shown: one library which is not a plugin hides all the others, and a null road network is returned instead of the documented assertion_error."
  },
  {
   "property": "C119",
   "status": "proved",
   "theorems": [
    "Maliput.Props.messages_delivered",
    "Maliput.Props.level_restored",
    "Maliput.Props.off_silences",
    "Maliput.Props.warning_refused"
   ],
   "note": "For one thread. Also shown: the documented name \"warning\" is refused."
  },
  {
   "property": "C120",
   "status": "proved",
   "theorems": [
    "Maliput.Props.road_text_lines",
    "Maliput.Props.road_text_tells_apart"
   ],
   "note": "The texts of ids, lengths and positions are parameters."
  },
  {
   "property": "C121",
   "status": "partial",
   "theorems": [
    "Maliput.Props.graph_drawn_partial",
    "Maliput.Props.route_drawn_partial",
    "Maliput.Props.quote_not_escaped"
   ],
   "note": "For ids of segments without quotes and ends of lines. Others are written as they are: such a segment is drawn as something else (quote_not_escaped)."
  },
  {
   "property": "C122",
   "status": "partial",
   "theorems": [
    "Maliput.Props.fresnel_accurate_partial",
    "Maliput.Props.fresnel_far",
    "Maliput.Props.fresnel_far_inaccurate",
    "Maliput.Props.fresnel_odd",
    "Maliput.Props.spiral_heading"
   ],
   "note": "Accurate to 1e-14 for arguments of at most 36974 in absolute value; beyond, halves are returned, which are within 8.61e-6 (fresnel_far) but not within 8e-6 (fresnel_far_inaccurate). Real arithmetic: rounding is not modelled."
  },
  {
   "property": "C123",
   "status": "partial",
   "theorems": [
    "Maliput.Props.lane_contains",
    "Maliput.Props.lane_contains_volume",
    "Maliput.Props.lane_contains_throws",
    "Maliput.Props.network_contains_lane",
    "Maliput.Props.network_contains_position_partial",
    "Maliput.Props.network_contains_foreign",
    "Maliput.Props.network_constructed"
   ],
   "note": "RoadNetwork::Contains(road position) does not ask whether the lane is in its road geometry: it is true for positions on lanes of other road networks (network_contains_foreign). The length and the tolerance are taken not to be negative."
  },
  {
   "property": "C124",
   "status": "proved",
   "theorems": [
    "Maliput.Props.row_state_latest",
    "Maliput.Props.row_calls",
    "Maliput.Props.current_groups",
    "Maliput.Props.current_groups_null"
   ],
   "note": "The groups for the manual provider of discrete value rules."
  },
  {
   "property": "C125",
   "status": "proved",
   "theorems": [
    "Maliput.Props.srange_numbers",
    "Maliput.Props.srange_refuses",
    "Maliput.Props.bounds_numbers",
    "Maliput.Props.bounds_refuse",
    "Maliput.Props.saturate_double",
    "Maliput.Props.speedLimits_double",
    "Maliput.Props.box_numbers",
    "Maliput.Props.box_refuses",
    "Maliput.Props.nan_never_inside",
    "Maliput.Props.srange_nan_tolerance",
    "Maliput.Props.box_position_nan",
    "Maliput.Props.box_position_double"
   ],
   "note": "saturate gives NaN back for NaN; with NaN as tolerance SRange::Intersects throws while Contains is false; a box with infinite corners has NaN as position."
  },
  {
   "property": "C126",
   "status": "partial",
   "theorems": [
    "Maliput.Props.srange_intersects_rounded",
    "Maliput.Props.srange_contains_rounded",
    "Maliput.Props.lane_contains_rounded",
    "Maliput.Props.box_contains_rounded",
    "Maliput.Props.box_contained_rounded",
    "Maliput.Props.box_intersected_rounded",
    "Maliput.Props.srange_negative_tolerance",
    "Maliput.Props.srange_intersects_not_symmetric",
    "Maliput.Props.rounding_is_nearest_even",
    "Maliput.Props.rounding_overflows",
    "Maliput.Props.double_sum",
    "Maliput.Props.double_product",
    "Maliput.Props.double_comparison"
   ],
   "note": "The last five theorems say that the numbers used here are those of IEEE 754.  Intersects is not symmetric under rounding (srange_intersects_not_symmetric). Negative tolerances: srange_negative_tolerance."
  },
  {
   "property": "C127",
   "status": "partial",
   "theorems": [
    "Maliput.Props.validator_rounded_partial",
    "Maliput.Props.validator_returns_extreme",
    "Maliput.Props.validator_wide_epsilon"
   ],
   "note": "The result is in the closed range only: the epsilon may be lost in rounding (validator_returns_extreme). No result is claimed if epsilon is above half the width, which is accepted and makes every call undefined (validator_wide_epsilon)."
  },
  {
   "property": "C128",
   "status": "partial",
   "theorems": [
    "Maliput.Props.urdf_reads_partial",
    "Maliput.Props.urdf_paths",
    "Maliput.Props.urdf_not_escaped",
    "Maliput.Props.urdf_slash"
   ],
   "note": "For ids and file roots that need no quoting in XML: nothing is escaped, so others make files that cannot be read (urdf_not_escaped). The files find each other if the file root has no slash (urdf_slash)."
  },
  {
   "property": "C129",
   "status": "proved",
   "theorems": [
    "Maliput.Props.loaded_rules_have_states",
    "Maliput.Props.loaded_rows_have_states",
    "Maliput.Props.loaded_unknown_phase"
   ],
   "note": "The provider does not check the phases it is given: with a phase the ring does not have, asking throws std::out_of_range (loaded_unknown_phase)."
  },
  {
   "property": "C130",
   "status": "proved",
   "theorems": [
    "Maliput.Props.clamped_spline",
    "Maliput.Props.ends_spline",
    "Maliput.Props.splines_reject",
    "Maliput.Props.lagrange_interpolates",
    "Maliput.Props.lagrange_aborts",
    "Maliput.Props.exact_solver_exists"
   ],
   "note": "In exact arithmetic, for scalar samples.  Eigen's solvers are a parameter, assumed to solve every square system whose matrix has no kernel; that the systems of the code are such systems is proved."
  },
  {
   "property": "C131",
   "status": "partial",
   "theorems": [
    "Maliput.Props.value_of_polynomial",
    "Maliput.Props.monomial_factor",
    "Maliput.Props.factor_zero_power",
    "Maliput.Props.is_affine_iff",
    "Maliput.Props.is_affine_sound",
    "Maliput.Props.variables_iff",
    "Maliput.Props.variables_sorted",
    "Maliput.Props.simple_variable_partial",
    "Maliput.Props.simple_variable_coefficient",
    "Maliput.Props.equal_sound",
    "Maliput.Props.equal_equivalence",
    "Maliput.Props.equal_iff_values_partial",
    "Maliput.Props.equal_order_of_variables",
    "Maliput.Props.almost_equal_iff",
    "Maliput.Props.almost_equal_symmetric",
    "Maliput.Props.almost_equal_values",
    "Maliput.Props.almost_equal_zero_partial",
    "Maliput.Props.trajectories_approx",
    "Maliput.Props.trajectories_approx_empty",
    "Maliput.Props.offset_values"
   ],
   "note": "Equal values make equal polynomials only if the monomials list their variables in the same order: x y and y x do not compare equal (equal_order_of_variables). A multiple of a variable is a simple variable whatever the coefficient (simple_variable_coefficient). A divisor with a power zero is refused (factor_zero_power). In exact arithmetic; trajectories are scalar."
  },
  {
   "property": "C132",
   "status": "proved",
   "theorems": [
    "Maliput.Props.written_numbers_are_read_back",
    "Maliput.Props.written_directions_are_read_back",
    "Maliput.Props.written_yield_groups_are_read_back",
    "Maliput.Props.written_bulb_states_are_read_back",
    "Maliput.Props.written_related_keys_are_read_back",
    "Maliput.Props.written_names_unreadable"
   ],
   "note": "The exceptions are part of the statement: written_names_unreadable, and the empty lists in the other theorems.  That yaml-cpp's text of a double is read as the same double is a hypothesis (its default precision is that of max_digits10).  A rotation is compared before the quaternion is normalized."
  },
  {
   "property": "C133",
   "status": "proved",
   "theorems": [
    "Maliput.Props.vector_index",
    "Maliput.Props.vector_make",
    "Maliput.Props.vector_elements",
    "Maliput.Props.vector_reduce",
    "Maliput.Props.vector_cross",
    "Maliput.Props.vector_cross_units",
    "Maliput.Props.vector_norm",
    "Maliput.Props.vector_normalized",
    "Maliput.Props.matrix_make",
    "Maliput.Props.matrix_loops",
    "Maliput.Props.matrix_index",
    "Maliput.Props.matrix_text"
   ],
   "note": "In exact arithmetic: in double arithmetic the squares of very small elements are zero, so that normalizing divides by zero.  The text of a number is a parameter."
  },
  {
   "property": "C134",
   "status": "proved",
   "theorems": [
    "Maliput.Props.inertial_position_iff",
    "Maliput.Props.lane_position_iff",
    "Maliput.Props.segment_position_iff",
    "Maliput.Props.unimplemented_throws",
    "Maliput.Props.lane_position_round_trip",
    "Maliput.Props.nearest_answer_iff",
    "Maliput.Props.find_positions_moved",
    "Maliput.Props.to_position_moved",
    "Maliput.Props.moved_geometries_agree",
    "Maliput.Props.double_round_trip_near",
    "Maliput.Props.double_round_trip_exact",
    "Maliput.Props.double_round_trip_fails"
   ],
   "note": "The queries of the road geometry are those of the brute force strategy.  The rotation part of the transformation does not exist in the code."
  },
  {
   "property": "C135",
   "status": "partial",
   "theorems": [
    "Maliput.Props.step_extend_iff",
    "Maliput.Props.update_accepts_iff",
    "Maliput.Props.rollback_undoes_update",
    "Maliput.Props.no_updates_throw",
    "Maliput.Props.queries_until_consolidated",
    "Maliput.Props.dense_output_is_spline_partial",
    "Maliput.Props.accepted_updates_not_consolidated",
    "Maliput.Props.update_after_failure_undefined",
    "Maliput.Props.update_of_trajectory_undefined"
   ],
   "note": "For steps that continue the previous one exactly; the library accepts steps that do so only up to rounding, some of which cannot be consolidated (accepted_updates_not_consolidated).  States with one component; C155 has any number."
  },
  {
   "property": "C136",
   "status": "proved",
   "theorems": [
    "Maliput.Props.next_sample_time_iff",
    "Maliput.Props.next_update_time_iff",
    "Maliput.Props.unsound_timing_aborts",
    "Maliput.Props.due_now_not_reported",
    "Maliput.Props.perturbed_time_reports",
    "Maliput.Props.run_history",
    "Maliput.Props.run_passes_every_time",
    "Maliput.Props.step_and_initialization_events",
    "Maliput.Props.periodic_events_grouped",
    "Maliput.Props.unique_discrete_timing_iff",
    "Maliput.Props.difference_equation_iff",
    "Maliput.Props.next_sample_double_exact",
    "Maliput.Props.double_next_sample_stuck"
   ],
   "note": "Times are exact; the last two theorems are about double arithmetic, where the sample time is the exact one for times on a binary grid and can fail to be after the current one for times too large for the period."
  },
  {
   "property": "C137",
   "status": "partial",
   "theorems": [
    "Maliput.Props.vector_histories",
    "Maliput.Props.subvector_iff",
    "Maliput.Props.subvector_contents",
    "Maliput.Props.reading_vector",
    "Maliput.Props.subvector_reads_beyond",
    "Maliput.Props.setting_element",
    "Maliput.Props.writing_apart",
    "Maliput.Props.copying_vector",
    "Maliput.Props.not_behind",
    "Maliput.Props.copying_overlap",
    "Maliput.Props.copying_wrong",
    "Maliput.Props.setting_vector",
    "Maliput.Props.zeroing_vector",
    "Maliput.Props.adding_vectors_partial",
    "Maliput.Props.adding_to_subvector",
    "Maliput.Props.adding_self_wrong",
    "Maliput.Props.continuous_state_iff",
    "Maliput.Props.continuous_state_parts",
    "Maliput.Props.writing_parts",
    "Maliput.Props.continuous_state_invariants",
    "Maliput.Props.cloning_state",
    "Maliput.Props.setting_state"
   ],
   "note": "Copying and adding are false of vectors that share elements in some ways, with witnesses; the theorems say for which sharing they hold, and what copying does otherwise. Vectors are not destroyed, integers do not overflow, the assertions of a debug build are left out except those of the constructor of a state."
  },
  {
   "property": "C138",
   "status": "partial",
   "theorems": [
    "Maliput.Props.type_hash_text",
    "Maliput.Props.type_hash_stable",
    "Maliput.Props.type_hash_input",
    "Maliput.Props.type_hash_one_character",
    "Maliput.Props.type_hash_unsupported",
    "Maliput.Props.type_hash_collides",
    "Maliput.Props.compilers_conform",
    "Maliput.Props.value_access_exact",
    "Maliput.Props.value_access_release",
    "Maliput.Props.values_history_partial",
    "Maliput.Props.values_independent",
    "Maliput.Props.value_anonymous_confusion"
   ],
   "note": "In a release the access is decided by 64-bit hashes: histories are proved for types whose hashes differ. Classes of the same name in the anonymous namespaces of two files have the same hash, so the access is undefined behaviour (value_anonymous_confusion); other collisions exist by counting (type_hash_collides). Compiler output is any text with the arguments after \"= \"; null unique_ptr arguments are left out."
  },
  {
   "property": "C139",
   "status": "proved",
   "theorems": [
    "Maliput.Props.states_history",
    "Maliput.Props.state_reads",
    "Maliput.Props.others_unchanged",
    "Maliput.Props.copied_outcome",
    "Maliput.Props.set_from_outcome",
    "Maliput.Props.discrete_made",
    "Maliput.Props.group_appended",
    "Maliput.Props.only_group",
    "Maliput.Props.parameters_set_from",
    "Maliput.Props.parameters_cloned",
    "Maliput.Props.abstract_numbers_differ",
    "Maliput.Props.set_from_partly"
   ],
   "note": "Abstract values are assumed to be as many on both sides of SetFrom (otherwise it aborts or is undefined, abstract_numbers_differ), and accessed only at indices they have, which only assertions check. A SetFrom that throws may have copied what came before (set_from_partly); the exact result is part of the statement. In a release the types have different hashes (C138)."
  },
  {
   "property": "C140",
   "status": "partial",
   "theorems": [
    "Maliput.Props.event_collections_partial",
    "Maliput.Props.collection_has_events",
    "Maliput.Props.collections_added_and_copied",
    "Maliput.Props.event_pointers_stay",
    "Maliput.Props.different_diagrams",
    "Maliput.Props.diagram_collections",
    "Maliput.Props.composite_calls",
    "Maliput.Props.composite_has_events",
    "Maliput.Props.publishing_events",
    "Maliput.Props.discrete_updates",
    "Maliput.Props.unrestricted_updates",
    "Maliput.Props.applied_updates",
    "Maliput.Props.reserve_dangles",
    "Maliput.Props.adding_to_itself",
    "Maliput.Props.setting_from_itself"
   ],
   "note": "False of the code in three cases, which the history excludes: Reserve on a collection with events leaves its pointers dangling until the next AddEvent (reserve_dangles), AddToEnd of a collection to itself is undefined behaviour (adding_to_itself), SetFrom of itself loses the events (setting_from_itself). For diagrams the tree of collections is fixed before it is used."
  },
  {
   "property": "C141",
   "status": "proved",
   "theorems": [
    "Maliput.Props.leaf_system_history",
    "Maliput.Props.contexts_read",
    "Maliput.Props.other_objects_unchanged",
    "Maliput.Props.context_shape_kept",
    "Maliput.Props.defaults_restored",
    "Maliput.Props.late_declarations_fail",
    "Maliput.Props.bad_partition_accepted",
    "Maliput.Props.models_found"
   ],
   "note": "The specification is what the operations do to plain values (Spec/LeafDefaults.lean); the history theorem relates every run of the model, with its memory and pointers, to it, and contexts_read says what is read through the pointers. Overridden virtual functions are not modelled."
  },
  {
   "property": "C142",
   "status": "proved",
   "theorems": [
    "Maliput.Props.ivp_solve_reaches",
    "Maliput.Props.ivp_solve_accurate",
    "Maliput.Props.ivp_denseSolve_joins",
    "Maliput.Props.ivp_refuses",
    "Maliput.Props.ivp_defaults",
    "Maliput.Props.ivp_denseSolve_fresh",
    "Maliput.Props.ivp_denseSolve_solve",
    "Maliput.Props.ivp_solve_fresh",
    "Maliput.Props.ivp_constant",
    "Maliput.Props.ivp_equilibrium",
    "Maliput.Props.ivp_conserves",
    "Maliput.Props.ivp_empty",
    "Maliput.Props.ivp_exceptions",
    "Maliput.Props.ivp_after_exception"
   ],
   "note": "After a call that threw the steps need not be accurate (evaluate_after_exception of C104 is a witness for the states of one element). Whether a call throws depends on earlier calls that threw (ivp_after_exception). Numbers are those of an ordered field."
  },
  {
   "property": "C143",
   "status": "proved",
   "theorems": [
    "Maliput.Props.scalar_ivp_make",
    "Maliput.Props.scalar_ivp_reaches",
    "Maliput.Props.scalar_ivp_accurate",
    "Maliput.Props.scalar_ivp_dense",
    "Maliput.Props.scalar_ivp_like_vector",
    "Maliput.Props.scalar_ivp_exceptions",
    "Maliput.Props.scalar_ivp_refuses",
    "Maliput.Props.antiderivative_make",
    "Maliput.Props.antiderivative_simpson",
    "Maliput.Props.antiderivative_cubic",
    "Maliput.Props.antiderivative_dense",
    "Maliput.Props.antiderivative_error"
   ],
   "note": "The functions may fail for some arguments; the theorems speak of any function with the same values where there are some. Numbers are those of an ordered field (real numbers for the error bound)."
  },
  {
   "property": "C144",
   "status": "proved",
   "theorems": [
    "Maliput.Props.ivp_solve_terminates",
    "Maliput.Props.ivp_denseSolve_terminates",
    "Maliput.Props.ivp_solve_returns",
    "Maliput.Props.ivp_smooth_of_bounded",
    "Maliput.Props.ivp_solve_never_returns",
    "Maliput.Props.scalar_ivp_terminates",
    "Maliput.Props.antiderivative_returns"
   ],
   "note": "The hypothesis on the maximum step size is needed: ivp_solve_never_returns shows that with zero Solve never returns for a time after the initial one. Numbers are those of an Archimedean ordered field."
  },
  {
   "property": "C145",
   "status": "proved",
   "theorems": [
    "Maliput.Props.constraint_bounds",
    "Maliput.Props.constraint_one_sided",
    "Maliput.Props.constraint_satisfied",
    "Maliput.Props.constraint_check_errors",
    "Maliput.Props.constraint_tolerance_mono",
    "Maliput.Props.constraints_history",
    "Maliput.Props.system_constraints_satisfied",
    "Maliput.Props.constraints_whole",
    "Maliput.Props.vector_constraint_declared",
    "Maliput.Props.vector_constraint_means",
    "Maliput.Props.vector_constraint_fixed_throws",
    "Maliput.Props.system_constraints_stop"
   ],
   "note": "Values are finite numbers of an ordered field; bounds may be infinite but are not NaN."
  },
  {
   "property": "C146",
   "status": "proved",
   "theorems": [
    "Maliput.Props.port_names_distinct",
    "Maliput.Props.port_lookup",
    "Maliput.Props.ports_stay",
    "Maliput.Props.input_port_declared",
    "Maliput.Props.output_port_declared",
    "Maliput.Props.modelled_port_declared",
    "Maliput.Props.default_port_names",
    "Maliput.Props.default_name_taken",
    "Maliput.Props.input_port_after_throw",
    "Maliput.Props.port_by_index",
    "Maliput.Props.input_ports_as_declared",
    "Maliput.Props.fix_value_checked",
    "Maliput.Props.fixed_value_is_last",
    "Maliput.Props.fix_all_inputs",
    "Maliput.Props.overwritten_vector_aborts",
    "Maliput.Props.stale_model_used",
    "Maliput.Props.abstract_port_needs_model"
   ],
   "note": "The theorems on values are for systems whose input ports are declared with models; what may happen with ports declared without is shown by stale_model_used and abstract_port_needs_model. The system is a root leaf system."
  },
  {
   "property": "C147",
   "status": "partial",
   "theorems": [
    "Maliput.Props.index_made",
    "Maliput.Props.index_arithmetic",
    "Maliput.Props.index_history",
    "Maliput.Props.index_without_assertions",
    "Maliput.Props.index_after_throw",
    "Maliput.Props.index_spoilt_by_throw",
    "Maliput.Props.index_sub_least",
    "Maliput.Props.index_is_valid",
    "Maliput.Props.index_move_to_self",
    "Maliput.Props.index_compare",
    "Maliput.Props.index_compare_unsigned",
    "Maliput.Props.unsigned_compare_index_partial",
    "Maliput.Props.unsigned_compare_index_wrong",
    "Maliput.Props.index_truncated"
   ],
   "note": "Comparisons with an unsigned value on the left are wrong whenever the numbers are equal (unsigned_compare_index_wrong), so only == and != and the case of different numbers are proved; subtracting the least int is undefined (index_sub_least)."
  },
  {
   "property": "C148",
   "status": "partial",
   "theorems": [
    "Maliput.Props.polynomial_text_read_partial",
    "Maliput.Props.polynomial_text_readable",
    "Maliput.Props.polynomial_text_value_partial",
    "Maliput.Props.polynomial_text_determines_partial",
    "Maliput.Props.polynomial_minus_one_text",
    "Maliput.Props.polynomial_text_other_ids"
   ],
   "note": "Exactly when no monomial is the number -1, which is written as a minus with nothing after it: t - 1 is written as \"t1-\" (polynomial_minus_one_text). Texts determine polynomials in variables made from names of up to four characters."
  },
  {
   "property": "C149",
   "status": "proved",
   "theorems": [
    "Maliput.Props.copyable_ptr_values",
    "Maliput.Props.copyable_ptr_owned",
    "Maliput.Props.copyable_ptr_no_leak",
    "Maliput.Props.copyable_ptr_own_address",
    "Maliput.Props.copyable_ptr_shared_address"
   ],
   "note": "An address is given to a container once: a container that is given the address it holds deletes its object and goes on holding it (copyable_ptr_own_address), and two containers given the same address share an object (copyable_ptr_shared_address)."
  },
  {
   "property": "C150",
   "status": "proved",
   "theorems": [
    "Maliput.Props.matrix_trajectory_value",
    "Maliput.Props.matrix_trajectory_value_total",
    "Maliput.Props.matrix_trajectory_scalarValue",
    "Maliput.Props.matrix_trajectory_derivative",
    "Maliput.Props.matrix_trajectory_integral",
    "Maliput.Props.matrix_trajectory_add_sub",
    "Maliput.Props.matrix_trajectory_concatenate",
    "Maliput.Props.matrix_trajectory_concatenate_throws",
    "Maliput.Props.matrix_trajectory_append",
    "Maliput.Props.matrix_trajectory_remove_shift",
    "Maliput.Props.matrix_trajectory_reverse_scale",
    "Maliput.Props.matrix_trajectory_slice",
    "Maliput.Props.matrix_trajectory_block",
    "Maliput.Props.matrix_trajectory_reshape",
    "Maliput.Props.matrix_trajectory_reshape_negative",
    "Maliput.Props.matrix_trajectory_setBlock",
    "Maliput.Props.matrix_trajectory_scalar",
    "Maliput.Props.matrix_trajectory_mul",
    "Maliput.Props.matrix_trajectory_offset",
    "Maliput.Props.matrix_trajectory_range"
   ],
   "note": "With the theorems on trajectories of numbers (C96, C99, C100) these give the values of the results. Reshape does not refuse two negative sizes whose product fits (matrix_trajectory_reshape_negative). Splines are the subject of C152."
  },
  {
   "property": "C151",
   "status": "proved",
   "theorems": [
    "Maliput.Props.identifier_equal",
    "Maliput.Props.identifier_order",
    "Maliput.Props.identifier_valid",
    "Maliput.Props.identifier_invalid_throws",
    "Maliput.Props.identifier_safe_compare",
    "Maliput.Props.identifier_text",
    "Maliput.Props.identifier_unarmed_invalid"
   ],
   "note": "The increment of the counter is one step because it is an atomic read-modify-write; a thread stores what it got in a later step. Without assertions invalid identifiers compare equal to each other (identifier_unarmed_invalid), which the documentation leaves open."
  },
  {
   "property": "C152",
   "status": "proved",
   "theorems": [
    "Maliput.Props.matrix_spline_zeroOrder",
    "Maliput.Props.matrix_spline_firstOrder",
    "Maliput.Props.matrix_spline_hermite",
    "Maliput.Props.matrix_spline_shapePreserving",
    "Maliput.Props.matrix_spline_clamped",
    "Maliput.Props.matrix_spline_ends",
    "Maliput.Props.matrix_spline_lagrange",
    "Maliput.Props.matrix_spline_sizes",
    "Maliput.Props.matrix_spline_derivative_sizes",
    "Maliput.Props.matrix_spline_end_sizes",
    "Maliput.Props.matrix_spline_lagrange_sizes",
    "Maliput.Props.matrix_spline_columns"
   ],
   "note": "With the theorems on splines of numbers these give the values, derivatives and bounds of each entry. The solvers of Eigen are a parameter: the theorems hold whatever they return. The source writes the right hand sides of all entries into one vector, and the model passes that vector on, so the theorems also say that no entry leaks into the next one."
  },
  {
   "property": "C153",
   "status": "partial",
   "theorems": [
    "Maliput.Props.fix_from_same_shape",
    "Maliput.Props.fix_from_succeeds",
    "Maliput.Props.fix_from_fails_partial",
    "Maliput.Props.fix_from_cuts",
    "Maliput.Props.fix_from_short_ub",
    "Maliput.Props.fix_from_not_atomic"
   ],
   "note": "Systems of the same shape: proved. Missing is that other systems are refused, which is false: more ports and longer vectors of the other system are ignored (fix_from_cuts), and a shorter vector is read past its end (fix_from_short_ub). fix_from_succeeds says exactly when the call succeeds and what it does, fix_from_fails_partial how it fails. A failed call has changed the ports before the one that failed (fix_from_not_atomic)."
  },
  {
   "property": "C154",
   "status": "proved",
   "theorems": [
    "Maliput.Props.witness_triggers",
    "Maliput.Props.witness_sides",
    "Maliput.Props.witness_zero_found",
    "Maliput.Props.witness_not_missed",
    "Maliput.Props.witness_once"
   ],
   "note": "The characterization with the product is the one in the documentation of the class. How a simulator isolates the time is not part of this repository."
  },
  {
   "property": "C155",
   "status": "partial",
   "theorems": [
    "Maliput.Props.vector_dense_output_partial",
    "Maliput.Props.vector_dense_output_samples_partial",
    "Maliput.Props.vector_step_samples",
    "Maliput.Props.vector_step_extend_iff",
    "Maliput.Props.vector_update_accepts_iff"
   ],
   "note": "The conditions on steps and updates are proved for all steps. The output is related to those of the components for steps that continue the previous one exactly, as in C135, which says what the output of a component is; missing are steps that continue it only up to rounding, some of which cannot be consolidated (see the finding of C135)."
  },
  {
   "property": "C156",
   "status": "proved",
   "theorems": [
    "Maliput.Props.implicit_residual_size",
    "Maliput.Props.eval_time_derivatives",
    "Maliput.Props.implicit_residual_iff",
    "Maliput.Props.implicit_residual_zero",
    "Maliput.Props.implicit_residual_failed",
    "Maliput.Props.velocity_maps"
   ],
   "note": "Overrides of the derivatives are arbitrary functions of the context and of the vector that they overwrite; they cannot change its size. If one throws, the residual is left with the proposed derivatives (implicit_residual_failed)."
  },
  {
   "property": "C157",
   "status": "proved",
   "theorems": [
    "Maliput.Props.producer_made",
    "Maliput.Props.producer_calculates",
    "Maliput.Props.producer_allocates",
    "Maliput.Props.producer_generic",
    "Maliput.Props.producer_invalid"
   ],
   "note": "dynamic_cast is an arbitrary partial function. The texts of exceptions are not modelled; the one for an instance of the wrong class names the static type of the instance instead of the class that was asked for (value_producer.h:354). A member function that allocates null makes Allocate abort (in producer_allocates). Assignments of returned values are taken not to throw."
  },
  {
   "property": "C158",
   "status": "partial",
   "theorems": [
    "Maliput.Props.state_port_declared",
    "Maliput.Props.discrete_port_value",
    "Maliput.Props.abstract_port_value",
    "Maliput.Props.continuous_port_value_partial",
    "Maliput.Props.state_written",
    "Maliput.Props.continuous_state_written",
    "Maliput.Props.abstract_state_written",
    "Maliput.Props.continuous_port_stale"
   ],
   "note": "Proved for discrete and abstract states. For the continuous state it is false: the last declaration of the continuous state counts, but a port declared before keeps the old size, so that every evaluation throws if the sizes differ (continuous_port_stale); continuous_port_value_partial says exactly when it works. The context is made after the last declaration; caches and tickets of ports are not in this model."
  }
 ]
}