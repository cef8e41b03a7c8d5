# Formal model of maliput in Lean 4: design

Source: `/repo` (maliput/maliput, pinned commit).  Lean project: `/verif/lean`
(Lean 4.33.0, Mathlib imported module by module).  The properties are listed in
`properties.jsonl` (C01, C02, ...); `MANIFEST.json` maps each of them to the
theorems that were proved.

## Layout

* `Verif/Model/*.lean`  - executable model of the code, one file per area; each
  definition cites the file and lines it models and says what it simplifies.
* `Verif/Spec/*.lean`   - small independent specifications, not using the
  model's helpers (only its data types).
* `Verif/Lemmas/*.lean` - helper lemmas and invariants.
* `Verif/Props/*.lean`  - the property theorems, and beside each an `example`
  with a concrete non-trivial case that meets the hypotheses.

## Modelling conventions

* **Exceptions.**  A C++ function that may throw returns `Except Err α`
  (`Err.throws` = an assertion/validation exception; `Err.outOfRange` = an
  `std::out_of_range` from `.at`; `Err.ub` = undefined behaviour such as
  dereferencing an empty optional).  A method that mutates an object before it
  throws returns the mutated state beside the error, so that partial updates
  stay visible.
* **Doubles** are modelled by exact rationals `ℚ` (every finite double is a
  rational; comparisons, `min`, `max`, negation, `fabs` are then exact), or `ℝ`
  where `sqrt`, `sin`, `cos` occur, or `ℚ` extended with infinities where the
  code uses `std::numeric_limits<double>::infinity()`.  Rounding of `+ - * /`
  and NaN are modelled in `Double` only; elsewhere theorems that depend on arithmetic hold of exact
  arithmetic only.
* **Identifiers** (`LaneId`, `Rule::Id`, ...) are strings or an arbitrary type
  with decidable equality; pointers to graph objects are identified with the
  object's index/id.
* **Containers.**  `std::vector`/`deque` = `List`; `std::(unordered_)map` = an
  association list with unique keys or a function `key → Option value`;
  iteration order of unordered containers is left arbitrary by quantifying over
  the list (every theorem holds for every order).
* **Virtual geometry** (what a backend implements: `Lane::ToInertialPosition`,
  `ToLanePosition`, `length`, ...) is a parameter of the model: an arbitrary
  function, or one with an explicitly stated assumption.
* **Concurrency** (thread pool) is a labelled transition system with one step per
  lock acquisition / release / condition variable operation / atomic access;
  a theorem about it holds for all schedules.

## Trusted base

1. Lean's kernel (and the `lake`/`lean` front end that hands it the terms).
2. The three standard axioms `propext`, `Classical.choice`, `Quot.sound`
   (`AXIOMS.md` lists them theorem by theorem); no others (no `sorry`, no `native_decide`, no `bv_decide`, no own axioms).
3. The reading of the C++ code: the model is transcribed by hand and the code was
   not run.  The comments cite lines so that each definition can be compared.
4. The standard library contracts stated in the models (`std::nth_element`,
   `std::sort`, `std::map`, mutex/condition variable semantics).
5. Exact arithmetic instead of IEEE doubles, as said above.

## What is modelled

| model | code |
|---|---|
| `Regions` | `api/regions` |
| `AxisAlignedBox`, `KdTree` | `math/axis_aligned_box`, `math/kd_tree.h` |
| `BoundingBox` | `math/bounding_box` |
| `Compare` | `common/compare.h`, `api/compare`, `api/rules/compare`, `math/compare`, `routing/compare`, without the texts |
| `Matrix` | `math/matrix`, the arithmetic of `math/vector` |
| `Quaternion` | `math/quaternion`, `math/roll_pitch_yaw`, `api::Rotation` of `api/lane_data` |
| `ThreadPool` | `utility/thread_pool` |
| `BranchPoint`, `GeometryBase` | `geometry_base/{branch_point,lane,segment,junction,road_geometry}`, `api/basic_id_index` |
| `Strategy` | `geometry_base/{brute_force_strategy,brute_force_find_road_positions_strategy,filter_positions,kd_tree_strategy}` |
| `LaneSequences` | `routing/{find_lane_sequences,derive_lane_s_routes}` |
| `Graph` | `routing/graph/{graph,graph_utils}` |
| `Router`, `Route` | `base/distance_router`, `routing/{phase,route,router}` |
| `Rules`, `Rulebook`, `RuleRegistry`, `RuleStateProvider`, `DeprecatedRules` | `api/rules/{rule,discrete_value_rule,range_value_rule,rule_registry,right_of_way_rule,speed_limit_rule,direction_usage_rule}`, `base/{manual_rulebook,rule_filter,manual_discrete_value_rule_state_provider,manual_range_value_rule_state_provider}` |
| `Phases` | `api/rules/{phase,phase_ring}`, `base/{manual_phase_ring_book,manual_phase_provider,phased_discrete_rule_state_provider,phase_based_right_of_way_rule_state_provider}` |
| `TrafficLights`, `Intersection` | `api/rules/traffic_lights`, `base/{traffic_light_book,intersection,intersection_book}`, `api/intersection` |
| `Validator` | `api/road_network_validator`, `RoadGeometry::CheckInvariants`, `IsContiguous` |
| `Waypoints` | `RoadGeometry::SampleAheadWaypoints` |
| `Mesh`, `MeshSimplification`, `DouglasPeucker` | `utility/{mesh.h,mesh_simplification}` |
| `SegmentAnalysis` | `utility/segment_analysis` |
| `Hash` | `common/maliput_hash.h`, the hashes of identifiers |
| `RangeValidator` | `common/range_validator` |
| `Yaml` (contract), `RulebookLoader`, `RegistryLoader`, `TrafficLightLoader`, `PhaseRingLoader`, `IntersectionLoader` | `base/road_rulebook_loader.cc`, `base/road_rulebook_loader_using_rule_registry.cc`, `base/rule_registry_loader.cc`, `base/yaml_conversion.cc`, `base/rule_registry.cc`, `base/traffic_light_book_loader.cc`, `base/phase_ring_book_loader.cc`, `base/phase_ring_book_loader_old_rules.cc`, `base/intersection_book_loader.cc`; of yaml-cpp the behaviour of parsed nodes |
| `RoadMesh` | `utility/generate_obj.cc` (lanes: covering, stripes, arrows, size of the grid), `SrhFace` of `utility/mesh.h`; the geometry of lanes is a parameter |
| `GenerateObj` | the rest of `utility/generate_obj.cc` (branch points, segments, `BuildMeshes`, `BuildMesh`, `BuildRoadGeometryMesh`, materials, `GenerateObjFile`), `utility/string_format.cc`; simplification of faces is a parameter, opening files is left out |
| `Polynomial` | `drake/common/polynomial.cc` over fields (construction, arithmetic, evaluation, substitution, calculus, coefficients, names of variables); not `Roots` above degree one, `FromExpression`, `CoefficientsAlmostEqual` and the aliased `p += p` |
| `PiecewisePolynomial` | `drake/common/trajectories/piecewise_polynomial.cc`, `piecewise_trajectory.cc` for 1 x 1 matrices over ordered fields (`MatrixTrajectory` lifts all but the splines to matrices of any size) (construction, segments, evaluation, zero and first order holds, cubic Hermite, shape preserving, joins, calculus, arithmetic, changes of time, slices); `CubicSpline` has the other interpolants; not `isApprox`, blocks and serialization |
| `Integrator` | `drake/arc_length_integrator.cc`, `drake/inverse_arc_length_integrator.cc`, `drake/systems/analysis/initial_value_problem.cc`, `integrator_base.cc`/`.h`, `runge_kutta3_integrator.cc`, `hermitian_dense_output.h`, `antiderivative_function.h`, `scalar_initial_value_problem.h` as the integrators use them: one state variable, error control on, no minimum step size, no publish or update times; not NaN, not fixed steps, not the other integrators |
| `Cache`, `CacheUse` | `drake/systems/framework/` of leaf systems: declarations (`system_base.cc`, `leaf_system.cc`), trackers (`dependency_tracker.cc`), cache entries (`cache_entry.h`, `cache.cc`), `context_base.cc`, the mutable accesses and fixed input ports of `context.cc`; `GetDirectFeedthroughs`; `RungeKutta3Integrator::DoStep` on a context. Calculators are programs without other effects; not diagrams, events, continuous state pieces below q, v, z, `SetTimeStateAndParametersFrom` between contexts of different systems |
| `VectorText` | `math/vector.cc`: `FromStr`, `to_str`; `std::stod` and the writing of a number are parameters |
| `Files` | `common/filesystem.cc`: `Path` and the functions over directories, with the file system as a map from locations to files and directories, or as a tree; not symbolic links, `.` and `..`, rights to remove, Windows |
| `Plugins` | `plugin/maliput_plugin_manager.cc`, `maliput_plugin.cc`, `create_road_network.cc`; what the linker finds in a library is a parameter |
| `Logger` | `common/logger.cc`, `logger.h`: levels, sinks and messages, for one thread |
| `GenerateString`, `GenerateDot` | `utility/generate_string.cc`, `generate_dot.cc`; texts of ids, lengths and positions are parameters |
| `Fresnel` | `math/fresnel.cc`, over the reals; the coefficients are the decimal literals of the source |
| `Contains` | `Lane::Contains` of `api/lane.cc`, `api/road_network.cc`; what a lane answers is a parameter |
| `RightOfWayTools` | `base/manual_right_of_way_rule_state_provider.cc`, `base/rule_tools.cc` |
| `Double` | binary64: comparisons, rounding to nearest even, overflow, `+ - *`, `std::min/max/fabs` on it; one zero; `Props/DoubleArithmetic` says it is the arithmetic of IEEE 754 |
| `DoubleRanges` | in `double`: `api/regions.cc` (`SRange`), `RBounds`, `HBounds`, `math/saturate.cc`, the limits of `SpeedLimitRule`, `Lane::Contains`, `math/axis_aligned_box.cc`, `common/range_validator.cc` |
| `GenerateUrdf` | `utility/generate_urdf.cc`, with `GenerateObj` for the Wavefront file; `Spec/Xml` is a reader of XML |
| `CubicSpline` | `drake/common/trajectories/piecewise_polynomial.cc`: cubic splines with continuous second derivatives and the interpolating polynomial; Eigen's `SparseLU` and `ColPivHouseholderQR` are a parameter that solves every square system whose matrix has no kernel |
| `PolynomialQueries` | `drake/common/polynomial.{h,cc}`: division of monomials, `IsAffine`, `GetSimpleVariable`, `GetVariables`, `operator==`, `CoefficientsAlmostEqual`; `drake/common/trajectories/piecewise_polynomial.cc`: `isApprox`, offsets and opposites, for 1 x 1 matrices |
| `YamlEncode` | the `encode` halves of the `YAML::convert` specializations in `src/maliput/base`; the text of a number is a parameter |
| `VectorOps` | `math/vector.cc`, `math/matrix.cc`: constructors, checked indices, the loops of `reduce`, `col`, `transpose`, `cofactor`, `determinant`, `operator*`, `Identity` as written, lengths, cross products, texts of matrices |
| `BackendFrame` | `geometry_base/lane.cc`: the translation between the Inertial Frame and the frame of the backend, over the rationals and over `double` |
| `DenseOutput` | `drake/systems/analysis/hermitian_dense_output.h`, `dense_output.h`: integration steps, `Update`, `Rollback`, `Consolidate` and the queries, for one component |
| `PeriodicEvents` | `drake/systems/framework/leaf_system.cc`, `leaf_system.h`, `system.cc`, `event.h`: declaration of events, next update time, listing of the periodic events; the sample time also in `double` arithmetic. Handlers are opaque |
| `StateVectors` | `drake/systems/framework/vector_base.h`, `basic_vector.h`, `subvector.h`, `continuous_state.cc`, `continuous_state.h`: one memory for all vectors, ranges as references to it |
| `TypeErasure` | `drake/common/value.h`, `drake/common/hash.h` (`FNV1aHasher`): the reading of `__PRETTY_FUNCTION__`, `TypeHasher` for the four kinds of types, `AbstractValue` and `Value` |
| `SystemState` | `discrete_values.h`, `abstract_values.cc`, `state.h`, `parameters.h`, `leaf_context.cc` (`DoCloneState`): construction, access, `SetFrom`, `Clone` |
| `EventCollections` | `event_collection.h` (all collections and their calls), `leaf_system.cc` and `system.cc` (dispatch and handling of the events of a leaf system, application of updates) |
| `LeafDefaults` | `leaf_system.cc` (declarations of states and parameters, allocation of contexts, defaults), `model_values.cc/.h`, `system.cc` (CreateDefaultContext, SetDefaultContext) |
| `InitialValueProblem` | `initial_value_problem.cc/.h` with vectors, default values and right hand sides that may throw; `runge_kutta3_integrator.cc` (DoStep) and the parts of `integrator_base.cc/.h` it uses, for vectors |
| `ScalarInitialValueProblem` | `scalar_initial_value_problem.h`, `antiderivative_function.h` and the constructor of `scalar_view_dense_output.h`, as wrappers of the model of C142 |
| `InitialValueProblemTermination` | the model of C142 and C143 |
| `SystemConstraint` | system_constraint.h, system_constraint.cc and the functions of system.cc and leaf_system.cc that add, look up and check constraints |
| `Ports` | the functions of leaf_system.cc, system.cc, system_base.h, context_base.cc, input_port.h and fixed_input_port_value.cc that declare ports, look them up and fix and evaluate values of input ports |
| `TypeSafeIndex` | type_safe_index.h except deleted operators and the hash |
| `PolynomialText` | the stream operators of monomials and polynomials, character by character; how the stream writes a number is any function |
| `CopyablePtr` | the assignments, moves, copies and accessors of the class over a heap with addresses; constructors and the destructor are assignments to empty containers and of null; addresses are not reused |
| `MatrixTrajectory` | piecewise polynomials of matrices stored column by column; loops over entries visit them column by column instead of row by row; what Eigen's assertions refuse is undefined |
| `Identifier` | identifiers as 64-bit integers with one wrapping counter for each tag; steps of threads in any order; hashing is not modelled |
| `MatrixSplines` | the functions that make trajectories of matrices from samples; the entries of a segment are computed together, where the source loops over entries outside and segments inside |
| `InputCopies` | copying the values of input ports from one context to another |
| `Witness` | when a witness function triggers |
| `VectorDenseOutput` | the dense output of states with any number of components |
| `ImplicitDerivatives` | time derivatives in implicit form and the maps between velocities and derivatives of positions, without overrides |
| `ValueProducer` | all ways to construct a value producer, Allocate, Calc and is_valid, with erased outputs as pairs of a type and a value; not moved-from producers and the texts of exceptions |
| `StatePorts` | declarations of states of leaf systems, their output ports and the evaluation of these in contexts; not names, tickets and caches |
| `NamedPolynomial` | the constructor of polynomials from the name of a variable (C94) |

## What is not modelled

* Floating point rounding, overflow and NaN, except in `Double` and `DoubleRanges` (and NaN where a comment says so).
* Memory: allocation, ownership, object lifetime and aliasing, except where a use after move or a dangling access is the
  point (`Err.ub`).
* The text of exceptions, profiling, `to_string`/`operator<<` formatting of numbers.
* The vendored `drake/` directory except what the table names, the parsing of YAML text, the mock objects.
* Geometry of a backend: it is a parameter (see the conventions).

## Findings

Places where the code does not do what its documentation or the property says.  Each has a theorem that shows it
for a concrete input of the model (the names are in the namespace `Maliput.Props`); the theorems with the suffix `_partial`
say what holds instead.

| property | theorem | what happens |
|---|---|---|
| C04 | `laneSRoute_intersects_not_complete` | only the first range of the other route on a lane is compared |
| C05 | `isIncluded_not_complete` | the first range whose lane is within tolerance decides |
| C08 | `kdTree_rangeSearch_misses` | a positive tolerance of the region is ignored when subtrees are skipped |
| C10 | `pool_finish_race` | `Queue` concurrent with `Finish` can leave a task that never runs |
| C11 | `pool_finish_without_start` | `Finish` without `Start` never returns |
| C14 | `rejected_addBranch_changes` | the lane end is inserted before the check that throws |
| C16 | `rejected_addLane_not_indexed` | a rejected lane stays in its segment but is not in the index |
| C17 | `kdFindRoadPositions_misses` | the kd-tree strategy misses lanes within the radius |
| C18 | `toRoadPosition_drifts` | the tie threshold accumulates over lanes |
| C19 | `findLaneSequences_duplicates` | a sequence is reported twice if two lanes are joined at both ends |
| C20 | `findLaneSequences_rejects_straight`, `findLaneSequences_accepts_uTurn` | the U-turn check is wrong for lanes of mixed directions |
| C21 | `deriveLaneSRoutes_disconnected`, `deriveLaneSRoutes_not_traversed` | wrong end for lanes joined at both ends |
| C22 | `findAllEdgeSequences_misses` | the check for opposing sides only looks at one branch point |
| C23 | `computeRoutes_backwards`, `computeRoutes_misses_neighbour`, `computeRoutes_needs_switch`, `computeRoutes_throws_despite_route`, `computeRoutes_undefined` | wrong or missing routes, exceptions and undefined behaviour |
| C24 | `rulebook_remove_repeated_lane` | removing a rule whose zone names a lane twice throws after changing the book |
| C25 | `ring_unknown_next`, `ring_bulbs_differ`, `ring_undefined` | the constructor of phase rings accepts rings it should reject, or is undefined |
| C26 | `phaseBook_rejected_add_stays` | a rejected ring stays in the book |
| C28 | `setState_extra_ids` | a state with additional related ids is accepted |
| C31 | `stateEq_not_symm` | equality of states is not symmetric |
| C32 | `waypoints_reversed`, `waypoints_short`, `waypoints_empty` | reversed ranges are not sampled; an empty route is undefined behaviour |
| C35 | `findConfluent_without_lanes`, `findConfluent_unattached` | the seed is missing; null pointers are followed |
| C36 | `contour_closed_dropped`, `contour_vanishes` | vertices far from the simplified contour are dropped |
| C37 | `rangeValidator_undefined` | `std::clamp` with crossed bounds |
| C38 | `hash_outcome` | hashing a NaN ends the program |
| C40 | `phase_unordered`, `findPhasePositionOf_wrong` | the documented order is not enforced; the first range on the lane is taken |
| C42 | `laneSRoute_diverges`, `laneSRoute_wrong_start` | `ComputeLaneSRoute` can run for ever or begin with a wrong range |
| C43 | `intersectionBook_duplicate_undefined`, `findByPosition_misses` | use after move; intersections are missed |
| C44 | `uniqueId_string_collides` | strings of different unique ids are the same if ids contain the delimiter |
| C45 | `validate_null_undefined`, `validate_foreign_value`, `validate_unknown_rule` | the validator follows null pointers, accepts foreign values, throws `std::out_of_range` |
| C49 | `buildGraph_loses_branchPoint` | a branch point is in no node |
| C55 | `intersection_unknown_phase` | a phase that is not in the ring can be set |
| C59 | `contour_misses_hole` | the boundary of a hole is not part of the contour |
| C62 | `matrix_singular_small` | small regular matrices are reported as singular |
| C64 | `from_two_vectors_down`, `from_two_vectors_short` | NaN from straight down to straight up; the identity for short vectors |
| C69 | `rotation_reverse_sign` | reversing twice changes the sign of the quaternion (the same rotation) |
| C70 | `bounding_box_orientation` | the box is turned by the inverse of its orientation |
| C71 | `bounding_box_missed`, `bounding_box_apart` | overlap of rotated boxes is wrong in both directions |
| C72 | `compare_phase_missed` | `IsEqual` of phases compares only the number of right-of-way states and the text of discrete values; a missing rule throws `std::out_of_range`, missing bulb states are dereferenced |
| C72 | `compare_rightOfWay_missed`, `compare_discreteValues_missed` | related bulb groups and discrete values are looked up in one direction only |
| C72 | `compare_bulb_throws`, `compare_nextPhase_throws` | `IsEqual` throws `std::bad_optional_access` if only the first object has an arrow or a duration |
| C72 | `compare_isLaneEndEqual_null` | `IsLaneEndEqual` dereferences a null lane to write its message |
| C73 | `close_nan` | NaN coordinates are reported close to every coordinate |
| C73 | `compareVectors_relative_infinite` | with a relative tolerance infinity is reported equal to every number |
| C74 | `checkIdIndexing_misses_branchPoints` | branch points are only checked if there is a junction |
| C75 | `rulebook_loader_zone_start` | the start of a zone is not compared with the length of the lane or with its end, so a range behind the end of the lane is loaded |
| C76 | `registry_loader_malformed` | values with unknown keys are accepted if another value of the type is well-formed |
| C77 | `registry_rulebook_both_kinds` | a rule with `values` and `ranges` silently loses its values |
| C77 | `registry_rulebook_related_required` | `related_rules` and `related_unique_ids` are optional in the check of a value but required when it is read |
| C78 | `library_stop_then_go` | the library registers the right-of-way value "StopAndGo", the documents and the loaders use "StopThenGo" |
| C80 | `ring_loader_keeps_state` | a rule that a phase does not name keeps its value of the phase before instead of its default value |
| C80 | `ring_loader_bulb_state` | a bulb can be given a state that it does not have |
| C80 | `ring_loader_unknown_rule` | unknown rules are accepted if the rulebook has no discrete value rules; otherwise `std::out_of_range` escapes |
| C80 | `ring_loader_abort` | a rule without the values Stop, StopThenGo and Go aborts the process |
| C80 | `ring_loader_ub` | undefined behaviour if a later phase has no bulb states |
| C81 | `rowRing_loader_no_mirror` | `std::out_of_range` escapes if a right-of-way rule has no mirror |
| C82 | `intersection_loader_failure_changes`, `intersection_loader_duplicate` | a document that is rejected has changed the phase provider; repeated ids are undefined behaviour |
| C83 | `precise_mesh_gap` | the mesh of a lane whose width changes has gaps at its bounds: a strip gets only as many faces as fit beside its shorter edge |
| C85 | `stripes_outside_segment` | the stripes of lanes at the border of a segment ask for positions outside the bounds of the segment |
| C88 | `branch_diamond` | the corners of the diamonds of branch points are in clockwise order when seen from where their normals point to |
| C90 | `obj_file_zero_tolerance` | with a linear tolerance of zero an infinite number is converted to `int` (undefined) before the check that throws |
| C90 | `obj_file_opacity_lost` | the opacity of materials is written with the number of digits for positions: with a tolerance of ten meters haze has opacity zero |
| C91 | `material_documented_names` | eight of the nine names that are documented for `GetMaterialByName` throw (and not the documented exception) |
| C91 | `lane_mesh_refused`, `segment_mesh_refused`, `branch_point_mesh_refused` | unknown ids are null pointers that are used; branch points without lane ends throw `std::out_of_range` although `BuildMeshes` leaves them out |
| C92 | `polynomial_repeated_variable` | the constructor from terms looks for duplicates with `j < (i-1)`, so a variable that is listed twice in a row stays double; `EvaluateUnivariate` then reads one of its powers only, and sums take the monomial for another one |
| C92 | `polynomial_flag_lost` | a polynomial from which a variable disappeared (x + y - y) is not univariate any more: `EvaluateUnivariate`, `GetCoefficients`, `Derivative` and `Integral` throw |
| C92 | `polynomial_flag_zero_id` | the variable with the id 0 is not counted as a variable |
| C93 | `integral_of_constant` | `Integral` of a nonzero constant throws instead of being c t |
| C93 | `degree_of_product_wrong` | `GetDegree` multiplies the powers of a monomial instead of adding them: 1 for `x * y` |
| C94 | `variable_names_collide` | the part of the id for the name overflows 32 bits before it is compared with its greatest value, so long names are accepted and become the same variable as short ones ("aelqwpka" is "t") |
| C95 | `substitute_beside_others` | for a monomial with other variables, `Substitute` adds the partial products: x y with x = 2 becomes 2 + 2 y |
| C95 | `subs_not_collected` | `Subs` does not collect the monomials it makes equal; the result is not univariate and has equal monomials |
| C96 | `piecewise_scalar_extrapolates` | `scalarValue`, documented as equivalent to `value`, extrapolates outside the domain where `value` saturates |
| C97 | `zero_order_hold_end` | the last sample of `ZeroOrderHold` is never a value of the result |
| C98 | `shape_not_preserved` | `CubicShapePreserving` treats slopes within 1e-10 of zero as zero, and then overshoots monotone samples |
| C100 | `integral_of_stairs` | `integral` throws for every trajectory with a constant segment, so for every `ZeroOrderHold` |
| C102 | `evaluate_never_returns` | with the default configuration (maximum step size zero) `Evaluate` runs for ever |
| C103 | `evaluate_history` | the value for a point depends on the points asked for before, although `Evaluate` is `const`; an integrand that is not negative can have a smaller arc length for a larger point |
| C104 | `evaluate_after_exception` | after an exception a rejected step stays in the context and the same call returns a wrong value |
| C105 | `function_falls` | the function for an arc length can fall; `IntegralFunction(p0, p1)` is documented to integrate from `p0`, its values are the lengths from the lower bound of the configuration |
| C106 | `function_sliver`, `function_point`, `function_resting` | the function is refused when a step ends less than `kEpsilonTime` before the end (in doubles a maximum step of 0.1 on an interval of length 1 does), for a single point, and for an initial step size of zero; the failure leaves the dense output on, so that `Evaluate` throws too |
| C111 | `feedthrough_default_missed` | an output with the default prerequisites is never reported: the loop which assumed feedthrough for undecided pairs is commented out (`leaf_system.cc:269-279`), although the documentation says that the report contains every pair for which there might be feedthrough |
| C112 | `energy_tickets_stand_for_nothing`, `pe_ticket_stale` | `pe_ticket`, `ke_ticket`, `pc_ticket` and `pnc_ticket` are documented as the tickets of the cache entries of the energies and powers, but those entries get fresh tickets and nothing subscribes the predefined ones: a cache entry which lists them is not notified and returns an old value |
| C112 | `tickets_documented_partial` | `configuration_ticket` and `kinematics_ticket` include z, which the documentation leaves out; this only computes more often than necessary |
| C113 | `vector_text_malformed` | `FromStr` documents an `assertion_error` for texts that do not follow the format; `x5,6{}` is read as a vector and `{a, b}` throws an exception of the standard library |
| C114 | `mkdirs_differ` | `create_directory_recursive` returns false for a directory that exists, for a path with a slash at its end (although it makes the directories), and for paths that begin with a directory of one character, which it does not make |
| C115 | `empty_path_appended`, `full_directory_stays`, `absolute_path_not_absolute` | `is_absolute` is false for an absolute path at which there is nothing; appending to an empty `Path` gives an absolute path; `set_path("")` reads the last character of an empty string; `remove_directory` is false for a directory with something in it, documented is true |
| C116 | `dot_so_not_found` | a suffix with a dot, such as `.so`, finds nothing, although the documentation says that paths must end with it |
| C117 | `failed_read_hangs` | `read_as_string` loops until the end of the file and never sees that a read has failed: for a directory it never returns |
| C118 | `one_bad_library_hides_all`, `null_network_returned` | one library in the directories that is not a plugin makes the manager throw and hides all the others; `CreateRoadNetwork` returns a null pointer of the loader instead of throwing the documented `assertion_error` |
| C119 | `warning_refused` | `set_log_level("warning")`, a documented name, throws; also the default sink writes an empty line after each message |
| C121 | `quote_not_escaped` | ids of segments are not escaped in DOT (nor in URDF): a quote in one changes what is drawn |
| C122 | `fresnel_far_inaccurate` | from 36974 on halves are returned, wrong by up to 8.6e-6, while the formula used below keeps an error of 1e-14 for all arguments (`medium_within`); the documentation says halves are for infinity, and that the series ends at 1.13 where the code has 1.6 |
| C123 | `network_contains_foreign` | `RoadNetwork::Contains(RoadPosition)` never looks at the road network: it is true for a position on a lane of any other road network; a null lane is dereferenced; the bounds are asked for before `s` is compared with the length, so a backend that throws for `s` out of range makes `Contains` throw rather than be false (`lane_contains_throws`) |
| C125 | `box_position_nan`, `saturate_double`, `srange_nan_tolerance` | a box with infinite corners has NaN as position; `saturate(NaN)` is NaN; a NaN tolerance makes `SRange::Intersects` throw but `Contains` false |
| C126 | `srange_intersects_not_symmetric` | with tolerance 0.1, `[0, 0.3]` intersects `[0.4, 1]` but not the other way round |
| C127 | `validator_returns_extreme`, `validator_wide_epsilon` | the epsilon is lost in rounding for ranges far from zero, so the extreme itself is returned; an epsilon above half the width is accepted and then `std::clamp` is undefined |
| C128 | `urdf_not_escaped`, `urdf_slash` | ids with `"`, `<` or `&` make URDF files that are not XML; with a slash in the file root the URDF file names a mesh that is not where the Wavefront file is |
| C131 | `equal_order_of_variables`, `simple_variable_coefficient`, `factor_zero_power` | the products x y and y x compare as different polynomials, exactly and with every tolerance below the coefficients; `GetSimpleVariable` accepts any coefficient although it documents 1; a divisor that lists a variable with the power 0 does not divide monomials without it |
| C132 | `written_names_unreadable`, `written_yield_groups_are_read_back`, `written_bulb_states_are_read_back`, `written_related_keys_are_read_back` | `encode` of a bulb colour, type or single state pushes the name onto a sequence while `decode` reads a scalar, so that the result can never be read; `encode` of an empty list leaves the node null, which `decode` refuses because it is not a sequence |
| C134 | `double_round_trip_fails` | the translation is added and subtracted in double arithmetic: with a large translation a lane position is not found again from its own inertial position |
| C135 | `accepted_updates_not_consolidated`, `update_after_failure_undefined`, `update_of_trajectory_undefined` | `Update` accepts a step that starts exactly one tolerance after the end of the previous one (`>`), while the concatenation in `Consolidate` refuses it (`<`). The exception leaves the first steps in the trajectory without updating the domain, so that the output is neither empty nor can be evaluated; after rolling back, the next `Update` reads the last element of an empty vector. The same happens for the first `Update` of an output that was made of a trajectory |
| C136 | `unsound_timing_aborts`, `due_now_not_reported`, `double_next_sample_stuck` | Periods and offsets are not checked when an event is declared but, by assertions, when the next update is computed. What is due right now is not reported. In a release, once the time is so large that adding a period does not change it, the next update time is the current time for ever. |
| C137 | `subvector_reads_beyond`, `copying_wrong`, `copying_overlap`, `adding_self_wrong` | In a release `operator[]` of a part of a state reads the elements of the next part. `SetFrom` between overlapping ranges of one vector repeats the first elements when it copies forwards. `PlusEqScaled` with several operands adds them one after the other to a `BasicVector`, so that the vector itself as a later operand is not the value before the call; for a `Subvector` with the same values the result is another one. |
| C138 | `value_anonymous_confusion`, `type_hash_collides` | In a release `get_value<T>` compares hashes of type names only. Two classes of the same name in anonymous namespaces of different files have the same hash, so a value of one is handed out as the other instead of throwing. |
| C139 | `set_from_partly`, `abstract_numbers_differ` | `State::SetFrom` gives no strong exception guarantee: a group that does not fit throws after the continuous variables and earlier groups were overwritten. `AbstractValues::SetFrom` checks sizes by assertions only: in a release surplus values are ignored silently and missing ones are undefined behaviour. |
| C140 | `reserve_dangles`, `adding_to_itself`, `setting_from_itself` | `LeafEventCollection::Reserve` moves the storage of a collection with events without rewriting the pointers: `get_events()` dangles until the next `AddEvent`. `AddToEnd(self)` loops over the vector that it extends, `SetFrom(self)` silently drops all events. |
| C141 | `bad_partition_accepted` | `DeclareContinuousState` accepts numbers of positions, velocities and others that no `ContinuousState` can have (negative, or more velocities than positions): the exception comes when the first context is made. Declaring variables after a context was made lets `SetDefaultContext` abort the process (`late_declarations_fail`). |
| C142 | `ivp_after_exception` | An exception of the right hand side leaves the context of an `InitialValueProblem` at an intermediate stage of a step. A later `Solve` with the same values goes on from there: it throws although it would succeed on a new problem. |
| C144 | `ivp_solve_never_returns` | with a maximum step size of zero, which `set_maximum_step_size` accepts, `Solve` loops forever |
| C145 | `vector_constraint_fixed_throws` | element bounds that fix every bounded element, one of them not at zero, make the declaration of the vector throw, although the documentation of `GetElementBounds` allows them |
| C146 | `input_port_after_throw`, `stale_model_used` | an input port whose declaration throws because its name is in use leaves its model behind: the next declaration with a model ends the program, and the next one without a model gets the wrong model |
| C146 | `overwritten_vector_aborts` | a vector of another size put in place of a fixed value by way of `GetMutableData` is not refused, and the next evaluation as a vector ends the program |
| C146 | `default_name_taken` | a given name such as `u1` makes a later declaration with a default name throw |
| C147 | `unsigned_compare_index_wrong` | with an unsigned value on the left, `<`, `<=`, `>` and `>=` give the wrong answer whenever the value equals the index: `value < index` is computed as `index >= value` |
| C147 | `index_spoilt_by_throw` | a decrement or subtraction that throws leaves the index below zero, and asking whether it is valid then ends the program |
| C147 | `index_sub_least`, `index_move_to_self` | subtracting the least `int` is undefined, even with assertions; moving an index to itself loses it |
| C148 | `polynomial_minus_one_text` | the monomial -1 is written as a minus with nothing after it: `Polynomial(-1)` as "-", t - 1 as "t1-" |
| C149 | `copyable_ptr_own_address` | `operator=(T*)` and `operator=(copyable_unique_ptr&&)` are both `reset`, but only the second is safe with the container's own address: `p = p.get_mutable()` deletes the object and keeps its address (src/maliput/drake/common/copyable_unique_ptr.h:170-173). |
| C150 | `matrix_trajectory_reshape_negative` | `Reshape` demands only that the product of the sizes fits, so two negative sizes reach Eigen's `resize` (src/maliput/drake/common/trajectories/piecewise_polynomial.cc:445-453). |
| C153 | `FixInputPortsFrom` promises an exception unless both systems have the same shape. More input ports of the other system and elements of its vectors that are too many are ignored, and a vector that is too short is read past its end in release builds. |
| C158 | A port for the continuous state, declared with DeclareStateOutputPort, throws on every evaluation if DeclareContinuousState is called again with another size: that call takes effect for new contexts (comment in leaf_system.cc:523-524) but not for the port (continuous_port_stale). |

## How the theorems were tested

`seeded/LOG.jsonl` has one line per wrong program: the definition edited, the edit, the claim it breaks, the theorems that
then fail and the theorems that were tightened because of it.  `tools/mutate.py` applies an edit to a scratch copy, replaces
failing proofs by `sorry` until everything builds and reports the theorems of `Maliput.Props` that depend on it.
`tools/citations.py` checks that the cited files and lines exist and that the cited symbol occurs in them.
`tools/axioms.py` writes `AXIOMS.md`: the axioms of every theorem named in `MANIFEST.json`, as the kernel reports them.

## Plan per property

* **C01** (s-range overlap test is exact and symmetric): Model `SRange` (regions.h/.cc) over ℚ; spec = set of covered s values; equivalence by linear arithmetic. Decision-logic theorem plus symmetry and rejection theorems.
* **C02** (s-range intersection returns the common part): Same model. Exact at tolerance 0. For tol > 0 look at touching-only-within-tolerance ranges: the code can return a reversed range; prove what holds and a witness for what does not.
* **C03** (s-range containment is set containment): Same model; set containment, transitivity, monotonicity by linear arithmetic.
* **C04** (route overlap test finds any overlapping pair): Model `LaneSRoute::Intersects` with its `find_if` of the first range on the lane. Expected false for routes visiting a lane twice: witness + `_partial` under lane-uniqueness + soundness without hypothesis.
* **C05** (intersection region membership): Model `IsIncluded` with the lane's `ToLanePosition` as a parameter. Expected false (returns at first lane within tolerance): witness + `_partial`.
* **C06** (axis-aligned box overlap classification): Model `AxisAlignedBox` over extended rationals; point-set semantics as spec.
* **C07** (kd-tree nearest neighbour is a true nearest neighbour): Model `MakeKdTree` over lists with `nth_element` as a parameter satisfying the standard's contract; invariant 'left ≤ node ≤ right in the node's dimension'; induction on the tree.
* **C08** (kd-tree range search returns exactly the points of the region): Model regions initialisation and `RangeSearch`; exactness for tolerance 0, never reports a wrong point for any tolerance, witness of a missed point for positive tolerance, construction never throws.
* **C09** (thread pool: accepted tasks run at most once, in FIFO start order): Thread pool transition system; history variables for queue/dequeue; invariant by induction over steps.
* **C10** (thread pool: Finish means everything ran): Same system; invariant 'a worker has exited → queue empty and finished flag set'.
* **C11** (thread pool: Finish never hangs): Same system; deadlock freedom and a strictly decreasing measure after `Finish` has begun; witness that `Finish` without `Start` blocks for ever.
* **C12** (branch-point topology is consistent): Model branch points and lanes as a heap; invariant by induction over add-branch histories.
* **C13** (default branch is an ongoing branch): Same model; invariant.
* **C14** (failed topology calls change nothing): Same model; expected false for AddBranch (mutates, then the lane setter throws): witness; `_partial` for the calls for which it holds.
* **C15** (left and right neighbours are inverse): Model `Segment::AddLane`, `Lane::to_left/right`; induction.
* **C16** (id index is faithful): Model junction/segment/lane/branch-point attachment with callbacks and `BasicIdIndex`; invariant 'index = objects in the graph'.
* **C17** (FindRoadPositions is exact): Model of the strategies over an abstract list of lanes with `ToLanePosition` as parameter.
* **C18** (ToRoadPosition returns a closest lane): Model the comparison and the folds; bound n·1e-12 on the distance by induction; witness that 1e-12 itself is not a bound.
* **C19** (lane sequence search is sound and complete): Model the DFS with explicit fuel = number of lanes; spec = inductive path predicate; soundness, completeness, fuel adequacy.
* **C20** (U-turn free lane sequences): Model `HasUTurn`; spec from the definition of U-turn; expected false in mixed-direction networks: witness; `_partial` under explicit conditions.
* **C21** (derived lane-s routes are connected): Model `DeriveLaneSRoutes`; expected false for lanes connected at both ends; witness; `_partial` otherwise.
* **C22** (edge-sequence search is sound and complete): Model the recursive search over graph edges; soundness/completeness vs inductive simple path spec.
* **C23** (routes respect the constraints and the request): Model of the filtering/sorting/phase construction part of the router.
* **C24** (rulebook behaves as a map of rules with spatial lookup): Refinement of `ManualRulebook` to a finite map; zones with a repeated lane break `RemoveRule`: witness, `_partial` otherwise.
* **C25** (phase rings are well formed): Model the PhaseRing constructor with UB outcome; witnesses for unknown next phases; `_partial`.
* **C26** (phase ring book stays consistent): State machine with partial updates on throw; witness of inconsistency after a rejected add; `_partial` for histories without rejected adds.
* **C27** (phase provider returns the last phase set): State machine; refinement to map.
* **C28** (rule state providers only report states of the rule): State machine parameterised by a rulebook; invariant.
* **C29** (phased rule states follow the current phase): Composition of the models of C26 and C27.
* **C30** (rule registry only builds registered rules): State machine; invariant + decision logic.
* **C31** (rule state equality is an equivalence): Model `CompareMapAttributes`; expected: reflexive and transitive but not symmetric; witness.
* **C32** (waypoints sample the route evenly): Model the sampling loop; arithmetic progression along the path by induction over ranges.
* **C33** (mesh indexing preserves geometry): Model `UniqueIndexer`, `GeoMesh`; round trip by induction.
* **C34** (OBJ indices of chained meshes point to the right vertices): Model the structure of the emitted OBJ (lists of v/vn/f records, not the text formatting).
* **C35** (confluent segment analysis yields connected components): Model the work-queue loop; spec = reflexive-transitive closure.
* **C36** (contour simplification keeps ends and stays within tolerance): Model the recursion with an abstract distance-to-line function.
* **C37** (range validator clamps into the open range): Direct arithmetic.
* **C38** (identifiers hash injectively into the hasher): Model byte streams; injectivity by decoding from the end.
* **C39** (rotation algebra): Polynomial identities over ℝ.
* **C40** (routing phase contains its own positions): Model constructor validation and `FindPhasePosition`.
* **C41** (lane range relation is coherent): Model with unsigned (wrap-around) index arithmetic.
* **C42** (lane-s route inside a Route goes from start to the route end): Model the loop with fuel; what holds when it returns.
* **C43** (intersection book lookups): State machine; evaluation order of `emplace(id, move(p))` on duplicates is a use-after-move.
* **C44** (traffic lights: unique bulb ids identify bulbs): String model of unique ids; collision witness for ids containing the delimiter; `_partial` for delimiter-free ids.
* **C45** (validated networks have a consistent hierarchy): Decision logic: model of each check; success implies the stated facts.
* **C46** (mesh simplification handles each face once): Model of the aggregation loop; partition by induction.
* **C47** (lane ranges only meet on the same lane): Model of `LaneSRange` on top of C01-C03; decision logic.
* **C48** (kd-tree strategy finds a closest lane when samples are dense): Composition of C07 with the comparison of C18; a bound from the density of the samples.
* **C49** (the segment graph represents the road geometry): Model `BuildGraph` and `FindNode`; invariant of the graph; a branch point can be lost: witness, `_partial` otherwise.
* **C50** (every constructed rule is valid): Decision logic of the constructors.
* **C51** (ranges can be ordered): `operator<` is a strict weak order; lexicographic specification.
* **C52** (the state at a road position): Composition of C24 and C28; first matching rule.
* **C53** (position in a route is the closest one on its ranges): Fold over ranges with the comparison threshold.
* **C54** (traffic light book lookups): Refinement to a finite map over all histories.
* **C55** (intersection phases and states): Composition of C27 with phase rings.
* **C56** (deprecated rules are valid once constructed): Decision logic of the constructors.
* **C57** (CheckInvariants reports exactly the violations): Model of every check; spec = the list of violated conditions.
* **C58** (distances to lines and planes are Euclidean): Over the reals: the result is the least distance to a point of the line or plane.
* **C59** (contours of sets of faces are closed chains of their boundary): Model of the walk; permutation argument for termination and closedness; witness of a missed hole.
* **C60** (the adjacency map of faces is exact): Fold invariant.
* **C61** (identifiers that differ in one character hash differently): The FNV-1a step is a bijection of the state (the prime is odd).
* **C62** (matrix algebra): For all sizes over an ordered field, against Mathlib's determinant and matrix product.
* **C63** - **C66** (quaternions): Over the reals; polynomial identities, the four branches of the conversion from matrices, `arg`/`arccos` for angles; the triangle inequality through angles between vectors.
* **C67** (roll, pitch and yaw of a quaternion): `atan2` is `Complex.arg`; half-angle identities; error bound near the gimbal lock.
* **C68** (derivatives): `HasDerivAt` of each of the nine entries.
* **C69** (orientations of lanes): Invariant over the ways to get an `api::Rotation`.
* **C70**, **C71** (oriented boxes): Over the reals; convexity for containment; witnesses for the separating-axis test.
* **C72** (comparing rules, phases and traffic lights): Each `IsEqual` as "a message or not", with exceptions; `ReportsUnless r P` (returns, and no message exactly if `P`) composes over the collector.  Where the code does not compare everything, the condition it decides and a witness of what is missed.
* **C73** (comparing positions within a tolerance): Numbers are finite, infinite or NaN with the IEEE comparison; case analysis per coordinate.
* **C74** (the check of the id index): The loop of `CheckIdIndexing` on the worlds of C16, which gives the result for every road geometry built by successful calls.
* **C75** (loading old rulebook documents): Parsed documents are trees; the format is a relation between documents and rules, independent of the loader; soundness, completeness and "only throws" for all documents.
* **C76** (loading rule registries), **C77** (loading rulebooks with a registry): The same; the result is a run of registrations or additions, so that C24 and C30 describe every query of it.
* **C78** (rule types of the library): Membership in the generated combinations; registration in every order; comparison with the values of derived rules.
* **C79** (loading traffic lights): Format as a relation; equivalence; the errors are exceptions only.
* **C80**, **C81** (loading phase rings): The format as relations between documents and what they say (`RingSays`), then what a ring must be for that; soundness and completeness for all documents, the outcomes of failing documents, and for C81 that a loaded rulebook has the mirrors the loader needs.
* **C82** (loading intersections): As before, with the phase provider as a state that also a failing document changes; for each ring the last intersection that names it decides the phase.
* **C83** (grid mesh): Each of the functions is modelled by the list of the faces it makes. What faces cover is the union of the convex hulls of their corners in the plane of s and r. The loops are cut off after a number of iterations; the theorems say that some number suffices. Induction on the remaining number of faces and strips.
* **C84** (optimized mesh): As before; the distance of positions is a parameter.
* **C85**, **C86** (stripes, arrows): As before; arrows are proved row by row.
* **C87** (grid size): Calculation with minima and maxima.
* **C88** (branch points): The loop over elevations is cut off after a number of iterations; by the pigeonhole principle `2 n + 1` attempts suffice for `n` branch points drawn before, as each of them blocks at most two. The shapes by calculation.
* **C89** (meshes of a road geometry): Fold invariants over junctions, segments, lanes and branch points in terms of the lists of faces of C83-C86.
* **C90** (Wavefront files): Decimals are read back by a small specification; the number of digits is the least with the required error. The faces are read from the file as in C34.
* **C91** (meshes by id): Fold invariants on maps with keys made of ids.
* **C92** (arithmetic of polynomials): Expressions with their meaning in a field are the specification; the value of a built polynomial by induction on expressions, the uniqueness of monomials by an invariant of the loop that collects them.
* **C93** (calculus of polynomials): Derivatives in the sense of analysis for real polynomials; the other claims compare evaluations.
* **C94** (names of variables): Digits in base 31, with 32 bit arithmetic.
* **C95** (substitution): Induction on monomials, with the values of C92.
* **C96** (segments): the bisection is proved to return the segment that contains the time, by induction on the length of the interval; values by cases on the saturation; derivatives over ℝ by `HasDerivAt` of the polynomials.
* **C97** (interpolants): the pieces are computed in closed form; values at both ends of every piece; over ℝ, continuity by gluing pieces that agree at breaks.
* **C98** (shape): the Fritsch-Carlson bound: end slopes between 0 and three times the secant make the cubic monotone, by an algebraic inequality; the slopes the code computes are shown to meet the bound.
* **C99** (joins): values of appended, taken and dropped lists of pieces by induction on the list.
* **C100** (transformations): piece by piece, with the polynomial theorems C92, C93 and C95.
* **C101** (arc length): the loops of the integrator with bounds on the numbers of attempts and steps; an invariant says that steps of Kutta's method reach the point of the context, whatever has been called; Simpson's rule by induction on the steps and its error by repeated integration of a bound of the fourth derivative.
* **C102** (integration ends): a lower bound of the accepted steps gives a bound of their number, and each rejected attempt is shorter by a factor; with more attempts and steps the result stays the same.
* **C103**, **C104** (history, accuracy): the state after a call is determined by its point, value and parameters; an invariant with the error estimates for histories without exceptions.
* **C105**, **C106** (functions): the dense output is the list of cubic pieces through the visited points, also while attempts are rejected; values by C97, monotonicity by the inequality of C98, the error by Rolle's theorem.
* **C107**, **C108**, **C109** (cache): the graph of trackers of a context is that of the declarations (`Structured`), an up to date entry holds what its calculator computes from the present values (`Fresh`); both hold in a new context and are kept by every operation, induction over the history. A change event reaches exactly the trackers downstream (induction over the notifications with the event number as the mark of visited ones).
* **C110** (steps through the cache): every evaluation in a step gives the value of the right hand side by C107, so a step is the step of the model without a cache; induction over the steps.
* **C111** (feedthrough): a probe reports exactly what the graph connects; soundness from the declared prerequisites.
* **C112** (tickets): the parts of each predefined ticket, unfolded to sources, against the documented list.
* **C113** (vector text): `find` and `substr` over texts made of pieces; induction on the pieces.
* **C114**, **C115** (paths): locations as lists of names; the loop over the slashes keeps "only directories on the way were made"; induction over the slashes for completeness.
* **C116** (listing): mutual induction over trees.
* **C117** (reading): the loop with a bound on its steps; enough steps give the file, no number of steps gives a result after a failure.
* **C118** (plugins): induction over the added paths with the last one for each id.
* **C119** (logger): induction over the history against the list of deliveries by the specification.
* **C120** (text of a road geometry): the nested loops make the lines of the specification; lines are split again and the level of each tells the hierarchy.
* **C121** (DOT): a reader written in the specification gives the edges back.
* **C122** (Fresnel integrals): for small arguments the quotients are compared with the Taylor series integrated term by term, polynomial bounds being evaluated by the kernel on intervals. For others the derivative of the formula is the integrand plus residuals which are rational functions of one variable; bounds of the residuals, integrated, bound the error once it is bounded where the two formulas meet, which the kernel evaluates with π, √41 and the sine and cosine of 41π/32 enclosed in intervals.
* **C123** (containment): an interval widened by the tolerance is the set of points near the interval, in each coordinate; ids by the faithfulness of the id index.
* **C124** (right of way): induction over the history from its end; the groups by the corresponding theorem on the provider of discrete value rules, C28.
* **C125** (not numbers): the comparisons as an order on the numbers with infinities, NaN outside it; case analysis, induction over histories.
* **C126**, **C127** (rounding): rounding is monotone, leaves doubles alone and errs by half a unit in the last place; so comparisons with a rounded bound are right for every double within the exact bound, and wrong only within the error of it.
* **C128** (URDF): a reader of XML as a machine that takes characters; the fixed parts by computation, the names by induction.
* **C129** (states of loaded rules): the loader theorems (C80, C81) say what the book contains; that every ring is in one of its phases is an invariant of the calls on the provider; the two together give the states.
* **C130** (splines): the unknowns of a system without right hand side are zero: for given slopes and periodic ends because the sum of the energies of the segments telescopes to zero, without slopes because the second derivatives at the times satisfy equations with dominant diagonals. So there is one solution, and the coefficients of any smooth interpolant solve the same system. For the interpolating polynomial: a polynomial with more roots than its degree is zero.
* **C131** (queries of polynomials): polynomials are mapped to Mathlib's polynomials in several variables, in which equal values over an infinite field give equal coefficients; the comparison with a tolerance is followed by induction over the monomials of the other polynomial with the marks of those that have been met.
* **C132** (writing YAML): each `encode` is a function to documents; reading the document with the modelled `decode` is computed, by induction for the lists and for the keys of the map of related rules.
* **C133** (vectors and matrices as arrays): each loop is a fold over the elements whose state after every step is given in closed form; a write outside of an array is undefined behaviour in the model, so that its absence is part of the result. The results are compared with Mathlib's matrices and Euclidean norm.
* **C134** (backend frame): the overrides of the backend are arbitrary functions that may be missing; the defaults are conjugated by the translation, and the strategies of `Strategy` are shown to commute with it. The same definitions over `double` give the error bound.
* **C135** (dense output): the calls are a state machine with exceptions that keep what was done before them; an invariant relates its members to the list of steps that are kept, by induction on the calls. The concatenation of the splines of steps that continue each other is the spline of the merged samples.
* **C136** (periodic events): the sample time by the characterization of the ceiling; the loop over the events by an invariant (the earliest time so far and what is due then); runs by induction on the steps; that every time is passed by counting the sample times before it. In double arithmetic the quotient of two numbers below 2^53 is never rounded across a whole number.
* **C137** (vectors and continuous states): a loop that writes the elements of a range one after the other has the invariant that the first k are written and all else is unchanged; reading an element that is not written yet gives the value before the call. Histories by induction with the invariant that all vectors exist.
* **C138** (values of erased type): the scan of the text is followed by induction on the name; that the text determines the type is proved by reading it back, by mutual induction on types and packs. Histories by induction against values that carry their type.
* **C139** (states): refinement of a memory with pointers to plain values, by induction over the calls, with the invariant that no two states share a vector or a value.
* **C140** (events): refinement of vectors with blocks of memory, addresses and pointers to lists of events, by induction over the calls; the comparison of addresses by which AddEvent notices that its storage has moved is right because the old block is in use while the new one is allocated.
* **C141** (defaults): refinement of systems and contexts with a memory of vectors and values, of which each cell has one owner, to plain values, by induction over the operations; the sizes and types of a context are a prefix of the declared ones.
* **C142** (vectors): invariant over all calls: the context is at a point that allowed steps from the current values lead to, or at one where the right hand side fails, so that every further step from there throws; the pieces of the dense output join the points one by one.
* **C143** (scalars): the calls are calls of the problem with vectors of one element; steps of such vectors are steps of the scalar method, and exceptions are traced back through every function of the solver.
* **C144** (end): a step that does not reach the end makes progress by a positive amount once there is an ideal step size, and a failed attempt reduces the step size by a factor; the numbers of attempts and steps are therefore bounded, and larger bounds give the same result.
* **C145** (constraints): bounds become numbers of a line with two ends (Mathlib's WithBot (WithTop R)); the comparisons of the four cases are shown to be the same statement about that line, and histories are handled by induction on the calls.
* **C146** (ports): declarations and calls that fix values are lists of operations; induction keeps the ports equal to the list of accepted declarations and each value equal to the last one that suits the port. Default names are distinct because decimal digits determine the number.
* **C147** (indices): an index is the int it holds, overflow of int is undefined, and assertions are a parameter; everything is case analysis with linear arithmetic, and the width of unsigned types is a parameter.
* **C148** a reader of formulas as the specification; induction over terms and monomials, the reader consumes exactly what was written
* **C149** refinement: the memory stands for a map from containers to values, kept by each operation; ownership is part of the invariant
* **C150** commuting diagrams with the trajectory of an entry; induction over segments
* **C151** refinement of a specification in which variables know the call that made their identifier; induction over the schedule
* **C152** commuting diagrams with the splines of entries; induction over segments; invariant of the right hand sides that the entries share: what no entry writes is zero
* **C153** induction over the ports with the invariant of contexts of the ports; witnesses for systems of other shapes
* **C154** order axioms; intermediate value theorem for the zero; induction over the values for divisions
* **C155** a simulation between the output of vectors and those of the components, by induction on the calls, with C152 for the splines and C150 for their concatenation
* **C156** case analysis of the checks in their order; elements of lists for the difference
* **C157** case analysis over the ways to give the functions, against a relation that says which function each of them means
* **C158** sizes and types of states are invariants of writes; models of discrete and abstract states are only appended to
