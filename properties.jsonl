{"id": "C01", "title": "s-range overlap test is exact and symmetric", "statement": "For every two SRanges and every tolerance, SRange::Intersects(b, tol) answers true exactly when some s covered by one range is within tol of some s covered by the other (for negative tol: when the ranges share an interval of length at least |tol|), it gives the same answer when the two ranges are swapped, and it never depends on the direction (s0<s1 or s0>s1) either range was written in. It rejects (throws) exactly the negative tolerances whose magnitude is larger than half the size of the smaller range.", "quantifier": "all pairs of ranges, in both directions, including degenerate ones, and all tolerances, positive, zero and negative", "why_tests_cant": "The domain is a four-dimensional continuum with direction flips and a clamp at s=0; tests sample a handful of intervals.", "anchors": ["include/maliput/api/regions.h:SRange", "src/maliput/api/regions.cc:SRange::Intersects"]}
{"id": "C02", "title": "s-range intersection returns the common part", "statement": "SRange::GetIntersection(b, tol) returns a range exactly when Intersects(b, tol) is true; with tol = 0 an s is covered by the returned range iff it is covered by both arguments. With tol > 0 every s covered by the result is within tol of both arguments.", "quantifier": "all pairs of ranges and all tolerances", "why_tests_cant": "Boundary behaviour at distance exactly tol, and the orientation of the returned range, are corner cases of a continuum.", "anchors": ["src/maliput/api/regions.cc:SRange::GetIntersection", "include/maliput/api/regions.h:LaneSRange::GetIntersection"]}
{"id": "C03", "title": "s-range containment is set containment", "statement": "SRange::Contains(b, tol) with tol >= 0 is true exactly when every s covered by b is within tol of the callee, so it is reflexive, transitive (tolerances add), implies Intersects with the same tolerance, and is monotone in tol.", "quantifier": "all pairs and triples of ranges and all non-negative tolerances", "why_tests_cant": "Transitivity and monotonicity quantify over triples of reals and tolerances.", "anchors": ["src/maliput/api/regions.cc:SRange::Contains"]}
{"id": "C04", "title": "route overlap test finds any overlapping pair", "statement": "LaneSRoute::Intersects(other, tol) is true exactly when some LaneSRange of one route and some LaneSRange of the other are on the same lane and intersect within tol; therefore it is symmetric.", "quantifier": "all routes of any length, including routes that visit the same lane more than once, and all tolerances", "why_tests_cant": "Routes are arbitrary-length lists; the failing shape (a lane visited twice) is not in a typical fixture.", "anchors": ["include/maliput/api/regions.h:LaneSRoute", "src/maliput/api/regions.cc:LaneSRoute::Intersects"]}
{"id": "C05", "title": "intersection region membership", "statement": "api::IsIncluded(position, region, road_geometry) answers true exactly when some LaneSRange of the region has its lane within linear tolerance of the position and the corresponding s inside the range (within linear tolerance); so Intersection::Includes(position) does not depend on the order in which the region lists its ranges.", "quantifier": "all positions, regions of any length and order, tolerances", "why_tests_cant": "Order-independence ranges over all permutations of arbitrary regions.", "anchors": ["src/maliput/api/intersection.cc:Intersection::Includes", "src/maliput/api/regions.cc:IsIncluded"]}
{"id": "C06", "title": "axis-aligned box overlap classification", "statement": "For boxes A, B: A.Overlaps(B) is kDisjointed exactly when A and B share no point, kContained exactly when they share a point and every point of B is a point of A (within A's tolerance), kIntersected otherwise; GetIntersection exists exactly when the boxes share a point and contains exactly the shared points.", "quantifier": "all pairs of boxes (any corner coordinates) and all box tolerances", "why_tests_cant": "Six free reals per box; the classification must agree with the set of all points.", "anchors": ["src/maliput/math/axis_aligned_box.cc:AxisAlignedBox", "src/maliput/math/overlapping_type.cc"]}
{"id": "C07", "title": "kd-tree nearest neighbour is a true nearest neighbour", "statement": "For every non-empty collection of points and every query, KDTree::nearest_point returns a member of the collection, and no member is strictly closer, unless the returned one is closer (in squared distance) than the given tolerance.", "quantifier": "all finite point collections of any size and dimension, all query points, all tolerances, every result std::nth_element may legally produce", "why_tests_cant": "Branch pruning correctness depends on the whole tree; tests compare with brute force on random samples only.", "anchors": ["include/maliput/math/kd_tree.h:KDTree::nearest_point", "include/maliput/math/kd_tree.h:KDTree::MakeKdTree"]}
{"id": "C08", "title": "kd-tree range search returns exactly the points of the region", "statement": "KDTree3D::RangeSearch(box) returns every stored point contained by the box, each stored element exactly once, and no other point.", "quantifier": "all finite collections of 3D points (with duplicates), all query boxes and box tolerances", "why_tests_cant": "Completeness of pruning must hold for all trees and boxes; a miss needs a specific geometry near a splitting plane.", "anchors": ["include/maliput/math/kd_tree.h:KDTree3D", "src/maliput/math/axis_aligned_box.cc"]}
{"id": "C09", "title": "thread pool: accepted tasks run at most once, in FIFO start order", "statement": "Under every interleaving of user calls and workers, each task accepted by ThreadPool::Queue is started at most once, tasks are taken in the order they were queued, and only accepted tasks are ever run.", "quantifier": "all numbers of workers, all task sequences, all interleavings of the user thread and workers", "why_tests_cant": "Schedules are unbounded and not controllable from unit tests.", "anchors": ["include/maliput/utility/thread_pool.h:ThreadPool", "src/maliput/utility/thread_pool.cc:ThreadPool::DoWork"]}
{"id": "C10", "title": "thread pool: Finish means everything ran", "statement": "With one user thread (the class is not thread safe): if Finish() returns after Start() and cancel_pending() was never called, every task accepted by Queue has been executed exactly once and all workers have exited.", "quantifier": "all worker counts, all histories of Queue/Start/Finish calls, all schedules", "why_tests_cant": "A lost wake-up or lost task shows up only in rare schedules.", "anchors": ["src/maliput/utility/thread_pool.cc:ThreadPool::Finish", "src/maliput/utility/thread_pool.cc:ThreadPool::DoWork"]}
{"id": "C11", "title": "thread pool: Finish never hangs", "statement": "Once Start() and Finish() have been called, no reachable state is a deadlock and no worker sleeps for ever: from every reachable state some execution (and every fair one) reaches the state in which Finish has returned, provided the tasks themselves terminate.", "quantifier": "all reachable states under all schedules, including spurious wake-ups", "why_tests_cant": "Absence of deadlock and lost wake-ups cannot be established by running a finite number of schedules.", "anchors": ["src/maliput/utility/thread_pool.cc"]}
{"id": "C12", "title": "branch-point topology is consistent", "statement": "After any sequence of successful BranchPoint::AddABranch/AddBBranch calls every lane end belongs to at most one branch point and one side, the confluent set of a lane end contains that very lane end, all ends of a side report the same confluent and ongoing sets, y is in the ongoing set of x iff x is in the ongoing set of y, and the two sets of a branch point are disjoint.", "quantifier": "all finite histories of branch additions over any number of lanes and branch points", "why_tests_cant": "Invariant over unbounded construction histories.", "anchors": ["src/maliput/geometry_base/branch_point.cc:BranchPoint::AddBranch", "src/maliput/geometry_base/lane.cc"]}
{"id": "C13", "title": "default branch is an ongoing branch", "statement": "At any point of any construction history, if Lane::GetDefaultBranch(end) returns a lane end, that lane end is an element of GetOngoingBranches(end), and it is the one given by the last successful SetDefault for this end.", "quantifier": "all histories of AddABranch, AddBBranch and SetDefault", "why_tests_cant": "Quantifies over histories, with defaults set before or after other branches are added.", "anchors": ["src/maliput/geometry_base/branch_point.cc:BranchPoint::SetDefault", "include/maliput/geometry_base/branch_point.h"]}
{"id": "C14", "title": "failed topology calls change nothing", "statement": "A BranchPoint::AddABranch/AddBBranch/SetDefault call that throws leaves the observable topology (sides, confluent/ongoing sets, defaults, lane branch points) as it was.", "quantifier": "all states reachable by construction histories and all rejected calls", "why_tests_cant": "Rejected calls from arbitrary reachable states are not enumerated by tests.", "anchors": ["src/maliput/geometry_base/branch_point.cc:BranchPoint::AddBranch", "src/maliput/geometry_base/lane.cc:Lane::SetStartBranchPoint"]}
{"id": "C15", "title": "left and right neighbours are inverse", "statement": "For every segment and lane, if lane.to_left() is L then L.to_right() is the lane, and vice versa; the lanes of a segment are totally ordered by index, Segment::lane(i).index() == i, and to_left/to_right is null exactly at the ends.", "quantifier": "all segments built by any number of AddLane calls, all indices", "why_tests_cant": "Holds for any number of lanes and any build order.", "anchors": ["src/maliput/geometry_base/segment.cc:Segment::AddLanePrivate", "src/maliput/geometry_base/lane.cc:Lane::do_to_left"]}
{"id": "C16", "title": "id index is faithful", "statement": "For every RoadGeometry built by any interleaving of AddJunction/AddSegment/AddLane/AddBranchPoint, IdIndex::GetLane/GetSegment/GetJunction/GetBranchPoint(id) returns precisely the object with that id that is in the graph, or nullptr when there is none; ids are unique.", "quantifier": "all build histories in which each call succeeds (children added before or after the parent is attached)", "why_tests_cant": "Ordering of parent attachment vs child addition gives unboundedly many histories.", "anchors": ["src/maliput/api/basic_id_index.cc", "src/maliput/geometry_base/junction.cc", "src/maliput/geometry_base/road_geometry.cc"]}
{"id": "C17", "title": "FindRoadPositions is exact", "statement": "BruteForceStrategy FindRoadPositions(p, radius) returns exactly one result for each lane whose distance to p is at most radius, in lane iteration order, and nothing else; KDTreeStrategy's results are a subset of those results.", "quantifier": "all road geometries (any number of lanes), positions, radii", "why_tests_cant": "Any number of lanes and any geometry.", "anchors": ["src/maliput/geometry_base/brute_force_strategy.cc:BruteForceStrategy::DoFindRoadPositions", "src/maliput/geometry_base/kd_tree_strategy.cc"]}
{"id": "C18", "title": "ToRoadPosition returns a closest lane", "statement": "RoadGeometry::ToRoadPosition without hint returns a position on a lane whose distance to the query is minimal up to the comparison threshold, and if any lane is within linear tolerance the returned one is too.", "quantifier": "all road geometries with at least one lane, all positions and tolerances", "why_tests_cant": "The comparison is a non-transitive, thresholded preference folded over arbitrarily many lanes.", "anchors": ["src/maliput/geometry_base/brute_force_strategy.cc:BruteForceStrategy::DoToRoadPosition", "src/maliput/geometry_base/strategy_base.cc:IsNewRoadPositionResultCloser"]}
{"id": "C19", "title": "lane sequence search is sound and complete", "statement": "FindLaneSequences(start, end, max_length) returns exactly the sequences of lanes that begin with start, end with end, where each lane is followed by one reachable through an ongoing branch of one of its ends, no lane repeats, and the total length of the intermediate lanes is at most max_length; [start] alone when start is end; and it always terminates.", "quantifier": "all finite lane graphs (with loops), all lane lengths, all start/end pairs and length limits", "why_tests_cant": "Soundness and completeness over all graphs, with cycles.", "anchors": ["src/maliput/routing/find_lane_sequences.cc:FindLaneSequences", "src/maliput/routing/find_lane_sequences.cc:FindLaneSequencesHelper"]}
{"id": "C20", "title": "U-turn free lane sequences", "statement": "With no_u_turns = true FindLaneSequences returns exactly those sequences that do not enter and leave an intermediate lane through the same end.", "quantifier": "all finite lane graphs including mixed lane directions", "why_tests_cant": "Quantifies over all graphs and all orientations of the lanes.", "anchors": ["src/maliput/routing/find_lane_sequences.cc:HasUTurn"]}
{"id": "C21", "title": "derived lane-s routes are connected", "statement": "Every LaneSRoute returned by DeriveLaneSRoutes starts at the start position, ends at the end position, traverses each intermediate lane entirely, and consecutive ranges meet: the end of range i and the start of range i+1 are lane ends joined by an ongoing branch.", "quantifier": "all lane graphs, start and end positions, maximum lengths", "why_tests_cant": "Depends on the orientation of every lane and on how lanes are connected, over all graphs.", "anchors": ["src/maliput/routing/derive_lane_s_routes.cc:DeriveLaneSRoutes", "src/maliput/routing/derive_lane_s_routes.cc:DetermineEdgeS"]}
{"id": "C22", "title": "edge-sequence search is sound and complete", "statement": "graph::FindAllEdgeSequences(graph, start, end) terminates and returns exactly the edge sequences that lead from start to end without visiting a node twice and in which consecutive segments have lanes attached to a shared branch point from opposing sides.", "quantifier": "all finite graphs, including loops and parallel edges", "why_tests_cant": "All graphs, all node pairs.", "anchors": ["src/maliput/routing/graph/graph_utils.cc:FindAllEdgeSequences"]}
{"id": "C23", "title": "routes respect the constraints and the request", "statement": "Every Route returned by DistanceRouter::ComputeRoutes starts at the given start position, ends at the given end position, and when RoutingConstraints are given respects max_phase_cost, max_route_cost and allow_lane_switch (no lane switch is needed when it is false).", "quantifier": "all road networks, requests and constraints", "why_tests_cant": "Any number of candidate routes and any mix of constraints.", "anchors": ["src/maliput/base/distance_router.cc:DistanceRouter"]}
{"id": "C24", "title": "rulebook behaves as a map of rules with spatial lookup", "statement": "After any sequence of AddRule, RemoveRule and RemoveAll calls, ManualRulebook::Rules() is exactly the set of rules added and not removed since; FindRules(ranges, tol) returns exactly those whose zone has a range on the same lane intersecting one of the queried ranges within tol; GetRule of a known id returns the added rule; adding a known id or removing an unknown id throws and changes nothing.", "quantifier": "all histories of rulebook operations over any number of rules of each kind, all queries", "why_tests_cant": "Unbounded histories with two coupled indices that must stay in agreement.", "anchors": ["src/maliput/base/manual_rulebook.cc:ManualRulebook", "src/maliput/base/manual_rulebook.cc:RangeIndex"]}
{"id": "C25", "title": "phase rings are well formed", "statement": "Every PhaseRing that can be constructed is non-empty, every phase in it covers the same set of rule ids, discrete rule ids and bulbs, and every next phase it reports belongs to the ring.", "quantifier": "all phases and next-phase maps offered to the constructor", "why_tests_cant": "All maps of all sizes.", "anchors": ["src/maliput/api/rules/phase_ring.cc:PhaseRing"]}
{"id": "C26", "title": "phase ring book stays consistent", "statement": "After any history of AddPhaseRing/RemovePhaseRing, FindPhaseRing(rule) returns the ring in the book that contains the rule, a rule is in at most one ring, and GetPhaseRing returns what was added and not removed.", "quantifier": "all histories of additions and removals, including rejected ones", "why_tests_cant": "Rejected operations in the middle of a history leave hidden partial state.", "anchors": ["src/maliput/base/manual_phase_ring_book.cc"]}
{"id": "C27", "title": "phase provider returns the last phase set", "statement": "ManualPhaseProvider::GetPhase(id) returns the phase given to the latest successful AddPhaseRing/SetPhase for that id, nullopt if there is none, and a duration is never reported without a next phase.", "quantifier": "all histories of AddPhaseRing and SetPhase calls, accepted and rejected, over any ids", "why_tests_cant": "Histories are unbounded.", "anchors": ["src/maliput/base/manual_phase_provider.cc"]}
{"id": "C28", "title": "rule state providers only report states of the rule", "statement": "Whatever sequence of SetState calls was made, GetState(rule id) of the manual discrete/range value rule state providers returns nullopt or the state of the latest successful SetState, and that state (and the next state, if any) is always one of the states the rule had in the rulebook when it was set; a duration is positive and only present with a next state.", "quantifier": "all histories of SetState over any rulebook", "why_tests_cant": "Histories and rulebooks are unbounded.", "anchors": ["src/maliput/base/manual_discrete_value_rule_state_provider.cc", "src/maliput/base/manual_range_value_rule_state_provider.cc"]}
{"id": "C29", "title": "phased rule states follow the current phase", "statement": "PhasedDiscreteRuleStateProvider::GetState(rule id) equals the state the ring's current phase assigns to that rule, with next state and duration taken from the next phase; when the rule is in no ring, or its ring has no current phase, it equals the state set by SetState. PhaseBasedRightOfWayRuleStateProvider does the same for right-of-way rules, with nullopt in the second case. If the current or next phase is not in the ring, both throw.", "quantifier": "all phase ring books, all phase provider states", "why_tests_cant": "Composition of three mutable components in every reachable combination.", "anchors": ["src/maliput/base/phased_discrete_rule_state_provider.cc", "src/maliput/base/phase_based_right_of_way_rule_state_provider.cc"]}
{"id": "C30", "title": "rule registry only builds registered rules", "statement": "A RuleRegistry never holds the same type id twice (neither within nor across discrete and range types), returns what was registered, and BuildRule succeeds only for registered types with states that are registered for the type.", "quantifier": "all registration histories and all build requests", "why_tests_cant": "Histories and value sets are unbounded.", "anchors": ["src/maliput/api/rules/rule_registry.cc:RuleRegistry"]}
{"id": "C31", "title": "rule state equality is an equivalence", "statement": "Rule::State::operator== (and those of DiscreteValue and Range) is reflexive, symmetric and transitive.", "quantifier": "all triples of states with any related rules and unique ids", "why_tests_cant": "A law about all triples.", "anchors": ["src/maliput/api/rules/rule.cc:Rule::State::operator=="]}
{"id": "C32", "title": "waypoints sample the route evenly", "statement": "SampleAheadWaypoints over a route returns positions at path lengths 0, d, 2d, ... along the route, in order, plus the route's end if the last sample is farther than the linear tolerance from it, where d is the effective sampling step; so consecutive samples are never farther than d apart, across lane boundaries too.", "quantifier": "all routes (any number and length of ranges), all sampling steps", "why_tests_cant": "Carry of the remainder across an arbitrary number of lane boundaries.", "anchors": ["src/maliput/api/road_geometry.cc:RoadGeometry::DoSampleAheadWaypoints"]}
{"id": "C33", "title": "mesh indexing preserves geometry", "statement": "After any sequence of GeoMesh::PushFace and AddFacesFrom, decoding each face's vertex and normal indices yields the vertices and normals that were pushed, in order; no two stored vertices (normals) are equal.", "quantifier": "all sequences of faces and meshes", "why_tests_cant": "Unbounded histories of pushes with shared vertices.", "anchors": ["include/maliput/utility/mesh.h:UniqueIndexer", "include/maliput/utility/mesh.h:GeoMesh"]}
{"id": "C34", "title": "OBJ indices of chained meshes point to the right vertices", "statement": "When several meshes are emitted in sequence with EmitObj, chaining the returned offsets, the one-based vertex and normal indices of each face line refer to the emitted lines of that face's own vertices and normals.", "quantifier": "all sequences of meshes of any size, including empty ones", "why_tests_cant": "All numbers and sizes of meshes.", "anchors": ["include/maliput/utility/mesh.h:GeoMesh::EmitObj"]}
{"id": "C35", "title": "confluent segment analysis yields connected components", "statement": "AnalyzeConfluentSegments returns the connected components of the confluence relation between segments: every segment with an attached lane is in exactly one returned set, and two segments are in the same set iff they are linked by a chain of confluent lanes.", "quantifier": "all road geometries, any number of segments and branch points", "why_tests_cant": "Graph reachability over all graphs.", "anchors": ["src/maliput/utility/segment_analysis.cc"]}
{"id": "C36", "title": "contour simplification keeps ends and stays within tolerance", "statement": "ApplyDouglasPeuckerSimplification outputs a subsequence of its input containing first and last element, and every dropped element is within tolerance of the line through the kept elements around it; it terminates.", "quantifier": "all polylines of any length and all non-negative tolerances", "why_tests_cant": "Recursion over arbitrary input lengths.", "anchors": ["include/maliput/utility/mesh_simplification.h:ApplyDouglasPeuckerSimplification"]}
{"id": "C37", "title": "range validator clamps into the open range", "statement": "RangeValidator: every s in [min - tol, max + tol] is mapped to the closest value of [min + eps, max - eps], anything else throws; the map is monotone, idempotent and moves s by at most tol + eps.", "quantifier": "all validators that can be constructed and all s", "why_tests_cant": "Continuum of parameters.", "anchors": ["src/maliput/common/range_validator.cc:RangeValidator"]}
{"id": "C38", "title": "identifiers hash injectively into the hasher", "statement": "hash_append feeds equal values with equal byte streams, and two sequences of strings/integers/optionals/vectors of the same type feed the same byte stream only if they are equal, so hash equality of distinct ids is only ever an FNV collision; equal ids have equal hashes.", "quantifier": "all strings, integers and nested collections", "why_tests_cant": "All values of recursive types.", "anchors": ["include/maliput/common/maliput_hash.h"]}
{"id": "C39", "title": "rotation algebra", "statement": "For unit quaternions, transforming a vector by the quaternion equals multiplying by ToRotationMatrix, preserves norms and dot products, composition of quaternions is composition of transforms, and the inverse undoes the transform; RollPitchYaw::ToQuaternion is a unit quaternion whose matrix is RollPitchYaw::ToMatrix.", "quantifier": "all vectors, all unit quaternions, all roll/pitch/yaw angles", "why_tests_cant": "Identities over the reals.", "anchors": ["src/maliput/math/quaternion.cc", "src/maliput/math/roll_pitch_yaw.cc"]}
{"id": "C40", "title": "routing phase contains its own positions", "statement": "Every routing::Phase that can be constructed has non-empty start and end positions that all lie in its lane s-ranges (within tolerance), its ranges are adjacent right-to-left, and Phase::FindPhasePosition returns a position within one of its ranges.", "quantifier": "all phases that can be constructed and all query positions", "why_tests_cant": "All range lists and all positions.", "anchors": ["src/maliput/routing/phase.cc"]}
{"id": "C41", "title": "lane range relation is coherent", "statement": "Route::ComputeLaneSRangeRelation(a, b) is kCoincident for equal indices, and swapping the arguments swaps left with right and adjacent left with adjacent right; it is kUnrelated exactly for phases that are not consecutive and kUnknown exactly if one of the ranges is not part of the route.", "quantifier": "all routes and range pairs", "why_tests_cant": "All index pairs of routes of any size, including unsigned wrap-around at index zero.", "anchors": ["src/maliput/routing/route.cc:Route::ComputeLaneSRangeRelation"]}
{"id": "C42", "title": "lane-s route inside a Route goes from start to the route end", "statement": "Route::ComputeLaneSRoute(start) terminates and, when it returns, the LaneSRoute begins with the range containing start, ends with the range containing the route's end, and each consecutive pair is adjacent in the same phase or a straight succession between consecutive phases.", "quantifier": "all routes and start positions within them", "why_tests_cant": "Loops whose exit depends on geometry and on unsigned index arithmetic.", "anchors": ["src/maliput/routing/route.cc:Route::ComputeLaneSRoute"]}
{"id": "C43", "title": "intersection book lookups", "statement": "IntersectionBook::FindIntersection(traffic light id / discrete value rule id / inertial position) and GetIntersection(id) return an added intersection that does reference the given entity, nullptr exactly if there is none; adding null or an already used id is rejected with an exception.", "quantifier": "all sequences of AddIntersection and all queries", "why_tests_cant": "Any number of intersections.", "anchors": ["src/maliput/base/intersection_book.cc", "src/maliput/base/intersection.cc"]}
{"id": "C44", "title": "traffic lights: unique bulb ids identify bulbs", "statement": "Two bulbs of different traffic lights/bulb groups/ids have different UniqueBulbIds; GetBulb(unique id) finds exactly the bulb with that unique id; the default state of a bulb is the first of off, blinking, on that the bulb supports.", "quantifier": "all traffic lights, bulb groups and bulbs, with arbitrary id strings", "why_tests_cant": "All id strings.", "anchors": ["src/maliput/api/rules/traffic_lights.cc", "include/maliput/api/rules/traffic_lights.h"]}
{"id": "C45", "title": "validated networks have a consistent hierarchy", "statement": "If ValidateRoadNetwork with all checks enabled returns normally, every lane has branch points at both ends, every object is reachable through the id index, every phase only references rules and values in the rulebook and existing bulbs and states, and related rule ids exist.", "quantifier": "all road networks", "why_tests_cant": "All networks of any size.", "anchors": ["src/maliput/api/road_network_validator.cc"]}
{"id": "C46", "title": "mesh simplification handles each face once", "statement": "SimplifyMeshFaces partitions the faces: the sets merged by AggregateAdjacentCoplanarMeshFaces in its loop are pairwise disjoint, cover all faces, and each is connected through shared edges.", "quantifier": "all meshes with at most two faces per edge, all tolerances", "why_tests_cant": "All meshes of any size.", "anchors": ["src/maliput/utility/mesh_simplification.cc:SimplifyMeshFaces"]}
{"id": "C47", "title": "lane ranges only meet on the same lane", "statement": "LaneSRange::Intersects, Contains and GetIntersection answer as the s-range operations do when both ranges are on the same lane, and false / nothing when they are on different lanes; the returned intersection is on that lane.", "quantifier": "all pairs of lane ranges and all non-negative tolerances", "why_tests_cant": "The s-ranges are a continuum and the lane ids are arbitrary strings.", "anchors": ["src/maliput/api/regions.cc:LaneSRange::Intersects", "src/maliput/api/regions.cc:LaneSRange::Contains", "src/maliput/api/regions.cc:LaneSRange::GetIntersection"]}
{"id": "C48", "title": "kd-tree strategy finds a closest lane when samples are dense", "statement": "KDTreeStrategy::ToRoadPosition without hint returns a lane of the road geometry whose distance is minimal up to the comparison threshold times the number of samples, provided every lane has a sample point within (its distance + two sampling steps) of the query in each coordinate; the sampling grid provides that for lanes of constant width whose (s, r) map does not stretch distances.", "quantifier": "all lanes, sampling steps > 0, positions, and all implementations of nth_element", "why_tests_cant": "Whether a sample falls into the search cube depends on the whole continuum of positions and on the tree's shape.", "anchors": ["src/maliput/geometry_base/kd_tree_strategy.cc:KDTreeStrategy::ClosestLane", "src/maliput/geometry_base/kd_tree_strategy.cc:KDTreeStrategy::KDTreeStrategy"]}
{"id": "C49", "title": "the segment graph represents the road geometry", "statement": "graph::BuildGraph returns a graph with exactly one edge per segment, whose nodes and edges refer to each other consistently, and graph::FindNode(graph, lane, end) finds, for every lane end, the node at which the edge of its segment ends.", "quantifier": "all road geometries: any number of segments, lanes and branch points, in any order", "why_tests_cant": "The result depends on the order in which segments are visited and on how their branch points overlap.", "anchors": ["src/maliput/routing/graph/graph.cc:BuildGraph", "src/maliput/routing/graph/graph_utils.cc:FindNode", "src/maliput/routing/graph/graph.cc:GetNode"]}
{"id": "C50", "title": "every constructed rule is valid", "statement": "A DiscreteValueRule or RangeValueRule can be constructed exactly when it has at least one state, no two of its states compare equal, no severity is negative, no group of related ids has an empty name and no id is repeated within a group, and, for ranges, min <= max; the constructed rule holds exactly what was given.", "quantifier": "all ids, zones and lists of states with any related rules and unique ids", "why_tests_cant": "All lists and maps of all sizes.", "anchors": ["src/maliput/api/rules/rule.cc:ValidateRelatedRules", "src/maliput/api/rules/discrete_value_rule.cc", "src/maliput/api/rules/range_value_rule.cc"]}
{"id": "C51", "title": "ranges can be ordered", "statement": "RangeValueRule::Range::operator< is a strict weak ordering, so ranges can be sorted and kept in ordered containers.", "quantifier": "all triples of ranges", "why_tests_cant": "A law about all triples.", "anchors": ["src/maliput/api/rules/range_value_rule.cc"]}
{"id": "C52", "title": "the state at a road position", "statement": "GetState(road position, rule type, tolerance) of the rule state providers throws for a negative tolerance; otherwise it returns nullopt exactly when no rule of that type in the rulebook has a zone covering the position within the tolerance, and otherwise the state of the rule with the smallest id among those (throwing if that rule has no state).", "quantifier": "all rulebooks, positions, types and tolerances, after any history of SetState calls", "why_tests_cant": "Rulebooks and histories are unbounded and positions a continuum.", "anchors": ["src/maliput/base/manual_discrete_value_rule_state_provider.cc", "src/maliput/base/manual_range_value_rule_state_provider.cc", "src/maliput/base/rule_filter.cc:FilterRules"]}
{"id": "C53", "title": "position in a route is the closest one on its ranges", "statement": "Route::FindRoutePosition(InertialPosition) always returns a valid phase index, a valid range index of that phase and a lane position on that range (within the phase's tolerance), and no range of any phase is closer, up to the comparison thresholds; for a RoadPosition that lies on some phase's ranges the first such phase is used, otherwise the result is that of its inertial position.", "quantifier": "all routes that can be constructed and all query positions", "why_tests_cant": "Tests query a few positions of a few routes; the claim is about every route and every position, including ties, positions off the road and lanes that occur several times.", "anchors": ["include/maliput/routing/route.h:Route::FindRoutePosition", "src/maliput/routing/route.cc:Route::FindRoutePosition", "src/maliput/routing/phase.cc:Phase::FindPhasePosition"]}
{"id": "C54", "title": "traffic light book lookups", "statement": "TrafficLightBook::GetTrafficLight(id) returns the first light that was added with that id and nullptr exactly if none was; TrafficLights() lists exactly the added lights, each once; AddTrafficLight throws for null and for an id in use, leaving the book unchanged.", "quantifier": "all sequences of AddTrafficLight calls, including rejected ones, and all ids", "why_tests_cant": "Tests add one or two lights; the claim is about every history of calls.", "anchors": ["src/maliput/base/traffic_light_book.cc", "include/maliput/base/traffic_light_book.h"]}
{"id": "C55", "title": "intersection phases and states", "statement": "Intersection::SetPhase changes the phase of exactly the intersections that share its ring and is rejected without effect if the ring has no phase yet or a duration is given without a next phase; bulb_states, DiscreteValueRuleStates and RuleStates return the states of the current phase, nothing if there is none, and fail only if the current phase is not in the ring.", "quantifier": "all intersections, phase providers and arguments", "why_tests_cant": "Tests set the phases of one ring; the claim is about every provider state and every argument, including phases that the ring does not have.", "anchors": ["src/maliput/base/intersection.cc:Intersection::SetPhase", "src/maliput/api/intersection.cc:Intersection::bulb_states"]}
{"id": "C56", "title": "deprecated rules are valid once constructed", "statement": "A RightOfWayRule, SpeedLimitRule or DirectionUsageRule can be constructed exactly when it has at least one state, its state ids differ and no bulb group is repeated for a traffic light (right of way, direction usage), or 0 <= min <= max (speed limit); it then holds exactly what was given, and static_state() returns the only state and throws if there are several.", "quantifier": "all ids, zones, lists of states and related bulb groups", "why_tests_cant": "All lists and maps of all sizes.", "anchors": ["src/maliput/api/rules/right_of_way_rule.cc", "include/maliput/api/rules/right_of_way_rule.h", "include/maliput/api/rules/direction_usage_rule.h", "include/maliput/api/rules/speed_limit_rule.h"]}
{"id": "C57", "title": "CheckInvariants reports exactly the violations", "statement": "RoadGeometry::CheckInvariants returns one message for every object that is not where it says it is, every lane with a wrong index, every empty branch point and every lane end whose position or direction is not that of the first end at its branch point within the tolerances, and no other message; it returns an empty list exactly if there are no violations, and then all the lane ends at a branch point are within twice the linear tolerance.", "quantifier": "all road geometries without null pointers", "why_tests_cant": "Road geometries are of unbounded size and their positions are real numbers.", "anchors": ["src/maliput/api/road_geometry.cc:RoadGeometry::CheckInvariants"]}
{"id": "C58", "title": "distances to lines and planes are Euclidean", "statement": "DistanceToALine returns the least Euclidean distance between the point and the points of the line, and DistanceToAPlane the least distance to the points of the plane; DistanceToAPlane aborts for a null normal.", "quantifier": "all points, directions and normals", "why_tests_cant": "Minimality over all the points of a line or a plane is a statement about infinitely many points.", "anchors": ["src/maliput/utility/mesh_simplification.cc:DistanceToALine", "src/maliput/utility/mesh_simplification.cc:DistanceToAPlane"]}
{"id": "C59", "title": "contours of sets of faces are closed chains of their boundary", "statement": "ComputeMeshFacesContour, given the adjacency map of ComputeFaceAdjacencyMap, always ends; for a set with a boundary edge it returns a non-empty closed chain of boundary edges without repetitions, which is all of the boundary if that is one closed curve that does not touch itself; for a set without boundary it aborts.", "quantifier": "all meshes without repeated directed edges, all sets of faces", "why_tests_cant": "The walk over the faces has no bound, and meshes and sets are of any size and shape.", "anchors": ["src/maliput/utility/mesh_simplification.cc:ComputeMeshFacesContour", "src/maliput/utility/mesh_simplification.cc:FindOuterFaceEdgeIndex"]}
{"id": "C60", "title": "the adjacency map of faces is exact", "statement": "ComputeFaceAdjacencyMap aborts exactly when a directed edge occurs twice; otherwise the map has a row for each face with vertices, and each entry is the edge that joins the same vertices in the opposite direction, or the invalid index if there is none.", "quantifier": "all lists of faces", "why_tests_cant": "Meshes are of unbounded size.", "anchors": ["src/maliput/utility/mesh_simplification.cc:ComputeFaceAdjacencyMap", "src/maliput/utility/mesh_simplification.cc:ComputeInverseFaceEdgeMap"]}
{"id": "C61", "title": "identifiers that differ in one character hash differently", "statement": "Two identifiers of the same length that differ in exactly one character have different std::hash values: the default hash never collides on such ids.", "quantifier": "all strings, positions and characters", "why_tests_cant": "A statement about every pair of strings; a test compares a few.", "anchors": ["include/maliput/common/maliput_hash.h:internal::FNV1aHasher", "include/maliput/api/type_specific_identifier.h"]}
{"id": "C62", "title": "matrix algebra", "statement": "determinant() is the determinant of the matrix, products, sums, transposes and products with vectors are the usual ones, and inverse() returns a matrix that is an inverse on both sides or throws, which it does exactly when the absolute value of the determinant is below the tolerance, that is when is_singular() is true.", "quantifier": "all sizes, all matrices with real entries", "why_tests_cant": "The determinant is a recursion over the size; identities over the reals.", "anchors": ["src/maliput/math/matrix.cc", "Matrix::determinant", "Matrix::inverse"]}
{"id": "C63", "title": "quaternions and rotation matrices correspond", "statement": "Quaternion(rotation matrix) is a unit quaternion whose ToRotationMatrix is that matrix, whichever of the cases of the constructor applies; Quaternion(q.ToRotationMatrix()) is q or -q for every unit q, and two unit quaternions have the same matrix exactly if they are the same up to the sign.", "quantifier": "all rotation matrices, all unit quaternions, over the reals", "why_tests_cant": "The constructor has four branches that depend on the matrix; identities over the reals.", "anchors": ["src/maliput/math/quaternion.cc", "Quaternion(const Matrix3&)", "Quaternion::ToRotationMatrix"]}
{"id": "C64", "title": "rotations from an angle and an axis and between two vectors", "statement": "Quaternion(angle, axis) rotates about the axis by the angle, and Quaternion::FromTwoVectors(a, b) rotates the direction of a to the direction of b, in the plane of both.", "quantifier": "all angles, axes and vectors, over the reals", "why_tests_cant": "Identities over the reals; the exceptional vectors are a null set.", "anchors": ["src/maliput/math/quaternion.cc", "Quaternion::FromTwoVectors"]}
{"id": "C65", "title": "spherical interpolation of rotations", "statement": "p.Slerp(t, q) is a unit quaternion that lies on the arc from p to the nearer of q and -q, its angle to p being t times the whole angle; it is p for t = 0 and q up to the sign for t = 1.", "quantifier": "all unit quaternions and all t in [0, 1]", "why_tests_cant": "Identities over the reals.", "anchors": ["src/maliput/math/quaternion.cc", "Quaternion::Slerp"]}
{"id": "C66", "title": "angular distance is a metric of rotations", "statement": "AngularDistance is between 0 and pi, symmetric, satisfies the triangle inequality, is zero exactly between quaternions that give the same rotation, and is the angle of the rotation from one to the other.", "quantifier": "all unit quaternions", "why_tests_cant": "The triangle inequality quantifies over three rotations.", "anchors": ["src/maliput/math/quaternion.cc", "Quaternion::AngularDistance"]}
{"id": "C67", "title": "roll, pitch and yaw of a quaternion", "statement": "The angles RollPitchYaw computes from a quaternion are in their ranges, and the quaternion and matrix of these angles are those of the given quaternion (up to sign and normalization), within the tolerance of the code near a gimbal lock; angles within the ranges survive the way to a quaternion and back.", "quantifier": "all quaternions; all angles", "why_tests_cant": "The conversion uses atan2 and special cases near gimbal lock; identities over the reals.", "anchors": ["src/maliput/math/roll_pitch_yaw.cc", "RollPitchYaw::SetFromQuaternion"]}
{"id": "C68", "title": "derivatives of the matrix of roll, pitch and yaw", "statement": "CalcRotationMatrixDt is the time derivative of ToMatrix along every motion of the angles with the given rates, and CalcRotationMatrixDrDpDy gives the partial derivatives.", "quantifier": "all angles and all differentiable motions of them", "why_tests_cant": "A derivative is a limit, which no finite number of evaluations determines.", "anchors": ["src/maliput/math/roll_pitch_yaw.cc", "RollPitchYaw::CalcRotationMatrixDt", "RollPitchYaw::CalcRotationMatrixDrDpDy"]}
{"id": "C69", "title": "orientations of lanes", "statement": "An api::Rotation always holds a unit quaternion; Apply multiplies with matrix() and keeps distances; Reverse turns by half a turn about the vertical axis of the rotated frame and reversing twice gives the same rotation; Distance is a metric of rotations; and roll, pitch and yaw give the rotation back.", "quantifier": "all ways to get a Rotation through the API, all vectors", "why_tests_cant": "Identities over the reals and an invariant over all ways to construct and change the object.", "anchors": ["include/maliput/api/lane_data.h", "api::Rotation", "src/maliput/api/lane_data.cc"]}
{"id": "C70", "title": "oriented bounding boxes contain their points", "statement": "A BoundingBox with a position, a size and an orientation in the inertial frame can be constructed exactly if its size and tolerance are not negative; Contains(p) is true of exactly the points of the box moved outwards by the tolerance, and get_vertices are its eight corners.", "quantifier": "all positions, sizes, orientations, tolerances and points", "why_tests_cant": "Identities over the reals, for all rotations.", "anchors": ["src/maliput/math/bounding_box.cc", "BoundingBox::Contains", "BoundingBox::get_vertices"]}
{"id": "C71", "title": "overlap classification of oriented boxes", "statement": "For two BoundingBoxes, Overlaps is kContained exactly if every point of the other box is contained, kDisjointed if they have no point in common, and kIntersected otherwise (up to the tolerance).", "quantifier": "all pairs of boxes in all positions and orientations", "why_tests_cant": "Separation of boxes quantifies over all points of both, and over all rotations.", "anchors": ["src/maliput/math/bounding_box.cc", "BoundingBox::Overlaps"]}
{"id": "C72", "title": "comparing rules, phases and traffic lights", "statement": "IsEqual of two routes, lane ends, rules, phases, next phases, bulbs, bulb groups or traffic lights returns, and its result has no message exactly if the two objects are equal (s-coordinates, speeds, durations, angles and boxes up to the machine epsilon); the result collector has a message exactly if one of the collected results has one.", "quantifier": "all pairs of objects of each kind", "why_tests_cant": "Both directions quantify over all pairs of objects, including maps with any keys.", "anchors": ["include/maliput/common/compare.h", "src/maliput/api/compare.cc", "src/maliput/api/rules/compare.cc", "IsEqual"]}
{"id": "C73", "title": "comparing positions within a tolerance", "statement": "IsInertialPositionClose, IsLanePositionClose, IsRotationClose, IsRBoundsClose, IsHBoundsClose, their results and route position results, CompareVectors and CompareMatrices report no difference exactly if all coordinates differ by at most the tolerance (absolute or relative as requested) and all indices and lanes are the same; closeness is reflexive and symmetric and tolerances add up.", "quantifier": "all pairs of positions, vectors and matrices, including infinite and NaN coordinates, and all tolerances", "why_tests_cant": "Quantifies over all numbers.", "anchors": ["src/maliput/api/compare.cc", "src/maliput/math/compare.cc", "src/maliput/routing/compare.cc"]}
{"id": "C74", "title": "the check of the id index", "statement": "CheckIdIndexing reports no problem for any road geometry built by successful calls, and it reports one exactly if a junction, segment, lane or branch point is not found by its id.", "quantifier": "all road geometries, all histories of construction", "why_tests_cant": "All histories of calls, including rejected ones.", "anchors": ["src/maliput/api/compare.cc", "CheckIdIndexing"]}
{"id": "C75", "title": "loading rulebook documents", "statement": "LoadRoadRulebook, given a document in the old format, either throws or returns a rulebook with exactly the right-of-way and direction usage rules the document describes and, per right-of-way rule, one discrete value rule about stopping and one that mirrors its states; every document that describes valid rules with distinct ids is loaded; ranges that end behind their lane are rejected.", "quantifier": "all parsed documents, all road geometries", "why_tests_cant": "All documents, including malformed ones, of any size and nesting.", "anchors": ["src/maliput/base/road_rulebook_loader.cc", "LoadRoadRulebook", "LoadRoadRulebookFromFile"]}
{"id": "C76", "title": "loading rule registry documents", "statement": "LoadRuleRegistry either throws or returns a registry that reports exactly the types of the document, each with the values described there; type ids are distinct and every document that describes acceptable types with distinct ids is loaded.", "quantifier": "all parsed documents", "why_tests_cant": "All documents, including malformed ones, of any size and nesting.", "anchors": ["src/maliput/base/rule_registry_loader.cc", "LoadRuleRegistry", "src/maliput/base/yaml_conversion.cc"]}
{"id": "C77", "title": "loading rulebooks with a rule registry", "statement": "Loading a rulebook with a rule registry either throws or returns a rulebook with exactly one rule per entry of the document, with the values or ranges, related rules and zone described there, all of them allowed by the registry; every document of valid rules that the registry allows is loaded.", "quantifier": "all parsed documents, all registries that can be built, all road geometries", "why_tests_cant": "All documents and all histories of the registry.", "anchors": ["src/maliput/base/road_rulebook_loader_using_rule_registry.cc", "LoadRoadRulebook"]}
{"id": "C78", "title": "rule types of the library", "statement": "The rule types of the library can all be registered, in any order, and are then reported with all combinations of their severities and texts; the discrete value rules that the loader of old rulebooks derives have values of these types.", "quantifier": "all orders of registration, all right-of-way rules", "why_tests_cant": "Quantifies over all rules a document can describe.", "anchors": ["src/maliput/base/rule_registry.cc", "BuildRightOfWayRuleType", "BuildDirectionUsageRuleType", "BuildVehicleStopInZoneBehaviorRuleType"]}
{"id": "C79", "title": "loading traffic light documents", "statement": "LoadTrafficLightBook returns a book exactly if the document is a sequence of descriptions of traffic lights with distinct non-empty ids, whose groups and bulbs have distinct non-empty ids and whose groups are not empty; the book then contains exactly these lights with the poses, bounding boxes, colors, types, arrow orientations and states described; every other document makes it throw.", "quantifier": "all parsed documents", "why_tests_cant": "All documents, including malformed ones, of any size and nesting.", "anchors": ["src/maliput/base/traffic_light_book_loader.cc", "LoadTrafficLightBook", "LoadTrafficLightBookFromFile"]}
{"id": "C80", "title": "loading phase ring documents", "statement": "LoadPhaseRingBook for discrete value rules returns a book exactly if the document describes rings with distinct ids and no rule in common, with at least one phase, distinct phase ids, known rules, values, bulbs and next phases, and the bulbs of the first phase, if it has any, in all phases; the book then contains exactly these rings, where a rule that a phase does not name has the value of the phase before it or else its default value, and a bulb that is not named has its default state; otherwise it throws, except in the listed cases in which it aborts or its behavior is undefined.", "quantifier": "all parsed documents, all rulebooks, all traffic light books that can be built", "why_tests_cant": "All documents, including malformed ones, of any size and nesting.", "anchors": ["src/maliput/base/phase_ring_book_loader.cc", "LoadPhaseRingBook", "LoadPhaseRingBookFromFile"]}
{"id": "C81", "title": "loading phase ring documents for right-of-way rules", "statement": "LoadPhaseRingBookOldRules returns a book exactly if the document describes valid rings with distinct ids and no rule in common whose right-of-way states are mirrored by discrete value rules; the phases then give each right-of-way rule the named or the default state and its mirror the same value, and a rulebook that was loaded from a document mirrors every state.", "quantifier": "all parsed documents, all rulebooks, all traffic light books that can be built", "why_tests_cant": "All documents, including malformed ones, of any size and nesting.", "anchors": ["src/maliput/base/phase_ring_book_loader_old_rules.cc", "LoadPhaseRingBookOldRules", "LoadPhaseRingBookFromFileOldRules"]}
{"id": "C82", "title": "loading intersection documents", "statement": "LoadIntersectionBook returns a book exactly if the document describes intersections with distinct ids whose phase rings are known, have the initial phase and only rules of the rulebook; the book then contains exactly these intersections with the zones of the rules of the ring as region, and for each ring the phase provider has the initial phase of the last intersection that names it, with the first of its next phases; other rings keep their phases. A failing load leaves the changes of the intersections before the failure.", "quantifier": "all parsed documents, all rulebooks, all phase ring books that can be built, all states of the phase provider", "why_tests_cant": "All documents, including malformed ones, and all positions of the failing entry.", "anchors": ["src/maliput/base/intersection_book_loader.cc", "LoadIntersectionBook", "LoadIntersectionBookFromFile"]}
{"id": "C83", "title": "surface mesh of a lane: grid", "statement": "For every lane and every positive size of the grid, making the surface mesh without optimization ends; the faces are made along consecutive strips from the start to the end of the lane and cover exactly the points between the bounds of the lane; all faces are seen from above, counterclockwise and not degenerate, and all vertices lie on the lane, within its bounds and at the elevation asked for.", "quantifier": "all lanes, bounds, elevations, grid sizes and tolerances", "why_tests_cant": "Lanes of any length and any shape of their bounds; also termination.", "anchors": ["src/maliput/utility/generate_obj.cc", "BuildMeshes", "CoverLaneWithQuads", "GeneratePreciseRoadMesh"]}
{"id": "C84", "title": "surface mesh of a lane: optimized", "statement": "For every lane and every positive size of the grid, making the optimized surface mesh ends; it has two triangles per strip that cover exactly the points between the bounds at the ends of the strip; no strip is shorter than the grid unless the lane ends; a strip is longer only where the lane is straight up to the size of the grid; all faces are seen from above and all vertices lie on the bounds of the lane.", "quantifier": "all lanes, bounds, elevations, grid sizes and distances", "why_tests_cant": "Lanes of any length and geometry; also termination of two nested loops.", "anchors": ["src/maliput/utility/generate_obj.cc", "BuildMeshes", "CoverLaneWithQuads", "GenerateOptimizedRoadMesh", "ComputeSampleStep"]}
{"id": "C85", "title": "stripes of a lane", "statement": "Drawing the stripes of a lane ends and covers exactly the points at most half the width of a stripe away from the straight lines between the bounds of the lane, at the elevation asked for.", "quantifier": "all lanes, bounds, grid sizes, tolerances, widths", "why_tests_cant": "Lanes of any length and shape of their bounds.", "anchors": ["src/maliput/utility/generate_obj.cc", "BuildMeshes", "StripeLaneBounds"]}
{"id": "C86", "title": "arrows of a lane", "statement": "Marking the ends of a lane always succeeds; there is an arrow at either end exactly if it would be longer than the tolerance; its faces cover exactly the triangle that points forward, is as long as the lane is wide but at most three tenths of the length, and whose base is four fifths of the lane; arrows are between the ends of the lane and do not overlap unless the tolerance is a fifth of the length or more.", "quantifier": "all lanes, bounds, grid sizes, tolerances", "why_tests_cant": "Lanes of any length and width and grids of any size; none may trip the assertions.", "anchors": ["src/maliput/utility/generate_obj.cc", "BuildMeshes", "MarkLaneEnds", "DrawLaneArrow"]}
{"id": "C87", "title": "grid size of a lane", "statement": "The size of the grid for a lane is the smallest of the maximum and of the widths at both ends and the length divided by the minimum resolution, but never less than the tolerance.", "quantifier": "all lanes and parameters", "why_tests_cant": "All lanes and parameters.", "anchors": ["src/maliput/utility/generate_obj.cc", "PickGridUnit", "ObjFeatures"]}
{"id": "C88", "title": "drawing branch points", "statement": "BuildMeshes draws every branch point that has lane ends, as a diamond at the first of them and an arrow at each of them that points into the lane; the search for an elevation ends after at most two attempts per branch point drawn before, and takes the lowest of the attempted elevations at which it does not overlap any of those. Faces are in counterclockwise order when seen from where their normal points to.", "quantifier": "all road geometries, branch points, heights and elevations that are not negative", "why_tests_cant": "Any number of branch points in any arrangement; also termination.", "anchors": ["src/maliput/utility/generate_obj.cc", "BuildMeshes", "RenderBranchPoint", "DrawBranch", "DrawArrows", "ObjFeatures"]}
{"id": "C89", "title": "meshes of a road geometry", "statement": "For every road geometry that can be drawn, BuildMeshes returns exactly the nine documented meshes with their materials: surface, haze and markers of the segments that are highlighted, or of all if none is, in the usual meshes; those of the other segments in the gray ones; all elevation bounds in one mesh; all branch points in one mesh; nothing for sidewalks. Features that are off add no faces.", "quantifier": "all road geometries, features and backends", "why_tests_cant": "Any number of junctions, segments, lanes and branch points, and all combinations of features.", "anchors": ["src/maliput/utility/generate_obj.cc", "BuildMeshes", "RenderSegment", "IsSegmentRenderedNormally", "SimplifyMesh", "ObjFeatures"]}
{"id": "C90", "title": "Wavefront files of a road geometry", "statement": "GenerateObjFile makes two files; the first one refers to the second one, and every material it uses is described in the second one. Read as a Wavefront file, the first one has the faces of all meshes of BuildMeshes in their order, each vertex relative to the origin and each normal off by at most a tenth of the linear tolerance, with no more digits than that needs.", "quantifier": "all road geometries, features, origins, tolerances and file names", "why_tests_cant": "All numbers and tolerances (rounding to decimals), and any number of meshes whose indices count on.", "anchors": ["src/maliput/utility/generate_obj.cc", "GenerateObjFile", "FormatMaterial", "src/maliput/utility/string_format.cc", "to_str", "include/maliput/utility/mesh.h", "EmitObj"]}
{"id": "C91", "title": "meshes by id", "statement": "BuildMesh returns for a known lane, segment or branch point and a type of mesh that it can have the faces of just that, with the material of the type, and throws for other types. BuildRoadGeometryMesh returns maps that have exactly one mesh of each kind for each lane of each segment and for each branch point, under the key made of its id, and in the usual or the gray map according to the highlighted segments. Every type has a material; materials are found by their names.", "quantifier": "all road geometries, ids, types and features", "why_tests_cant": "Any number of lanes and branch points; keys made of ids must not collide.", "anchors": ["src/maliput/utility/generate_obj.cc", "BuildMesh", "BuildRoadGeometryMesh", "GetMaterialByName", "GetMaterialFromMesh", "include/maliput/utility/generate_obj.h"]}
{"id": "C92", "title": "arithmetic of polynomials", "statement": "Polynomials that are built from numbers, variables and monomials by sums, differences, products, powers and scaling have the value of the expression they were built from, whichever values the variables get; evaluation fails exactly when a variable has no value. Sums, differences and products have one monomial for each product of powers and none with a zero coefficient. Partial evaluation replaces just the variables that have a value. The polynomial knows whether it has one variable.", "quantifier": "all expressions, all sets of variables with values", "why_tests_cant": "Expressions of any depth over any number of variables.", "anchors": ["src/maliput/drake/common/polynomial.cc", "Polynomial::EvaluateMultivariate", "Polynomial::EvaluatePartial", "Polynomial::MakeMonomialsUnique", "Polynomial::operator+=", "Polynomial::operator*="]}
{"id": "C93", "title": "calculus of polynomials", "statement": "For polynomials in one variable, evaluation with a derivative order gives the derivatives of the function that the polynomial is; Derivative and Integral give polynomials for the derivative and the antiderivative with the given constant; GetCoefficients gives the coefficients, of which Roots gives roots.", "quantifier": "all polynomials in one variable, all points and orders", "why_tests_cant": "Derivatives are limits, and the polynomials have any degree.", "anchors": ["src/maliput/drake/common/polynomial.cc", "Polynomial::EvaluateUnivariate", "Polynomial::Derivative", "Polynomial::Integral", "Polynomial::GetCoefficients", "Polynomial::Roots"]}
{"id": "C94", "title": "names of polynomial variables", "statement": "A valid variable name and number have an id from which the name can be read again, so that different names are different variables.", "quantifier": "all names and numbers", "why_tests_cant": "Injectivity ranges over all pairs of names.", "anchors": ["src/maliput/drake/common/polynomial.cc", "Polynomial::VariableNameToId", "Polynomial::IdToVariableName"]}
{"id": "C95", "title": "substitution in polynomials", "statement": "Substitute gives the polynomial whose value is that of the first polynomial with the value of the second one for the variable; Subs renames a variable.", "quantifier": "all polynomials, variables and values", "why_tests_cant": "Polynomials of any size and degree.", "anchors": ["src/maliput/drake/common/polynomial.cc", "Polynomial::Substitute", "Polynomial::Subs"]}
{"id": "C96", "title": "piecewise polynomials choose the right segment", "statement": "A piecewise polynomial evaluates, at every time, the polynomial of the segment that contains the time, at the time since the segment's start; a break belongs to the segment that starts there, except the last one; times before the first or after the last break give the values at those breaks. Derivatives likewise. scalarValue gives the same number.", "quantifier": "all piecewise polynomials with increasing breaks, all times, all orders", "why_tests_cant": "Any number of segments and any times; the segment is found by bisection.", "anchors": ["src/maliput/drake/common/trajectories/piecewise_polynomial.cc", "src/maliput/drake/common/trajectories/piecewise_trajectory.cc", "include/maliput/drake/common/trajectories/piecewise_polynomial.h", "PiecewisePolynomial::value", "PiecewisePolynomial::EvalDerivative", "PiecewiseTrajectory::get_segment_index"]}
{"id": "C97", "title": "interpolants go through their samples", "statement": "ZeroOrderHold, FirstOrderHold and CubicHermite return, for samples at times that are far enough apart, a trajectory whose values (and derivatives for CubicHermite) at the sample times are the samples, that is constant, linear, or cubic in between; the cubic one is continuous and has a continuous derivative. Other samples are refused.", "quantifier": "all lists of times and samples of any length", "why_tests_cant": "Any number of samples, real values of them.", "anchors": ["src/maliput/drake/common/trajectories/piecewise_polynomial.cc", "PiecewisePolynomial::ZeroOrderHold", "PiecewisePolynomial::FirstOrderHold", "PiecewisePolynomial::CubicHermite"]}
{"id": "C98", "title": "shape preserving interpolation preserves shape", "statement": "CubicShapePreserving goes through the samples and is monotone between two of them: where the samples grow the interpolant grows, where they fall it falls.", "quantifier": "all lists of at least three times and samples", "why_tests_cant": "Any number of samples and any values; monotone on a continuum of times.", "anchors": ["src/maliput/drake/common/trajectories/piecewise_polynomial.cc", "PiecewisePolynomial::CubicShapePreserving"]}
{"id": "C99", "title": "joining, appending to and slicing trajectories", "statement": "ConcatenateInTime gives the first trajectory before its end and the second one from there; the Append functions keep what was there and add a segment that ends with the given sample; RemoveFinalSegment and slice keep the values of the segments they keep; what does not fit is refused.", "quantifier": "all valid trajectories, times and samples", "why_tests_cant": "Any number of segments, any histories of joins.", "anchors": ["src/maliput/drake/common/trajectories/piecewise_polynomial.cc", "PiecewisePolynomial::ConcatenateInTime", "PiecewisePolynomial::AppendCubicHermiteSegment", "PiecewisePolynomial::AppendFirstOrderSegment", "PiecewisePolynomial::RemoveFinalSegment", "PiecewisePolynomial::slice"]}
{"id": "C100", "title": "calculus and arithmetic of trajectories", "statement": "derivative gives the derivatives, integral an antiderivative with the given start value that is continuous at the breaks, +, - and * the sums, differences and products of the values, and shiftRight, ScaleTime and ReverseTime the same values at the moved times.", "quantifier": "all valid trajectories and all times", "why_tests_cant": "Any number of segments and polynomials of any degree.", "anchors": ["src/maliput/drake/common/trajectories/piecewise_polynomial.cc", "PiecewisePolynomial::derivative", "PiecewisePolynomial::integral", "PiecewisePolynomial::shiftRight", "PiecewisePolynomial::ScaleTime", "PiecewisePolynomial::ReverseTime"]}
{"id": "C101", "title": "arc length is the integral", "statement": "Evaluate of an ArcLengthIntegrator or InverseArcLengthIntegrator gives a value that Kutta's third order method leads to from the lower bound of the configuration to the point, with steps forward that are not longer than the maximum step size: for the arc length it is a sum of Simpson's rule. So it is exact for cubic integrands, within the bounds of the integrand times the length, and within M (p - p0) h^4 / 2880 of the integral for integrands with a fourth derivative bounded by M. This holds after every history of calls.", "quantifier": "all integrands and right hand sides, all configurations with an accuracy that is not negative, all points, parameters and sequences of earlier calls, some of which may have thrown", "why_tests_cant": "The integrand is an arbitrary function, the number of steps is not bounded, and the integrator keeps state between calls.", "anchors": ["src/maliput/drake/arc_length_integrator.cc", "src/maliput/drake/inverse_arc_length_integrator.cc", "src/maliput/drake/systems/analysis/initial_value_problem.cc", "src/maliput/drake/systems/analysis/integrator_base.cc", "src/maliput/drake/systems/analysis/runge_kutta3_integrator.cc", "ArcLengthIntegrator::Evaluate", "InverseArcLengthIntegrator::Evaluate"]}
{"id": "C102", "title": "integration ends", "statement": "Evaluate and the making of a function come to an end. Evaluate returns a value for every point that is not below the lower bound if the integrand is smooth enough (bounded, for example) and the step sizes are usable; it throws otherwise.", "quantifier": "all right hand sides, configurations, points and sequences of earlier calls", "why_tests_cant": "Termination is about unbounded loops: step size control repeats steps an unknown number of times.", "anchors": ["src/maliput/drake/systems/analysis/integrator_base.cc", "src/maliput/drake/systems/analysis/integrator_base.h", "ArcLengthIntegrator::Evaluate", "IntegratorBase::CalcAdjustedStepSize", "IntegratorBase::StepOnceErrorControlledAtMost"]}
{"id": "C103", "title": "integration does not depend on earlier calls", "statement": "The value of Evaluate does not depend on earlier calls: the same call gives the same value again, points in any order give the values a new integrator gives, and values grow with the point when the integrand is not negative.", "quantifier": "all integrands, configurations and sequences of calls", "why_tests_cant": "Histories of calls of any length; the integrator continues from where the last call ended.", "anchors": ["src/maliput/drake/systems/analysis/initial_value_problem.cc", "ArcLengthIntegrator::Evaluate", "InitialValueProblem::Solve"]}
{"id": "C104", "title": "integration meets its target accuracy", "statement": "The error estimate of every step that leads to the value of Evaluate is within the target accuracy of the configuration, unless the step is as short as the precision of the times allows.", "quantifier": "all right hand sides, configurations and sequences of earlier calls", "why_tests_cant": "The steps depend on the right hand side, which is an arbitrary function, and on the history.", "anchors": ["src/maliput/drake/systems/analysis/integrator_base.cc", "ArcLengthIntegrator::Evaluate", "IntegratorBase::CalcAdjustedStepSize"]}
{"id": "C105", "title": "functions for an interval", "statement": "The function that IntegralFunction(p0, p1, k, tolerance) or InverseFunction makes is a piecewise cubic curve through the points of accurate steps from the lower bound to p1 with the slopes of the right hand side there. It gives the value of the curve from p0 to p1, that of the closest end for points outside closer than the tolerance, and throws for others. It does not depend on earlier calls, is exact for quadratic integrands, is within (M (p1 - p0) / 2880 + L / 384) h^4 of the integral for smooth ones, does not fall for integrands that are not negative, and Evaluate(p1, k) afterwards gives its value at p1.", "quantifier": "all right hand sides, configurations, intervals, tolerances, points and sequences of earlier calls", "why_tests_cant": "The points are a continuum, the integrand an arbitrary function, the number of pieces not bounded.", "anchors": ["src/maliput/drake/arc_length_integrator.cc", "src/maliput/drake/inverse_arc_length_integrator.cc", "src/maliput/drake/systems/analysis/hermitian_dense_output.h", "ArcLengthIntegrator::IntegralFunction", "InverseArcLengthIntegrator::InverseFunction", "InitialValueProblem::DenseSolve"]}
{"id": "C106", "title": "functions can be made where values can be computed", "statement": "If Evaluate returns a value for p1 in a new integrator then IntegralFunction or InverseFunction makes a function for every interval from a point that is not below the lower bound to p1, and a failure leaves the integrator usable.", "quantifier": "all right hand sides, configurations and intervals", "why_tests_cant": "Whether a step ends just before p1 depends on the integrand and the interval.", "anchors": ["src/maliput/drake/arc_length_integrator.cc", "src/maliput/drake/systems/analysis/initial_value_problem.cc", "ArcLengthIntegrator::IntegralFunction", "IntegratorBase::StartDenseIntegration", "IntegratorBase::DoDenseStep"]}
{"id": "C107", "title": "cached results are never stale", "statement": "Evaluating a cache entry or an output of a leaf system returns what its calculator computes, with nothing cached, from the values last written to the context, whatever was written, evaluated, fixed, marked, enabled, disabled, frozen or cloned before, and so does asking for a value that is known to be up to date. An evaluation that is not frozen returns a value exactly when the calculator computes one and throws otherwise. Contexts can be made and changed.", "quantifier": "all leaf systems (any declared states, parameters, ports, cache entries and prerequisites), all calculators that only look at sources which their prerequisites stand for, all histories of operations on a context", "why_tests_cant": "The graph of dependencies and the history are unbounded; staleness needs one missed notification.", "anchors": ["src/maliput/drake/systems/framework/cache_entry.h", "src/maliput/drake/systems/framework/dependency_tracker.cc", "src/maliput/drake/systems/framework/context_base.cc", "src/maliput/drake/systems/framework/context.cc", "CacheEntry::Eval", "CacheEntry::GetKnownUpToDate", "Context::FixInputPort", "Context::get_mutable_state"]}
{"id": "C108", "title": "the cache is transparent", "statement": "Two contexts of a leaf system with the same values give the same results, whatever happened to their caches before: caching on or off, evaluations in any order, clones, exceptions. An evaluation changes nothing but cached values. A frozen cache does not change: an evaluation returns an up to date value or throws.", "quantifier": "all leaf systems, calculators, pairs of histories of operations", "why_tests_cant": "It compares two arbitrary histories of any length.", "anchors": ["src/maliput/drake/systems/framework/cache_entry.h", "src/maliput/drake/systems/framework/cache.cc", "src/maliput/drake/systems/framework/context_base.cc", "CacheEntry::Eval", "ContextBase::FreezeCache", "ContextBase::DisableCaching", "ContextBase::Clone"]}
{"id": "C109", "title": "only what depends on a change is computed again", "statement": "After a change of values a cache entry is out of date exactly when it was before or one of the prerequisites declared for it stands for a changed source; an entry that was just evaluated gives its value again without any computation.", "quantifier": "all leaf systems, calculators, histories and changes", "why_tests_cant": "The dependencies form an arbitrary graph, the event numbers that stop notifications early depend on the history.", "anchors": ["src/maliput/drake/systems/framework/dependency_tracker.cc", "src/maliput/drake/systems/framework/context_base.cc", "DependencyTracker::NoteValueChange", "Context::FixInputPort", "CacheEntry::is_out_of_date"]}
{"id": "C110", "title": "steps of the integrator do not see old derivatives", "statement": "A step of the Runge-Kutta integrator on a context, which evaluates time derivatives through the cache and keeps a reference to the cached value, gives the state and the error estimate of the formulas of the method, after every history of the context and every number of steps.", "quantifier": "all right hand sides, step sizes, numbers of steps and earlier histories of the context", "why_tests_cant": "Whether a cached derivative is reused depends on the history; the last derivative is read after it was marked out of date.", "anchors": ["src/maliput/drake/systems/analysis/runge_kutta3_integrator.cc", "src/maliput/drake/systems/analysis/initial_value_problem.cc", "RungeKutta3Integrator::DoStep", "System::EvalTimeDerivatives"]}
{"id": "C111", "title": "direct feedthrough is reported", "statement": "GetDirectFeedthroughs, HasDirectFeedthrough and HasAnyDirectFeedthrough of a leaf system report every pair of an input port and an output port such that the output may depend on the input: an output whose pair is not reported computes the same for all values of the input.", "quantifier": "all leaf systems, calculators and values", "why_tests_cant": "The answer comes from probes of the graph of dependencies of an arbitrary system.", "anchors": ["src/maliput/drake/systems/framework/leaf_system.cc", "src/maliput/drake/systems/framework/system.cc", "LeafSystem::GetDirectFeedthroughs", "System::HasDirectFeedthrough", "System::HasAnyDirectFeedthrough"]}
{"id": "C112", "title": "predefined tickets mean what is documented", "statement": "A prerequisite that is one of the predefined dependency tickets makes a computation depend on exactly the sources which the documentation of the ticket lists, or on the cache entry it names.", "quantifier": "all leaf systems, all predefined tickets, all sources", "why_tests_cant": "It is about every system: its states, parameters and ports are arbitrary.", "anchors": ["src/maliput/drake/systems/framework/system_base.h", "src/maliput/drake/systems/framework/context_base.cc", "SystemBase::all_sources_ticket", "SystemBase::configuration_ticket", "SystemBase::pe_ticket", "SystemBase::xcdot_ticket"]}
{"id": "C113", "title": "vectors survive text", "statement": "A vector read from the text that to_str writes is the vector, up to the rounding of its numbers to the digits written. FromStr gives the numbers of any text in the documented format {a, b, ...}, in order, and throws an assertion_error for a text that does not follow it.", "quantifier": "all vectors of any positive dimension, all texts, all number parsers that stop at a comma or brace and skip spaces", "why_tests_cant": "Texts are unbounded; tests try a few well formed ones.", "anchors": ["include/maliput/math/vector.h", "src/maliput/math/vector.cc", "VectorBase::FromStr", "VectorBase::to_str"]}
{"id": "C114", "title": "create_directory_recursive does what mkdir -p does", "statement": "When create_directory_recursive returns true, all directories on the way to the path are there and nothing else has changed; whatever it returns, nothing that was there is changed or removed. It makes the directories and returns true whenever mkdir -p would succeed.", "quantifier": "all file systems, current directories, permissions to make directories, and paths", "why_tests_cant": "The state of the file system and the form of the path are arbitrary.", "anchors": ["include/maliput/common/filesystem.h", "src/maliput/common/filesystem.cc", "Filesystem::create_directory_recursive", "Filesystem::create_directory"]}
{"id": "C115", "title": "paths are appended and removed as named", "statement": "append gives the path of what the appended path names from the path, or the appended path if that is absolute, however many slashes are in them. remove_directory and remove_file remove what is at their path when it is a directory or a file, touch nothing else, and return whether they did.", "quantifier": "all paths, file systems and locations", "why_tests_cant": "It ranges over all spellings of paths and all states of the file system.", "anchors": ["include/maliput/common/filesystem.h", "src/maliput/common/filesystem.cc", "Path::append", "Path::set_path", "Filesystem::remove_directory", "Filesystem::remove_file"]}
{"id": "C116", "title": "files below a directory are found", "statement": "GetAllFilePathsFromDirectory gives the paths of exactly the files below the directory, at any depth, each once, and with a suffix exactly those that end with it; a path that is not a directory is refused. GetAllPathsFromEnvironment gives the paths written with colons between them, in order.", "quantifier": "all directory trees of any depth and width, all suffixes, all values of the variable", "why_tests_cant": "Trees are unbounded in depth and width.", "anchors": ["include/maliput/utility/file_utils.h", "src/maliput/utility/file_utils.cc", "GetAllFilePathsFromDirectory", "GetAllPathsFromEnvironment"]}
{"id": "C117", "title": "a file is read completely or not at all", "statement": "read_as_string returns, with true and the whole file when the file can be opened and read, and otherwise with false and the string as it was.", "quantifier": "all files of any length, all failures to open and to read", "why_tests_cant": "Lengths are unbounded, and a test does not make a read fail midway.", "anchors": ["include/maliput/common/filesystem.h", "src/maliput/common/filesystem.cc", "Filesystem::read_as_string"]}
{"id": "C118", "title": "plugins are found by id", "statement": "A plugin manager is made exactly when all shared libraries below the directories of the environment variable are plugins. It then has, under each id, a plugin with that id, the one added last, and no others, and lists exactly those with their types. MakeRoadNetworkLoader gives what the entry point of the plugin with the id makes, and throws an assertion_error if the id is empty or not found, is not of a road network loader, or lacks the entry point; libraries are looked for once per process.", "quantifier": "all directory trees, libraries, environments, ids and sequences of additions", "why_tests_cant": "The set of installed libraries and their ids is arbitrary; duplicates depend on the order.", "anchors": ["include/maliput/plugin/maliput_plugin_manager.h", "src/maliput/plugin/maliput_plugin_manager.cc", "src/maliput/plugin/create_road_network.cc", "src/maliput/plugin/maliput_plugin.cc", "MaliputPluginManager::AddPlugin", "MaliputPluginManager::GetPlugin", "MaliputPluginManager::ListPlugins", "MakeRoadNetworkLoader", "CreateRoadNetwork"]}
{"id": "C119", "title": "log messages reach the sink at the level in force", "statement": "Over any history of calls the sinks are given exactly the messages at least as severe as the level in force when they were logged, each to the sink in force then, in order and in the documented form. Setting a level returns the name of the one before, which set again restores it; an unknown name throws std::out_of_range and changes nothing; at level off nothing is delivered.", "quantifier": "all histories of changes of level and sink and of messages", "why_tests_cant": "What is delivered depends on the whole history.", "anchors": ["include/maliput/common/logger.h", "src/maliput/common/logger.cc", "Logger::set_level", "Logger::set_sink", "set_log_level", "Logger::log"]}
{"id": "C120", "title": "the text of a road geometry tells its structure", "statement": "GenerateString gives a line for every part that is to be shown, each part followed by what is in it, indented by two spaces for each shown part around it, with its label and id. With all ids shown and no details, equal texts come only from road geometries with the same ids in the same hierarchy and order.", "quantifier": "all road geometries with any numbers of junctions, segments and lanes, all options, all pairs of road geometries whose ids have no end of line and, without labels, no space in front", "why_tests_cant": "It compares the texts of two arbitrary road geometries.", "anchors": ["include/maliput/utility/generate_string.h", "src/maliput/utility/generate_string.cc", "GenerateString", "GenerateStringOptions"]}
{"id": "C121", "title": "graphs drawn in DOT read back", "statement": "What GenerateDotStream writes reads as exactly the edges of the graph, each once, with its nodes and the id of its segment; with a route, red are exactly the edges whose segment is that of the first start position of some phase. It throws for a null stream, and, before writing, when some such segment is not in the graph.", "quantifier": "all graphs, routes and ids", "why_tests_cant": "Graphs, routes and ids are unbounded.", "anchors": ["include/maliput/utility/generate_dot.h", "src/maliput/utility/generate_dot.cc", "GenerateDotStream"]}
{"id": "C122", "title": "Fresnel cosine and sine are the Fresnel integrals", "statement": "ComputeFresnelCosineAndSine(t) is, up to rounding and an error of 1e-14, the vector of the integrals of cos(pi s^2 / 2) and sin(pi s^2 / 2) from 0 to t. The opposite argument gives the opposite vector. FresnelSpiralHeading is the heading of the curve they draw and FresnelSpiralHeadingDot its derivative.", "quantifier": "all real arguments and all rates of curvature", "why_tests_cant": "The argument ranges over a continuum, three different formulas with 68 coefficients are used, and the integrals have no closed form to compare with.", "anchors": ["include/maliput/math/fresnel.h", "src/maliput/math/fresnel.cc", "ComputeFresnelCosineAndSine", "FresnelSpiralHeading", "FresnelSpiralHeadingDot"]}
{"id": "C123", "title": "containment of positions and lanes", "statement": "Lane::Contains(position) is true exactly if some position of the lane's volume (between 0 and the length, in the segment bounds and the elevation bounds at the position) differs from it by at most the linear tolerance of the road geometry in every coordinate. RoadNetwork::Contains(lane id) is true exactly if the road geometry has a lane with that id, RoadNetwork::Contains(road position) exactly if the lane is in the road geometry and contains the position. A road network is constructed exactly if none of its parts is null.", "quantifier": "all lanes of all backends, positions, tolerances, road geometries, ids and parts", "why_tests_cant": "Positions range over a continuum and the bounds are arbitrary functions of a backend.", "anchors": ["src/maliput/api/lane.cc", "Lane::Contains", "src/maliput/api/road_network.cc", "RoadNetwork::Contains", "RoadNetwork::RoadNetwork"]}
{"id": "C124", "title": "right of way states and their groups", "statement": "After any history of AddState and SetState calls, refused ones among them, GetState of a right of way rule returns what the latest accepted call about the rule gave, and nothing exactly if it was never added; a call is refused exactly if it adds a rule again or sets an unknown one, and changes nothing then. GetCurrentYieldGroup and GetCurrentBulbGroup return the group that the latest accepted state of a right of way rule names, and throw if there is none.", "quantifier": "all histories of calls, rules, states and rulebooks", "why_tests_cant": "Histories are unbounded.", "anchors": ["src/maliput/base/manual_right_of_way_rule_state_provider.cc", "ManualRightOfWayRuleStateProvider", "src/maliput/base/rule_tools.cc", "GetCurrentYieldGroup", "GetCurrentBulbGroup"]}
{"id": "C125", "title": "values that are not numbers", "statement": "After any history of constructors and setters, refused ones among them, the extremes of an SRange, RBounds or HBounds, of an AxisAlignedBox and the limits of a SpeedLimitRule are numbers in the documented order, never NaN: exactly the values out of order or NaN are refused, and then nothing changes. saturate returns the nearest number of the range for every number, infinities included, and refuses exactly bounds that are NaN or out of order. No lane and no box contains a position with a NaN coordinate.", "quantifier": "all doubles, NaN and infinities included, and all histories of calls", "why_tests_cant": "There are 2^64 values for every argument, and histories are unbounded.", "anchors": ["src/maliput/api/regions.cc", "SRange", "include/maliput/api/lane_data.h", "RBounds", "HBounds", "src/maliput/math/axis_aligned_box.cc", "AxisAlignedBox", "src/maliput/math/saturate.cc", "include/maliput/api/rules/speed_limit_rule.h", "src/maliput/api/lane.cc"]}
{"id": "C126", "title": "range tests under rounding", "statement": "With the rounding of double arithmetic, SRange::Intersects, SRange::Contains, Lane::Contains and AxisAlignedBox::Contains are true whenever their exact counterparts with the same tolerance are, and if true the exact counterpart with the tolerance plus half a unit in the last place is. Without tolerance they are exact, and the overlap test of boxes always is. Intersects is symmetric.", "quantifier": "all finite doubles", "why_tests_cant": "There are 2^64 values for every argument, and rounding errors show for few of them.", "anchors": ["src/maliput/api/regions.cc", "SRange::Intersects", "SRange::Contains", "src/maliput/api/lane.cc", "Lane::Contains", "src/maliput/math/axis_aligned_box.cc", "AxisAlignedBox::DoContains", "AxisAlignedBox::IsBoxIntersected"]}
{"id": "C127", "title": "range validation under rounding", "statement": "With the rounding of double arithmetic, a RangeValidator accepts every number within the tolerance of its range, refuses NaN and every number further than the tolerance and half a unit in the last place away, returns a number in the open range, and returns the number it was given if that is further than epsilon from the extremes.", "quantifier": "all finite doubles as range, tolerance, epsilon and argument, absolute or relative epsilon", "why_tests_cant": "There are 2^64 values for every argument, and rounding errors show for few of them.", "anchors": ["src/maliput/common/range_validator.cc", "RangeValidator"]}
{"id": "C128", "title": "the URDF file describes the road surface", "statement": "The file GenerateUrdfFile writes is well-formed XML for every road geometry id and file root, and describes one robot, named by the road geometry, with a link that shows the generated Wavefront file in its own size and is attached without displacement to the link of the world. The mesh named in the URDF file is the Wavefront file that was written, and the material library named there is the material file that was written.", "quantifier": "all road geometries, ids, directories, file roots and features", "why_tests_cant": "Ids and names are arbitrary texts.", "anchors": ["src/maliput/utility/generate_urdf.cc", "GenerateUrdfFile", "src/maliput/utility/generate_obj.cc", "GenerateObjFile"]}
{"id": "C129", "title": "rules of loaded phase rings always have a state", "statement": "Load a phase ring document, take the default phase provider for the resulting book, and change phases by any history of calls that names only phases of the rings. Then at every time, asking for the state of any rule throws nothing. A rule that is in a ring is a rule of the rulebook, its state is one of the values the rulebook allows for it, and so is the announced next state. A right-of-way rule and the discrete value rule that mirrors it always have corresponding states, with corresponding next states after the same duration.", "quantifier": "all rulebooks, traffic light books, documents that load, histories of phase changes (accepted or refused) and rules", "why_tests_cant": "It must hold after every history of phase changes, for every document.", "anchors": ["src/maliput/base/phase_ring_book_loader.cc", "LoadPhaseRingBook", "src/maliput/base/manual_phase_provider.cc", "SetPhase", "GetDefaultPopulatedManualPhaseProvider", "src/maliput/base/phased_discrete_rule_state_provider.cc", "DoGetState", "src/maliput/base/phase_based_right_of_way_rule_state_provider.cc"]}
{"id": "C130", "title": "cubic splines are the unique smooth interpolants", "statement": "CubicWithContinuousSecondDerivatives makes a trajectory that is a cubic polynomial between consecutive times, goes through every sample, and is twice continuously differentiable. With slopes given, its slopes at the ends are these. With the periodic flag, its first and second derivatives at the end are those at the start. Without it, the first two segments are one cubic polynomial and so are the last two, and with three samples it is one parabola. No other function has these properties. LagrangeInterpolatingPolynomial makes the only polynomial of a degree below the number of samples that goes through all of them. Times that do not increase, too few samples and samples that do not match are rejected, by the splines with an exception and by the interpolation by ending the program.", "quantifier": "all numbers of samples, times, values, end slopes and end conditions", "why_tests_cant": "Tests fix a number of samples; that the systems of equations have exactly one solution must hold for all sizes and all spacings of times.", "anchors": ["src/maliput/drake/common/trajectories/piecewise_polynomial.cc", "CubicWithContinuousSecondDerivatives", "SetupCubicSplineInteriorCoeffsLinearSystem", "LagrangeInterpolatingPolynomial"]}
{"id": "C131", "title": "queries and comparisons of polynomials mean what they say", "statement": "A monomial divided by another one is zero exactly when the other does not divide it, and otherwise its product with the other one is the monomial. A polynomial says it is affine exactly when its value is an affine function of the variables. Its set of variables has exactly the variables on which its value depends. Its simple variable, if any, is the variable it is a multiple of. Polynomials that compare equal have equal values everywhere and, if they were made by sums and products, polynomials with equal values everywhere compare equal. Comparison with a tolerance compares the coefficients of the same products of powers, is symmetric, and bounds the difference of the values; with the tolerance zero it holds exactly for polynomials with equal values. Comparison of trajectories compares their breaks and the polynomials of each segment. An offset added to a trajectory is added to all its values.", "quantifier": "all monomials, polynomials in any number of variables, tolerances, values of the variables, trajectories and times", "why_tests_cant": "Equality of values is about all arguments, and the comparisons must be right for every list of monomials in every order.", "anchors": ["src/maliput/drake/common/polynomial.cc", "Factor", "IsAffine", "GetVariables", "GetSimpleVariable", "operator==", "CoefficientsAlmostEqual", "src/maliput/drake/common/trajectories/piecewise_polynomial.cc", "isApprox"]}
{"id": "C132", "title": "what the conversions to YAML write is read back", "statement": "A value written to a YAML node by a conversion of the library and read back from that node is the same value: ranges, positions, rotations and bounding boxes, severities and types of direction usage, non-empty lists of rules to yield to, non-empty lists of bulb states, and the keys of related rules. The exceptions are exactly these: writing the undefined direction throws, and the nodes written for empty lists and for a colour, a type or a single state of a bulb cannot be read.", "quantifier": "all values of the convertible types and all number formats that read each written number as itself", "why_tests_cant": "The two halves of a conversion are separate functions; that they are inverse to each other is a statement about every value and every length of a list.", "anchors": ["include/maliput/base/yaml_conversion.h", "src/maliput/base/yaml_conversion.cc", "src/maliput/base/traffic_light_book_loader.cc", "src/maliput/base/road_rulebook_loader.cc", "src/maliput/base/rule_registry_loader.cc", "src/maliput/base/phase_ring_book_loader.cc", "encode", "decode"]}
{"id": "C133", "title": "vectors and matrices are made, indexed, reduced and normalized as documented", "statement": "A vector or matrix is made from a list exactly if the list has as many elements as the vector, the matrix or its rows, and then has them in order. Every index that is not below the size is rejected with an exception, by element access, columns, submatrices and cofactors; an assignment changes exactly the element assigned to. Submatrices, columns, transposes, products, determinants, cofactors, adjoints and the identity never write outside of their arrays and never throw for indices in range, and are what these words mean, for every size. Cross products are perpendicular to their factors. The norm is the Euclidean length, and normalizing a vector that is not zero gives the one vector of length one with its direction. Two matrices have the same text only if all their numbers have the same texts.", "quantifier": "all sizes, lists, indices, vectors and matrices", "why_tests_cant": "The loops count rows and elements while leaving one out; that they stay inside of their arrays and give the right matrix is needed at every size and every index.", "anchors": ["src/maliput/math/vector.cc", "src/maliput/math/matrix.cc", "include/maliput/math/vector.h", "include/maliput/math/matrix.h", "VectorBase", "Vector::reduce", "Matrix::reduce", "Matrix::cofactor", "normalized"]}
{"id": "C134", "title": "positions do not depend on where the backend puts its origin", "statement": "For a lane that relies on the default conversions, a lane position has the inertial position that the backend computes plus the translation of the road geometry, and ToLanePosition and ToSegmentPosition answer what the backend answers for the inertial position minus the translation, with the nearest position translated back. So a backend whose answers are nearest positions gives a lane whose answers are nearest positions, and a backend that finds its positions again gives a lane that does. FindRoadPositions and ToRoadPosition of two road geometries that differ only in their translation give the same results, moved by the difference. A conversion that the backend does not implement throws. In double arithmetic the backend is asked about the original position up to the rounding errors of two additions, exactly if the sums are doubles, and not exactly in general.", "quantifier": "all backends, translations, positions, hints and radii", "why_tests_cant": "The claim compares answers in two frames for every backend and every translation; a test compares single positions of one backend.", "anchors": ["src/maliput/geometry_base/lane.cc", "include/maliput/geometry_base/lane.h", "src/maliput/geometry_base/brute_force_strategy.cc", "Lane::DoToInertialPosition", "Lane::DoToLanePosition", "Lane::DoToSegmentPosition", "Lane::UseInertialToBackendTranslationFor"]}
{"id": "C135", "title": "a stepwise dense output is the spline through the steps that were consolidated", "statement": "The dense output of an integrator accepts a step exactly if it has a length and starts, up to rounding, at the time, state and derivative at which the previous one ended. Rolling back undoes the last update, and updates and rollbacks change no query. After any calls that respect the protocol the output is empty exactly if nothing was consolidated; otherwise it is defined exactly on the times of the consolidated steps, is the cubic spline through their samples, takes their states at their times and throws at all other times, however the steps were divided between calls.", "quantifier": "all sequences of updates, rollbacks and consolidations, all steps and times", "why_tests_cant": "The claim is about every history of calls; tests consolidate one or two steps that fit exactly.", "anchors": ["src/maliput/drake/systems/analysis/hermitian_dense_output.h", "src/maliput/drake/systems/analysis/dense_output.h", "HermitianDenseOutput::Update", "HermitianDenseOutput::Rollback", "HermitianDenseOutput::Consolidate", "DenseOutput::Evaluate"]}
{"id": "C136", "title": "periodic events happen at their sample times", "statement": "The next update time a leaf system reports is the earliest sample time (offset plus a whole number of periods) after the current time of any of its periodic events, with exactly the events due then, by kind and in the order of declaration; it is infinite exactly if there are none.  A simulation that goes from each reported time to the next misses no sample time, reports no other, and passes every time.  Events of steps and of the initialization are reported as declared; the listing by timing, the timing of the discrete updates and the recognition of difference equations are what the declarations say.", "quantifier": "all sequences of declarations, periods, offsets, current times and numbers of steps", "why_tests_cant": "The claim is about every set of timings and every length of a simulation; tests look at a few steps of one or two events.", "anchors": ["src/maliput/drake/systems/framework/leaf_system.cc", "src/maliput/drake/systems/framework/leaf_system.h", "src/maliput/drake/systems/framework/system.cc", "src/maliput/drake/systems/framework/event.h", "System::CalcNextUpdateTime", "LeafSystem::DeclarePeriodicEvent", "System::GetPeriodicEvents", "System::GetUniquePeriodicDiscreteUpdateAttribute", "System::IsDifferenceEquationSystem"]}
{"id": "C137", "title": "Vectors that share elements and the parts of a continuous state", "statement": "A vector reads and writes exactly the elements of its range: writing through one vector is seen through every other vector that has the element and nowhere else, sizes never change, indices and operands that do not fit throw before anything is changed, and no sequence of such calls is undefined.  Copying, setting and adding multiples of vectors give the values computed from the values before the call.  A continuous state is made only of sizes that fit; its values are always the positions, velocities and other variables one after the other, writing one part leaves the others alone, and a clone shares nothing.", "quantifier": "all sequences of calls, vectors, ranges of ranges, sizes, values and ways of sharing elements", "why_tests_cant": "Which elements two vectors share has unboundedly many forms, and the claim is about all of them after every sequence of calls.", "anchors": ["src/maliput/drake/systems/framework/vector_base.h", "src/maliput/drake/systems/framework/basic_vector.h", "src/maliput/drake/systems/framework/subvector.h", "src/maliput/drake/systems/framework/continuous_state.cc", "src/maliput/drake/systems/framework/continuous_state.h", "VectorBase::SetFrom", "VectorBase::PlusEqScaled", "Subvector", "ContinuousState::ContinuousState", "ContinuousState::Clone", "ContinuousState::SetFrom"]}
{"id": "C138", "title": "Values of erased type are only accessed as what they are", "statement": "An erased value is read and written only as the type it was made with: any other type gets an exception (or a null pointer) and nothing is changed, a copy is independent of the original, and every value keeps its type, after any sequence of calls.  The check compares hashes of types: the hash is computed from the name and the template arguments alone, is the same with every compiler and in every translation unit, what is hashed is different for different types, and types that cannot be hashed are compared exactly.", "quantifier": "all types built from names, templates, constants and dimensions, all texts a compiler may put around them, all sequences of operations on values of all types, debug and release", "why_tests_cant": "There are infinitely many types and the hash is taken over text that each compiler writes differently; two types that collide are not found by trying some.", "anchors": ["src/maliput/drake/common/value.h", "src/maliput/drake/common/hash.h", "AbstractValue::get_value", "AbstractValue::maybe_get_value", "AbstractValue::set_value", "Value::SetFrom", "Value::Clone", "internal::TypeHash", "internal::hash_template_argument_from_pretty_func"]}
{"id": "C139", "title": "States of systems are values of their own", "statement": "The state of a system (continuous, discrete and abstract variables) behaves as a value: a clone is equal to the original and shares nothing with it; SetFrom makes the state equal to the other one if and only if the numbers of variables and the types agree, otherwise it throws; writing a part changes that part of that state and nothing else, and writes that do not fit throw and change nothing; after any sequence of these calls every state reads as the value it was given. Groups of discrete values are found at the index at which they were appended.", "quantifier": "all numbers and sizes of variables, all types, all sequences of clones, copies and writes on any number of states, debug and release", "why_tests_cant": "Aliasing between copies appears only for particular sequences of calls, and there are infinitely many shapes and sequences.", "anchors": ["src/maliput/drake/systems/framework/state.h", "src/maliput/drake/systems/framework/discrete_values.h", "src/maliput/drake/systems/framework/abstract_values.cc", "src/maliput/drake/systems/framework/parameters.h", "src/maliput/drake/systems/framework/leaf_context.cc", "State::SetFrom", "DiscreteValues::SetFrom", "DiscreteValues::Clone", "DiscreteValues::AppendGroup", "AbstractValues::SetFrom", "AbstractValues::Clone", "Parameters::SetFrom", "Parameters::Clone", "LeafContext::DoCloneState"]}
{"id": "C140", "title": "Collections of events hold what was added to them", "statement": "After any sequence of calls on collections of events (made, destroyed, events added, cleared, added to or copied from collections of the same diagram), following the pointers of a collection gives exactly the events that it is to hold, in the order in which they were added, wherever its memory was moved to; HasEvents tells whether there are any, also for diagrams; copying or adding the collection of a diagram does so leaf system by leaf system and changes nothing else; pointers to events stay right as long as the collection has room and the events are not removed. A leaf system handles each event once, in this order, starting from the state of the context, and keeps the dimensions of the state; applying an update copies it to the context.", "quantifier": "all sequences of calls on any number of collections, all nestings of diagrams, all allocators (also those that use addresses again), all handlers", "why_tests_cant": "Whether a pointer dangles depends on when the memory is moved and which addresses are used again; tests see one allocator and short sequences.", "anchors": ["src/maliput/drake/systems/framework/event_collection.h", "src/maliput/drake/systems/framework/leaf_system.cc", "src/maliput/drake/systems/framework/system.cc", "LeafEventCollection::AddEvent", "LeafEventCollection::Reserve", "LeafEventCollection::Clear", "LeafEventCollection::DoAddToEnd", "LeafEventCollection::MakeForcedEventCollection", "DiagramEventCollection::DoAddToEnd", "EventCollection::SetFrom", "DiagramCompositeEventCollection", "LeafSystem::DispatchPublishHandler", "LeafSystem::DispatchDiscreteVariableUpdateHandler", "LeafSystem::DispatchUnrestrictedUpdateHandler", "System::CalcUnrestrictedUpdate"]}
{"id": "C141", "title": "Contexts have what leaf systems declared, and can be set back to it", "statement": "After any sequence of declarations of continuous, discrete and abstract variables and of numeric and abstract parameters, of contexts being made, written to and set to their defaults: every declaration gets the next index and keeps the value it was given then, whatever happens to the vector or value that was passed; a new context has exactly the declared values, divided into positions, velocities and others as declared; it never changes its system, sizes and types; writing to it changes no other context and no declaration; as long as nothing more is declared for its system, SetDefaultContext succeeds and sets everything back to the values it was made with; with a context of another system it throws.", "quantifier": "all sequences of declarations and operations on any number of systems and contexts, all sizes, values and types", "why_tests_cant": "That nothing is shared between the declaration, the value that was declared and any context is a statement about all later writes; tests look at a few values of one system.", "anchors": ["src/maliput/drake/systems/framework/leaf_system.cc", "src/maliput/drake/systems/framework/model_values.cc", "src/maliput/drake/systems/framework/model_values.h", "src/maliput/drake/systems/framework/system.cc", "LeafSystem::DeclareContinuousState", "LeafSystem::DeclareDiscreteState", "LeafSystem::DeclareAbstractState", "LeafSystem::DeclareNumericParameter", "LeafSystem::DeclareAbstractParameter", "LeafSystem::DoAllocateContext", "LeafSystem::SetDefaultState", "LeafSystem::SetDefaultParameters", "System::SetDefaultContext", "System::CreateDefaultContext", "ModelValues::AddModel", "ModelValues::CloneModel", "ModelValues::CloneAllModels"]}
{"id": "C142", "title": "Solving an initial value problem takes allowed steps from the given values to the given time", "statement": "After any sequence of calls of Solve and DenseSolve, whether they returned or threw, a call of Solve that returns gives a state that steps of Kutta's third order method lead to, from the given initial time and state (the default ones where none are given) to the given time, with the given parameters, all of them forward and none longer than the maximum step size; if no earlier call has thrown, each step has an error estimate within the target accuracy in every element or is about as short as the times' precision allows. DenseSolve gives one piece per step, with the states and the slopes of the right hand side at both ends of each, whatever was called before. Times before the initial one and vectors of other sizes than the default ones are refused without effect. To give a default value is to give none. After a call that returned, other values or an earlier time give what a new problem gives. Constant slopes are integrated exactly, equilibria are not left, and linear combinations whose slope is zero are conserved.", "quantifier": "all right hand sides (including ones that throw and ones with results of the wrong size), all sizes of states and parameters, all values and times, all sequences of calls", "why_tests_cant": "The object keeps its context, its integrator and the last values between calls, and an exception leaves them in the middle of a step; what a later call gives must be right after every such history, for every right hand side and size.", "anchors": ["src/maliput/drake/systems/analysis/initial_value_problem.cc", "src/maliput/drake/systems/analysis/initial_value_problem.h", "src/maliput/drake/systems/analysis/runge_kutta3_integrator.cc", "src/maliput/drake/systems/analysis/integrator_base.cc", "src/maliput/drake/systems/analysis/integrator_base.h", "InitialValueProblem::Solve", "InitialValueProblem::DenseSolve", "InitialValueProblem::ResetCachedState", "InitialValueProblem::ResetCachedStateIfNecessary", "InitialValueProblem::SanitizeValuesOrThrow", "RungeKutta3Integrator::DoStep"]}
{"id": "C143", "title": "Scalar initial value problems and antiderivatives give what their steps lead to, and no exceptions of their own", "statement": "A scalar problem can be made exactly when an initial time, an initial state and parameters are given. After any sequence of calls of Solve and DenseSolve, whether they returned or threw, a call of Solve that returns gives a number that steps of Kutta's third order method for the given function lead to, from the given (or default) initial time and state to the given time, forward and none longer than the maximum step size, and accurate if no earlier call threw; DenseSolve gives one piece per step with the function's values as slopes. The only exceptions are those of the library and those of the given function for the parameters of the call. An antiderivative can always be made; Evaluate gives the sum of Simpson's rule over a partition of the interval from the lower bound (given, or the constructor's, or zero), which is the integral for cubic polynomials and within M (u - v) h^4 / 2880 of it for functions with a bounded fourth derivative; MakeDenseEvalFunction gives pieces whose ends have the partial sums of Simpson's rule as values.", "quantifier": "all functions (including ones that throw for some arguments), all values, times and parameters, all sequences of calls before", "why_tests_cant": "The scalar classes wrap a stateful solver for vectors and index its vectors; that they never index beyond, and that what they give is a quadrature of the given function from the given bound after every history of calls, cannot be settled with examples.", "anchors": ["src/maliput/drake/systems/analysis/scalar_initial_value_problem.h", "src/maliput/drake/systems/analysis/antiderivative_function.h", "src/maliput/drake/systems/analysis/scalar_view_dense_output.h", "ScalarInitialValueProblem::Solve", "ScalarInitialValueProblem::DenseSolve", "AntiderivativeFunction::Evaluate", "AntiderivativeFunction::MakeDenseEvalFunction"]}
{"id": "C144", "title": "Calls of initial value problems and antiderivatives come to an end, and return when the function allows it", "statement": "With a positive maximum step size and an accuracy that is not negative, every call of Solve and of DenseSolve of a (vector or scalar) initial value problem comes to an end, after any calls and whatever the given function does. Solve returns a state, rather than throw, for every time that is not before the initial one and values of the right sizes, after any other calls of Solve, if the step sizes are valid and the function is defined with small error estimates for the shortest steps where it is integrated; a bounded function is such a function. Evaluate of an antiderivative returns a number under the corresponding conditions.", "quantifier": "all functions (including ones that throw for some arguments), all values, times and parameters, all sequences of calls before", "why_tests_cant": "That adaptive step size control neither retries forever nor advances by ever smaller steps is a statement about unbounded runs for every function and history; a test that hangs for some other input cannot be excluded with examples.", "anchors": ["src/maliput/drake/systems/analysis/integrator_base.h", "src/maliput/drake/systems/analysis/initial_value_problem.cc", "src/maliput/drake/systems/analysis/scalar_initial_value_problem.h", "src/maliput/drake/systems/analysis/antiderivative_function.h", "IntegratorBase::StepOnceErrorControlledAtMost", "IntegratorBase::CalcAdjustedStepSize", "InitialValueProblem::Solve", "InitialValueProblem::DenseSolve", "AntiderivativeFunction::Evaluate"]}
{"id": "C145", "title": "Constraints of systems are kept and checked as declared", "statement": "Bounds of a constraint are accepted exactly when there are as many lower as upper ones, no lower bound is above its upper one, and either some pair differs or all are zero. A constraint is satisfied in a context exactly when each value lies between its bounds up to the tolerance, with the same meaning for equalities and inequalities and for zero and positive tolerances; a larger tolerance never makes a satisfied constraint unsatisfied. After any calls that add internal and external constraints, the accepted ones have the indices 0, 1, ... and each index goes on naming the constraint that was asked for; only internal constraints after external ones are refused, without any change; other indices throw out_of_range. A context satisfies the constraints of its system exactly when it satisfies each of them. Element bounds of model vectors give one constraint on the elements that have a finite bound, satisfied exactly when these lie between their bounds.", "quantifier": "all vectors of finite or infinite bounds, all values and tolerances, all functions that compute values (including ones that throw), all sequences of additions, all contexts", "why_tests_cant": "The check has four forms (equality or inequality, zero or positive tolerance) that must agree for every vector and every tolerance, and indices must survive every history of additions; tests compare a few vectors.", "anchors": ["src/maliput/drake/systems/framework/system_constraint.h", "src/maliput/drake/systems/framework/system_constraint.cc", "src/maliput/drake/systems/framework/system.cc", "src/maliput/drake/systems/framework/leaf_system.cc", "SystemConstraintBounds", "SystemConstraint::CheckSatisfied", "System::AddExternalConstraint", "System::AddConstraint", "System::CheckSystemConstraintsSatisfied", "LeafSystem::MaybeDeclareVectorBaseInequalityConstraint"]}
{"id": "C146", "title": "Ports have distinct names and keep the values fixed for them", "statement": "After any declarations of input and output ports, of which some may throw, names of input ports are distinct and not empty, names of output ports too, ports keep their indices, and a port is found by its name or its index and by no other. A declaration throws exactly when the name, given or by default u0, u1, ... or y0, y1, ..., is in use by a port of the same side, and then the ports are as before; default names never collide with each other. The value allocated for an input port declared with a model is that model. A value may be fixed for a port exactly when it is a vector of the size of a vector port or of the type of the model of an abstract port; otherwise the call throws and nothing changes. A port evaluates to the last value that was accepted for it, and AllocateFixedInputs gives every port its model.", "quantifier": "all sequences of declarations with given or default names, all names and indices, all models, all sequences of values fixed for ports", "why_tests_cant": "Names, indices and values must stay right after every history of accepted and refused calls; tests make a handful of declarations and fix each value once.", "anchors": ["src/maliput/drake/systems/framework/leaf_system.cc", "src/maliput/drake/systems/framework/system.cc", "src/maliput/drake/systems/framework/system_base.h", "src/maliput/drake/systems/framework/context_base.cc", "src/maliput/drake/systems/framework/input_port.h", "LeafSystem::DeclareVectorInputPort", "LeafSystem::DeclareAbstractInputPort", "System::GetInputPort", "System::AllocateFixedInputs", "InputPort::FixValue"]}
{"id": "C147", "title": "Type-safe indices count and compare like the numbers they stand for", "statement": "With assertions compiled in, an index is made of exactly the numbers from 0 to 2^31 - 1 and gives that number back; increments, decrements, additions and subtractions succeed exactly when the operands and the outcome are valid, give the right number, and throw otherwise without overflow; an operation that succeeds does the same in a build without assertions. After any operations that succeed the index is the sum. Comparisons of indices with each other and with values of unsigned types of any width, on either side, say how the numbers compare, also for values out of the range of indices. Default and moved-from indices are not valid.", "quantifier": "all indices, valid or not, all operations with any int or index operand, all sequences of operations, all unsigned values of types of any width", "why_tests_cant": "Overflow, wrap-around of unsigned values and equality at the boundary occur at a few of billions of values; tests try a handful of small indices.", "anchors": ["src/maliput/drake/common/type_safe_index.h", "TypeSafeIndex", "TypeSafeIndex::is_valid", "TypeSafeIndex::operator++", "TypeSafeIndex::operator+=", "TypeSafeIndex::operator<"]}
{"id": "C148", "title": "The text of a polynomial is a formula for it", "statement": "Writing a polynomial to a stream gives a formula: products of a number in parentheses and powers of variables, with signs between them, whose terms are the monomials of the polynomial with their names, and whose value is that of the polynomial. Polynomials with the same text have the same monomials.", "quantifier": "all polynomials over a field, all ways of writing numbers without a closing parenthesis, all values of the variables", "why_tests_cant": "The text depends on every coefficient, power and name and on which monomials are neighbours; tests print a few polynomials.", "anchors": ["src/maliput/drake/common/polynomial.h: operator<<(std::ostream&, const Monomial&), operator<<(std::ostream&, const Polynomial&)", "src/maliput/drake/common/polynomial.cc: Polynomial::IdToVariableName"]}
{"id": "C149", "title": "Copyable pointers have values, and their objects have one owner", "statement": "Containers that own an object and copy it when they are copied act like variables with values: a copy is equal to its source and independent of it, a move hands over the object and empties the source, assigning a container to itself changes nothing, and a copy that throws leaves the target as it was. After any history every object on the heap belongs to exactly one container, so none is lost, deleted twice or used after it was deleted.", "quantifier": "all histories of assignments, copies, moves, changes and destructions of any number of containers, all ways of copying an object, including ones that throw", "why_tests_cant": "Ownership is a property of all containers after all histories; a test follows a few containers through a few assignments, and a double deletion need not show.", "anchors": ["src/maliput/drake/common/copyable_unique_ptr.h: copyable_unique_ptr"]}
{"id": "C150", "title": "A trajectory of matrices is one trajectory of numbers for each entry", "statement": "Evaluating, differentiating, integrating, adding, subtracting, joining, extending, cutting, shifting, reversing and scaling a piecewise polynomial of matrices does in each entry what the same operation does to the trajectory of that entry. A block has the entries of the trajectory in the block, reshaping keeps the entries in the order of columns, and setting a block changes the entries of one segment in the block and no others. Sizes that do not fit are refused.", "quantifier": "all trajectories of matrices of any size with any number of segments, all times, orders, blocks and shapes", "why_tests_cant": "An index that is wrong shows only for certain sizes of matrices and blocks; tests use a few small ones.", "anchors": ["src/maliput/drake/common/trajectories/piecewise_polynomial.cc: PiecewisePolynomial::value, derivative, integral, operator+=, operator-=, ConcatenateInTime, AppendCubicHermiteSegment, AppendFirstOrderSegment, RemoveFinalSegment, ReverseTime, ScaleTime, shiftRight, setPolynomialMatrixBlock, slice, Reshape, Block, rows, cols, getPolynomial"]}
{"id": "C151", "title": "Identifiers are equal only to their copies, whatever the threads do", "statement": "A new identifier differs from every identifier its type has given out before, to any thread. Two valid identifiers of one type are equal, and have the same text, if and only if both are copies of what one call returned, and their order is the order of the calls. An identifier is valid if and only if it is a copy of what a call returned. When assertions are compiled, whatever needs the value of an invalid identifier throws; asking an invalid identifier whether it is the same as a valid one answers no.", "quantifier": "all schedules of any number of threads that get, store, copy and reset identifiers of any number of types, with fewer than 2^63 - 1 calls", "why_tests_cant": "Whether two threads can get the same identifier depends on the schedule; tests see a few.", "anchors": ["src/maliput/drake/common/identifier.h: Identifier, get_new_id, get_value, is_valid, operator==, operator!=, operator<, is_same_as_valid_id, to_string, operator<<"]}
{"id": "C152", "title": "A spline through matrices is one spline for each entry", "statement": "A zero order hold, a first order hold, a cubic Hermite spline, a shape preserving cubic, a cubic spline with continuous second derivatives or an interpolating polynomial through matrices has in each entry the curve of that kind through the samples of the entry. It can be made if and only if those of the entries can. Samples of different sizes, samples without entries (except for interpolating polynomials), and derivatives of other sizes than the samples are refused. Samples given as the columns of a matrix have the rows of the matrix as the samples of their entries.", "quantifier": "all samples of matrices of any size, all times, numbers of samples and derivatives", "why_tests_cant": "A row taken for a column or a slope taken from a neighbouring entry shows only for some sizes and values.", "anchors": ["src/maliput/drake/common/trajectories/piecewise_polynomial.cc: PiecewisePolynomial::ZeroOrderHold, FirstOrderHold, CubicHermite, CubicShapePreserving, CubicWithContinuousSecondDerivatives, LagrangeInterpolatingPolynomial, CheckSplineGenerationInputValidityOrThrow, ComputePchipEndSlope, ColsToStdVector"]}
{"id": "C153", "title": "Fixing the input ports from another context copies its values", "statement": "When two systems have the same input ports, fixing the inputs of one from a context of the other gives each port that has a value there that value, and leaves the other ports as they were. Systems whose ports differ are refused with an exception.", "quantifier": "all declarations of ports of the two systems, all values fixed before in the two contexts", "why_tests_cant": "Which ports have values, and which sizes and types meet, is a matter of the history of two systems and two contexts.", "anchors": ["src/maliput/drake/systems/framework/system.cc: System::FixInputPortsFrom", "src/maliput/drake/systems/framework/port_base.h: PortBase::PortEvalCast"]}
{"id": "C154", "title": "A witness function triggers once for each zero it crosses", "statement": "A witness function of both directions triggers over an interval if and only if its value at the start is not zero and the product of the values at both ends is not positive; one of a single direction needs the start to be on its side and the end not to be. If it is continuous, it is zero at some time in the interval other than the start. However the interval is divided, it triggers over one of the parts. A zero between two intervals triggers in the first only.", "quantifier": "all directions, all values, all continuous functions of time and all divisions of intervals", "why_tests_cant": "A missed or doubled event shows only when a value is exactly zero at the end of an interval, or for one of many ways to divide it.", "anchors": ["src/maliput/drake/systems/framework/witness_function.h: WitnessFunction::should_trigger, WitnessFunctionDirection"]}
{"id": "C155", "title": "The dense output of a vector is that of each of its components", "statement": "A step of an integrator takes exactly the columns that have as many elements as those it has, with a later time. An update is accepted if and only if the step has a length, as many components as the previous one, and starts where that one ended, up to the resolution of the time and an error that is small against the norms of the state and of its derivative. After calls that respect the protocol, the output starts and ends when the output of each component does, has one element for each, evaluates to the vector of their values, and gives each of them alone; other elements throw.", "quantifier": "all numbers of components, all sequences of updates, rollbacks and consolidations, all steps, times and elements", "why_tests_cant": "The claim is about every history of calls and every number of components.", "anchors": ["src/maliput/drake/systems/analysis/hermitian_dense_output.h: HermitianDenseOutput, HermitianDenseOutput::IntegrationStep", "src/maliput/drake/systems/analysis/dense_output.h: DenseOutput"]}
{"id": "C156", "title": "The implicit form of the time derivatives has the solution of the explicit form and no other", "statement": "Without an override, the residual of proposed time derivatives is their difference from the derivatives that the system computes, element by element, so that it is zero exactly for those. It is computed exactly for contexts and derivatives of the system, if the vector has the declared size and this is the number of continuous states. The size is the one declared last, or the number of continuous states if that was not positive. A refused call changes nothing. Velocities become derivatives of positions and back without a change, and both maps throw exactly if the sizes differ or the context is of another system.", "quantifier": "all systems, contexts, proposed derivatives, vectors, and sequences of declarations of sizes", "why_tests_cant": "The claim is about every system a user may write and all of its states.", "anchors": ["src/maliput/drake/systems/framework/system.cc: System::CalcImplicitTimeDerivativesResidual, System::CalcTimeDerivatives, System::MapVelocityToQDot, System::MapQDotToVelocity", "src/maliput/drake/systems/framework/system_base.h: SystemBase::implicit_time_derivatives_residual_size, SystemBase::ValidateCreatedForThisSystem"]}
{"id": "C157", "title": "A value producer computes with the functions it was given and refuses everything else", "statement": "A producer is made exactly if no callback and no instance is null and each instance is of the class of its member function; otherwise the constructor throws. Calc with a context of the type that the function asks for, and an output of the function's type, does to the output what the function does: it overwrites it with the returned value, or hands it to the function as it is. A null output, a context or an output of another type are refused with an exception and the output keeps its value. Allocate gives the default, a copy of the model value, or what the member function made, always of the output's type. Exceptions of the functions reach the caller. A producer made by default throws whenever it is used.", "quantifier": "all types of outputs, contexts and instances, all functions given by the user, and all arguments of Calc", "why_tests_cant": "The claim is about every function a user may pass and every context and output.", "anchors": ["src/maliput/drake/systems/framework/value_producer.h: ValueProducer, make_calc_mode_1, make_calc_mode_2, make_calc_mode_3, make_calc_mode_4, make_allocate_mode_a, make_allocate_mode_b, make_allocate_mode_c, instance_cast, context_cast", "src/maliput/drake/systems/framework/value_producer.cc: ValueProducer::ValueProducer, ValueProducer::is_valid, ValueProducer::Allocate, ValueProducer::Calc"]}
{"id": "C158", "title": "A state output port gives the current value of its state", "statement": "DeclareStateOutputPort accepts exactly the states that the system has declared so far and throws for others. Whatever is declared after the port, and whatever is written to the states of a context, the port gives the values that the state has in that context.", "quantifier": "all declarations of states before and after the port, all contexts of the system and all writes to their states", "why_tests_cant": "The claim is about every order of declarations and every history of the states.", "anchors": ["src/maliput/drake/systems/framework/leaf_system.cc: LeafSystem::DeclareStateOutputPort, LeafSystem::DeclareContinuousState, LeafSystem::DeclareDiscreteState, LeafSystem::DeclareAbstractState", "src/maliput/drake/systems/framework/vector_base.h: VectorBase::SetFrom"]}
