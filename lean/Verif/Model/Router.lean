import Verif.Model.Regions
import Verif.Model.Graph

set_option autoImplicit false

/-!
Model of src/maliput/base/distance_router.cc, of `Phase::Phase` (src/maliput/routing/phase.cc), of
`Route::Route` and `Route::ValidateEndToEndConnectivity` (src/maliput/routing/route.cc) and of
src/maliput/routing/routing_constraints.cc.  Lanes and segments are natural numbers (addresses), `double`
is `ℚ`.  Null pointers are not modelled: every position has a lane.
-/
namespace Maliput.Router
open Maliput.RouteGraph
open Maliput.Topo (Which LaneEnd)

/-- `struct RoadPosition`, include/maliput/api/lane_data.h:323-337. -/
structure RoadPos where
  lane : Nat
  s : ℚ
  r : ℚ
  h : ℚ
  deriving DecidableEq, Repr

/-- What the router reads from a road network. -/
structure RoadNet extends Net where
  /-- `Lane::length()` -/
  length : Nat → ℚ
  /-- `Lane::id().string()` -/
  laneId : Nat → String
  /-- `IdIndex::GetLane` -/
  byId : String → Option Nat
  /-- `Lane::to_left()` -/
  toLeft : Nat → Option Nat
  /-- `Lane::to_right()` -/
  toRight : Nat → Option Nat
  /-- `Lane::GetOngoingBranches(end)` -/
  ongoing : LaneEnd → List LaneEnd
  /-- `Lane::GetConfluentBranches(end)` -/
  confluent : LaneEnd → List LaneEnd
  /-- `IsRoadPositionClose(a, b, linear_tolerance())`, src/maliput/routing/route.cc:387-393 -/
  close : RoadPos → RoadPos → Bool

/-- `class Phase`, include/maliput/routing/phase.h:163-170. -/
structure Phase where
  index : Nat
  tolerance : ℚ
  startPositions : List RoadPos
  endPositions : List RoadPos
  ranges : List LaneSRange
  deriving DecidableEq, Repr

/-- `ValidateLaneSRangeIsInRoadNetwork`, src/maliput/routing/phase.cc:45-49. -/
def rangeInNetwork (net : RoadNet) (tol : ℚ) (r : LaneSRange) : Except Err Bool :=
  match net.byId r.laneId with
  | none => .ok false
  | some l => do
    let whole ← SRange.make 0 (net.length l)
    whole.contains r.sRange tol

/-- `ValidatePositionIsInLaneSRanges`, src/maliput/routing/phase.cc:62-74. -/
def positionInRanges (net : RoadNet) (ranges : List LaneSRange) (tol : ℚ) (p : RoadPos) : Except Err Bool := do
  throwUnless (!ranges.isEmpty)
  throwUnless (decide (tol ≥ 0))
  ranges.anyM fun r =>
    if net.laneId p.lane ≠ r.laneId then .ok false
    else do
      let at_ ← SRange.make p.s p.s
      r.sRange.contains at_ tol

/-- `ValidateLaneSRangesAreAdjacent`, src/maliput/routing/phase.cc:52-58. -/
def rangesAdjacent (net : RoadNet) (a b : LaneSRange) : Except Err Bool :=
  match net.byId a.laneId, net.byId b.laneId with
  | some la, some lb =>
    .ok ((decide (net.toLeft la = some lb) && decide (net.toRight lb = some la)) ||
      (decide (net.toLeft lb = some la) && decide (net.toRight la = some lb)))
  | _, _ => .error .ub

/-- The loop over consecutive ranges, src/maliput/routing/phase.cc:114-117. -/
def validateAdjacent (net : RoadNet) : List LaneSRange → Except Err Unit
  | a :: b :: rest => do
    throwUnless (← rangesAdjacent net a b)
    validateAdjacent net (b :: rest)
  | _ => .ok ()

/-- `Phase::Phase`, src/maliput/routing/phase.cc:76-118. -/
def Phase.make (net : RoadNet) (index : Nat) (tol : ℚ) (starts ends : List RoadPos) (ranges : List LaneSRange) :
    Except Err Phase := do
  throwUnless (decide (tol ≥ 0))
  throwUnless (!starts.isEmpty)
  throwUnless (!ends.isEmpty)
  throwUnless (!ranges.isEmpty)
  throwUnless (← ranges.allM (rangeInNetwork net tol))
  throwUnless (← starts.allM (positionInRanges net ranges tol))
  throwUnless (← ends.allM (positionInRanges net ranges tol))
  validateAdjacent net ranges
  return ⟨index, tol, starts, ends, ranges⟩

/-- `std::numeric_limits<double>::max()`. -/
def kMax : ℚ := 2 ^ 1024 - 2 ^ 971

/-- `ComputeCost(phase)`, src/maliput/base/distance_router.cc:58-64. -/
def phaseCost (p : Phase) : ℚ := p.ranges.foldl (fun cost r => min cost r.length) kMax

/-- `ComputeCost(route)`, src/maliput/base/distance_router.cc:70-76.  A route is the list of its phases. -/
def routeCost (route : List Phase) : ℚ := route.foldl (fun cost p => cost + phaseCost p) 0

/-- `MaxPhaseCostInRoute`, src/maliput/base/distance_router.cc:82-88. -/
def maxPhaseCost (route : List Phase) : ℚ := route.foldl (fun cost p => max (phaseCost p) cost) 0

/-- The loop of `HasLaneSwitch`, src/maliput/base/distance_router.cc:110-124; reading past the end of the
start positions is undefined behaviour. -/
def switchLoop : Nat → List Phase → Except Err Bool
  | _, [] => .ok false
  | lane, p :: rest =>
    match p.endPositions.findIdx? (fun pos => decide (pos.lane = lane)) with
    | none => .ok true
    | some i =>
      match rest with
      | [] => .ok false
      | q :: _ =>
        match q.startPositions[i]? with
        | none => .error .ub
        | some pos => switchLoop pos.lane rest

/-- `HasLaneSwitch`, src/maliput/base/distance_router.cc:94-126; `start_route_position` and
`end_route_position`, include/maliput/routing/route.h:164, 168. -/
def hasLaneSwitch (route : List Phase) : Except Err Bool :=
  match route.head?.bind (fun p => p.startPositions.head?), route.getLast?.bind (fun p => p.endPositions.head?) with
  | some s, some e => if route.length = 1 then .ok (decide (s.lane ≠ e.lane)) else switchLoop s.lane route
  | _, _ => .error .ub

/-- `struct RoutingConstraints`, include/maliput/routing/routing_constraints.h:37-50. -/
structure Constraints where
  allowLaneSwitch : Bool := true
  maxPhaseCost : Option ℚ := none
  maxRouteCost : Option ℚ := none

/-- `ValidateRoutingConstraints`, src/maliput/routing/routing_constraints.cc:36-46. -/
def validateConstraints (c : Constraints) : Except Err Unit := do
  match c.maxPhaseCost with
  | some m => throwUnless (decide (m ≥ 0))
  | none => pure ()
  match c.maxRouteCost with
  | some m => throwUnless (decide (m ≥ 0))
  | none => pure ()
  match c.maxPhaseCost, c.maxRouteCost with
  | some m, some n => throwUnless (decide (n ≥ m))
  | _, _ => pure ()

/-- The comparison of a cost with an optional bound, src/maliput/base/distance_router.cc:136-137, 140-141. -/
def exceeds (max : Option ℚ) (cost : ℚ) : Bool :=
  match max with
  | some m => decide (m < cost)
  | none => false

/-- The lambda of `FilterRoutes`, src/maliput/base/distance_router.cc:135-148. -/
def keepRoute (c : Constraints) (route : List Phase) : Except Err Bool :=
  if exceeds c.maxPhaseCost (maxPhaseCost route) then .ok false
  else if exceeds c.maxRouteCost (routeCost route) then .ok false
  else if !c.allowLaneSwitch then (hasLaneSwitch route).map (fun b => !b)
  else .ok true

/-- `GetClosestLaneEndWhich`, src/maliput/routing/route.cc:396-400. -/
def closestEnd (net : RoadNet) (p : RoadPos) : Which :=
  if p.s ≤ net.length p.lane - p.s then .start else .finish

/-- The check of one end position, src/maliput/routing/route.cc:471-494 (with `FindPositionByLane`,
`MatchPositionInLaneEndSet`). -/
def endPositionFound (net : RoadNet) (starts : List RoadPos) (e : RoadPos) : Bool :=
  match starts.find? (fun p => decide (p.lane = e.lane)) with
  | some p => net.close e p
  | none =>
    let set := net.ongoing ⟨e.lane, closestEnd net e⟩
    ((starts.filter (fun p => set.any (fun le => decide (p.lane = le.lane)))).find? (fun p => net.close e p)).isSome

/-- The loop over consecutive phases, src/maliput/routing/route.cc:450-495. -/
def interfacesOk (net : RoadNet) : List Phase → Bool
  | a :: b :: rest =>
    decide (a.endPositions.length = b.startPositions.length) &&
      a.endPositions.all (endPositionFound net b.startPositions) && interfacesOk net (b :: rest)
  | _ => true

/-- `ValidateEndToEndConnectivity().empty()`, src/maliput/routing/route.cc:436-497. -/
def endToEndOk (net : RoadNet) (route : List Phase) : Except Err Bool :=
  match route.head?, route.getLast? with
  | some f, some l =>
    .ok (decide (f.startPositions.length = 1) && decide (l.endPositions.length = 1) && interfacesOk net route)
  | _, _ => .error .ub

/-- `FindEquivalentSCoordinate`, src/maliput/base/distance_router.cc:188-199.  Lanes have a positive length:
the model does not say what a division by a zero length gives. -/
def equivalentS (net : RoadNet) (ref : RoadPos) (lane : Nat) (tol : ℚ) : ℚ :=
  let target := net.length lane
  let s := max 0 (min (ref.s / net.length ref.lane * target) target)
  if s ≤ tol ∧ target > tol then 0
  else if target - s ≤ tol ∧ target > tol then target
  else s

/-- `MakePhase`, src/maliput/base/distance_router.cc:218-239. -/
def makePhase (net : RoadNet) (index : Nat) (e : Edge) (tol : ℚ) (starts ends : List RoadPos) : Except Err Phase := do
  throwUnless (!starts.isEmpty)
  throwUnless (!ends.isEmpty)
  throwUnless (starts.all (fun p => decide (net.laneSeg p.lane = e.segment)))
  throwUnless (ends.all (fun p => decide (net.laneSeg p.lane = e.segment)))
  match starts, ends with
  | s :: _, t :: _ =>
    let ranges ← (net.segLanes e.segment).mapM fun l => do
      let r ← SRange.make (equivalentS net s l tol) (equivalentS net t l tol)
      return (⟨net.laneId l, r⟩ : LaneSRange)
    Phase.make net index tol starts ends ranges
  | _, _ => .error .ub

/-- `process_positions`, src/maliput/base/distance_router.cc:263-273. -/
def processPositions (net : RoadNet) (ref : Edge) (w : Which) (target : Edge) (sets : LaneEnd → List LaneEnd) :
    List RoadPos :=
  ((net.segLanes ref.segment).filter
    (fun l => (sets ⟨l, w⟩).any (fun le => decide (net.laneSeg le.lane = target.segment)))).map
    (fun l => ⟨l, if w = .start then 0 else net.length l, 0, 0⟩)

/-- `ComputeAllRoadPositions`, src/maliput/base/distance_router.cc:248-282. -/
def allRoadPositions (net : RoadNet) (ref : Edge) (w : Which) (target : Edge) : Except Err (List RoadPos) := do
  let confluent := processPositions net ref w target net.confluent
  let ps := if confluent.isEmpty then processPositions net ref w target net.ongoing else confluent
  throwUnless (!ps.isEmpty)
  return ps

/-- `MaybeAddStartAndEndEdges`, src/maliput/base/distance_router.cc:299-327. -/
def addStartAndEndEdges (net : RoadNet) (g : Graph) (start end_ : RoadPos) (seqs : List (List Edge)) :
    Except Err (List (List Edge)) := do
  let s ← g.edgeAt (net.segId (net.laneSeg start.lane))
  let t ← g.edgeAt (net.segId (net.laneSeg end_.lane))
  seqs.mapM fun seq =>
    match seq.head?, seq.getLast? with
    | some f, some l =>
      .ok ((if f.segment ≠ s.segment then [s] else []) ++ seq ++ (if l.segment ≠ t.segment then [t] else []))
    | _, _ => .error .ub

/-- The positions of `edge` at the end towards `target`: `DetermineEdgeEnd`, `MALIPUT_THROW_UNLESS` and
`ComputeAllRoadPositions`, e.g. src/maliput/base/distance_router.cc:381-385. -/
def positionsTowards (net : RoadNet) (g : Graph) (edge target : Edge) : Except Err (List RoadPos) := do
  match ← determineEdgeEnd g edge target with
  | none => .error .throws
  | some w => allRoadPositions net edge w target

/-- The positions towards the neighbour, or the given position if there is no neighbour. -/
def positionsOr (net : RoadNet) (g : Graph) (edge : Edge) (neighbour : Option Edge) (p : RoadPos) :
    Except Err (List RoadPos) :=
  match neighbour with
  | none => .ok [p]
  | some n => positionsTowards net g edge n

/-- The phases of an edge sequence, src/maliput/base/distance_router.cc:366-408: the first phase starts at
the start position, the last one ends at the end position, in between the positions towards the neighbour
are taken.  The four cases of the code are one here; in the middle case the code determines both ends
before computing positions, which can only change which exception is thrown. -/
def phasesOf (net : RoadNet) (g : Graph) (tol : ℚ) (start end_ : RoadPos) : Nat → Option Edge → List Edge →
    Except Err (List Phase)
  | _, _, [] => .ok []
  | i, prev, e :: rest => do
    let sp ← positionsOr net g e prev start
    let ep ← positionsOr net g e rest.head? end_
    let p ← makePhase net i e tol sp ep
    let ps ← phasesOf net g tol start end_ (i + 1) (some e) rest
    return p :: ps

/-- `ValidateEndToEndConnectivityInRoutes`, src/maliput/base/distance_router.cc:173-178. -/
def validateRoutes (net : RoadNet) : List (List Phase) → Except Err Unit
  | [] => .ok ()
  | r :: rest => do
    throwUnless (← endToEndOk net r)
    validateRoutes net rest

/-- `DistanceRouter::DoComputeRoutes`, src/maliput/base/distance_router.cc:339-417. -/
def computeRoutes (net : RoadNet) (g : Graph) (tol : ℚ) (depth : Nat) (start end_ : RoadPos) (c : Constraints) :
    Except Stop (List (List Phase)) := do
  lift (throwUnless (decide (net.byId (net.laneId start.lane) = some start.lane)))
  lift (throwUnless (decide (net.byId (net.laneId end_.lane) = some end_.lane)))
  lift (validateConstraints c)
  match findNode net.toNet g start.lane .start, findNode net.toNet g end_.lane .finish with
  | some s, some t => do
    let seqs ← findAllEdgeSequences net.toNet g depth s t
    let seqs ← lift (addStartAndEndEdges net g start end_ seqs)
    let routes ← lift (seqs.mapM (fun seq => phasesOf net g tol start end_ 0 none seq))
    let routes ← lift (routes.filterM (keepRoute c))
    lift (validateRoutes net routes)
    return routes
  | _, _ => .error (.err .throws)

/-- `DistanceRouter::DistanceRouter`, src/maliput/base/distance_router.cc:331-337: the graph. -/
def makeRouter (net : RoadNet) (tol : ℚ) : Except Err Graph := do
  let g ← buildGraph net.toNet
  throwUnless (decide (tol ≥ 0))
  return g

end Maliput.Router
