import Verif.Model.Router
import Verif.Model.Strategy

set_option autoImplicit false

/-!
Model of the position queries of src/maliput/routing/phase.cc and of src/maliput/routing/route.cc
(`Route::FindRoutePosition`, `ComputeLaneSRangeRelation`, `ComputeLaneSRoute`).  A route is the list of its
phases.  `Phase::Phase` and `Route::ValidateEndToEndConnectivity` are in Verif/Model/Router.lean.
Null pointers are not modelled: every position has a lane.  Sizes fit in an `int`.
-/
namespace Maliput.Route
open Maliput.Router (RoadNet RoadPos Phase positionInRanges)
open Maliput.Strategy (Pos Geometry LanePositionResult RoadPositionResult isCloser)
open Maliput.RouteGraph (Stop lift)

/-- The geometry of the lanes. -/
structure Geo where
  /-- `Lane::ToLanePosition`, `Lane::lane_bounds`, `RoadGeometry::linear_tolerance` -/
  geometry : Geometry Nat
  /-- `Lane::ToInertialPosition` -/
  toInertial : RoadPos → Pos
  /-- `InertialPosition::Distance` -/
  distance : Pos → Pos → ℚ
  /-- `Lane::GetOrientation(pos).Apply({1, 0, 0})` -/
  sHat : RoadPos → Pos
  /-- `Lane::GetOrientation(pos).Apply({0, 0, 1})` -/
  hHat : RoadPos → Pos

/-- `RoadGeometry::linear_tolerance`. -/
def Geo.tol (geo : Geo) : ℚ := geo.geometry.linearTolerance

/-! ### Positions in a phase -/

/-- `struct PhasePositionResult`, include/maliput/routing/route_position_result.h:37-47. -/
structure PhasePositionResult where
  index : Nat
  s : ℚ
  r : ℚ
  h : ℚ
  inertial : Pos
  distance : ℚ
  deriving DecidableEq

/-- `struct RoutePositionResult`, include/maliput/routing/route_position_result.h:51-56. -/
structure RoutePositionResult where
  phase : Nat
  inPhase : PhasePositionResult
  deriving DecidableEq

/-- The candidate of one range, src/maliput/routing/phase.cc:125-145. -/
def candidate (net : RoadNet) (geo : Geo) (tol : ℚ) (pos : Pos) (range : LaneSRange) :
    Except Err (RoadPositionResult Nat) :=
  match net.byId range.laneId with
  | none => .error .ub
  | some l => do
    let p := geo.geometry.toLanePosition l pos
    if ← positionInRanges net [range] tol ⟨l, p.s, p.r, p.h⟩ then
      return ⟨l, p.s, p.r, p.h, p.nearest, p.distance⟩
    else
      let s := if |p.s - range.sRange.s0| ≤ |p.s - range.sRange.s1| then range.sRange.s0 else range.sRange.s1
      let nearest := geo.toInertial ⟨l, s, 0, 0⟩
      return ⟨l, s, 0, 0, nearest, geo.distance nearest pos⟩

/-- The loop that finds the index of the best result, src/maliput/routing/phase.cc:147-153 and
src/maliput/routing/route.cc:82-88: the results with their indices, the first result as the initial best one. -/
def best (geo : Geo) (results : List (RoadPositionResult Nat × Nat)) (init : RoadPositionResult Nat × Nat) :
    RoadPositionResult Nat × Nat :=
  results.foldl (fun b c => if isCloser geo.geometry c.1 b.1 then c else b) init

/-- `Phase::FindPhasePosition(const api::InertialPosition&)`, src/maliput/routing/phase.cc:120-159. -/
def findPhasePosition (net : RoadNet) (geo : Geo) (p : Phase) (pos : Pos) : Except Err PhasePositionResult := do
  let results ← p.ranges.mapM (candidate net geo p.tolerance pos)
  match results.zipIdx with
  | [] => .error .ub
  | first :: rest =>
    let b := best geo rest first
    return ⟨b.2, b.1.s, b.1.r, b.1.h, b.1.nearest, b.1.distance⟩

/-- `Phase::FindPhasePosition(const api::RoadPosition&)`, src/maliput/routing/phase.cc:161-176. -/
def findPhasePositionOf (net : RoadNet) (geo : Geo) (p : Phase) (q : RoadPos) : Except Err PhasePositionResult := do
  if !(← positionInRanges net p.ranges p.tolerance q) then
    findPhasePosition net geo p (geo.toInertial q)
  else
    let index := p.ranges.findIdx (fun r => decide (r.laneId = net.laneId q.lane))
    let x := geo.geometry.toLanePosition q.lane (geo.toInertial ⟨q.lane, q.s, 0, 0⟩)
    return ⟨index, x.s, x.r, x.h, x.nearest, x.distance⟩

/-! ### Positions in a route -/

/-- The result of a phase as a `RoadPositionResult`, src/maliput/routing/route.cc:75-80. -/
def asRoadPosition (net : RoadNet) (p : Phase) (x : PhasePositionResult) : Except Err (RoadPositionResult Nat) :=
  match p.ranges[x.index]? with
  | none => .error .ub
  | some r =>
    match net.byId r.laneId with
    | none => .error .ub
    | some l => .ok ⟨l, x.s, x.r, x.h, x.inertial, x.distance⟩

/-- `Route::FindRoutePosition(const api::InertialPosition&)`, src/maliput/routing/route.cc:61-91. -/
def findRoutePosition (net : RoadNet) (geo : Geo) (route : List Phase) (pos : Pos) :
    Except Err RoutePositionResult := do
  let results ← route.mapM (fun p => findPhasePosition net geo p pos)
  let asRoad ← (route.zip results).mapM (fun x => asRoadPosition net x.1 x.2)
  match asRoad.zipIdx with
  | [] => .error .ub
  | first :: rest =>
    let i := (best geo rest first).2
    match results[i]? with
    | none => .error .ub
    | some x => return ⟨i, x⟩

/-- The `find_if` of src/maliput/routing/route.cc:96-98. -/
def findPhaseOf (net : RoadNet) (q : RoadPos) : List (Phase × Nat) → Except Err (Option (Phase × Nat))
  | [] => .ok none
  | (p, i) :: rest => do
    if ← positionInRanges net p.ranges p.tolerance q then return some (p, i)
    else findPhaseOf net q rest

/-- `Route::FindRoutePosition(const api::RoadPosition&)`, src/maliput/routing/route.cc:93-107. -/
def findRoutePositionOf (net : RoadNet) (geo : Geo) (route : List Phase) (q : RoadPos) :
    Except Err RoutePositionResult := do
  match ← findPhaseOf net q route.zipIdx with
  | none => findRoutePosition net geo route (geo.toInertial q)
  | some (p, i) => return ⟨i, ← findPhasePositionOf net geo p q⟩

/-! ### Relations of ranges -/

/-- `Route::LaneSRangeIndex`, include/maliput/routing/route.h:273-278.  The second index is an integer:
`size_t` arithmetic below zero wraps around, and then `GetLaneSRange` receives a negative `int`. -/
structure Index where
  phase : Nat
  range : ℤ
  deriving DecidableEq, Repr

/-- All ranges of a route with their indices, in the order in which src/maliput/routing/route.cc:52-58 visits
them. -/
def indexed (route : List Phase) : List (Index × LaneSRange) :=
  (route.zipIdx.map fun p => p.1.ranges.zipIdx.map fun r => (⟨p.2, r.2⟩, r.1)).flatten

/-- The loop of `Route::FindLaneSRangeIndex`, src/maliput/routing/route.cc:311-316. -/
def findContaining (tol : ℚ) (r : LaneSRange) : List (Index × LaneSRange) → Except Err (Option Index)
  | [] => .ok none
  | (i, x) :: rest => do
    if ← x.contains r tol then return some i
    else findContaining tol r rest

/-- `Route::FindLaneSRangeIndex`, src/maliput/routing/route.cc:305-317; `lane_id_to_indices_[id]` are the
indices of the ranges on the lane `id`, src/maliput/routing/route.cc:51-58. -/
def findIndex (tol : ℚ) (route : List Phase) (r : LaneSRange) : Except Err (Option Index) :=
  findContaining tol r ((indexed route).filter (fun x => decide (x.2.laneId = r.laneId)))

/-- `Route::GetLaneSRange`, include/maliput/routing/route.h:158-160. -/
def getRange (route : List Phase) (i : Index) : Except Err LaneSRange :=
  match route[i.phase]? with
  | none => .error .outOfRange
  | some p =>
    if i.range < 0 then .error .outOfRange
    else
      match p.ranges[i.range.toNat]? with
      | none => .error .outOfRange
      | some r => .ok r

/-- `enum class RelativePosition`, src/maliput/routing/route.cc:111. -/
inductive RelativePosition
  | left
  | center
  | right
  deriving DecidableEq, Repr

/-- `Vector3::dot`. -/
def dot (a b : Pos) : ℚ := a 0 * b 0 + a 1 * b 1 + a 2 * b 2

/-- `Vector3::cross`. -/
def cross (a b : Pos) : Pos :=
  ![a 1 * b 2 - a 2 * b 1, a 2 * b 0 - a 0 * b 2, a 0 * b 1 - a 1 * b 0]

/-- `ComputeRelativePosition`, src/maliput/routing/route.cc:113-132.  `norm() <= tolerance` is written with
squares, and the vector is not normalised before the sign is taken. -/
def relativePosition (geo : Geo) (a b : RoadPos) : RelativePosition :=
  let d : Pos := fun k => geo.toInertial b k - geo.toInertial a k
  if 0 ≤ geo.tol ∧ dot d d ≤ geo.tol * geo.tol then .center
  else if dot (cross (geo.sHat a) d) (geo.hHat a) > 0 then .left
  else .right

/-- `enum class LaneSRangeRelation`, include/maliput/routing/lane_s_range_relation.h:72-86. -/
inductive Relation
  | adjacentLeft
  | adjacentRight
  | left
  | right
  | succeedingStraight
  | succeedingLeft
  | succeedingRight
  | precedingStraight
  | precedingLeft
  | precedingRight
  | coincident
  | unrelated
  | unknown
  deriving DecidableEq, Repr

/-- `kRelativePositionToSucceedingLaneSRange`, src/maliput/routing/route.cc:179-181. -/
def succeeding : RelativePosition → Relation
  | .left => .succeedingLeft
  | .center => .succeedingStraight
  | .right => .succeedingRight

/-- `kRelativePositionToPrecedingLaneSRange`, src/maliput/routing/route.cc:182-183. -/
def preceding : RelativePosition → Relation
  | .left => .precedingLeft
  | .center => .precedingStraight
  | .right => .precedingRight

/-- `get_lane_s_range_road_position`, src/maliput/routing/route.cc:170-175. -/
def endOfRange (net : RoadNet) (route : List Phase) (i : Index) (start : Bool) : Except Err RoadPos :=
  match getRange route i with
  | .error _ => .error .ub
  | .ok r =>
    match net.byId r.laneId with
    | none => .error .ub
    | some l => .ok ⟨l, if start then r.sRange.s0 else r.sRange.s1, 0, 0⟩

/-- `n - 1` on `size_t`. -/
def wrapPred (n : Nat) : Nat := if n = 0 then 2 ^ 64 - 1 else n - 1

/-- `Route::ComputeLaneSRangeRelation` after the indices are found, src/maliput/routing/route.cc:147-205. -/
def relationAt (net : RoadNet) (geo : Geo) (route : List Phase) (a b : Index) : Except Err Relation :=
  if a.phase > b.phase + 1 ∨ b.phase > a.phase + 1 then .ok .unrelated
  else
    let next := b.range.toNat + 1
    let previous := wrapPred b.range.toNat
    if a.phase = b.phase then
      if a.range.toNat = b.range.toNat then .ok .coincident
      else if a.range.toNat = next then .ok .adjacentRight
      else if a.range.toNat > next then .ok .right
      else if a.range.toNat = previous then .ok .adjacentLeft
      else .ok .left
    else if a.phase = wrapPred b.phase then do
      let pa ← endOfRange net route a false
      let pb ← endOfRange net route b true
      return succeeding (relativePosition geo pa pb)
    else do
      let pa ← endOfRange net route a true
      let pb ← endOfRange net route b false
      return preceding (relativePosition geo pa pb)

/-- `Route::ComputeLaneSRangeRelation`, src/maliput/routing/route.cc:136-206. -/
def relation (net : RoadNet) (geo : Geo) (route : List Phase) (a b : LaneSRange) : Except Err Relation := do
  let ia ← findIndex geo.tol route a
  let ib ← findIndex geo.tol route b
  match ia, ib with
  | some ia, some ib => relationAt net geo route ia ib
  | _, _ => return .unknown

/-! ### The lane-s route -/

/-- The `find_if` of src/maliput/routing/route.cc:324-329. -/
def findStraight (net : RoadNet) (geo : Geo) (route : List Phase) (r : LaneSRange) :
    List (LaneSRange × Nat) → Except Err (Option Nat)
  | [] => .ok none
  | (x, k) :: rest => do
    if (← relation net geo route r x) = .precedingStraight then return some k
    else findStraight net geo route r rest

/-- `Route::FindStraightPredecessor`, src/maliput/routing/route.cc:319-336. -/
def straightPredecessor (net : RoadNet) (geo : Geo) (route : List Phase) (i : Index) :
    Except Err (Option Index) := do
  throwUnless (decide (i.phase > 0))
  match route[i.phase - 1]? with
  | none => .error .outOfRange
  | some p => do
    let r ← getRange route i
    let k ← findStraight net geo route r p.ranges.zipIdx
    return k.map (fun (k : Nat) => (⟨i.phase - 1, k⟩ : Index))

/-- `Route::FindDirectionTowardsLaneSRangeWithStraightPredecessor`, src/maliput/routing/route.cc:338-365; 1 is
`kTowardsLeft`, -1 is `kTowardsRight` (include/maliput/routing/route.h:264, 268).  The branch at lines 351-358
is never taken: there the index is not zero, and it is compared with `max_current_index - max_current_index`. -/
def direction (net : RoadNet) (geo : Geo) (route : List Phase) (i : Index) : Except Err ℤ :=
  match route[i.phase]? with
  | none => .error .outOfRange
  | some p =>
    if i.range = 0 then .ok 1
    else if i.range = (p.ranges.length : ℤ) - 1 then .ok (-1)
    else do
      let found ← (List.range' (i.range.toNat + 1) (p.ranges.length - 1 - i.range.toNat)).anyM (fun (k : Nat) => do
        return (← straightPredecessor net geo route ⟨i.phase, k⟩).isSome)
      return if found then 1 else -1

/-- The inner loop, src/maliput/routing/route.cc:253-264.  The first number is one more than
`num_lane_s_ranges_to_check`; the ranges collected so far are returned with the predecessor. -/
def seekPredecessor (net : RoadNet) (geo : Geo) (route : List Phase) :
    Nat → Index → List LaneSRange → Except Err (Index × List LaneSRange)
  | 0, _, _ => .error .throws
  | n + 1, current, acc => do
    match ← straightPredecessor net geo route current with
    | some p => if n = 0 then .error .throws else return (p, acc)
    | none => do
      let d ← direction net geo route current
      let current := { current with range := current.range + d }
      let r ← getRange route current
      seekPredecessor net geo route n current (r :: acc)

/-- The outer loop, src/maliput/routing/route.cc:247-271.  The first number is one more than
`num_phases_to_check`. -/
def backwards (net : RoadNet) (geo : Geo) (route : List Phase) (startPhase : Nat) :
    Nat → Index → List LaneSRange → Except Err (Index × List LaneSRange)
  | 0, _, _ => .error .throws
  | n + 1, current, acc =>
    if current.phase = startPhase then .ok (current, acc)
    else do
      let r ← getRange route current
      let size := match route[current.phase]? with
        | some p => p.ranges.length
        | none => 0
      let (p, acc) ← seekPredecessor net geo route (size + 1) current (r :: acc)
      backwards net geo route startPhase n p acc

/-- The last loop, src/maliput/routing/route.cc:276-301.  The number bounds the iterations. -/
def towardsStart (net : RoadNet) (geo : Geo) (route : List Phase) (start : Index) :
    Nat → Index → List LaneSRange → Except Stop (List LaneSRange)
  | 0, _, _ => .error .depth
  | n + 1, current, acc => do
    let x ← lift (getRange route current)
    let s ← lift (getRange route start)
    match ← lift (relation net geo route s x) with
    | .left | .adjacentLeft => towardsStart net geo route start n { current with range := current.range - 1 } (x :: acc)
    | .right | .adjacentRight =>
      towardsStart net geo route start n { current with range := current.range + 1 } (x :: acc)
    | .coincident => return x :: acc
    | _ => .error (.err .throws)

/-- A point-like range, src/maliput/routing/route.cc:214-216. -/
def pointRange (net : RoadNet) (q : RoadPos) : Except Err LaneSRange := do
  let s ← SRange.make q.s q.s
  return ⟨net.laneId q.lane, s⟩

/-- `Route::ComputeLaneSRoute`, src/maliput/routing/route.cc:208-303; `end_route_position`,
include/maliput/routing/route.h:168.  The number bounds the iterations of the last loop. -/
def computeLaneSRoute (net : RoadNet) (geo : Geo) (route : List Phase) (depth : Nat) (start : RoadPos) :
    Except Stop LaneSRoute :=
  match route.getLast?.bind (fun p => p.endPositions.head?) with
  | none => .error (.err .ub)
  | some e => do
    let endPoint ← lift (pointRange net e)
    let startPoint ← lift (pointRange net start)
    match ← lift (findIndex geo.tol route startPoint) with
    | none => .error (.err .throws)
    | some si => do
      match ← lift (findIndex geo.tol route endPoint) with
      | none => .error (.err .throws)
      | some ei => do
        let (current, acc) ← lift (backwards net geo route si.phase (route.length - si.phase + 1) ei [])
        let ranges ← towardsStart net geo route si depth current acc
        return ⟨ranges⟩

end Maliput.Route
