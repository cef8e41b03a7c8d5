import Mathlib.Algebra.Order.Field.Rat
import Mathlib.Data.Fintype.Pi
import Verif.Model.GeometryBase
import Verif.Model.Rules
import Verif.Model.DeprecatedRules
import Verif.Model.Phases
import Verif.Model.TrafficLights

set_option autoImplicit false

/-!
Model of include/maliput/common/compare.h, src/maliput/math/compare.cc, src/maliput/api/compare.cc,
src/maliput/api/rules/compare.cc and src/maliput/routing/compare.cc.  A `ComparisonResult` is modelled by
whether it has a message: `true` is "a difference is reported"; the text of the message is left out.
-/
namespace Maliput.Compare

open Maliput.Rules Maliput.Phases Maliput.TrafficLights

/-! ### The collector -/

/-- The members `count_` and `failed_` of `ComparisonResultCollector`, include/maliput/common/compare.h:81-82. -/
structure Collector where
  count : Nat
  failed : Nat
  deriving DecidableEq

/-- `ComparisonResultCollector::AddResult`, include/maliput/common/compare.h:57-65. -/
def Collector.add (c : Collector) (differs : Bool) : Collector :=
  if differs then ⟨c.count + 1, c.failed + 1⟩ else ⟨c.count + 1, c.failed⟩

/-- `ComparisonResultCollector::result`, include/maliput/common/compare.h:66-72. -/
def Collector.result (c : Collector) : Bool := decide (c.failed > 0)

/-- A collector to which the given results are added one after the other, each being computed just before
(`MALIPUT_ADD_RESULT`, include/maliput/common/compare.h:86); an exception leaves the function. -/
def collect (l : List (Except Err Bool)) : Except Err Bool := do
  let c ← l.foldlM (fun c r => do return Collector.add c (← r)) (⟨0, 0⟩ : Collector)
  return c.result

/-! ### Numbers -/

/-- A `double`: a finite value, an infinity or NaN.  Finite values are exact. -/
inductive Dbl where
  | fin (q : ℚ)
  | posInf
  | negInf
  | nan
  deriving DecidableEq

/-- `std::abs(a - b)` of IEEE numbers. -/
def absDiff : Dbl → Dbl → Dbl
  | .fin a, .fin b => .fin |a - b|
  | .nan, _ => .nan
  | _, .nan => .nan
  | .posInf, .posInf => .nan
  | .negInf, .negInf => .nan
  | _, _ => .posInf

/-- `a > b` of IEEE numbers. -/
def gt : Dbl → Dbl → Bool
  | .fin a, .fin b => decide (a > b)
  | .nan, _ => false
  | _, .nan => false
  | .posInf, .posInf => false
  | .posInf, _ => true
  | .fin _, .negInf => true
  | _, _ => false

/-- `std::abs(a)`. -/
def abs : Dbl → Dbl
  | .fin a => .fin |a|
  | .nan => .nan
  | _ => .posInf

/-- `std::max(a, b)`: `(a < b) ? b : a`. -/
def max (a b : Dbl) : Dbl := if gt b a then b else a

/-- `t * x` for a finite `t` of a number `x ≥ 1` (or NaN). -/
def scale (t : ℚ) : Dbl → Dbl
  | .fin x => .fin (t * x)
  | .nan => .nan
  | x =>
    let flip : Dbl := match x with | .posInf => .negInf | _ => .posInf
    if t > 0 then x else if t < 0 then flip else .nan

/-- `std::numeric_limits<double>::epsilon()`. -/
def epsilon : ℚ := 1 / 2 ^ 52

/-- `api::IsEqual` of two `double`s, src/maliput/api/compare.cc:260-267. -/
def isEqualDouble (a b : Dbl) : Bool := gt (absDiff a b) (.fin epsilon)

/-- The bodies of `IsInertialPositionClose`, `IsLanePositionClose`, `IsRotationClose`, `IsRBoundsClose` and
`IsHBoundsClose`, src/maliput/api/compare.cc:55-84, 86-115, 117-148, 150-173, 175-196: the coordinates are
compared one by one; a message is returned if one of the comparisons fails. -/
def isClose (tolerance : Dbl) (coordinates : List (Dbl × Dbl)) : Bool :=
  coordinates.foldl (fun fails c => if gt (absDiff c.1 c.2) tolerance then true else fails) false

/-- Three coordinates: `InertialPosition`, `LanePosition`, and the roll, pitch and yaw of `Rotation`. -/
structure Triple where
  x : Dbl
  y : Dbl
  z : Dbl
  deriving DecidableEq

/-- `IsInertialPositionClose`, `IsLanePositionClose`, `IsRotationClose` (the latter of the roll, pitch and yaw
angles), src/maliput/api/compare.cc:55-84, 86-115, 117-148. -/
def isTripleClose (a b : Triple) (tolerance : Dbl) : Bool :=
  isClose tolerance [(a.x, b.x), (a.y, b.y), (a.z, b.z)]

/-- `IsRBoundsClose`, `IsHBoundsClose`, src/maliput/api/compare.cc:150-173, 175-196. -/
def isBoundsClose (a b : Dbl × Dbl) (tolerance : Dbl) : Bool := isClose tolerance [(a.1, b.1), (a.2, b.2)]

/-- `LanePositionResult`, include/maliput/api/lane_data.h:283-297. -/
structure LanePositionResult where
  lanePosition : Triple
  nearestPosition : Triple
  distance : Dbl

/-- `IsLanePositionResultClose`, src/maliput/api/compare.cc:198-216. -/
def isLanePositionResultClose (a b : LanePositionResult) (tolerance : Dbl) : Bool :=
  if isTripleClose a.lanePosition b.lanePosition tolerance then true
  else if isTripleClose a.nearestPosition b.nearestPosition tolerance then true
  else gt (absDiff a.distance b.distance) tolerance

/-- `RoadPositionResult`, include/maliput/api/lane_data.h:341-351; lanes are pointers, `none` is null. -/
structure RoadPositionResult where
  lane : Option Nat
  pos : Triple
  nearestPosition : Triple
  distance : Dbl

/-- `IsRoadPositionResultClose`, src/maliput/api/compare.cc:218-235. -/
def isRoadPositionResultClose (a b : RoadPositionResult) (tolerance : Dbl) : Bool :=
  if a.lane = none then true
  else if b.lane = none then true
  else if a.lane ≠ b.lane then true
  else isLanePositionResultClose ⟨a.pos, a.nearestPosition, a.distance⟩ ⟨b.pos, b.nearestPosition, b.distance⟩
    tolerance

/-- `PhasePositionResult`, include/maliput/routing/route_position_result.h:37-47. -/
structure PhasePositionResult where
  laneSRangeIndex : ℤ
  lanePosition : Triple
  inertialPosition : Triple
  distance : Dbl

/-- `IsPhasePositionResultClose`, src/maliput/routing/compare.cc:40-65. -/
def isPhasePositionResultClose (a b : PhasePositionResult) (tolerance : Dbl) : Bool :=
  if a.laneSRangeIndex ≠ b.laneSRangeIndex then true
  else if isTripleClose a.lanePosition b.lanePosition tolerance then true
  else if isTripleClose a.inertialPosition b.inertialPosition tolerance then true
  else gt (absDiff a.distance b.distance) tolerance

/-- `RoutePositionResult`, include/maliput/routing/route_position_result.h:51-56. -/
structure RoutePositionResult where
  phaseIndex : ℤ
  phasePositionResult : PhasePositionResult

/-- `IsRoutePositionResultClose`, src/maliput/routing/compare.cc:67-75. -/
def isRoutePositionResultClose (a b : RoutePositionResult) (tolerance : Dbl) : Bool :=
  if a.phaseIndex ≠ b.phaseIndex then true
  else isPhasePositionResultClose a.phasePositionResult b.phasePositionResult tolerance

/-- The body of the loop of `CompareVectors`, src/maliput/math/compare.cc:46-86, and of the inner loop of
`CompareMatrices`, lines 99-141: whether the two elements are reported as different.  `relative` is
`compare_type != CompareType::kAbsolute`; the tolerance is finite. -/
def compareElement (relative : Bool) (tolerance : ℚ) (a b : Dbl) : Bool :=
  if (a = .posInf ∧ b = .posInf) ∨ (a = .negInf ∧ b = .negInf) ∨ (a = .nan ∧ b = .nan) then false
  else if (a = .nan ∧ b ≠ .nan) ∨ (a ≠ .nan ∧ b = .nan) then true
  else if !relative then gt (absDiff a b) (.fin tolerance)
  else gt (absDiff a b) (scale tolerance (max (.fin 1) (max (abs a) (abs b))))

/-- `CompareVectors`, src/maliput/math/compare.cc:39-90: stops at the first difference. -/
def compareVectors {n : Nat} (relative : Bool) (tolerance : ℚ) (v w : Fin n → Dbl) : Bool :=
  (List.finRange n).any fun i => compareElement relative tolerance (v i) (w i)

/-- `CompareMatrices`, src/maliput/math/compare.cc:92-146: row by row, stops at the first difference. -/
def compareMatrices {n : Nat} (relative : Bool) (tolerance : ℚ) (m k : Fin n → Fin n → Dbl) : Bool :=
  (List.finRange n).any fun i => (List.finRange n).any fun j => compareElement relative tolerance (m i j) (k i j)

/-! ### Elements of the road -/

/-- `api::IsEqual` of two values of a type with decidable equality (`bool`, `std::size_t`, ids, pointers,
enumerations): src/maliput/api/compare.cc:43-51, 252-258, 269-276, 311-315, 317-320, 322-325, 327-330, 376-382, and
include/maliput/api/compare.h:181-190.  Also of positions and rotation matrices, whose `!=` is exact: lines
358-366 and 368-374. -/
def isEqual {α : Type} [DecidableEq α] (a b : α) : Except Err Bool := .ok (decide (a ≠ b))

/-- `api::IsEqual` of two finite `double`s. -/
def isEqualNumber (a b : ℚ) : Except Err Bool := .ok (isEqualDouble (.fin a) (.fin b))

/-- `IsEqual` of `SRange`s, src/maliput/api/compare.cc:278-283. -/
def isEqualSRange (a b : SRange) : Except Err Bool :=
  collect [isEqualNumber a.s0 b.s0, isEqualNumber a.s1 b.s1]

/-- `IsEqual` of `LaneSRange`s, src/maliput/api/compare.cc:285-291. -/
def isEqualLaneSRange (a b : LaneSRange) : Except Err Bool :=
  collect [isEqual a.laneId b.laneId, isEqualSRange a.sRange b.sRange]

/-- The comparison of two vectors used for ranges, route sections, bulbs and ids: the sizes, then the elements
up to the smaller size, src/maliput/api/compare.cc:293-303, src/maliput/api/rules/compare.cc:115-124, 232-241,
428-438. -/
def isEqualVector {α : Type} (f : α → α → Except Err Bool) (a b : List α) : Except Err Bool :=
  collect (isEqual a.length b.length :: (a.zip b).map fun p => f p.1 p.2)

/-- `IsEqual` of `LaneSRoute`s, src/maliput/api/compare.cc:305-309. -/
def isEqualLaneSRoute (a b : List LaneSRange) : Except Err Bool := collect [isEqualVector isEqualLaneSRange a b]

/-- `LaneEnd`, include/maliput/api/lane_data.h:49-73; `start` is `end == kStart`. -/
structure LaneEnd where
  lane : Option Nat
  start : Bool
  deriving DecidableEq

/-- `IsLaneEndEqual`, src/maliput/api/compare.cc:237-250: the message takes the ids of the two lanes. -/
def isLaneEndEqual (a b : LaneEnd) : Except Err Bool :=
  if a.lane ≠ b.lane then
    if a.lane = none ∨ b.lane = none then .error .ub else .ok true
  else if a.start ≠ b.start then .ok true
  else .ok false

/-- `IsEqual` of `LaneEnd`s, src/maliput/api/compare.cc:384-389. -/
def isEqualLaneEnd (a b : LaneEnd) : Except Err Bool := collect [isEqual a.lane b.lane, isEqual a.start b.start]

open Maliput.Build in
/-- The results `CheckIdIndexing` collects for one junction: lines 335-353 of src/maliput/api/compare.cc. -/
def checkJunction (w : World) (j : Nat) : List (Except Err Bool) :=
  isEqual (getJunction w (w.junction j).id) (some j) ::
    ((w.junction j).segments.flatMap fun s =>
        isEqual (getSegment w (w.segment s).id) (some s) ::
          (w.segment s).lanes.map fun l => isEqual (getLane w (w.lane l).id) (some l)) ++
      w.branchPoints.map fun b => isEqual (getBranchPoint w (w.branchPointId b)) (some b)

/-- `CheckIdIndexing`, src/maliput/api/compare.cc:332-356.  The branch points are checked in the loop over the
junctions. -/
def checkIdIndexing (w : Build.World) : Except Err Bool := collect (w.junctions.flatMap (checkJunction w))

/-! ### Rules -/

/-- `IsEqual` of `Range`s, src/maliput/api/rules/compare.cc:105-113; `operator!=` is the negation of `==`,
include/maliput/api/rules/range_value_rule.h:76. -/
def isEqualRange (a b : Range) : Except Err Bool := .ok (!a.eq b)

/-- `IsEqual` of `RangeValueRule`s, src/maliput/api/rules/compare.cc:126-133. -/
def isEqualRangeValueRule (a b : RangeValueRule) : Except Err Bool :=
  collect [isEqual a.id b.id, isEqual a.typeId b.typeId, isEqualLaneSRoute a.zone b.zone,
    isEqualVector isEqualRange a.states b.states]

/-- `IsEqual` of vectors of `DiscreteValue`s, src/maliput/api/rules/compare.cc:144-154: the first values of `a`
are looked up in `b`. -/
def isEqualDiscreteValues (a b : List DiscreteValue) : Except Err Bool :=
  collect (isEqual a.length b.length ::
    (a.take (min a.length b.length)).map fun v => isEqual (b.any fun w => w.eq v) true)

/-- `IsEqual` of `DiscreteValueRule`s, src/maliput/api/rules/compare.cc:135-142. -/
def isEqualDiscreteValueRule (a b : DiscreteValueRule) : Except Err Bool :=
  collect [isEqual a.id b.id, isEqual a.typeId b.typeId, isEqualLaneSRoute a.zone b.zone,
    isEqualDiscreteValues a.states b.states]

/-- The loops over the larger of two maps from state ids to states,
src/maliput/api/rules/compare.cc:184-202, 252-270. -/
def isEqualStates {S : Type} (f : S → S → Except Err Bool) (a b : Map String S) : Except Err Bool :=
  collect (isEqual a.size b.size ::
    (if a.size < b.size then b else a).keys.flatMap fun k =>
      [isEqual (a.has k) true, isEqual (b.has k) true] ++
        match a.get? k, b.get? k with
        | some s, some t => [f s t]
        | _, _ => [])

/-- `IsEqual` of `DirectionUsageRule::State`s, src/maliput/api/rules/compare.cc:175-182; the enumerations, lines 159-165, 167-173. -/
def isEqualDirectionState (a b : DirectionState) : Except Err Bool :=
  collect [isEqual a.id b.id, isEqual a.severity b.severity, isEqual a.type b.type]

/-- The comparison of the static states, if both rules are static. -/
def isEqualStatic {S : Type} (f : S → S → Except Err Bool) (a b : Map String S) : Except Err Bool := do
  f (← staticState a) (← staticState b)

/-- `IsEqual` of `DirectionUsageRule`s, src/maliput/api/rules/compare.cc:204-214.  The zone is one
`LaneSRange`. -/
def isEqualDirectionUsageRule (a b : DirectionUsageRule) : Except Err Bool :=
  collect ([isEqual a.id b.id, isEqualLaneSRange a.zone b.zone, isEqualStates isEqualDirectionState a.states b.states,
      isEqual (decide (a.states.size = 1)) (decide (b.states.size = 1))] ++
    if a.states.size = 1 ∧ b.states.size = 1 then [isEqualStatic isEqualDirectionState a.states b.states] else [])

/-- `IsEqual` of `RightOfWayRule::State`s, src/maliput/api/rules/compare.cc:243-250; the type, lines 224-230. -/
def isEqualRowState (a b : RowState) : Except Err Bool :=
  collect [isEqual a.id b.id, isEqual a.type b.type, isEqualVector isEqual a.yieldTo b.yieldTo]

/-- The two loops of `IsEqual` of the related bulb groups, src/maliput/api/rules/compare.cc:334-348: each
stops after the first group or traffic light that is not found. -/
def relatedLoop (b : Map String (List String)) : List (String × List String) → List (Except Err Bool)
  | [] => []
  | (light, groups) :: rest =>
    match b.get? light with
    | none => [isEqual false true]
    | some others => isEqual true true :: (groupLoop others groups ++ relatedLoop b rest)
where
  /-- The inner loop, src/maliput/api/rules/compare.cc:340-347. -/
  groupLoop (others : List String) : List String → List (Except Err Bool)
    | [] => []
    | g :: gs =>
      if others.contains g then isEqual true true :: groupLoop others gs else [isEqual false true]

/-- `IsEqual` of the related bulb groups, src/maliput/api/rules/compare.cc:328-351. -/
def isEqualRelated (a b : Map String (List String)) : Except Err Bool :=
  collect (isEqual a.size b.size :: if a.size = b.size then relatedLoop b a.entries else [])

/-- `IsEqual` of `RightOfWayRule`s, src/maliput/api/rules/compare.cc:272-286. -/
def isEqualRightOfWayRule (a b : RightOfWayRule) : Except Err Bool :=
  collect [isEqual a.id b.id, isEqualLaneSRoute a.zone b.zone, isEqual a.zoneType b.zoneType,
    isEqual (decide (a.states.size = 1)) (decide (b.states.size = 1)),
    (if a.states.size = 1 ∧ b.states.size = 1 then isEqualStatic isEqualRowState a.states b.states
      else isEqualStates isEqualRowState a.states b.states),
    isEqualRelated a.relatedBulbGroups b.relatedBulbGroups]

/-- `IsEqual` of `SpeedLimitRule`s, src/maliput/api/rules/compare.cc:315-324. -/
def isEqualSpeedLimitRule (a b : SpeedLimitRule) : Except Err Bool :=
  collect [isEqual a.id b.id, isEqualLaneSRange a.zone b.zone, isEqual a.severity b.severity,
    isEqualNumber a.max b.max, isEqualNumber a.min b.min]

/-- `RightOfWayRuleStateProvider::RightOfWayResult`,
include/maliput/api/rules/right_of_way_rule_state_provider.h:51,
include/maliput/api/rules/state_provider_result.h:42-58: the state, and the next state with the
optional time until it. -/
structure RightOfWayResult where
  state : String
  next : Option (String × Option ℚ)
  deriving DecidableEq

/-- `IsEqual` of `RightOfWayResult`s, src/maliput/api/rules/compare.cc:288-305. -/
def isEqualRightOfWayResult (a b : RightOfWayResult) : Except Err Bool :=
  collect ([isEqual a.state b.state, isEqual a.next.isSome b.next.isSome] ++
    match a.next, b.next with
    | some x, some y =>
      [isEqual x.1 y.1, isEqual x.2.isSome y.2.isSome] ++
        (match x.2, y.2 with
        | some s, some t => [isEqualNumber s t]
        | _, _ => [])
    | _, _ => [])

/-! ### Phases -/

/-- `IsEqual` of `RuleStates`, src/maliput/api/rules/compare.cc:45-49: only the sizes. -/
def isEqualRuleStates (a b : Map String String) : Except Err Bool := collect [isEqual a.size b.size]

/-- `IsEqual` of `DiscreteValue`s, src/maliput/api/rules/compare.cc:53-59: only `value`. -/
def isEqualDiscreteValue (a b : DiscreteValue) : Except Err Bool := isEqual a.value b.value

/-- The loop shared by the comparisons of the discrete value states and of the bulb states,
src/maliput/api/rules/compare.cc:66-68, 383-385: `at` throws `std::out_of_range` if `b` has no such key. -/
def atLoop {κ S : Type} [DecidableEq κ] (f : S → S → Except Err Bool) (a b : Map κ S) : List (Except Err Bool) :=
  a.entries.map fun kv => do f (← b.at! kv.1) kv.2

/-- `IsEqual` of the discrete value rule states, src/maliput/api/rules/compare.cc:61-70. -/
def isEqualDiscreteStates (a b : Map String DiscreteValue) : Except Err Bool :=
  collect (isEqual a.size b.size :: atLoop isEqualDiscreteValue a b)

/-- `IsEqual` of optional bulb states, src/maliput/api/rules/compare.cc:377-388: if only `a` has a value, `b`
is dereferenced nevertheless. -/
def isEqualBulbStates (a b : Option (Map UniqueBulbId BulbState)) : Except Err Bool :=
  collect (isEqual a.isSome b.isSome ::
    match a, b with
    | none, _ => []
    | some _, none => [.error .ub]
    | some m, some n => isEqual m.size n.size :: atLoop isEqual m n)

/-- `IsEqual` of `Phase`s, src/maliput/api/rules/compare.cc:72-82. -/
def isEqualPhase (a b : Phase) : Except Err Bool :=
  collect [isEqual a.id b.id, isEqualRuleStates a.ruleStates b.ruleStates,
    isEqualDiscreteStates a.discreteStates b.discreteStates, isEqualBulbStates a.bulbStates b.bulbStates]

/-- `IsEqual` of optional `double`s, src/maliput/api/rules/compare.cc:390-398: `value()` of an empty optional
throws `std::bad_optional_access`, here `Err.throws`. -/
def isEqualOptional (a b : Option ℚ) : Except Err Bool :=
  collect (isEqual a.isSome b.isSome ::
    match a, b with
    | none, _ => []
    | some _, none => [.error .throws]
    | some x, some y => [isEqualNumber x y])

/-- `IsEqual` of `NextPhase`s, src/maliput/api/rules/compare.cc:84-91. -/
def isEqualNextPhase (a b : NextPhase) : Except Err Bool :=
  collect [isEqual a.id b.id, isEqual a.durationUntil.isSome b.durationUntil.isSome,
    isEqualOptional a.durationUntil b.durationUntil]

/-- `IsEqual` of vectors of `NextPhase`s, src/maliput/api/rules/compare.cc:93-103. -/
def isEqualNextPhases (a b : List NextPhase) : Except Err Bool :=
  collect (isEqual a.length b.length ::
    if a.length = b.length then (a.zip b).map fun p => isEqualNextPhase p.1 p.2 else [])

/-! ### Traffic lights -/

/-- A pose: `InertialPosition` and the matrix of `Rotation`, with exact numbers. -/
structure Pose where
  position : Fin 3 → ℚ
  rotation : Fin 3 → Fin 3 → ℚ
  deriving DecidableEq

/-- A bulb with the parts left out in `TrafficLights.Bulb`: its pose and its bounding box,
include/maliput/api/rules/traffic_lights.h:83-229. -/
structure PosedBulb where
  bulb : Bulb
  pose : Pose
  boxMin : Fin 3 → ℚ
  boxMax : Fin 3 → ℚ
  deriving DecidableEq

/-- A bulb group with its pose. -/
structure PosedGroup where
  id : String
  pose : Pose
  bulbs : List PosedBulb
  deriving DecidableEq

/-- A traffic light with its pose. -/
structure PosedLight where
  id : String
  pose : Pose
  groups : List PosedGroup
  deriving DecidableEq

/-- `IsEqual` of `Bulb::BoundingBox`es, src/maliput/api/rules/compare.cc:400-407. -/
def isEqualBox (a b : PosedBulb) : Except Err Bool :=
  collect ((List.finRange 3).flatMap fun i =>
    [isEqualNumber (a.boxMin i) (b.boxMin i), isEqualNumber (a.boxMax i) (b.boxMax i)])

/-- `IsEqual` of `Bulb`s, src/maliput/api/rules/compare.cc:409-426. -/
def isEqualBulb (a b : PosedBulb) : Except Err Bool :=
  collect ([isEqual a.bulb.id b.bulb.id, isEqual a.pose.position b.pose.position,
      isEqual a.pose.rotation b.pose.rotation, isEqual a.bulb.color b.bulb.color, isEqual a.bulb.type b.bulb.type,
      isEqualOptional a.bulb.arrowOrientation b.bulb.arrowOrientation,
      isEqual a.bulb.states.length b.bulb.states.length] ++
    ((a.bulb.states.zip b.bulb.states).map fun p => isEqual p.1 p.2) ++ [isEqualBox a b])

/-- `IsEqual` of `BulbGroup`s, src/maliput/api/rules/compare.cc:440-447. -/
def isEqualGroup (a b : PosedGroup) : Except Err Bool :=
  collect [isEqual a.id b.id, isEqual a.pose.position b.pose.position, isEqual a.pose.rotation b.pose.rotation,
    isEqualVector isEqualBulb a.bulbs b.bulbs]

/-- `IsEqual` of `TrafficLight`s, src/maliput/api/rules/compare.cc:449-463. -/
def isEqualLight (a b : PosedLight) : Except Err Bool :=
  collect ([isEqual a.id b.id, isEqual a.pose.position b.pose.position, isEqual a.pose.rotation b.pose.rotation,
      isEqual a.groups.length b.groups.length] ++
    (a.groups.zip b.groups).map fun p => isEqualGroup p.1 p.2)

end Maliput.Compare
