import Verif.Model.Map
import Verif.Model.Regions

set_option autoImplicit false

/-!
Model of include/maliput/api/rules/{right_of_way_rule,speed_limit_rule,direction_usage_rule}.h.
`MALIPUT_VALIDATE` throws, like `MALIPUT_THROW_UNLESS`.
-/
namespace Maliput.Rules

/-- `RightOfWayRule::State::Type`, include/maliput/api/rules/right_of_way_rule.h:120-128. -/
inductive RowStateType where
  | go | stop | stopThenGo
  deriving DecidableEq

/-- `RightOfWayRule::State`, include/maliput/api/rules/right_of_way_rule.h:109-150. -/
structure RowState where
  id : String
  type : RowStateType
  yieldTo : List String
  deriving DecidableEq

/-- `RightOfWayRule::ZoneType`, include/maliput/api/rules/right_of_way_rule.h:86-93. -/
inductive ZoneType where
  | stopExcluded | stopAllowed
  deriving DecidableEq

/-- The members of `RightOfWayRule`, include/maliput/api/rules/right_of_way_rule.h:220-224; the zone is
the list of ranges of its `LaneSRoute`. -/
structure RightOfWayRule where
  id : String
  zone : List LaneSRange
  zoneType : ZoneType
  states : Map String RowState
  relatedBulbGroups : Map String (List String)
  deriving DecidableEq

/-- The loop of the constructors that indexes the states by id,
include/maliput/api/rules/right_of_way_rule.h:170-174,
include/maliput/api/rules/direction_usage_rule.h:138-142. -/
def indexStates {S : Type} (idOf : S → String) (m : Map String S) : List S → Except Err (Map String S)
  | [] => .ok m
  | s :: ss =>
    let (m', isNew) := m.emplace (idOf s) s
    if isNew then indexStates idOf m' ss else .error .throws

/-- `RightOfWayRule::RightOfWayRule`, include/maliput/api/rules/right_of_way_rule.h:166-185. -/
def RightOfWayRule.make (id : String) (zone : List LaneSRange) (zoneType : ZoneType) (states : List RowState)
    (related : Map String (List String)) : Except Err RightOfWayRule := do
  throwUnless (decide (states.length ≥ 1))
  let m ← indexStates RowState.id .empty states
  related.entries.forM fun kv =>
    kv.2.forM fun g => throwUnless (decide (kv.2.countP (fun w => decide (w = g)) = 1))
  return ⟨id, zone, zoneType, m, related⟩

/-- The only state of a static rule: `is_static` and `static_state`,
include/maliput/api/rules/right_of_way_rule.h:203-214, include/maliput/api/rules/direction_usage_rule.h:156-167
(`begin()` of the map of states). -/
def staticState {S : Type} (states : Map String S) : Except Err S := do
  throwUnless (decide (states.size = 1))
  match states.entries with
  | [] => .error .ub
  | (_, s) :: _ => return s

/-- `SpeedLimitRule::Severity`, include/maliput/api/rules/speed_limit_rule.h:57-61. -/
inductive SpeedSeverity where
  | strict | advisory
  deriving DecidableEq

/-- The members of `SpeedLimitRule`, include/maliput/api/rules/speed_limit_rule.h:98-102. -/
structure SpeedLimitRule where
  id : String
  zone : LaneSRange
  severity : SpeedSeverity
  min : ℚ
  max : ℚ
  deriving DecidableEq

/-- `SpeedLimitRule::SpeedLimitRule`, include/maliput/api/rules/speed_limit_rule.h:75-80. -/
def SpeedLimitRule.make (id : String) (zone : LaneSRange) (severity : SpeedSeverity) (min max : ℚ) :
    Except Err SpeedLimitRule := do
  throwUnless (decide (min ≥ 0))
  throwUnless (decide (max ≥ 0))
  throwUnless (decide (min ≤ max))
  return ⟨id, zone, severity, min, max⟩

/-- `DirectionUsageRule::State::Type`, include/maliput/api/rules/direction_usage_rule.h:87-103. -/
inductive DirectionType where
  | withS | againstS | bidirectional | bidirectionalTurnOnly | noUse | parking | undefined
  deriving DecidableEq

/-- `DirectionUsageRule::State::Severity`, include/maliput/api/rules/direction_usage_rule.h:77-83. -/
inductive DirectionSeverity where
  | strict | preferred
  deriving DecidableEq

/-- `DirectionUsageRule::State`, include/maliput/api/rules/direction_usage_rule.h:70-125. -/
structure DirectionState where
  id : String
  type : DirectionType
  severity : DirectionSeverity
  deriving DecidableEq

/-- The members of `DirectionUsageRule`, include/maliput/api/rules/direction_usage_rule.h:173-175. -/
structure DirectionUsageRule where
  id : String
  zone : LaneSRange
  states : Map String DirectionState
  deriving DecidableEq

/-- `DirectionUsageRule::DirectionUsageRule`, include/maliput/api/rules/direction_usage_rule.h:136-143. -/
def DirectionUsageRule.make (id : String) (zone : LaneSRange) (states : List DirectionState) :
    Except Err DirectionUsageRule := do
  throwUnless (decide (states.length ≥ 1))
  let m ← indexStates DirectionState.id .empty states
  return ⟨id, zone, m⟩

end Maliput.Rules
