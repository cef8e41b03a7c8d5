import Verif.Model.Rulebook
import Verif.Model.RuleRegistry
import Verif.Model.Yaml

set_option autoImplicit false

/-!
Model of src/maliput/base/road_rulebook_loader.cc, the loader of rulebook documents of the old format.
The road geometry is the function from lane id to lane length, `none` when `ById().GetLane` gives a null
pointer.  `std::domain_error` is `Err.throws`.
-/
namespace Maliput.Loader

open Maliput.Rules Maliput.Rulebook Maliput.Yaml

/-- A method that changes an object, called on an object that is abandoned if the method throws. -/
def Outcome.get {σ : Type} (o : Outcome σ) : Except Err σ :=
  match o with
  | (s, .ok ()) => .ok s
  | (_, .error e) => .error e

/-- `MALIPUT_THROW_UNLESS(node[key].IsDefined())` followed by the use of `node[key]`. -/
def required (n : Node) (k : String) : Except Err Node := do
  let v ← n.field k
  throwUnless v.isDefined
  return v

/-- `node.as<SRange>()`: `convert<SRange>::decode`, src/maliput/base/yaml_conversion.cc:43-50, on a
default constructed range. -/
def asSRange (c : Conv) (n : Node) : Except Err SRange :=
  match n with
  | some (.seq [a, b]) => do
    let s0 ← Node.asDouble c (some a)
    let r ← SRange.setS0 ⟨0, 0⟩ s0
    let s1 ← Node.asDouble c (some b)
    r.setS1 s1
  | _ => .error .throws

/-- `ObtainSRange`, src/maliput/base/road_rulebook_loader.cc:173-182 (key "SRange"), and `GetSRange`,
src/maliput/base/road_rulebook_loader_using_rule_registry.cc:114-124 (key "s_range"), for a lane of the
given length. -/
def obtainSRange (c : Conv) (key : String) (length : ℚ) (n : Node) : Except Err SRange := do
  let v ← n.field key
  if v.isDefined then
    let r ← asSRange c v
    throwUnless (decide (r.s0 ≥ 0))
    throwUnless (decide (r.s1 ≤ length))
    return r
  else
    SRange.make 0 length

/-- `BuildLaneSRange`, src/maliput/base/road_rulebook_loader.cc:184-195 (keys "Lane" and "SRange"), and
`GetLaneSRangeFromYamlNode`, src/maliput/base/road_rulebook_loader_using_rule_registry.cc:130-139 (keys
"lane_id" and "s_range"). -/
def buildLaneSRange (g : String → Option ℚ) (c : Conv) (laneKey rangeKey : String) (n : Node) :
    Except Err LaneSRange := do
  n.needMap
  let laneId ← (← required n laneKey).asId
  match g laneId with
  | none => .error .throws
  | some length =>
    let r ← obtainSRange c rangeKey length n
    return ⟨laneId, r⟩

/-- `BuildLaneSRoute`, src/maliput/base/road_rulebook_loader.cc:197-204, and the checks and
the loop of `GetZoneFromYamlNode`, src/maliput/base/road_rulebook_loader_using_rule_registry.cc:147-151. -/
def buildLaneSRoute (g : String → Option ℚ) (c : Conv) (laneKey rangeKey : String) (n : Node) :
    Except Err (List LaneSRange) := do
  n.needSeq
  n.nodes.mapM (buildLaneSRange g c laneKey rangeKey)

/-! ### Right-of-way rules -/

/-- `as<YieldGroup>()`, src/maliput/base/road_rulebook_loader.cc:78-86. -/
def asYieldGroup (n : Node) : Except Err (List String) := do
  n.needSeq
  n.nodes.mapM Node.asId

/-- One of the three blocks of `BuildRightOfWayStates`, src/maliput/base/road_rulebook_loader.cc:212-224. -/
def buildRowState (n : Node) (name : String) (t : RowStateType) : Except Err (List RowState) := do
  let v ← n.field name
  if v.isDefined then
    let g ← asYieldGroup v
    return [⟨name, t, g⟩]
  else return []

/-- `BuildRightOfWayStates`, src/maliput/base/road_rulebook_loader.cc:209-241. -/
def buildRowStates (n : Node) : Except Err (List RowState) := do
  n.needMap
  let go ← buildRowState n "Go" .go
  let stop ← buildRowState n "Stop" .stop
  let stopThenGo ← buildRowState n "StopThenGo" .stopThenGo
  let states := go ++ stop ++ stopThenGo
  let size ← n.size
  throwUnless (decide (states.length = size))
  return states

/-- `BuildRightOfWayZoneType`, src/maliput/base/road_rulebook_loader.cc:243-259. -/
def buildZoneType (n : Node) : Except Err ZoneType := do
  let v ← n.field "ZoneType"
  if v.isDefined then
    let s ← v.asString
    if s = "StopExcluded" then return .stopExcluded
    else if s = "StopAllowed" then return .stopAllowed
    else .error .throws
  else return .stopExcluded

/-- The loop of `BuildRelatedBulbGroups`, src/maliput/base/road_rulebook_loader.cc:267-276. -/
def relatedBulbGroupsLoop (m : Map String (List String)) : List Item → Except Err (Map String (List String))
  | [] => .ok m
  | it :: rest => do
    let light ← it.first.asId
    let groups ← it.second.nodes.mapM Node.asId
    let (m', isNew) := m.emplace light groups
    throwUnless isNew
    relatedBulbGroupsLoop m' rest

/-- `BuildRelatedBulbGroups`, src/maliput/base/road_rulebook_loader.cc:261-280. -/
def buildRelatedBulbGroups (n : Node) : Except Err (Map String (List String)) := do
  let v ← n.field "RelatedBulbGroups"
  if v.isDefined then
    v.needMap
    relatedBulbGroupsLoop .empty v.items
  else return .empty

/-- `BuildRightOfWayRule`, src/maliput/base/road_rulebook_loader.cc:284-298. -/
def buildRightOfWayRule (g : String → Option ℚ) (c : Conv) (n : Node) : Except Err RightOfWayRule := do
  n.needMap
  let id ← (← required n "ID").asId
  let states ← buildRowStates (← required n "States")
  let zone ← buildLaneSRoute g c "Lane" "SRange" (← required n "Zone")
  let zoneType ← buildZoneType n
  let related ← buildRelatedBulbGroups n
  RightOfWayRule.make id zone zoneType states related

/-- `RightOfWayRuleTypeId`, src/maliput/base/rule_registry.cc:66. -/
def rowTypeId : String := "Right-Of-Way Rule Type"

/-- `VehicleStopInZoneBehaviorRuleTypeId`, src/maliput/base/rule_registry.cc:75-77. -/
def stopTypeId : String := "Vehicle-Stop-In-Zone-Behavior Rule Type"

/-- `RelatedRulesKeys::kYieldGroup`, src/maliput/base/rule_registry.cc:90. -/
def yieldGroupKey : String := "Yield Group"

/-- `RelatedUniqueIdsKeys::kBulbGroup`, src/maliput/base/rule_registry.cc:92. -/
def bulbGroupKey : String := "Bulb Group"

/-- `GetRuleIdFrom`, src/maliput/base/road_rulebook_loader.cc:300-302. -/
def ruleIdFrom (typeId id : String) : String := typeId ++ "/" ++ id

/-- `BuildVehicleStopInZoneBehaviourDiscreteValueRule`, src/maliput/base/road_rulebook_loader.cc:307-315. -/
def buildStopRule (r : RightOfWayRule) : Except Err DiscreteValueRule :=
  DiscreteValueRule.make (ruleIdFrom stopTypeId r.id) stopTypeId r.zone
    [⟨⟨0, .empty, .empty⟩, if r.zoneType = .stopExcluded then "DoNotStop" else "UnconstrainedParking"⟩]

/-- `right_of_way_rule_state_types`, src/maliput/base/road_rulebook_loader.cc:319-323. -/
def rowStateName : RowStateType → String
  | .go => "Go"
  | .stop => "Stop"
  | .stopThenGo => "StopThenGo"

/-- The unique ids of the related bulb groups, src/maliput/base/road_rulebook_loader.cc:326-332; the string
of a `UniqueBulbGroupId` is include/maliput/api/rules/traffic_lights.h:472. -/
def relatedBulbIds (r : RightOfWayRule) : List String :=
  r.relatedBulbGroups.entries.flatMap fun kv => kv.2.map fun g => kv.1 ++ "-" ++ g

/-- The body of the second loop, src/maliput/base/road_rulebook_loader.cc:335-344. -/
def buildRowValue (r : RightOfWayRule) (stopRuleId : String) (s : RowState) : DiscreteValue :=
  ⟨⟨0, .ofList [(stopTypeId, [stopRuleId]), (yieldGroupKey, s.yieldTo.map (ruleIdFrom rowTypeId))],
    .ofList [(bulbGroupKey, relatedBulbIds r)]⟩, rowStateName s.type⟩

/-- `BuildRightOfWayTypeDiscreteValueRule`, src/maliput/base/road_rulebook_loader.cc:317-349. -/
def buildRowRule (r : RightOfWayRule) (stopRuleId : String) : Except Err DiscreteValueRule :=
  DiscreteValueRule.make (ruleIdFrom rowTypeId r.id) rowTypeId r.zone
    (r.states.entries.map fun e => buildRowValue r stopRuleId e.2)

/-! ### Direction usage rules -/

/-- `as<DirectionUsageRule::State::Severity>()`, src/maliput/base/road_rulebook_loader.cc:106-123. -/
def asDirectionSeverity (n : Node) : Except Err DirectionSeverity := do
  let s ← n.asString
  if s = "Strict" then return .strict
  else if s = "Preferred" then return .preferred
  else .error .throws

/-- `DirectionUsageRule::StateTypeMapper`, src/maliput/api/rules/direction_usage_rule.cc:37-44. -/
def directionTypeNames : List (DirectionType × String) :=
  [(.withS, "WithS"), (.againstS, "AgainstS"), (.bidirectional, "Bidirectional"),
    (.bidirectionalTurnOnly, "BidirectionalTurnOnly"), (.noUse, "NoUse"), (.parking, "Parking")]

/-- `as<DirectionUsageRule::State::Type>()`, src/maliput/base/road_rulebook_loader.cc:138-165. -/
def asDirectionType (n : Node) : Except Err DirectionType := do
  let s ← n.asString
  match directionTypeNames.find? fun e => decide (e.2 = s) with
  | some e => return e.1
  | none => .error .throws

/-- The body of the loop of `BuildDirectionUsageStates`, src/maliput/base/road_rulebook_loader.cc:362-367. -/
def buildDirectionState (n : Node) : Except Err DirectionState := do
  let idNode ← required n "ID"
  let severityNode ← required n "Severity"
  let typeNode ← required n "Type"
  let id ← idNode.asId
  let type ← asDirectionType typeNode
  let severity ← asDirectionSeverity severityNode
  return ⟨id, type, severity⟩

/-- `BuildDirectionUsageRule` and `BuildDirectionUsageStates`,
src/maliput/base/road_rulebook_loader.cc:358-386. -/
def buildDirectionUsageRule (g : String → Option ℚ) (c : Conv) (n : Node) : Except Err DirectionUsageRule := do
  n.needMap
  let id ← (← required n "ID").asId
  let statesNode ← required n "States"
  statesNode.needSeq
  let states ← statesNode.nodes.mapM buildDirectionState
  let zone ← buildLaneSRange g c "Lane" "SRange" (← required n "Zone")
  DirectionUsageRule.make id zone states

/-! ### The rulebook -/

/-- The body of the first loop of `BuildFrom`, src/maliput/base/road_rulebook_loader.cc:403-410. -/
def addRow (g : String → Option ℚ) (c : Conv) (b : Book) (n : Node) : Except Err Book := do
  let r ← buildRightOfWayRule g c n
  let stop ← buildStopRule r
  let b ← Outcome.get (addRightOfWay b r)
  let b ← Outcome.get (addDiscreteValueRule b stop)
  let row ← buildRowRule r stop.id
  Outcome.get (addDiscreteValueRule b row)

/-- The body of the second loop of `BuildFrom`, src/maliput/base/road_rulebook_loader.cc:416. -/
def addDirection (g : String → Option ℚ) (c : Conv) (b : Book) (n : Node) : Except Err Book := do
  let r ← buildDirectionUsageRule g c n
  Outcome.get (addDirectionUsage b r)

/-- `BuildFrom`, which is the whole of the loading functions, src/maliput/base/road_rulebook_loader.cc:390-420. -/
def loadRulebook (g : String → Option ℚ) (c : Conv) (root : Doc) : Except Err Book := do
  Node.needMap (some root)
  let book ← required (some root) "RoadRulebook"
  book.needMap
  let rows ← required book "RightOfWayRules"
  rows.needSeq
  let b ← rows.nodes.foldlM (addRow g c) .empty
  let dirs ← required book "DirectionUsageRules"
  dirs.needSeq
  dirs.nodes.foldlM (addDirection g c) b

end Maliput.Loader
