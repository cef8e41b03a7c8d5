import Verif.Model.RuleRegistry
import Verif.Model.RulebookLoader

set_option autoImplicit false

/-!
Model of src/maliput/base/rule_registry_loader.cc (rule registry documents),
src/maliput/base/road_rulebook_loader_using_rule_registry.cc (rulebook documents of the new format), the
functions of src/maliput/base/yaml_conversion.cc they use, and the rule types of
src/maliput/base/rule_registry.cc.
-/
namespace Maliput.Loader

open Maliput.Rules Maliput.Rulebook Maliput.RuleRegistry Maliput.Yaml

/-- The conditional increments of `attribute_count`, src/maliput/base/yaml_conversion.cc:75-83. -/
def countDefined (n : Node) : List String → Except Err Nat
  | [] => .ok 0
  | k :: ks => do
    let v ← n.field k
    let rest ← countDefined n ks
    return (if v.isDefined then 1 else 0) + rest

/-- The optional keys, src/maliput/base/yaml_conversion.cc:63-65. -/
def optionalKeys : List String := ["severity", "related_rules", "related_unique_ids"]

/-- `IsDiscreteValue`, src/maliput/base/yaml_conversion.cc:70-85. -/
def isDiscreteValue (n : Node) : Except Err Bool := do
  let v ← n.field "value"
  if v.isDefined then
    let count ← countDefined n optionalKeys
    return decide ((← n.size) = 1 + count)
  else return false

/-- `IsRangeValue`, src/maliput/base/yaml_conversion.cc:87-103. -/
def isRangeValue (n : Node) : Except Err Bool := do
  let v ← n.field "range"
  if v.isDefined then
    let w ← n.field "description"
    if w.isDefined then
      let count ← countDefined n optionalKeys
      return decide ((← n.size) = 2 + count)
    else return false
  else return false

/-- `GetSeverityFromYamlNode`, src/maliput/base/yaml_conversion.cc:105-112; `kStrict` is 0. -/
def getSeverity (c : Conv) (n : Node) : Except Err ℤ := do
  let v ← n.field "severity"
  if v.isDefined then
    let s ← v.asInt c
    throwUnless (decide (s ≥ 0))
    return s
  else return 0

/-- `GetRangeMinMaxValuesFromYamlNode`, src/maliput/base/yaml_conversion.cc:114-121. -/
def getRangeMinMax (c : Conv) (n : Node) : Except Err (ℚ × ℚ) := do
  match ← n.field "range" with
  | some (.seq [a, b]) => do
    let min ← Node.asDouble c (some a)
    let max ← Node.asDouble c (some b)
    throwUnless (decide (min ≤ max))
    return (min, max)
  | _ => .error .throws

/-- `GetDescriptionFromYamlNode`, src/maliput/base/yaml_conversion.cc:128-131, and `GetValueFromYamlNode`,
lines 123-126. -/
def getText (n : Node) (key : String) : Except Err String := do
  (← required n key).asString

/-! ### The rule registry -/

/-- `RuleType`, include/maliput/base/yaml_conversion.h:75-82. -/
inductive RuleKind where
  | unknown | discrete | range
  deriving DecidableEq

/-- The loop of `EvaluateRuleType`, src/maliput/base/rule_registry_loader.cc:83-98. -/
def evaluateLoop (kind : RuleKind) : List Node → Except Err RuleKind
  | [] => .ok kind
  | n :: rest => do
    n.needMap
    if ← isDiscreteValue n then
      if kind = .range then return .unknown
      else evaluateLoop .discrete rest
    else if ← isRangeValue n then
      if kind = .discrete then return .unknown
      else evaluateLoop .range rest
    else evaluateLoop kind rest

/-- `EvaluateRuleType`, src/maliput/base/rule_registry_loader.cc:79-100. -/
def evaluateTypeEntry (n : Node) : Except Err RuleKind := do
  n.needSeq
  throwUnless (decide ((← n.size) ≠ 0))
  evaluateLoop .unknown n.nodes

/-- The loop of `convert<std::map<std::string, std::vector<T>>>::decode`,
src/maliput/base/rule_registry_loader.cc:65-67. -/
def relatedKeysLoop (m : Map String (List String)) : List Node → Except Err (Map String (List String))
  | [] => .ok m
  | n :: rest => do
    let key ← n.asString
    relatedKeysLoop (m.emplace key []).1 rest

/-- `GetRelatedRuleFromYamlNode` and `GetRelatedUniqueIdsFromYamlNode`,
src/maliput/base/rule_registry_loader.cc:103-113, with the conversion of lines 61-69. -/
def getRelatedKeys (n : Node) (key : String) : Except Err (Map String (List String)) := do
  let v ← n.field key
  if v.isDefined then
    v.needSeq
    relatedKeysLoop .empty v.nodes
  else return .empty

/-- The body of the loop of `RegisterDiscreteValueRuleType`,
src/maliput/base/rule_registry_loader.cc:122-124. -/
def typeDiscreteValue (c : Conv) (n : Node) : Except Err DiscreteValue := do
  let severity ← getSeverity c n
  let rules ← getRelatedKeys n "related_rules"
  let ids ← getRelatedKeys n "related_unique_ids"
  let value ← (← n.field "value").asString
  return ⟨⟨severity, rules, ids⟩, value⟩

/-- The body of the loop of `RegisterRangeValueRuleType`,
src/maliput/base/rule_registry_loader.cc:136-139. -/
def typeRange (c : Conv) (n : Node) : Except Err Range := do
  let (min, max) ← getRangeMinMax c n
  let severity ← getSeverity c n
  let rules ← getRelatedKeys n "related_rules"
  let ids ← getRelatedKeys n "related_unique_ids"
  let description ← getText n "description"
  return ⟨⟨severity, rules, ids⟩, description, min, max⟩

/-- The body of the loop of `BuildFrom`, src/maliput/base/rule_registry_loader.cc:155-169, with
`RegisterDiscreteValueRuleType` and `RegisterRangeValueRuleType`, lines 116-142. -/
def addType (c : Conv) (r : Registry) (it : Item) : Except Err Registry := do
  match ← evaluateTypeEntry it.second with
  | .unknown => .error .throws
  | .discrete =>
    let values ← it.second.nodes.mapM (typeDiscreteValue c)
    let id ← it.first.asId
    Outcome.get (registerDiscrete r id values)
  | .range =>
    let ranges ← it.second.nodes.mapM (typeRange c)
    let id ← it.first.asId
    Outcome.get (registerRange r id ranges)

/-- `BuildFrom`, which is the whole of the loading functions, src/maliput/base/rule_registry_loader.cc:145-172. -/
def loadRegistry (c : Conv) (root : Doc) : Except Err Registry := do
  Node.needMap (some root)
  let types ← required (some root) "RuleRegistry"
  types.needMap
  types.items.foldlM (addType c) .empty

/-! ### The rulebook -/

/-- `std::all_of`, which stops at the first `false`. -/
def allM (f : Node → Except Err Bool) : List Node → Except Err Bool
  | [] => .ok true
  | n :: rest => do
    if ← f n then allM f rest else return false

/-- `HasBaseRuleProperties`, src/maliput/base/road_rulebook_loader_using_rule_registry.cc:60-63. -/
def hasBaseProperties (n : Node) : Except Err Bool := do
  if (← n.field "id").isDefined then
    if (← n.field "type").isDefined then return (← n.field "zone").isDefined
    else return false
  else return false

/-- `IsDiscreteValueRule` (key "values") and `IsRangeValueRule` (key "ranges"),
src/maliput/base/road_rulebook_loader_using_rule_registry.cc:66-83. -/
def isRuleWith (key : String) (isValue : Node → Except Err Bool) (n : Node) : Except Err Bool := do
  if ← hasBaseProperties n then
    let v ← n.field key
    if v.isDefined then allM isValue v.nodes else return false
  else return false

/-- `EvaluateRuleType`, src/maliput/base/road_rulebook_loader_using_rule_registry.cc:88-94. -/
def evaluateRule (n : Node) : Except Err RuleKind := do
  n.needMap
  throwUnless (decide ((← n.size) ≠ 0))
  let kind := if ← isRuleWith "values" isDiscreteValue n then RuleKind.discrete else .unknown
  return if ← isRuleWith "ranges" isRangeValue n then RuleKind.range else kind

/-- `related_rules[key].push_back(...)`. -/
def pushRelated (m : Map String (List String)) (key id : String) : Map String (List String) :=
  m.set key ((m.get? key).getD [] ++ [id])

/-- The innermost loop, src/maliput/base/road_rulebook_loader_using_rule_registry.cc:162-164. -/
def relatedValuesLoop (key : Node) (m : Map String (List String)) : List Node →
    Except Err (Map String (List String))
  | [] => .ok m
  | n :: rest => do
    let k ← key.asString
    let id ← n.asId
    relatedValuesLoop key (pushRelated m k id) rest

/-- `GetRelatedRuleFromYamlNode` and `GetRelatedUniqueIdsFromYamlNode`,
src/maliput/base/road_rulebook_loader_using_rule_registry.cc:157-183. -/
def getRelated (n : Node) (key : String) : Except Err (Map String (List String)) := do
  let v ← n.field key
  v.needSeq
  v.nodes.foldlM (fun m entry => entry.items.foldlM (fun m it =>
    relatedValuesLoop it.first m it.second.nodes) m) .empty

/-- The body of the loop, src/maliput/base/road_rulebook_loader_using_rule_registry.cc:198-201. -/
def ruleDiscreteValue (c : Conv) (n : Node) : Except Err DiscreteValue := do
  n.needMap
  let severity ← getSeverity c n
  let rules ← getRelated n "related_rules"
  let ids ← getRelated n "related_unique_ids"
  let value ← getText n "value"
  return ⟨⟨severity, rules, ids⟩, value⟩

/-- The body of the loop, src/maliput/base/road_rulebook_loader_using_rule_registry.cc:221-225. -/
def ruleRange (c : Conv) (n : Node) : Except Err Range := do
  n.needMap
  let (min, max) ← getRangeMinMax c n
  let severity ← getSeverity c n
  let rules ← getRelated n "related_rules"
  let ids ← getRelated n "related_unique_ids"
  let description ← getText n "description"
  return ⟨⟨severity, rules, ids⟩, description, min, max⟩

/-- The rule `AddDiscreteValueRule` adds, src/maliput/base/road_rulebook_loader_using_rule_registry.cc:190-206. -/
def discreteRule (g : String → Option ℚ) (c : Conv) (reg : Registry) (n : Node) : Except Err DiscreteValueRule := do
  let values ← (← required n "values").nodes.mapM (ruleDiscreteValue c)
  let id ← (← required n "id").asId
  let type ← (← required n "type").asId
  let zone ← buildLaneSRoute g c "lane_id" "s_range" (← required n "zone")
  buildDiscrete reg id type zone values

/-- The rule `AddRangeValueRule` adds, src/maliput/base/road_rulebook_loader_using_rule_registry.cc:213-230. -/
def rangeRule (g : String → Option ℚ) (c : Conv) (reg : Registry) (n : Node) : Except Err RangeValueRule := do
  let ranges ← (← required n "ranges").nodes.mapM (ruleRange c)
  let id ← (← required n "id").asId
  let type ← (← required n "type").asId
  let zone ← buildLaneSRoute g c "lane_id" "s_range" (← required n "zone")
  buildRange reg id type zone ranges

/-- The body of the loop of `BuildFrom`, src/maliput/base/road_rulebook_loader_using_rule_registry.cc:244-254. -/
def addEntry (g : String → Option ℚ) (c : Conv) (reg : Registry) (b : Book) (n : Node) : Except Err Book := do
  match ← evaluateRule n with
  | .discrete =>
    let r ← discreteRule g c reg n
    Outcome.get (addDiscreteValueRule b r)
  | .range =>
    let r ← rangeRule g c reg n
    Outcome.get (addRangeValueRule b r)
  | .unknown => .error .throws

/-- `BuildFrom`, which is the whole of the loading functions,
src/maliput/base/road_rulebook_loader_using_rule_registry.cc:235-257. -/
def loadRulebookWith (g : String → Option ℚ) (c : Conv) (reg : Registry) (root : Doc) : Except Err Book := do
  Node.needMap (some root)
  let book ← required (some root) "RoadRulebook"
  book.needSeq
  book.nodes.foldlM (addEntry g c reg) .empty

/-! ### The rule types of the library -/

/-- `GenerateEveryCombination`, src/maliput/base/rule_registry.cc:41-53. -/
def everyCombination (severities : List ℤ) (values : List String) : List DiscreteValue :=
  severities.flatMap fun s => values.map fun v => ⟨⟨s, .empty, .empty⟩, v⟩

/-- `BuildDirectionUsageRuleType`, src/maliput/base/rule_registry.cc:57-64. -/
def directionUsageType : String × List DiscreteValue :=
  ("Direction-Usage Rule Type", everyCombination [0]
    ["WithS", "AgainstS", "Bidirectional", "BidirectionalTurnOnly", "NoUse", "Parking", "Undefined"])

/-- `BuildRightOfWayRuleType`, src/maliput/base/rule_registry.cc:68-73. -/
def rightOfWayType : String × List DiscreteValue :=
  (rowTypeId, everyCombination [0, 1] ["Go", "Stop", "StopAndGo"])

/-- `BuildVehicleStopInZoneBehaviorRuleType`, src/maliput/base/rule_registry.cc:79-86. -/
def vehicleStopType : String × List DiscreteValue :=
  (stopTypeId, everyCombination [0] ["DoNotStop", "5MinuteParking", "30MinuteParking", "45MinuteParking",
    "1HourParking", "2HourParking", "4HourParking", "UnconstrainedParking"])

end Maliput.Loader
