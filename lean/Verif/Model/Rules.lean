import Verif.Model.Map
import Verif.Model.Regions

set_option autoImplicit false

/-!
Model of include/maliput/api/rules/{rule,discrete_value_rule,range_value_rule}.h and
src/maliput/api/rules/{rule,discrete_value_rule,range_value_rule}.cc.
Rule ids, type ids and unique ids are strings; `int` is `ℤ`.
-/
namespace Maliput.Rules

/-- `Rule::State`, include/maliput/api/rules/rule.h:83-121: `RelatedRules` and `RelatedUniqueIds` are
`std::map`s from a group name to a vector of ids (lines 74, 80). -/
structure State where
  severity : ℤ
  relatedRules : Map String (List String)
  relatedUniqueIds : Map String (List String)
  deriving DecidableEq

/-- `CompareMapAttributes`, src/maliput/api/rules/rule.cc:42-60. -/
def compareMapAttributes (a b : Map String (List String)) : Bool :=
  if a.size ≠ b.size then false
  else a.entries.all fun kv =>
    match b.get? kv.1 with
    | none => false
    | some ids => kv.2.all fun v => ids.any fun w => decide (w = v)

/-- `Rule::State::operator==`, src/maliput/api/rules/rule.cc:64-67. -/
def State.eq (a b : State) : Bool :=
  compareMapAttributes a.relatedRules b.relatedRules &&
    compareMapAttributes a.relatedUniqueIds b.relatedUniqueIds && decide (a.severity = b.severity)

/-- `DiscreteValueRule::DiscreteValue`, include/maliput/api/rules/discrete_value_rule.h:55-75. -/
structure DiscreteValue extends State where
  value : String
  deriving DecidableEq

/-- `DiscreteValue::operator==`, include/maliput/api/rules/discrete_value_rule.h:71. -/
def DiscreteValue.eq (a b : DiscreteValue) : Bool := decide (a.value = b.value) && a.toState.eq b.toState

/-- `RangeValueRule::Range`, include/maliput/api/rules/range_value_rule.h:54-88. -/
structure Range extends State where
  description : String
  min : ℚ
  max : ℚ
  deriving DecidableEq

/-- `Range::operator==`, include/maliput/api/rules/range_value_rule.h:73-75. -/
def Range.eq (a b : Range) : Bool :=
  decide (a.min = b.min) && decide (a.max = b.max) && decide (a.description = b.description) &&
    a.toState.eq b.toState

/-- `Range::operator<`, src/maliput/api/rules/range_value_rule.cc:55-72. -/
def Range.lt (a b : Range) : Bool :=
  if a.severity < b.severity then true
  else if a.severity > b.severity then false
  else if a.description < b.description then true
  else if a.description > b.description then false
  else if a.min < b.min then true
  else if a.min > b.min then false
  else if a.max < b.max then true
  else false

/-- `DiscreteValueRule`, include/maliput/api/rules/discrete_value_rule.h:50-96: the members of `Rule`
(include/maliput/api/rules/rule.h:160-162) and `states_`.  The zone is the list of ranges of its `LaneSRoute`. -/
structure DiscreteValueRule where
  id : String
  typeId : String
  zone : List LaneSRange
  states : List DiscreteValue
  deriving DecidableEq

/-- `RangeValueRule`, include/maliput/api/rules/range_value_rule.h:49-112. -/
structure RangeValueRule where
  id : String
  typeId : String
  zone : List LaneSRange
  states : List Range
  deriving DecidableEq

/-- `Rule::ValidateRelatedRules`, src/maliput/api/rules/rule.cc:69-80, and, with the same body,
`Rule::ValidateRelatedUniqueIds`, lines 82-93. -/
def validateRelated (m : Map String (List String)) : Except Err Unit :=
  m.entries.forM fun kv => do
    throwUnless (decide (kv.1 ≠ ""))
    kv.2.forM fun v => throwUnless (decide (kv.2.countP (fun w => decide (w = v)) = 1))

/-- `Rule::ValidateSeverity`, src/maliput/api/rules/rule.cc:95-97. -/
def validateSeverity (s : ℤ) : Except Err Unit := throwUnless (decide (s ≥ 0))

/-- `DiscreteValueRule::DiscreteValueRule`, src/maliput/api/rules/discrete_value_rule.cc:40-53. -/
def DiscreteValueRule.make (id typeId : String) (zone : List LaneSRange) (values : List DiscreteValue) :
    Except Err DiscreteValueRule := do
  throwUnless (!values.isEmpty)
  values.forM fun v => do
    validateRelated v.relatedRules
    validateRelated v.relatedUniqueIds
    validateSeverity v.severity
    throwUnless (decide (values.countP (fun w => w.eq v) = 1))
  return ⟨id, typeId, zone, values⟩

/-- `RangeValueRule::RangeValueRule`, src/maliput/api/rules/range_value_rule.cc:40-53. -/
def RangeValueRule.make (id typeId : String) (zone : List LaneSRange) (ranges : List Range) :
    Except Err RangeValueRule := do
  throwUnless (!ranges.isEmpty)
  ranges.forM fun v => do
    validateRelated v.relatedRules
    validateRelated v.relatedUniqueIds
    validateSeverity v.severity
    throwUnless (decide (v.min ≤ v.max))
    throwUnless (decide (ranges.countP (fun w => w.eq v) = 1))
  return ⟨id, typeId, zone, ranges⟩

end Maliput.Rules
