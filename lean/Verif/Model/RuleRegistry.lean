import Verif.Model.Rules

set_option autoImplicit false

/-! Model of src/maliput/api/rules/rule_registry.cc. -/
namespace Maliput.RuleRegistry

open Maliput.Rules

/-- The members of `RuleRegistry`, include/maliput/api/rules/rule_registry.h. -/
structure Registry where
  rangeTypes : Map String (List Range)
  discreteTypes : Map String (List DiscreteValue)

/-- A new registry. -/
def Registry.empty : Registry := ⟨.empty, .empty⟩

/-- `RuleRegistry::QueryResult`: the alternatives of the variant `rule_values`. -/
inductive Values where
  | ranges (l : List Range)
  | discreteValues (l : List DiscreteValue)
  deriving DecidableEq

/-- `GetPossibleStatesOfRuleType`, src/maliput/api/rules/rule_registry.cc:94-108. -/
def getPossibleStates (r : Registry) (typeId : String) : Option (String × Values) :=
  match r.rangeTypes.get? typeId with
  | some l => some (typeId, .ranges l)
  | none =>
    match r.discreteTypes.get? typeId with
    | some l => some (typeId, .discreteValues l)
    | none => none

/-- `RegisterRangeValueRule`, src/maliput/api/rules/rule_registry.cc:64-73. -/
def registerRange (r : Registry) (typeId : String) (all : List Range) : Outcome Registry :=
  if (getPossibleStates r typeId).isSome then (r, .error .throws)
  else if all.isEmpty then (r, .error .throws)
  else if all.any (fun v => decide (all.countP (fun w => w.eq v) ≠ 1)) then (r, .error .throws)
  else
    let (m, isNew) := r.rangeTypes.emplace typeId all
    ({ r with rangeTypes := m }, if isNew then .ok () else .error .throws)

/-- `RegisterDiscreteValueRule`, src/maliput/api/rules/rule_registry.cc:75-84. -/
def registerDiscrete (r : Registry) (typeId : String) (all : List DiscreteValue) : Outcome Registry :=
  if (getPossibleStates r typeId).isSome then (r, .error .throws)
  else if all.isEmpty then (r, .error .throws)
  else if all.any (fun v => decide (all.countP (fun w => w.eq v) ≠ 1)) then (r, .error .throws)
  else
    let (m, isNew) := r.discreteTypes.emplace typeId all
    ({ r with discreteTypes := m }, if isNew then .ok () else .error .throws)

/-- `HasValue` for discrete values, src/maliput/api/rules/rule_registry.cc:45-50. -/
def hasDiscreteValue (l : List DiscreteValue) (v : DiscreteValue) : Bool :=
  l.any fun dv => decide (dv.severity = v.severity) && decide (dv.value = v.value)

/-- `HasValue` for ranges, src/maliput/api/rules/rule_registry.cc:55-60. -/
def hasRange (l : List Range) (v : Range) : Bool :=
  l.any fun r => decide (r.severity = v.severity) && decide (r.min = v.min) && decide (r.max = v.max) &&
    decide (r.description = v.description)

/-- `BuildRangeValueRule`, src/maliput/api/rules/rule_registry.cc:110-120. -/
def buildRange (r : Registry) (id typeId : String) (zone : List LaneSRange) (ranges : List Range) :
    Except Err RangeValueRule :=
  match r.rangeTypes.get? typeId with
  | none => .error .throws
  | some l => do
    ranges.forM fun v => throwUnless (hasRange l v)
    RangeValueRule.make id typeId zone ranges

/-- `BuildDiscreteValueRule`, src/maliput/api/rules/rule_registry.cc:122-132. -/
def buildDiscrete (r : Registry) (id typeId : String) (zone : List LaneSRange) (values : List DiscreteValue) :
    Except Err DiscreteValueRule :=
  match r.discreteTypes.get? typeId with
  | none => .error .throws
  | some l => do
    values.forM fun v => throwUnless (hasDiscreteValue l v)
    DiscreteValueRule.make id typeId zone values

/-- A registration call. -/
inductive Op where
  | range (typeId : String) (all : List Range)
  | discrete (typeId : String) (all : List DiscreteValue)

/-- The two registration functions. -/
def step (r : Registry) : Op → Outcome Registry
  | .range t all => registerRange r t all
  | .discrete t all => registerDiscrete r t all

/-- A history of registrations in a new registry. -/
def run (ops : List Op) : Registry := ops.foldl (fun r op => (step r op).1) .empty

end Maliput.RuleRegistry
