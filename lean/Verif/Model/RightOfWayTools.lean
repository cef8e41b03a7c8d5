import Verif.Model.RuleStateProvider
import Verif.Model.RulebookLoader

set_option autoImplicit false

/-!
# Right of way

src/maliput/base/manual_right_of_way_rule_state_provider.cc and src/maliput/base/rule_tools.cc.
-/
namespace Maliput.RightOfWay

open Maliput.Rules
open Maliput.Phases (Result)

/-- `ManualRightOfWayRuleStateProvider::AddState`, src/maliput/base/manual_right_of_way_rule_state_provider.cc:42-48: `states_`
by id.  The `std::logic_error` is `throws`. -/
def addState (m : Map String String) (id state : String) : Outcome (Map String String) :=
  match m.emplace id state with
  | (m', true) => (m', .ok ())
  | (m', false) => (m', .error .throws)

/-- `ManualRightOfWayRuleStateProvider::SetState`, src/maliput/base/manual_right_of_way_rule_state_provider.cc:50-52. -/
def setState (m : Map String String) (id state : String) : Outcome (Map String String) :=
  match m.at! id with
  | .ok _ => (m.set id state, .ok ())
  | .error e => (m, .error e)

/-- `ManualRightOfWayRuleStateProvider::DoGetState`, src/maliput/base/manual_right_of_way_rule_state_provider.cc:54-61. -/
def getState (m : Map String String) (id : String) : Option (Result String) := (m.get? id).map fun s => ⟨s, none⟩

/-- A call that changes the states. -/
inductive Call
  | add (id state : String)
  | set (id state : String)
deriving DecidableEq

/-- One call. -/
def Call.exec (m : Map String String) : Call → Outcome (Map String String)
  | .add id state => addState m id state
  | .set id state => setState m id state

/-- A history of calls on a new provider, whose exceptions are caught. -/
def run (calls : List Call) : Map String String := calls.foldl (fun m c => (c.exec m).1) .empty

/-- A `DiscreteValueRuleStateProvider`, which may be a null pointer, as what `GetState` returns. -/
abbrev Provider := Option (String → Option (Result DiscreteValue))

/-- `GetCurrentStateValue`, src/maliput/base/rule_tools.cc:42-51. -/
def currentStateValue (rule : DiscreteValueRule) (provider : Provider) : Except Err DiscreteValue := do
  match provider with
  | none => .error .throws
  | some get =>
    throwUnless (decide (rule.typeId = Loader.rowTypeId))
    match get rule.id with
    | none => .error .throws
    | some r => pure r.state

/-- `GetYieldGroup`, src/maliput/base/rule_tools.cc:55-60. -/
def yieldGroup (v : DiscreteValue) : Except Err (List String) := do
  throwUnless (v.relatedRules.has Loader.yieldGroupKey)
  v.relatedRules.at! Loader.yieldGroupKey

/-- `GetCurrentYieldGroup`, src/maliput/base/rule_tools.cc:62-66. -/
def currentYieldGroup (rule : DiscreteValueRule) (provider : Provider) : Except Err (List String) := do
  yieldGroup (← currentStateValue rule provider)

/-- `GetBulbGroup`, src/maliput/base/rule_tools.cc:68-73. -/
def bulbGroup (v : DiscreteValue) : Except Err (List String) := do
  throwUnless (v.relatedUniqueIds.has Loader.bulbGroupKey)
  v.relatedUniqueIds.at! Loader.bulbGroupKey

/-- `GetCurrentBulbGroup`, src/maliput/base/rule_tools.cc:75-79. -/
def currentBulbGroup (rule : DiscreteValueRule) (provider : Provider) : Except Err (List String) := do
  bulbGroup (← currentStateValue rule provider)

end Maliput.RightOfWay
