import Verif.Model.Rulebook
import Verif.Model.Phases
import Mathlib.Data.String.Basic

set_option autoImplicit false

/-!
Model of src/maliput/base/manual_{discrete,range}_value_rule_state_provider.cc and
src/maliput/base/rule_filter.cc.  The two providers have the same code for different types of rules;
the model is written once over a `Kind`.
-/
namespace Maliput.StateProvider

open Maliput.Rules
open Maliput.Phases (Result)
open Maliput.Rulebook (Book getDiscreteValueRule getRangeValueRule rules)

/-- What the two providers differ in: the type `R` of rules and the type `V` of their states. -/
structure Kind (V R : Type) where
  get : Book → String → Except Err R
  all : Book → Map String R
  id : R → String
  typeId : R → String
  zone : R → List LaneSRange
  states : R → List V
  eq : V → V → Bool

/-- `DiscreteValueRule`: src/maliput/base/manual_discrete_value_rule_state_provider.cc. -/
def discreteKind : Kind DiscreteValue DiscreteValueRule where
  get := getDiscreteValueRule
  all b := (rules b).discreteValueRules
  id r := r.id
  typeId r := r.typeId
  zone r := r.zone
  states r := r.states
  eq := DiscreteValue.eq

/-- `RangeValueRule`: src/maliput/base/manual_range_value_rule_state_provider.cc. -/
def rangeKind : Kind Range RangeValueRule where
  get := getRangeValueRule
  all b := (rules b).rangeValueRules
  id r := r.id
  typeId r := r.typeId
  zone r := r.zone
  states r := r.states
  eq := Range.eq

variable {V R : Type}

/-- `ValidateRuleState`, src/maliput/base/manual_discrete_value_rule_state_provider.cc:41-49,
src/maliput/base/manual_range_value_rule_state_provider.cc:66-72: `std::find` compares `*it == state`. -/
def validateRuleState (K : Kind V R) (rule : R) (state : V) : Except Err Unit :=
  throwUnless ((K.states rule).any fun s => K.eq s state)

/-- The duration and next-state checks, src/maliput/base/manual_discrete_value_rule_state_provider.cc:57-64,
src/maliput/base/manual_range_value_rule_state_provider.cc:80-87. -/
def validateNext (K : Kind V R) (rule : R) (next : Option V) (duration : Option ℚ) : Except Err Unit :=
  match next with
  | some n => do
    validateRuleState K rule n
    match duration with
    | some d => throwUnless (decide (d > 0))
    | none => .ok ()
  | none => throwUnless (!duration.isSome)

/-- All the checks of `SetState` before the state is stored,
src/maliput/base/manual_discrete_value_rule_state_provider.cc:55-64, src/maliput/base/manual_range_value_rule_state_provider.cc:78-87. -/
def checkState (K : Kind V R) (b : Book) (id : String) (state : V) (next : Option V) (duration : Option ℚ) :
    Except Err Unit := do
  let rule ← K.get b id
  validateRuleState K rule state
  validateNext K rule next duration

/-- `SetState`, src/maliput/base/manual_discrete_value_rule_state_provider.cc:51-73,
src/maliput/base/manual_range_value_rule_state_provider.cc:74-96; `b` is the rulebook, `m` the member `states_`. -/
def setState (K : Kind V R) (b : Book) (m : Map String (Result V)) (id : String) (state : V) (next : Option V)
    (duration : Option ℚ) : Outcome (Map String (Result V)) :=
  match checkState K b id state next duration with
  | .error e => (m, .error e)
  | .ok () => (m.set id ⟨state, next.map fun n => (n, duration)⟩, .ok ())

/-- `DoGetState(const Rule::Id&)`, src/maliput/base/manual_discrete_value_rule_state_provider.cc:75-82,
src/maliput/base/manual_range_value_rule_state_provider.cc:98-105. -/
def getState (m : Map String (Result V)) (id : String) : Option (Result V) := m.get? id

/-- `FilterMap` of src/maliput/base/rule_filter.cc:39-48 with a filter that may throw. -/
def filterMap (l : List (String × R)) (f : R → Except Err Bool) : Except Err (List (String × R)) :=
  l.filterM fun e => f e.2

/-- The zone filter, src/maliput/base/manual_discrete_value_rule_state_provider.cc:115-119,
src/maliput/base/manual_range_value_rule_state_provider.cc:114-118, for a road position at `s` on the lane. -/
def zoneFilter (K : Kind V R) (lane : String) (s tol : ℚ) (rule : R) : Except Err Bool := do
  let r ← SRange.make s s
  LaneSRoute.intersects ⟨K.zone rule⟩ ⟨[⟨lane, r⟩]⟩ tol

/-- `GetFilteredDiscreteValueRules`, src/maliput/base/manual_discrete_value_rule_state_provider.cc:106-122, and
src/maliput/base/manual_range_value_rule_state_provider.cc:109-119; `FilterRules`, src/maliput/base/rule_filter.cc:52-64,
applies the filters one after the other. -/
def filteredRules (K : Kind V R) (b : Book) (lane : String) (s : ℚ) (type : String) (tol : ℚ) :
    Except Err (List (String × R)) := do
  throwUnless (decide (tol ≥ 0))
  let ofType ← filterMap (K.all b).entries (fun rule => .ok (decide (K.typeId rule = type)))
  filterMap ofType (zoneFilter K lane s tol)

/-- The key of `begin()` of a `std::map`, the smallest one. -/
def firstKey : List (String × R) → Option String
  | [] => none
  | e :: es => some (es.foldl (fun k e => min k e.1) e.1)

/-- `DoGetState(const RoadPosition&, ...)`, src/maliput/base/manual_discrete_value_rule_state_provider.cc:84-104,
src/maliput/base/manual_range_value_rule_state_provider.cc:107-137 (logging left out). -/
def getStateAt (K : Kind V R) (b : Book) (m : Map String (Result V)) (lane : String) (s : ℚ) (type : String)
    (tol : ℚ) : Except Err (Option (Result V)) := do
  let found ← filteredRules K b lane s type tol
  match firstKey found with
  | none => return none
  | some id =>
    match m.get? id with
    | some r => return some r
    | none => .error .throws

/-- `PhasedDiscreteRuleStateProvider::DoGetState(const RoadPosition&, ...)`,
src/maliput/base/phased_discrete_rule_state_provider.cc:109-128: the rule is chosen as in the base class and
its state asked for by id (logging left out). -/
def phasedStateAt (b : Book) (rings : Phases.Book) (p : Phases.Provider) (m : Map String (Result DiscreteValue))
    (lane : String) (s : ℚ) (type : String) (tol : ℚ) : Except Err (Option (Result DiscreteValue)) := do
  let found ← filteredRules discreteKind b lane s type tol
  match firstKey found with
  | none => return none
  | some id => Phases.discreteState rings p m id

/-- `PopulateRangeValueRuleStates`, src/maliput/base/manual_range_value_rule_state_provider.cc:46-53, and
`PopulateDiscreteValueRuleStates`, src/maliput/base/phased_discrete_rule_state_provider.cc:56-62: the first state of every
rule becomes its state; `states().front()` is undefined for a rule without states. -/
def populate (K : Kind V R) (b : Book) (m : Map String (Result V)) :
    List (String × R) → Outcome (Map String (Result V))
  | [] => (m, .ok ())
  | (id, rule) :: rest =>
    match K.states rule with
    | [] => (m, .error .ub)
    | v :: _ =>
      match setState K b m id v none none with
      | (m', .ok ()) => populate K b m' rest
      | (m', .error e) => (m', .error e)

/-- `GetDefaultManualRangeValueRuleStateProvider`, src/maliput/base/manual_range_value_rule_state_provider.cc:57-64, and the
population of `GetDefaultPhasedDiscreteRuleStateProvider`, src/maliput/base/phased_discrete_rule_state_provider.cc:66-75. -/
def defaultStates (K : Kind V R) (b : Book) : Outcome (Map String (Result V)) :=
  populate K b .empty (K.all b).entries

/-- A `SetState` call. -/
structure Call (V : Type) where
  id : String
  state : V
  next : Option V
  duration : Option ℚ

/-- A history of `SetState` calls, each with the rulebook as it is at the time of the call (the provider
holds a pointer to it). -/
def run (K : Kind V R) (calls : List (Book × Call V)) : Map String (Result V) :=
  calls.foldl (fun m c => (setState K c.1 m c.2.id c.2.state c.2.next c.2.duration).1) .empty

end Maliput.StateProvider
