import Verif.Model.Rules
import Verif.Model.TrafficLights

set_option autoImplicit false

/-!
Model of src/maliput/api/rules/{phase,phase_ring}.cc, src/maliput/base/manual_phase_ring_book.cc and
src/maliput/base/manual_phase_provider.cc.  All ids are strings; `std::logic_error` is `Err.throws`.
`begin()` of an unordered map is the first entry of the list; which one that is is unspecified in C++,
the theorems hold for every order of the entries.
-/
namespace Maliput.Phases

open Maliput.Rules Maliput.TrafficLights

/-- `Phase`, include/maliput/api/rules/phase.h:66-120: rule id to state id for right-of-way rules, rule
id to value for discrete value rules, and optionally unique bulb id to bulb state. -/
structure Phase where
  id : String
  ruleStates : Map String String
  discreteStates : Map String DiscreteValue
  bulbStates : Option (Map UniqueBulbId BulbState)
  deriving DecidableEq

/-- `PhaseRing::NextPhase`, include/maliput/api/rules/phase_ring.h:50-60. -/
structure NextPhase where
  id : String
  durationUntil : Option ℚ
  deriving DecidableEq

/-- The members of `PhaseRing`, include/maliput/api/rules/phase_ring.h:103-105. -/
structure Ring where
  id : String
  phases : Map String Phase
  nextPhases : Map String (List NextPhase)
  deriving DecidableEq

/-- The check of one phase's bulb states against the reference phase's,
src/maliput/api/rules/phase_ring.cc:69-77.  Line 70 dereferences `phase.bulb_states()` without a check:
undefined behaviour if it is empty. -/
def verifyBulbs (r phase : Phase) : Except Err Unit :=
  match r.bulbStates with
  | none => .ok ()
  | some rb =>
    match phase.bulbStates with
    | none => .error .ub
    | some pb => do
      throwUnless (decide (pb.size = rb.size))
      pb.keys.forM fun k => throwUnless (rb.has k)

/-- The body of the loop of `VerifyAllPhasesHaveSameCoverage`, src/maliput/api/rules/phase_ring.cc:49-78. -/
def verifyPhase (r phase : Phase) : Except Err Unit := do
  throwUnless (decide (phase.ruleStates.size = r.ruleStates.size))
  phase.ruleStates.keys.forM fun k => throwUnless (r.ruleStates.has k)
  throwUnless (decide (phase.discreteStates.size = r.discreteStates.size))
  phase.discreteStates.keys.forM fun k => throwUnless (r.discreteStates.has k)
  verifyBulbs r phase

/-- `VerifyAllPhasesHaveSameCoverage`, src/maliput/api/rules/phase_ring.cc:46-79. -/
def verifyCoverage (phases : List Phase) : Except Err Unit :=
  match phases with
  | [] => .error .throws
  | r :: _ => phases.forM (verifyPhase r)

/-- `VerifyNextPhases`, src/maliput/api/rules/phase_ring.cc:83-92. -/
def verifyNextPhases (phases : List Phase) (next : Map String (List NextPhase)) : Except Err Unit := do
  throwUnless (decide (phases.length = next.size))
  phases.forM fun p => throwUnless (next.has p.id)

/-- The loop of the constructor that fills `phases_`, src/maliput/api/rules/phase_ring.cc:100-104. -/
def indexPhases (m : Map String Phase) : List Phase → Except Err (Map String Phase)
  | [] => .ok m
  | p :: ps =>
    let (m', isNew) := m.emplace p.id p
    if isNew then indexPhases m' ps else .error .throws

/-- The members `next_phases_` as built in the constructor, src/maliput/api/rules/phase_ring.cc:105-112. -/
def buildNext (phases : List Phase) (next : Option (Map String (List NextPhase))) :
    Except Err (Map String (List NextPhase)) :=
  match next with
  | some n => do
    verifyNextPhases phases n
    return n
  | none => return phases.foldl (fun m p => (m.emplace p.id []).1) .empty

/-- `PhaseRing::PhaseRing`, src/maliput/api/rules/phase_ring.cc:96-114. -/
def Ring.make (id : String) (phases : List Phase) (next : Option (Map String (List NextPhase))) :
    Except Err Ring := do
  throwUnless (decide (phases.length ≥ 1))
  let m ← indexPhases .empty phases
  let n ← buildNext phases next
  verifyCoverage phases
  return ⟨id, m, n⟩

/-- `PhaseRing::GetPhase`, src/maliput/api/rules/phase_ring.cc:116-118. -/
def Ring.getPhase (r : Ring) (id : String) : Option Phase := r.phases.get? id

/-- `PhaseRing::GetNextPhases`, include/maliput/api/rules/phase_ring.h:100. -/
def Ring.getNextPhases (r : Ring) (id : String) : Except Err (List NextPhase) := r.nextPhases.at! id

/-! ### The phase ring book -/

/-- The members of `ManualPhaseRingBook::Impl`, src/maliput/base/manual_phase_ring_book.cc:129-131. -/
structure Book where
  rings : Map String Ring
  rowRules : Map String String
  rules : Map String String

/-- A new book. -/
def Book.empty : Book := ⟨.empty, .empty, .empty⟩

/-- One of the loops of `AddPhaseRing`, src/maliput/base/manual_phase_ring_book.cc:61-68, 69-74: stops
and throws at the first rule that is already in a ring, keeping what was inserted before. -/
def addRules (m : Map String String) (ringId : String) : List String → Outcome (Map String String)
  | [] => (m, .ok ())
  | k :: ks =>
    let (m', isNew) := m.emplace k ringId
    if isNew then addRules m' ringId ks else (m', .error .throws)

/-- `AddPhaseRing`, src/maliput/base/manual_phase_ring_book.cc:53-75. -/
def addPhaseRing (b : Book) (ring : Ring) : Outcome Book :=
  let (rings, isNew) := b.rings.emplace ring.id ring
  if isNew then
    match ring.phases.entries with
    | [] => ({ b with rings := rings }, .error .ub)
    | (_, phase) :: _ =>
      match addRules b.rowRules ring.id phase.ruleStates.keys with
      | (row, .error e) => ({ b with rings := rings, rowRules := row }, .error e)
      | (row, .ok ()) =>
        let (rules, o) := addRules b.rules ring.id phase.discreteStates.keys
        (⟨rings, row, rules⟩, o)
  else (b, .error .throws)

/-- One of the loops of `RemovePhaseRing`, src/maliput/base/manual_phase_ring_book.cc:86-88, 90-92. -/
def removeRules (m : Map String String) : List String → Outcome (Map String String)
  | [] => (m, .ok ())
  | k :: ks => if m.has k then removeRules (m.erase k) ks else (m, .error .throws)

/-- `RemovePhaseRing`, src/maliput/base/manual_phase_ring_book.cc:77-93 (the check of line 82 cannot
fail, the ring was found before). -/
def removePhaseRing (b : Book) (ringId : String) : Outcome Book :=
  match b.rings.get? ringId with
  | none => (b, .error .throws)
  | some ring =>
    let rings := b.rings.erase ringId
    match ring.phases.entries with
    | [] => ({ b with rings := rings }, .error .ub)
    | (_, phase) :: _ =>
      match removeRules b.rowRules phase.ruleStates.keys with
      | (row, .error e) => ({ b with rings := rings, rowRules := row }, .error e)
      | (row, .ok ()) =>
        let (rules, o) := removeRules b.rules phase.discreteStates.keys
        (⟨rings, row, rules⟩, o)

/-- `DoGetPhaseRings`, src/maliput/base/manual_phase_ring_book.cc:95-102. -/
def getPhaseRings (b : Book) : List String := b.rings.keys

/-- `DoGetPhaseRing`, src/maliput/base/manual_phase_ring_book.cc:104-110. -/
def getPhaseRing (b : Book) (id : String) : Option Ring := b.rings.get? id

/-- `DoFindPhaseRing`, src/maliput/base/manual_phase_ring_book.cc:112-118 and 120-126; `m` is the map
of the kind of rule. -/
def findIn (b : Book) (m : Map String String) (ruleId : String) : Except Err (Option Ring) :=
  match m.get? ruleId with
  | none => .ok none
  | some ringId => (b.rings.at! ringId).map some

/-- `FindPhaseRing(const RightOfWayRule::Id&)`. -/
def findPhaseRingRow (b : Book) (ruleId : String) : Except Err (Option Ring) := findIn b b.rowRules ruleId

/-- `FindPhaseRing(const Rule::Id&)`. -/
def findPhaseRing (b : Book) (ruleId : String) : Except Err (Option Ring) := findIn b b.rules ruleId

/-- A call of a mutating method of the book. -/
inductive Op where
  | add (r : Ring)
  | remove (id : String)

/-- The two mutating methods. -/
def step (b : Book) : Op → Outcome Book
  | .add r => addPhaseRing b r
  | .remove id => removePhaseRing b id

/-- A history of calls on a new book. -/
def run (ops : List Op) : Book := ops.foldl (fun b op => (step b op).1) .empty

/-! ### The phase provider -/

/-- `StateProviderResult<T>`, include/maliput/api/rules/state_provider_result.h:41-58: the state and,
optionally, the next state with an optional duration. -/
structure Result (T : Type) where
  state : T
  next : Option (T × Option ℚ)
  deriving DecidableEq

/-- The member `phases_` of `ManualPhaseProvider::Impl`, src/maliput/base/manual_phase_provider.cc:120. -/
abbrev Provider := Map String (Result String)

/-- `ComputeNext`, src/maliput/base/manual_phase_provider.cc:111-118. -/
def computeNext (next : Option String) (duration : Option ℚ) : Option (String × Option ℚ) :=
  next.map fun n => (n, duration)

/-- `AddPhaseRing` of the provider, src/maliput/base/manual_phase_provider.cc:78-91. -/
def Provider.addPhaseRing (p : Provider) (id phase : String) (next : Option String) (duration : Option ℚ) :
    Outcome Provider :=
  if duration.isSome && !next.isSome then (p, .error .throws)
  else
    let (p', isNew) := p.emplace id ⟨phase, computeNext next duration⟩
    (p', if isNew then .ok () else .error .throws)

/-- `SetPhase`, src/maliput/base/manual_phase_provider.cc:93-100. -/
def Provider.setPhase (p : Provider) (id phase : String) (next : Option String) (duration : Option ℚ) :
    Outcome Provider :=
  if duration.isSome && !next.isSome then (p, .error .throws)
  else if !p.has id then (p, .error .throws)
  else (p.set id ⟨phase, computeNext next duration⟩, .ok ())

/-- `DoGetPhase`, src/maliput/base/manual_phase_provider.cc:102-108. -/
def Provider.getPhase (p : Provider) (id : String) : Option (Result String) := p.get? id

/-- The body of the loop of `GetDefaultPopulatedManualPhaseProvider`,
src/maliput/base/manual_phase_provider.cc:48-67. -/
def populateOne (b : Book) (p : Provider) (ringId : String) : Except Err Provider := do
  match getPhaseRing b ringId with
  | none => .error .throws
  | some ring =>
    match ring.phases.entries with
    | [] => .ok p
    | (initial, _) :: _ => do
      let nexts ← ring.nextPhases.at! initial
      let n := nexts.head?
      match p.addPhaseRing ringId initial (n.map (·.id)) (n.bind (·.durationUntil)) with
      | (p', .ok ()) => .ok p'
      | (_, .error e) => .error e

/-- `GetDefaultPopulatedManualPhaseProvider`, src/maliput/base/manual_phase_provider.cc:44-69. -/
def defaultProvider (b : Book) : Except Err Provider := (getPhaseRings b).foldlM (populateOne b) .empty

/-- A call of a mutating method of the provider. -/
inductive ProviderOp where
  | add (id phase : String) (next : Option String) (duration : Option ℚ)
  | set (id phase : String) (next : Option String) (duration : Option ℚ)

/-- The two mutating methods. -/
def Provider.step (p : Provider) : ProviderOp → Outcome Provider
  | .add id phase next duration => p.addPhaseRing id phase next duration
  | .set id phase next duration => p.setPhase id phase next duration

/-- A history of calls on a new provider. -/
def Provider.run (ops : List ProviderOp) : Provider := ops.foldl (fun p op => (Provider.step p op).1) .empty

/-! ### Rule states that follow the phases -/

/-- `PhaseBasedRightOfWayRuleStateProvider::DoGetState`,
src/maliput/base/phase_based_right_of_way_rule_state_provider.cc:51-80, with the book and provider it
holds pointers to. -/
def rowState (b : Book) (p : Provider) (ruleId : String) : Except Err (Option (Result String)) := do
  match ← findPhaseRingRow b ruleId with
  | none => return none
  | some ring =>
    match p.getPhase ring.id with
    | none => return none
    | some res =>
      let phase ← ring.phases.at! res.state
      let state ← phase.ruleStates.at! ruleId
      match res.next with
      | none => return some ⟨state, none⟩
      | some (nextId, duration) =>
        let nextPhase ← ring.phases.at! nextId
        let nextState ← nextPhase.ruleStates.at! ruleId
        return some ⟨state, some (nextState, duration)⟩

/-- `PhasedDiscreteRuleStateProvider::DoGetState(const Rule::Id&)`,
src/maliput/base/phased_discrete_rule_state_provider.cc:87-107; `manual` is the map of states set by
`SetState` (the base class), used when the rule is in no ring or its ring has no current phase. -/
def discreteState (b : Book) (p : Provider) (manual : Map String (Result DiscreteValue)) (ruleId : String) :
    Except Err (Option (Result DiscreteValue)) := do
  match ← findPhaseRing b ruleId with
  | none => return manual.get? ruleId
  | some ring =>
    match p.getPhase ring.id with
    | none => return manual.get? ruleId
    | some res =>
      let phase ← ring.phases.at! res.state
      let state ← phase.discreteStates.at! ruleId
      match res.next with
      | none => return some ⟨state, none⟩
      | some (nextId, duration) =>
        let nextPhase ← ring.phases.at! nextId
        let nextState ← nextPhase.discreteStates.at! ruleId
        return some ⟨state, some (nextState, duration)⟩

end Maliput.Phases
