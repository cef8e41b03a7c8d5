import Verif.Model.Phases
import Verif.Model.TrafficLightLoader

set_option autoImplicit false

/-!
Model of src/maliput/base/phase_ring_book_loader.cc and src/maliput/base/phase_ring_book_loader_old_rules.cc,
the loaders of phase ring documents.  The functions that the two files have in common are cited in both.
-/
namespace Maliput.Loader

open Maliput.Rules Maliput.Rulebook Maliput.TrafficLights Maliput.Phases Maliput.Yaml

/-! ### The states of bulbs -/

/-- `ConfirmBulbsExist`, src/maliput/base/phase_ring_book_loader.cc:138-143,
src/maliput/base/phase_ring_book_loader_old_rules.cc:152-157. -/
def confirmBulbsExist (g : BulbGroup) (n : Node) : Except Err Unit :=
  n.items.forM fun i => do
    let id ← i.first.asId
    throwUnless (g.getBulb id).isSome

/-- The body of the loop over the bulbs of a group, src/maliput/base/phase_ring_book_loader.cc:166-173,
src/maliput/base/phase_ring_book_loader_old_rules.cc:180-184 (where `GetDefaultState` is only called if it is
needed; it does not fail for a bulb that was constructed). -/
def bulbStep (t : TrafficLight) (g : BulbGroup) (n : Node) (m : Map UniqueBulbId BulbState) (b : Bulb) :
    Except Err (Map UniqueBulbId BulbState) := do
  let default ← b.defaultState
  let v ← n.field b.id
  let s ← if v.isDefined then asMapped bulbStateMapper v else pure default
  let u ← b.uniqueId (some g) (some t)
  return m.set u s

/-- The body of the loop over the bulb groups, src/maliput/base/phase_ring_book_loader.cc:157-174,
src/maliput/base/phase_ring_book_loader_old_rules.cc:171-185. -/
def groupStep (t : TrafficLight) (m : Map UniqueBulbId BulbState) (i : Item) :
    Except Err (Map UniqueBulbId BulbState) := do
  let id ← i.first.asId
  match t.getBulbGroup id with
  | none => .error .throws
  | some g => do
    i.second.needMap
    confirmBulbsExist g i.second
    g.bulbs.foldlM (bulbStep t g i.second) m

/-- The body of the loop over the traffic lights, src/maliput/base/phase_ring_book_loader.cc:150-175,
src/maliput/base/phase_ring_book_loader_old_rules.cc:164-186. -/
def lightStep (lights : TrafficLights.Book) (m : Map UniqueBulbId BulbState) (i : Item) :
    Except Err (Map UniqueBulbId BulbState) := do
  let id ← i.first.asId
  match lights.getTrafficLight id with
  | none => .error .throws
  | some t => do
    i.second.needMap
    i.second.items.foldlM (groupStep t) m

/-- `LoadBulbStates`, src/maliput/base/phase_ring_book_loader.cc:145-178,
src/maliput/base/phase_ring_book_loader_old_rules.cc:159-189. -/
def loadBulbStates (lights : TrafficLights.Book) (n : Node) : Except Err (Option (Map UniqueBulbId BulbState)) := do
  let v ← n.field "TrafficLightStates"
  if v.isDefined then
    v.needMap
    return some (← v.items.foldlM (lightStep lights) .empty)
  else return none

/-! ### The next phases -/

/-- `VerifyPhaseExists`, src/maliput/base/phase_ring_book_loader.cc:180-184,
src/maliput/base/phase_ring_book_loader_old_rules.cc:250-254. -/
def verifyPhaseExists (phases : List Phase) (id : String) : Except Err Unit :=
  throwUnless (phases.any fun p => decide (p.id = id))

/-- The body of the loop over the next phases of a phase, src/maliput/base/phase_ring_book_loader.cc:200-210,
src/maliput/base/phase_ring_book_loader_old_rules.cc:270-280. -/
def buildNextPhase (c : Conv) (phases : List Phase) (n : Node) : Except Err NextPhase := do
  n.needMap
  let id ← (← required n "ID").asId
  verifyPhaseExists phases id
  let v ← n.field "duration_until"
  if v.isDefined then
    return ⟨id, some (← v.asDouble c)⟩
  else return ⟨id, none⟩

/-- The body of the loop over the phases of the graph, src/maliput/base/phase_ring_book_loader.cc:194-212,
src/maliput/base/phase_ring_book_loader_old_rules.cc:264-282. -/
def nextStep (c : Conv) (phases : List Phase) (m : Map String (List NextPhase)) (i : Item) :
    Except Err (Map String (List NextPhase)) := do
  let id ← i.first.asId
  verifyPhaseExists phases id
  i.second.needSeq
  let next ← i.second.nodes.mapM (buildNextPhase c phases)
  return (m.emplace id next).1

/-- `BuildNextPhases`, src/maliput/base/phase_ring_book_loader.cc:186-215,
src/maliput/base/phase_ring_book_loader_old_rules.cc:256-285. -/
def buildNextPhases (c : Conv) (phases : List Phase) (n : Node) : Except Err (Option (Map String (List NextPhase))) := do
  let v ← n.field "PhaseTransitionGraph"
  if v.isDefined then
    n.needMap
    return some (← v.items.foldlM (nextStep c phases) .empty)
  else return none

/-! ### The loader for discrete value rules -/

/-- `GetRightOfWayTypeRules`, src/maliput/base/phase_ring_book_loader.cc:102-114. -/
def getRules (rulebook : Rulebook.Book) (n : Node) : Except Err (Map String DiscreteValueRule) := do
  n.needSeq
  if (rules rulebook).discreteValueRules.entries = [] then return .empty
  else n.nodes.foldlM (fun m x => do
    let id ← x.asId
    let r ← getDiscreteValueRule rulebook id
    return (m.emplace id r).1) .empty

/-- `GetDefaultState`, src/maliput/base/phase_ring_book_loader.cc:116-124. -/
def defaultValue (values : List DiscreteValue) : Except Err DiscreteValue :=
  match ["Stop", "StopThenGo", "Go"].findSome? fun k => values.find? fun v => decide (v.value = k) with
  | some v => .ok v
  | none => .error .aborts

/-- `CreateDefaultRuleStates`, src/maliput/base/phase_ring_book_loader.cc:129-135. -/
def defaultStates (rules : Map String DiscreteValueRule) : Except Err (Map String DiscreteValue) :=
  rules.entries.foldlM (fun m e => do
    let v ← defaultValue e.2.states
    return (m.emplace e.1 v).1) .empty

/-- The body of the loop over the rule states of a phase, src/maliput/base/phase_ring_book_loader.cc:255-265. -/
def stateStep (rules : Map String DiscreteValueRule) (states : Map String DiscreteValue) (i : Item) :
    Except Err (Map String DiscreteValue) := do
  let id ← i.first.asId
  let value ← i.second.asString
  match rules.get? id with
  | none => .error .throws
  | some r =>
    match r.states.find? fun v => decide (v.value = value) with
    | none => .error .throws
    | some v => do
      throwUnless (states.has id)
      return states.set id v

/-- The rule states of a phase, src/maliput/base/phase_ring_book_loader.cc:238-265: the states of the previous
phase, changed. -/
def phaseStates (rules : Map String DiscreteValueRule) (states : Map String DiscreteValue) (n : Node) :
    Except Err (Map String DiscreteValue) := do
  let v ← n.field "RightOfWayRuleStates"
  if v.isDefined then
    if ← v.isMap then
      throwUnless (!(decide ((← v.size) > 0) && states.entries.isEmpty))
    else .error .throws
  v.items.foldlM (stateStep rules) states

/-- The body of the loop over the phases, src/maliput/base/phase_ring_book_loader.cc:234-267; the state is the
variable `discrete_rule_states` and the phases so far. -/
def phaseStep (rules : Map String DiscreteValueRule) (lights : TrafficLights.Book)
    (s : Map String DiscreteValue × List Phase) (n : Node) : Except Err (Map String DiscreteValue × List Phase) := do
  n.needMap
  let id ← (← required n "ID").asId
  let states ← phaseStates rules s.1 n
  let bulbs ← loadBulbStates lights n
  return (states, s.2 ++ [⟨id, .empty, states, bulbs⟩])

/-- `BuildPhaseRing`, src/maliput/base/phase_ring_book_loader.cc:217-271. -/
def buildPhaseRing (rulebook : Rulebook.Book) (lights : TrafficLights.Book) (c : Conv) (n : Node) :
    Except Err Ring := do
  n.needMap
  let id ← (← required n "ID").asId
  let rules ← getRules rulebook (← n.field "Rules")
  let states ← defaultStates rules
  let phases ← required n "Phases"
  phases.needSeq
  let (_, phases) ← phases.nodes.foldlM (phaseStep rules lights) (states, [])
  let next ← buildNextPhases c phases n
  Ring.make id phases next

/-- `BuildFrom`, src/maliput/base/phase_ring_book_loader.cc:273-285,
src/maliput/base/phase_ring_book_loader_old_rules.cc:326-338, with the function that builds a ring. -/
def loadRings (build : Node → Except Err Ring) (root : Doc) : Except Err Phases.Book := do
  Node.needMap (some root)
  let rings ← required (some root) "PhaseRings"
  rings.needSeq
  rings.nodes.foldlM (fun b n => do
    let r ← build n
    Outcome.get (addPhaseRing b r)) .empty

/-- `LoadPhaseRingBook`, src/maliput/base/phase_ring_book_loader.cc:289-293. -/
def loadPhaseRings (rulebook : Rulebook.Book) (lights : TrafficLights.Book) (c : Conv) (root : Doc) :
    Except Err Phases.Book :=
  loadRings (buildPhaseRing rulebook lights c) root

/-! ### The loader for right-of-way rules -/

/-- `GetRules`, src/maliput/base/phase_ring_book_loader_old_rules.cc:110-119. -/
def getRowRules (rulebook : Rulebook.Book) (n : Node) : Except Err (Map String RightOfWayRule) := do
  n.needSeq
  n.nodes.foldlM (fun m x => do
    let id ← x.asId
    let r ← getRightOfWay rulebook id
    return (m.emplace id r).1) .empty

/-- `GetDefaultState`, src/maliput/base/phase_ring_book_loader_old_rules.cc:124-136. -/
def defaultRowState (states : Map String RowState) : Except Err RowState :=
  match [RowStateType.stop, .stopThenGo, .go].findSome? fun t => states.entries.find? fun e => decide (e.2.type = t) with
  | some e => .ok e.2
  | none => .error .aborts

/-- `CreateDefaultRuleStates`, src/maliput/base/phase_ring_book_loader_old_rules.cc:141-147. -/
def defaultRowStates (rules : Map String RightOfWayRule) : Except Err (Map String String) :=
  rules.entries.foldlM (fun m e => do
    let s ← defaultRowState e.2.states
    return (m.emplace e.1 s.id).1) .empty

/-- The body of the loop over the rule states of a phase,
src/maliput/base/phase_ring_book_loader_old_rules.cc:311-316. -/
def rowStep (states : Map String String) (i : Item) : Except Err (Map String String) := do
  let id ← i.first.asId
  let state ← i.second.asId
  throwUnless (states.has id)
  return states.set id state

/-- The body of the loop of `LoadDiscreteValueRuleStates`,
src/maliput/base/phase_ring_book_loader_old_rules.cc:234-244, with
`FindDiscreteValueFromRightOfWayRuleState`, lines 198-228. -/
def mirrorStep (rulebook : Rulebook.Book) (m : Map String DiscreteValue) (e : String × String) :
    Except Err (Map String DiscreteValue) := do
  let ruleId := ruleIdFrom rowTypeId e.1
  let rule ← getDiscreteValueRule rulebook ruleId
  let row ← getRightOfWay rulebook e.1
  match row.states.get? e.2 with
  | none => .error .throws
  | some s => do
    let v := buildRowValue row (ruleIdFrom stopTypeId e.1) s
    throwUnless (rule.states.any fun w => w.eq v)
    let (m', isNew) := m.emplace ruleId v
    throwUnless isNew
    return m'

/-- The body of the loop over the phases, src/maliput/base/phase_ring_book_loader_old_rules.cc:300-319. -/
def buildRowPhase (rulebook : Rulebook.Book) (rules : Map String RightOfWayRule) (lights : TrafficLights.Book)
    (n : Node) : Except Err Phase := do
  n.needMap
  let id ← (← required n "ID").asId
  let defaults ← defaultRowStates rules
  let v ← required n "RightOfWayRuleStates"
  v.needMap
  let states ← v.items.foldlM rowStep defaults
  let discrete ← states.entries.foldlM (mirrorStep rulebook) .empty
  let bulbs ← loadBulbStates lights n
  return ⟨id, states, discrete, bulbs⟩

/-- `BuildPhaseRing`, src/maliput/base/phase_ring_book_loader_old_rules.cc:287-324. -/
def buildRowPhaseRing (rulebook : Rulebook.Book) (lights : TrafficLights.Book) (c : Conv) (n : Node) :
    Except Err Ring := do
  n.needMap
  let id ← (← required n "ID").asId
  let rules ← getRowRules rulebook (← n.field "Rules")
  let phases ← required n "Phases"
  phases.needSeq
  let phases ← phases.nodes.mapM (buildRowPhase rulebook rules lights)
  let next ← buildNextPhases c phases n
  Ring.make id phases next

/-- `LoadPhaseRingBookOldRules`, src/maliput/base/phase_ring_book_loader_old_rules.cc:342-346. -/
def loadRowPhaseRings (rulebook : Rulebook.Book) (lights : TrafficLights.Book) (c : Conv) (root : Doc) :
    Except Err Phases.Book :=
  loadRings (buildRowPhaseRing rulebook lights c) root

end Maliput.Loader
