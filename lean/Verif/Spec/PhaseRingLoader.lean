import Verif.Model.Rulebook
import Verif.Spec.Phases
import Verif.Spec.RulebookLoader
import Verif.Spec.TrafficLightLoader
import Verif.Spec.TrafficLights

set_option autoImplicit false

/-!
The phase ring document format: what a document says about a ring of phases, for discrete value rules and
for right-of-way rules, and which ring that describes.
-/
namespace Maliput.Loader.Spec

open Maliput.Rules Maliput.TrafficLights Maliput.Phases Maliput.Yaml Maliput.Yaml.Spec

/-- In a list of assignments, the last one to `k` is `v`. -/
def LastOf {κ α : Type} (l : List (κ × α)) (k : κ) (v : α) : Prop :=
  ∃ before after, l = before ++ (k, v) :: after ∧ ∀ e ∈ after, e.1 ≠ k

/-- In a list of assignments, the first one to `k` is `v`. -/
def FirstOf {κ α : Type} (l : List (κ × α)) (k : κ) (v : α) : Prop :=
  ∃ before after, l = before ++ (k, v) :: after ∧ ∀ e ∈ before, e.1 ≠ k

/-! ### Bulbs -/

/-- Every traffic light of the book was constructed by the user. -/
def BuiltLights (lights : TrafficLights.Book) : Prop :=
  ∀ id t, lights.getTrafficLight id = some t → TrafficLights.Spec.BuiltLight t

/-- The default state of a bulb: off if it has that state, else blinking, else on. -/
def IsDefaultState (b : Bulb) (s : BulbState) : Prop :=
  (.off ∈ b.states ∧ s = .off) ∨ (.off ∉ b.states ∧ .blinking ∈ b.states ∧ s = .blinking) ∨
    (.off ∉ b.states ∧ .blinking ∉ b.states ∧ .on ∈ b.states ∧ s = .on)

/-- `d`, the mapping of a bulb group, gives the state of a bulb of the group; a bulb it does not mention has
its default state. -/
def SaysBulbState (d : Doc) (b : Bulb) (s : BulbState) : Prop :=
  (∃ v, HasField d b.id v ∧ SaysName stateNames v s) ∨ (LacksField d b.id ∧ IsDefaultState b s)

/-- A bulb group of the light `t` and the states of all its bulbs. -/
def SaysGroupStates (t : TrafficLight) (e : Doc × Doc) (states : List (UniqueBulbId × BulbState)) : Prop :=
  ∃ id g l, Reads e.1 id ∧ id ≠ "" ∧ t.getBulbGroup id = some g ∧ e.2 = .map l ∧
    (∀ x ∈ l, ∃ bulb, Reads x.1 bulb ∧ bulb ≠ "" ∧ ∃ b, g.getBulb bulb = some b) ∧
    List.Forall₂ (fun (b : Bulb) (a : UniqueBulbId × BulbState) =>
      a.1 = ⟨t.id, g.id, b.id⟩ ∧ SaysBulbState e.2 b a.2) g.bulbs states

/-- A traffic light and the states of the bulbs of the groups that are mentioned. -/
def SaysLightStates (lights : TrafficLights.Book) (e : Doc × Doc) (states : List (UniqueBulbId × BulbState)) : Prop :=
  ∃ id t l groups, Reads e.1 id ∧ id ≠ "" ∧ lights.getTrafficLight id = some t ∧ e.2 = .map l ∧
    List.Forall₂ (SaysGroupStates t) l groups ∧ states = groups.flatten

/-- The states of bulbs in a phase, if the phase has any. -/
def SaysBulbStates (lights : TrafficLights.Book) (d : Doc) (states : Option (List (UniqueBulbId × BulbState))) : Prop :=
  (LacksField d "TrafficLightStates" ∧ states = none) ∨
    ∃ l perLight, HasField d "TrafficLightStates" (.map l) ∧
      List.Forall₂ (SaysLightStates lights) l perLight ∧ states = some perLight.flatten

/-- The bulb states of a phase are the described ones. -/
def HasBulbStates (states : Option (List (UniqueBulbId × BulbState))) (m : Option (Map UniqueBulbId BulbState)) : Prop :=
  (states = none ∧ m = none) ∨ ∃ l m', states = some l ∧ m = some m' ∧ ∀ u s, m'.get? u = some s ↔ LastOf l u s

/-- The same bulbs are mentioned. -/
def SameBulbsSaid (a b : Option (List (UniqueBulbId × BulbState))) : Prop :=
  (a = none ∧ b = none) ∨ ∃ l m, a = some l ∧ b = some m ∧ ∀ u, u ∈ l.map (·.1) ↔ u ∈ m.map (·.1)

/-! ### Next phases -/

/-- What `d` says about a next phase. -/
structure SaysNext (c : Conv) (d : Doc) (n : NextPhase) : Prop where
  id : FieldReads d "ID" n.id
  named : n.id ≠ ""
  duration : (LacksField d "duration_until" ∧ n.durationUntil = none) ∨
    ∃ v q, HasField d "duration_until" v ∧ ReadsNumber c v q ∧ n.durationUntil = some q

/-- The phases and next phases of the graph of a ring, if it has one. -/
def SaysGraph (c : Conv) (d : Doc) (next : Option (List (String × List NextPhase))) : Prop :=
  (LacksField d "PhaseTransitionGraph" ∧ next = none) ∨
    ∃ l n, HasField d "PhaseTransitionGraph" (.map l) ∧ next = some n ∧
      List.Forall₂ (fun (e : Doc × Doc) (x : String × List NextPhase) => Reads e.1 x.1 ∧ x.1 ≠ "" ∧
        ∃ l', e.2 = .seq l' ∧ List.Forall₂ (SaysNext c) l' x.2) l n

/-- The graph is about the given phases: each of them has next phases, and all phases in it are given. -/
def ValidGraph (phases : List String) (next : Option (List (String × List NextPhase))) : Prop :=
  ∀ n, next = some n → (∀ k, k ∈ n.map (·.1) ↔ k ∈ phases) ∧ ∀ x ∈ n, ∀ y ∈ x.2, y.id ∈ phases

/-- The next phases of a ring are the described ones (none without a graph). -/
def HasNextPhases (phases : List String) (next : Option (List (String × List NextPhase))) (r : Ring) : Prop :=
  ∀ k l, r.getNextPhases k = .ok l ↔
    (next = none ∧ k ∈ phases ∧ l = []) ∨ ∃ n, next = some n ∧ FirstOf n k l

/-! ### Rings for discrete value rules -/

/-- The first of the values of a rule with the given name. -/
def FirstValue (values : List DiscreteValue) (name : String) (v : DiscreteValue) : Prop :=
  ∃ before after, values = before ++ v :: after ∧ v.value = name ∧ ∀ w ∈ before, w.value ≠ name

/-- The default value of a rule: "Stop" if it has that value, else "StopThenGo", else "Go". -/
def IsDefaultValue (values : List DiscreteValue) (v : DiscreteValue) : Prop :=
  FirstValue values "Stop" v ∨ ((∀ w ∈ values, w.value ≠ "Stop") ∧
    (FirstValue values "StopThenGo" v ∨ ((∀ w ∈ values, w.value ≠ "StopThenGo") ∧ FirstValue values "Go" v)))

/-- The content of a phase in a document: its id, the rules it gives a state to, and the bulbs it gives a
state to. -/
structure PhaseSays where
  id : String
  named : List (String × DiscreteValue)
  bulbs : Option (List (UniqueBulbId × BulbState))

/-- A rule of the ring and the value named in the document. -/
def SaysNamed (rules : List (String × DiscreteValueRule)) (e : Doc × Doc) (a : String × DiscreteValue) : Prop :=
  Reads e.1 a.1 ∧ a.1 ≠ "" ∧ ∃ r value, (a.1, r) ∈ rules ∧ Reads e.2 value ∧ FirstValue r.states value a.2

/-- What `d` says about a phase. -/
structure SaysPhase (rules : List (String × DiscreteValueRule)) (lights : TrafficLights.Book) (d : Doc)
    (x : PhaseSays) : Prop where
  id : FieldReads d "ID" x.id
  idNotEmpty : x.id ≠ ""
  named : (LacksField d "RightOfWayRuleStates" ∧ x.named = []) ∨
    ∃ l, HasField d "RightOfWayRuleStates" (.map l) ∧ List.Forall₂ (SaysNamed rules) l x.named
  bulbs : SaysBulbStates lights d x.bulbs

/-- The content of a ring in a document. -/
structure RingSays where
  id : String
  rules : List (String × DiscreteValueRule)
  phases : List PhaseSays
  next : Option (List (String × List NextPhase))

/-- What `d` says about a ring.  Its rules are those of the rulebook; if the rulebook has no discrete value
rules, the rules of the document are ignored. -/
structure SaysRing (rulebook : Rulebook.Book) (lights : TrafficLights.Book) (c : Conv) (d : Doc) (x : RingSays) :
    Prop where
  id : FieldReads d "ID" x.id
  idNotEmpty : x.id ≠ ""
  rules : ∃ l, HasField d "Rules" (.seq l) ∧
    (((∀ k, (Rulebook.rules rulebook).discreteValueRules.get? k = none) ∧ x.rules = []) ∨
      List.Forall₂ (fun e r => Reads e r.1 ∧ r.1 ≠ "" ∧ Rulebook.getDiscreteValueRule rulebook r.1 = .ok r.2) l x.rules)
  phases : ∃ l, HasField d "Phases" (.seq l) ∧ List.Forall₂ (SaysPhase x.rules lights) l x.phases
  next : SaysGraph c d x.next

/-- The rings that can be loaded: every rule has a default value, there is a phase, the phases have distinct
ids, they mention the same bulbs if the first one mentions bulbs, and the graph is about these phases. -/
structure ValidRing (x : RingSays) : Prop where
  rules : ∀ r ∈ x.rules, ∃ v, IsDefaultValue r.2.states v
  nonempty : x.phases ≠ []
  phases : (x.phases.map (·.id)).Nodup
  bulbs : ∀ p ps, x.phases = p :: ps → p.bulbs ≠ none → ∀ q ∈ ps, SameBulbsSaid p.bulbs q.bulbs
  next : ValidGraph (x.phases.map (·.id)) x.next

/-- The value of a rule, given the values named so far: the one named last, else the default. -/
def InEffect (rules : List (String × DiscreteValueRule)) (named : List (String × DiscreteValue)) (id : String)
    (v : DiscreteValue) : Prop :=
  LastOf named id v ∨ ((∀ a ∈ named, a.1 ≠ id) ∧ ∃ r, (id, r) ∈ rules ∧ IsDefaultValue r.states v)

/-- `p` is the phase `x` that comes after the phases `before` in the document. -/
structure IsPhase (rules : List (String × DiscreteValueRule)) (before : List PhaseSays) (x : PhaseSays) (p : Phase) :
    Prop where
  id : p.id = x.id
  row : ∀ k, p.ruleStates.get? k = none
  discrete : ∀ id v, p.discreteStates.get? id = some v ↔ InEffect rules ((before ++ [x]).flatMap (·.named)) id v
  bulbs : HasBulbStates x.bulbs p.bulbStates

/-- `r` is the described ring. -/
structure IsRing (x : RingSays) (r : Ring) : Prop where
  id : r.id = x.id
  phases : ∀ before p after, x.phases = before ++ p :: after → ∃ p', r.getPhase p.id = some p' ∧
    IsPhase x.rules before p p'
  only : ∀ k p, r.getPhase k = some p → ∃ y ∈ x.phases, y.id = k
  next : HasNextPhases (x.phases.map (·.id)) x.next r

/-- The rings have distinct ids and no rule in common. -/
def SeparateRings (xs : List RingSays) : Prop :=
  xs.Pairwise fun x y => x.id ≠ y.id ∧ ∀ k, k ∈ x.rules.map (·.1) → k ∉ y.rules.map (·.1)

/-- `b` contains the described rings and no other, and finds each by its id and by its rules. -/
structure IsRingBook (xs : List RingSays) (b : Phases.Book) : Prop where
  rings : ∀ x ∈ xs, ∃ r, getPhaseRing b x.id = some r ∧ IsRing x r ∧
    ∀ k ∈ x.rules.map (·.1), findPhaseRing b k = .ok (some r)
  only : ∀ id r, getPhaseRing b id = some r → ∃ x ∈ xs, x.id = id
  otherRules : ∀ k, (∀ x ∈ xs, k ∉ x.rules.map (·.1)) → findPhaseRing b k = .ok none
  noRow : ∀ k, findPhaseRingRow b k = .ok none

/-! ### Rings for right-of-way rules -/

/-- A default state of a right-of-way rule: a state to stop if there is one, else to stop and then go, else
to go. -/
def IsDefaultRow (states : Map String RowState) (s : RowState) : Prop :=
  (∃ k, states.get? k = some s) ∧
    (s.type = .stop ∨ (∀ k t, states.get? k = some t → t.type ≠ .stop) ∧
      (s.type = .stopThenGo ∨ (∀ k t, states.get? k = some t → t.type ≠ .stopThenGo)))

/-- The content of a phase in a document: its id, the rules it gives a state to, and the bulbs it gives a
state to. -/
structure RowPhaseSays where
  id : String
  named : List (String × String)
  bulbs : Option (List (UniqueBulbId × BulbState))

/-- What `d` says about a phase. -/
structure SaysRowPhase (rules : List (String × RightOfWayRule)) (lights : TrafficLights.Book) (d : Doc)
    (x : RowPhaseSays) : Prop where
  id : FieldReads d "ID" x.id
  idNotEmpty : x.id ≠ ""
  named : ∃ l, HasField d "RightOfWayRuleStates" (.map l) ∧
    List.Forall₂ (fun (e : Doc × Doc) (a : String × String) => Reads e.1 a.1 ∧ a.1 ≠ "" ∧ Reads e.2 a.2 ∧ a.2 ≠ "" ∧
      ∃ r, (a.1, r) ∈ rules) l x.named
  bulbs : SaysBulbStates lights d x.bulbs

/-- The content of a ring in a document. -/
structure RowRingSays where
  id : String
  rules : List (String × RightOfWayRule)
  phases : List RowPhaseSays
  next : Option (List (String × List NextPhase))

/-- What `d` says about a ring. -/
structure SaysRowRing (rulebook : Rulebook.Book) (lights : TrafficLights.Book) (c : Conv) (d : Doc)
    (x : RowRingSays) : Prop where
  id : FieldReads d "ID" x.id
  idNotEmpty : x.id ≠ ""
  rules : ∃ l, HasField d "Rules" (.seq l) ∧
    List.Forall₂ (fun e r => Reads e r.1 ∧ r.1 ≠ "" ∧ Rulebook.getRightOfWay rulebook r.1 = .ok r.2) l x.rules
  phases : ∃ l, HasField d "Phases" (.seq l) ∧ List.Forall₂ (SaysRowPhase x.rules lights) l x.phases
  next : SaysGraph c d x.next

/-- The state `s` of the rule is the one named in the phase, or a default state if none is. -/
def RowInEffect (rules : List (String × RightOfWayRule)) (named : List (String × String)) (id s : String) : Prop :=
  LastOf named id s ∨ ((∀ a ∈ named, a.1 ≠ id) ∧ ∃ r t, (id, r) ∈ rules ∧ IsDefaultRow r.states t ∧ s = t.id)

/-- `v` is the value that mirrors the state with id `s` of the right-of-way rule `id`, and the discrete value
rule that mirrors the rule has an equal value. -/
def IsMirror (rulebook : Rulebook.Book) (id s : String) (v : DiscreteValue) : Prop :=
  ∃ r t d w, Rulebook.getRightOfWay rulebook id = .ok r ∧ r.states.get? s = some t ∧
    IsRowValue { r with id := id } t v ∧
    Rulebook.getDiscreteValueRule rulebook ("Right-Of-Way Rule Type/" ++ id) = .ok d ∧ w ∈ d.states ∧ w.eq v = true

/-- `p` is the phase `x`. -/
structure IsRowPhase (rulebook : Rulebook.Book) (rules : List (String × RightOfWayRule)) (x : RowPhaseSays)
    (p : Phase) : Prop where
  id : p.id = x.id
  rows : ∀ id, (∃ s, p.ruleStates.get? id = some s) ↔ ∃ r, (id, r) ∈ rules
  row : ∀ id s, p.ruleStates.get? id = some s → RowInEffect rules x.named id s
  keys : ∀ k, (∃ v, p.discreteStates.get? k = some v) ↔ ∃ id r, (id, r) ∈ rules ∧ k = "Right-Of-Way Rule Type/" ++ id
  discrete : ∀ id s v, p.ruleStates.get? id = some s →
    p.discreteStates.get? ("Right-Of-Way Rule Type/" ++ id) = some v → IsMirror rulebook id s v
  bulbs : HasBulbStates x.bulbs p.bulbStates

/-- `r` is the described ring. -/
structure IsRowRing (rulebook : Rulebook.Book) (x : RowRingSays) (r : Ring) : Prop where
  id : r.id = x.id
  phases : ∀ y ∈ x.phases, ∃ p, r.getPhase y.id = some p ∧ IsRowPhase rulebook x.rules y p
  only : ∀ k p, r.getPhase k = some p → ∃ y ∈ x.phases, y.id = k
  next : HasNextPhases (x.phases.map (·.id)) x.next r

/-- The rings that can be loaded: every rule has a state, there is a phase, the phases have distinct ids, they
mention the same bulbs if the first one mentions bulbs, and the graph is about these phases. -/
structure ValidRowRing (x : RowRingSays) : Prop where
  rules : ∀ r ∈ x.rules, ∃ k s, r.2.states.get? k = some s
  nonempty : x.phases ≠ []
  phases : (x.phases.map (·.id)).Nodup
  bulbs : ∀ p ps, x.phases = p :: ps → p.bulbs ≠ none → ∀ q ∈ ps, SameBulbsSaid p.bulbs q.bulbs
  next : ValidGraph (x.phases.map (·.id)) x.next

/-- Every state a phase can put a rule in is mirrored by a discrete value rule. -/
def Mirrored (rulebook : Rulebook.Book) (x : RowRingSays) : Prop :=
  ∀ y ∈ x.phases, ∀ id s, RowInEffect x.rules y.named id s → ∃ v, IsMirror rulebook id s v

/-- The rings have distinct ids and no rule in common. -/
def SeparateRowRings (xs : List RowRingSays) : Prop :=
  xs.Pairwise fun x y => x.id ≠ y.id ∧ ∀ k, k ∈ x.rules.map (·.1) → k ∉ y.rules.map (·.1)

/-- `b` contains the described rings and no other, and finds each by its id, by its rules and by the rules
that mirror its rules. -/
structure IsRowRingBook (rulebook : Rulebook.Book) (xs : List RowRingSays) (b : Phases.Book) : Prop where
  rings : ∀ x ∈ xs, ∃ r, getPhaseRing b x.id = some r ∧ IsRowRing rulebook x r ∧
    ∀ k ∈ x.rules.map (·.1), findPhaseRingRow b k = .ok (some r) ∧
      findPhaseRing b ("Right-Of-Way Rule Type/" ++ k) = .ok (some r)
  only : ∀ id r, getPhaseRing b id = some r → ∃ x ∈ xs, x.id = id
  otherRows : ∀ k, (∀ x ∈ xs, k ∉ x.rules.map (·.1)) → findPhaseRingRow b k = .ok none
  otherRules : ∀ k, (∀ x ∈ xs, ∀ id ∈ x.rules.map (·.1), k ≠ "Right-Of-Way Rule Type/" ++ id) →
    findPhaseRing b k = .ok none

end Maliput.Loader.Spec
