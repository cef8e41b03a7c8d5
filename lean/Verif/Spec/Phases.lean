import Verif.Model.Phases

set_option autoImplicit false

/-!
Specification of phase rings, of a book of rings and of the current phases.
-/
namespace Maliput.Phases.Spec

open Maliput.Rules

/-- The two maps have the same keys. -/
def SameKeys {κ α β : Type} [DecidableEq κ] (a : Map κ α) (b : Map κ β) : Prop :=
  ∀ k, (∃ v, a.get? k = some v) ↔ (∃ v, b.get? k = some v)

/-- The two phases give states to the same rules. -/
def SameRules (p q : Phase) : Prop :=
  SameKeys p.ruleStates q.ruleStates ∧ SameKeys p.discreteStates q.discreteStates

/-- The two phases give states to the same bulbs, or neither mentions bulbs. -/
def SameBulbs (p q : Phase) : Prop :=
  (p.bulbStates = none ∧ q.bulbStates = none) ∨
    ∃ b c, p.bulbStates = some b ∧ q.bulbStates = some c ∧ SameKeys b c

/-- `r` is a ring a user can hold: some constructor call returned it. -/
def Valid (r : Ring) : Prop := ∃ id phases next, Ring.make id phases next = .ok r

/-- The ring gives a state to the right-of-way rule. -/
def CoversRow (r : Ring) (rule : String) : Prop :=
  ∃ k p s, r.getPhase k = some p ∧ p.ruleStates.get? rule = some s

/-- The ring gives a state to the discrete value rule. -/
def CoversDiscrete (r : Ring) (rule : String) : Prop :=
  ∃ k p s, r.getPhase k = some p ∧ p.discreteStates.get? rule = some s

/-- Two rings give a state to the same rule. -/
def Clash (r r' : Ring) : Prop :=
  (∃ k, CoversRow r k ∧ CoversRow r' k) ∨ (∃ k, CoversDiscrete r k ∧ CoversDiscrete r' k)

/-- What a call does to the collection of rings. -/
def apply (l : List Ring) : Op → List Ring
  | .add r => if ∃ x ∈ l, x.id = r.id then l else l ++ [r]
  | .remove id => l.filter (fun x => decide (x.id ≠ id))

/-- The rings added and not removed in a history of calls; a ring is not added if its id is known. -/
def live (ops : List Op) : List Ring := ops.foldl apply []

/-- The call must be rejected: the id of the added ring is known, or the removed id is not. -/
def Rejected (l : List Ring) : Op → Prop
  | .add r => ∃ x ∈ l, x.id = r.id
  | .remove id => ∀ x ∈ l, x.id ≠ id

/-- No call adds, under a new id, a ring that shares a rule with a ring of the book. -/
def NoClash (ops : List Op) : Prop :=
  ∀ pre r post, ops = pre ++ Op.add r :: post → (∀ x ∈ live pre, x.id ≠ r.id) →
    ∀ x ∈ live pre, ¬ Clash x r

/-- All the added rings were constructed by the user. -/
def ValidRings (ops : List Op) : Prop := ∀ r, Op.add r ∈ ops → Valid r

/-! ### The phase provider -/

/-- A duration comes with a next phase. -/
def DurationOk (next : Option String) (duration : Option ℚ) : Prop := duration = none ∨ next ≠ none

/-- The ring a call is about. -/
def ringOf : ProviderOp → String
  | .add id _ _ _ => id
  | .set id _ _ _ => id

/-- The result a call asks for. -/
def asked : ProviderOp → Result String
  | .add _ phase next duration => ⟨phase, next.map fun n => (n, duration)⟩
  | .set _ phase next duration => ⟨phase, next.map fun n => (n, duration)⟩

/-- Whether a call is accepted, `known` saying for which rings there is a phase already. -/
def Accepted (known : String → Prop) : ProviderOp → Prop
  | .add id _ next duration => DurationOk next duration ∧ ¬ known id
  | .set id _ next duration => DurationOk next duration ∧ known id

/-- The ring has a phase after the calls: one of them was an accepted addition. -/
inductive Known : List ProviderOp → String → Prop
  | added {ops : List ProviderOp} {id phase : String} {next : Option String} {duration : Option ℚ} :
      DurationOk next duration → Known (ops ++ [.add id phase next duration]) id
  | later {ops : List ProviderOp} {op : ProviderOp} {id : String} : Known ops id → Known (ops ++ [op]) id

/-- `op` is the latest accepted call about its ring. -/
def IsLatest (ops : List ProviderOp) (op : ProviderOp) : Prop :=
  ∃ pre post, ops = pre ++ op :: post ∧ Accepted (Known pre) op ∧
    ∀ pre' op' post', post = pre' ++ op' :: post' → ringOf op' = ringOf op →
      ¬ Accepted (Known (pre ++ op :: pre')) op'

end Maliput.Phases.Spec
