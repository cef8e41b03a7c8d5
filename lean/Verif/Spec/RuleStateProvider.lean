import Verif.Model.RuleStateProvider
import Verif.Spec.Regions

set_option autoImplicit false

/-!
Specification of the rule state providers.
-/
namespace Maliput.StateProvider.Spec

open Maliput.Rules
open Maliput.Phases (Result)
open Maliput.Rulebook (Book)

variable {V R : Type}

/-- The rule has a state that compares equal to `v`. -/
def HasState (K : Kind V R) (rule : R) (v : V) : Prop := ∃ t ∈ K.states rule, K.eq t v = true

/-- The conditions for a `SetState` call to be accepted: the rule is in the book, the state and the next
state are among its states, a duration is positive and comes with a next state. -/
def Accepted (K : Kind V R) (b : Book) (c : Call V) : Prop :=
  (∃ rule, K.get b c.id = .ok rule ∧ HasState K rule c.state ∧ ∀ n, c.next = some n → HasState K rule n) ∧
  (∀ d, c.duration = some d → 0 < d ∧ c.next ≠ none)

/-- What an accepted call asks for. -/
def asked (c : Call V) : Result V := ⟨c.state, c.next.map fun n => (n, c.duration)⟩

/-- `c`, made when the rulebook was `b`, is the latest accepted call about its rule. -/
def IsLatest (K : Kind V R) (calls : List (Book × Call V)) (b : Book) (c : Call V) : Prop :=
  ∃ pre post, calls = pre ++ (b, c) :: post ∧ Accepted K b c ∧
    ∀ x ∈ post, x.2.id = c.id → ¬ Accepted K x.1 x.2

/-- The position at `s` on `lane` is within `tol` of some range of the zone. -/
def InZone (zone : List LaneSRange) (lane : String) (s tol : ℚ) : Prop :=
  ∃ z ∈ zone, z.laneId = lane ∧ ∃ x, Maliput.Spec.Covers z.sRange x ∧ |x - s| ≤ tol

/-- The rule with this id is in the book, of the given type and applies at the position. -/
def AppliesAt (K : Kind V R) (b : Book) (lane : String) (s : ℚ) (type : String) (tol : ℚ) (id : String) : Prop :=
  ∃ rule, (K.all b).get? id = some rule ∧ K.typeId rule = type ∧ InZone (K.zone rule) lane s tol

/-- The zones of the rules are made of ranges a user can construct. -/
def ValidZones (K : Kind V R) (b : Book) : Prop :=
  ∀ id rule, (K.all b).get? id = some rule → ∀ z ∈ K.zone rule, Maliput.Spec.ValidRange z.sRange

end Maliput.StateProvider.Spec
