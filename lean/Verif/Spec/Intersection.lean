import Verif.Model.Intersection
import Verif.Spec.Regions

set_option autoImplicit false

/-! Specification of what an intersection refers to, independent of how the code looks it up. -/
namespace Maliput.Intersections.Spec

open Maliput.Phases (Phase)

/-- `phase` is the phase of the intersection's ring that is current. -/
def CurrentPhase (phaseOf : PhaseOf) (i : Intersection) (phase : Phase) : Prop :=
  ∃ res, phaseOf i = some res ∧ (res.state, phase) ∈ i.ring.phases.entries

/-- The current phase of the intersection, if there is one, is a phase of its ring. -/
def PhaseKnown (phaseOf : PhaseOf) (i : Intersection) : Prop :=
  ∀ res, phaseOf i = some res → ∃ phase, (res.state, phase) ∈ i.ring.phases.entries

/-- The current phase gives a state to some bulb of the traffic light. -/
def RefersToLight (phaseOf : PhaseOf) (light : String) (i : Intersection) : Prop :=
  ∃ phase bulbs bulb state, CurrentPhase phaseOf i phase ∧ phase.bulbStates = some bulbs ∧
    (bulb, state) ∈ bulbs.entries ∧ bulb.light = light

/-- The current phase gives a value to the discrete value rule. -/
def RefersToDiscrete (phaseOf : PhaseOf) (rule : String) (i : Intersection) : Prop :=
  ∃ phase value, CurrentPhase phaseOf i phase ∧ (rule, value) ∈ phase.discreteStates.entries

/-- The current phase gives a state to the right-of-way rule. -/
def RefersToRow (phaseOf : PhaseOf) (rule : String) (i : Intersection) : Prop :=
  ∃ phase state, CurrentPhase phaseOf i phase ∧ (rule, state) ∈ phase.ruleStates.entries

/-- The region of the intersection comes within the tolerance of the given region. -/
def Meets (region : List LaneSRange) (tol : ℚ) (i : Intersection) : Prop :=
  ∃ a ∈ i.region, ∃ b ∈ region, Maliput.Spec.CloseLaneRanges a b tol

/-- The answer of a search among the objects `l` for one that satisfies `P`: one that does, or nothing if
none does. -/
def Finds {α : Type} (l : List α) (P : α → Prop) (r : Option α) : Prop :=
  (∀ i, r = some i → i ∈ l ∧ P i) ∧ (r = none → ∀ i ∈ l, ¬ P i)

end Maliput.Intersections.Spec
