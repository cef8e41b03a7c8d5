import Verif.Model.Rules

set_option autoImplicit false

/-! Specification of rule states and rules. -/
namespace Maliput.Rules.Spec

/-- The ids listed under a group name (none if there is no such group). -/
def ids (m : Map String (List String)) (group : String) : List String := (m.get? group).getD []

/-- Same group names; the ids `a` lists under a name are among those `b` lists. -/
def Within (a b : Map String (List String)) : Prop :=
  ∀ g, (a.has g ↔ b.has g) ∧ ∀ x ∈ ids a g, x ∈ ids b g

/-- Same group names with the same sets of ids. -/
def Same (a b : Map String (List String)) : Prop :=
  ∀ g, (a.has g ↔ b.has g) ∧ ∀ x, x ∈ ids a g ↔ x ∈ ids b g

/-- Same severity and same related rules and ids. -/
def SameState (a b : State) : Prop :=
  a.severity = b.severity ∧ Same a.relatedRules b.relatedRules ∧ Same a.relatedUniqueIds b.relatedUniqueIds

/-- Under each name `a` and `b` list the same number of ids, without repetitions. -/
def SameCounts (a b : Map String (List String)) : Prop :=
  ∀ g, (ids a g).Nodup ∧ (ids b g).Nodup ∧ (ids a g).length = (ids b g).length

/-- Names are not empty and no id is repeated under a name. -/
def ValidRelated (m : Map String (List String)) : Prop := ∀ g, m.has g → g ≠ "" ∧ (ids m g).Nodup

/-- A state a rule can have. -/
def ValidState (s : State) : Prop :=
  0 ≤ s.severity ∧ ValidRelated s.relatedRules ∧ ValidRelated s.relatedUniqueIds

end Maliput.Rules.Spec
