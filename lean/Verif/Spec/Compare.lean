import Verif.Model.Compare

set_option autoImplicit false

/-! What it means for two objects to be the same. -/
namespace Maliput.Compare.Spec

open Maliput.Rules Maliput.Phases Maliput.TrafficLights Maliput.Compare

/-- The call returns, and it reports no difference exactly if `same`. -/
def ReportsUnless (r : Except Err Bool) (same : Prop) : Prop := ∃ d, r = .ok d ∧ (d = false ↔ same)

/-- Equal up to the rounding error of numbers around one. -/
def Near (a b : ℚ) : Prop := |a - b| ≤ 1 / 2 ^ 52

/-- The same section of the same lane. -/
def SameRange (a b : LaneSRange) : Prop :=
  a.laneId = b.laneId ∧ Near a.sRange.s0 b.sRange.s0 ∧ Near a.sRange.s1 b.sRange.s1

/-- The same sections in the same order. -/
def SameRoute (a b : List LaneSRange) : Prop := List.Forall₂ SameRange a b

/-- The same keys with the same values. -/
def SameMap {κ α : Type} [DecidableEq κ] (a b : Map κ α) : Prop := ∀ k, a.get? k = b.get? k

/-- Both absent, or both present and near. -/
def SameNumber : Option ℚ → Option ℚ → Prop
  | none, none => True
  | some x, some y => Near x y
  | _, _ => False

/-- The same bulb, up to rounding in the arrow and the bounding box. -/
def SameBulb (a b : PosedBulb) : Prop :=
  a.bulb.id = b.bulb.id ∧ a.pose = b.pose ∧ a.bulb.color = b.bulb.color ∧ a.bulb.type = b.bulb.type ∧
    SameNumber a.bulb.arrowOrientation b.bulb.arrowOrientation ∧ a.bulb.states = b.bulb.states ∧
    (∀ i, Near (a.boxMin i) (b.boxMin i)) ∧ ∀ i, Near (a.boxMax i) (b.boxMax i)

/-- The same bulb group. -/
def SameGroup (a b : PosedGroup) : Prop :=
  a.id = b.id ∧ a.pose = b.pose ∧ List.Forall₂ SameBulb a.bulbs b.bulbs

/-- The same traffic light. -/
def SameLight (a b : PosedLight) : Prop :=
  a.id = b.id ∧ a.pose = b.pose ∧ List.Forall₂ SameGroup a.groups b.groups

/-- Two numbers differ by at most `t`, where NaN is at no distance from anything and an infinity is infinitely
far from everything but itself. -/
def Within (t : ℚ) : Dbl → Dbl → Prop
  | .fin a, .fin b => |a - b| ≤ t
  | .nan, _ => True
  | _, .nan => True
  | a, b => a = b

/-- The three coordinates. -/
def TripleWithin (t : ℚ) (a b : Triple) : Prop := Within t a.x b.x ∧ Within t a.y b.y ∧ Within t a.z b.z

end Maliput.Compare.Spec
