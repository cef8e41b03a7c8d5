import Verif.Model.TrafficLights

set_option autoImplicit false

/-! Specification of traffic lights, independent of how the code looks things up. -/
namespace Maliput.TrafficLights.Spec

/-- A bulb that a user can hold: its constructor returned it. -/
def BuiltBulb (b : Bulb) : Prop := 
  ∃ id pose color type arrow states box, Bulb.make id pose color type arrow states box = .ok b

/-- A bulb group that a user can hold. -/
def BuiltGroup (g : BulbGroup) : Prop :=
  (∃ id pose bulbs, BulbGroup.make id pose bulbs = .ok g) ∧ ∀ b ∈ g.bulbs, BuiltBulb b

/-- A traffic light that a user can hold. -/
def BuiltLight (t : TrafficLight) : Prop :=
  (∃ id pose groups, TrafficLight.make id pose groups = .ok t) ∧ ∀ g ∈ t.groups, BuiltGroup g

/-- `b` is a bulb of the group `g` of the light `t`. -/
def BulbOf (t : TrafficLight) (g : BulbGroup) (b : Bulb) : Prop := g ∈ t.groups ∧ b ∈ g.bulbs

end Maliput.TrafficLights.Spec
