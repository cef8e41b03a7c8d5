import Mathlib.Data.List.Forall2
import Verif.Model.TrafficLights
import Verif.Spec.Yaml

set_option autoImplicit false

/-! The traffic light document format: what a document says about a bulb, a bulb group, a traffic light. -/
namespace Maliput.Loader.Spec

open Maliput.TrafficLights Maliput.Yaml Maliput.Yaml.Spec

/-- The names of colors, types and states of bulbs in documents. -/
def colorNames : List (String × BulbColor) := [("Red", .red), ("Yellow", .yellow), ("Green", .green)]

@[inherit_doc colorNames]
def typeNames : List (String × BulbType) := [("Round", .round), ("Arrow", .arrow)]

@[inherit_doc colorNames]
def stateNames : List (String × BulbState) := [("On", .on), ("Off", .off), ("Blinking", .blinking)]

/-- `d` is a name of `a`. -/
def SaysName {α : Type} (names : List (String × α)) (d : Doc) (a : α) : Prop := ∃ s, Reads d s ∧ (s, a) ∈ names

/-- `d` is the sequence of the coordinates of `p`. -/
def SaysPoint (c : Conv) (d : Doc) (p : ℚ × ℚ × ℚ) : Prop :=
  ∃ x y z, d = .seq [x, y, z] ∧ ReadsNumber c x p.1 ∧ ReadsNumber c y p.2.1 ∧ ReadsNumber c z p.2.2

/-- `d` is the sequence w, x, y, z of the quaternion `q`. -/
def SaysQuaternion (c : Conv) (d : Doc) (q : ℚ × ℚ × ℚ × ℚ) : Prop :=
  ∃ w x y z, d = .seq [w, x, y, z] ∧ ReadsNumber c w q.1 ∧ ReadsNumber c x q.2.1 ∧ ReadsNumber c y q.2.2.1 ∧
    ReadsNumber c z q.2.2.2

/-- The key "Pose" of `d` gives the position and the orientation, relative to `frame`. -/
def SaysPose (c : Conv) (frame : String) (d : Doc) (p : Pose) : Prop :=
  ∃ pose v w, HasField d "Pose" pose ∧ HasField pose ("position_" ++ frame) v ∧ SaysPoint c v p.position ∧
    HasField pose ("orientation_" ++ frame) w ∧ SaysQuaternion c w p.orientation

/-- What `d` says about a bulb.  Without a bounding box it has the default one (a lens of 12 inches, in
metres); without states it can be on or off, and an empty list of states means the same; the orientation of
an arrow is required exactly for arrows, and ignored otherwise. -/
structure SaysBulb (c : Conv) (d : Doc) (b : Bulb) : Prop where
  id : FieldReads d "ID" b.id
  pose : SaysPose c "bulb_group" d b.pose
  color : ∃ v, HasField d "Color" v ∧ SaysName colorNames v b.color
  type : ∃ v, HasField d "Type" v ∧ SaysName typeNames v b.type
  arrow : (b.type = .round ∧ b.arrowOrientation = none) ∨
    (b.type = .arrow ∧ ∃ v q, HasField d "ArrowOrientation" v ∧ ReadsNumber c v q ∧ b.arrowOrientation = some q)
  box : (LacksField d "BoundingBox" ∧ b.box.min = (-0.0889, -0.1778, -0.1778) ∧
      b.box.max = (0.0889, 0.1778, 0.1778)) ∨
    ∃ v lo hi, HasField d "BoundingBox" v ∧ HasField v "min" lo ∧ SaysPoint c lo b.box.min ∧
      HasField v "max" hi ∧ SaysPoint c hi b.box.max
  states : (LacksField d "States" ∧ b.states = [.on, .off]) ∨
    (HasField d "States" (.seq []) ∧ b.states = [.off, .on]) ∨
    ∃ l, HasField d "States" (.seq l) ∧ l ≠ [] ∧ List.Forall₂ (SaysName stateNames) l b.states

/-- What `d` says about a bulb group. -/
structure SaysGroup (c : Conv) (d : Doc) (g : BulbGroup) : Prop where
  id : FieldReads d "ID" g.id
  pose : SaysPose c "traffic_light" d g.pose
  bulbs : ∃ l, HasField d "Bulbs" (.seq l) ∧ List.Forall₂ (SaysBulb c) l g.bulbs

/-- What `d` says about a traffic light. -/
structure SaysLight (c : Conv) (d : Doc) (t : TrafficLight) : Prop where
  id : FieldReads d "ID" t.id
  pose : SaysPose c "road_network" d t.pose
  groups : ∃ l, HasField d "BulbGroups" (.seq l) ∧ List.Forall₂ (SaysGroup c) l t.groups

/-- The traffic lights that can be loaded: no id is empty, no group is empty, and the bulbs of a group and
the groups of the light have distinct ids. -/
structure ValidLight (t : TrafficLight) : Prop where
  id : t.id ≠ ""
  groups : (t.groups.map (·.id)).Nodup
  group : ∀ g ∈ t.groups, g.id ≠ "" ∧ g.bulbs ≠ [] ∧ (g.bulbs.map (·.id)).Nodup
  bulb : ∀ g ∈ t.groups, ∀ b ∈ g.bulbs, b.id ≠ ""

end Maliput.Loader.Spec
