import Mathlib.Data.String.Basic
import Mathlib.Data.Rat.Defs
import Verif.Model.Map

set_option autoImplicit false

/-!
Model of src/maliput/api/rules/traffic_lights.cc, include/maliput/api/rules/traffic_lights.h and
src/maliput/base/traffic_light_book.cc.  Ids are strings.  A
`std::vector<std::unique_ptr<T>>` argument is a `List (Option T)`, `none` being the null pointer.  The
pointers from a bulb to its group and from a group to its traffic light are arguments of the functions
that follow them.
-/
namespace Maliput.TrafficLights

/-- `BulbColor`, include/maliput/api/rules/traffic_lights.h:52-56. -/
inductive BulbColor where
  | red | yellow | green
  deriving DecidableEq

/-- `BulbType`, include/maliput/api/rules/traffic_lights.h:62-65. -/
inductive BulbType where
  | round | arrow
  deriving DecidableEq

/-- `BulbState`, include/maliput/api/rules/traffic_lights.h:71. -/
inductive BulbState where
  | off | on | blinking
  deriving DecidableEq

/-- `UniqueBulbId`, include/maliput/api/rules/traffic_lights.h:401-450; its `operator==` (lines 419-422)
compares the three ids, which is equality of the structure. -/
structure UniqueBulbId where
  light : String
  group : String
  bulb : String
  deriving DecidableEq

/-- `UniqueBulbId::string()`, as set by the constructor, include/maliput/api/rules/traffic_lights.h:412-416. -/
def UniqueBulbId.str (u : UniqueBulbId) : String := u.light ++ "-" ++ u.group ++ "-" ++ u.bulb

/-- `std::less<UniqueBulbId>`, include/maliput/api/rules/traffic_lights.h:519-531. -/
def UniqueBulbId.less (a b : UniqueBulbId) : Bool :=
  if a.light < b.light then true
  else if b.light < a.light then false
  else if a.group < b.group then true
  else if b.group < a.group then false
  else decide (a.bulb < b.bulb)

/-- `UniqueBulbGroupId`, include/maliput/api/rules/traffic_lights.h:461-503; its `operator==` (lines 477-479)
compares the two ids. -/
structure UniqueBulbGroupId where
  light : String
  group : String
  deriving DecidableEq

/-- `std::less<UniqueBulbGroupId>`, include/maliput/api/rules/traffic_lights.h:541-552. -/
def UniqueBulbGroupId.less (a b : UniqueBulbGroupId) : Bool :=
  if a.light < b.light then true
  else if b.light < a.light then false
  else decide (a.group < b.group)

/-- The position and orientation of a bulb, bulb group or traffic light: an `InertialPosition` and the
quaternion (w, x, y, z) its `Rotation` is made of.  `Rotation` normalizes the quaternion; here it is kept as
it was given. -/
structure Pose where
  position : ℚ × ℚ × ℚ
  orientation : ℚ × ℚ × ℚ × ℚ
  deriving DecidableEq

/-- `Bulb::BoundingBox`, include/maliput/api/rules/traffic_lights.h:96-111. -/
structure BulbBox where
  min : ℚ × ℚ × ℚ
  max : ℚ × ℚ × ℚ
  deriving DecidableEq

/-- `Bulb::BoundingBox::BoundingBox()`, include/maliput/api/rules/traffic_lights.h:108. -/
def BulbBox.default : BulbBox :=
  ⟨(-889 / 10000, -1778 / 10000, -1778 / 10000), (889 / 10000, 1778 / 10000, 1778 / 10000)⟩

/-- The members of `Bulb`, include/maliput/api/rules/traffic_lights.h:83-229. -/
structure Bulb where
  id : String
  pose : Pose
  color : BulbColor
  type : BulbType
  arrowOrientation : Option ℚ
  states : List BulbState
  box : BulbBox
  deriving DecidableEq

/-- `Bulb::Bulb`, src/maliput/api/rules/traffic_lights.cc:65-84. -/
def Bulb.make (id : String) (pose : Pose) (color : BulbColor) (type : BulbType) (arrow : Option ℚ)
    (states : Option (List BulbState)) (box : BulbBox) : Except Err Bulb := do
  throwUnless (decide (type ≠ .arrow) || arrow.isSome)
  throwUnless (decide (type = .arrow) || arrow.isNone)
  let l := match states with
    | none => [.off, .on]
    | some [] => [.off, .on]
    | some l => l
  return ⟨id, pose, color, type, arrow, l, box⟩

/-- `Bulb::IsValidState`, src/maliput/api/rules/traffic_lights.cc:95-97. -/
def Bulb.isValidState (b : Bulb) (s : BulbState) : Bool := b.states.contains s

/-- `Bulb::GetDefaultState`, src/maliput/api/rules/traffic_lights.cc:86-93. -/
def Bulb.defaultState (b : Bulb) : Except Err BulbState :=
  match [BulbState.off, .blinking, .on].find? b.isValidState with
  | some s => .ok s
  | none => .error .aborts

/-- `BulbGroup`, include/maliput/api/rules/traffic_lights.h:240-320. -/
structure BulbGroup where
  id : String
  pose : Pose
  bulbs : List Bulb
  deriving DecidableEq

/-- `BulbGroup::BulbGroup`, src/maliput/api/rules/traffic_lights.cc:105-119. -/
def BulbGroup.make (id : String) (pose : Pose) (bulbs : List (Option Bulb)) : Except Err BulbGroup := do
  throwUnless (decide (bulbs.length > 0))
  throwUnless (bulbs.all Option.isSome)
  let l := bulbs.filterMap fun b => b
  l.forM fun b => throwUnless (decide (l.countP (fun b' => decide (b.id = b'.id)) = 1))
  return ⟨id, pose, l⟩

/-- `BulbGroup::GetBulb`, src/maliput/api/rules/traffic_lights.cc:121-128. -/
def BulbGroup.getBulb (g : BulbGroup) (id : String) : Option Bulb := g.bulbs.find? fun b => decide (b.id = id)

/-- `TrafficLight`, include/maliput/api/rules/traffic_lights.h:335-391. -/
structure TrafficLight where
  id : String
  pose : Pose
  groups : List BulbGroup
  deriving DecidableEq

/-- `TrafficLight::TrafficLight`, src/maliput/api/rules/traffic_lights.cc:143-159. -/
def TrafficLight.make (id : String) (pose : Pose) (groups : List (Option BulbGroup)) : Except Err TrafficLight := do
  throwUnless (groups.all Option.isSome)
  let l := groups.filterMap fun g => g
  l.forM fun g => throwUnless (decide (l.countP (fun g' => decide (g.id = g'.id)) = 1))
  return ⟨id, pose, l⟩

/-- `TrafficLight::GetBulbGroup`, src/maliput/api/rules/traffic_lights.cc:169-176. -/
def TrafficLight.getBulbGroup (t : TrafficLight) (id : String) : Option BulbGroup :=
  t.groups.find? fun g => decide (g.id = id)

/-- `Bulb::unique_id`, src/maliput/api/rules/traffic_lights.cc:99-103, of a bulb of group `g` (if it was
given to one) of light `t` (if the group was given to one). -/
def Bulb.uniqueId (b : Bulb) (g : Option BulbGroup) (t : Option TrafficLight) : Except Err UniqueBulbId :=
  match g with
  | none => .error .throws
  | some g =>
    match t with
    | none => .error .throws
    | some t => .ok ⟨t.id, g.id, b.id⟩

/-- `BulbGroup::unique_id`, src/maliput/api/rules/traffic_lights.cc:138-141. -/
def BulbGroup.uniqueId (g : BulbGroup) (t : Option TrafficLight) : Except Err UniqueBulbGroupId :=
  match t with
  | none => .error .throws
  | some t => .ok ⟨t.id, g.id⟩

/-! ### The traffic light book -/

/-- The member `book_` of `TrafficLightBook::Impl`, src/maliput/base/traffic_light_book.cc:72. -/
abbrev Book := Map String TrafficLight

/-- `TrafficLightBook::AddTrafficLight`, src/maliput/base/traffic_light_book.cc:50-57. -/
def Book.add (b : Book) (t : Option TrafficLight) : Outcome Book :=
  match t with
  | none => (b, .error .throws)
  | some t =>
    let (b', isNew) := b.emplace t.id t
    (b', if isNew then .ok () else .error .throws)

/-- `DoTrafficLights`, src/maliput/base/traffic_light_book.cc:59-64. -/
def Book.trafficLights (b : Book) : List TrafficLight := b.entries.map (·.2)

/-- `DoGetTrafficLight`, src/maliput/base/traffic_light_book.cc:66-69. -/
def Book.getTrafficLight (b : Book) (id : String) : Option TrafficLight := b.get? id

/-- A history of calls of `AddTrafficLight` on a new book. -/
def Book.run (ops : List (Option TrafficLight)) : Book := ops.foldl (fun b t => (b.add t).1) .empty

end Maliput.TrafficLights
