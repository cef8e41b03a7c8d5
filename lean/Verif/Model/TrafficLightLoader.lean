import Verif.Model.RulebookLoader
import Verif.Model.TrafficLights

set_option autoImplicit false

/-!
Model of src/maliput/base/traffic_light_book_loader.cc, the loader of traffic light documents.
-/
namespace Maliput.Loader

open Maliput.TrafficLights Maliput.Yaml

/-- `BulbColorMapper`, src/maliput/api/rules/traffic_lights.cc:42-48. -/
def bulbColorMapper : List (BulbColor × String) := [(.red, "Red"), (.yellow, "Yellow"), (.green, "Green")]

/-- `BulbTypeMapper`, src/maliput/api/rules/traffic_lights.cc:50-55. -/
def bulbTypeMapper : List (BulbType × String) := [(.round, "Round"), (.arrow, "Arrow")]

/-- `BulbStateMapper`, src/maliput/api/rules/traffic_lights.cc:57-63. -/
def bulbStateMapper : List (BulbState × String) := [(.off, "Off"), (.on, "On"), (.blinking, "Blinking")]

/-- The loop of `convert<BulbColor>::decode`, src/maliput/base/traffic_light_book_loader.cc:165-175, of
`convert<BulbType>::decode`, lines 190-200, of one state in `convert<std::vector<BulbState>>::decode`, lines
223-234, and of `convert<BulbState>::decode`, src/maliput/base/phase_ring_book_loader.cc:61-73: the last
entry of the mapper with the text of the node; a failed conversion throws. -/
def asMapped {α : Type} (mapper : List (α × String)) (n : Node) : Except Err α := do
  let s ← n.asString
  match mapper.foldl (fun r e => if e.2 = s then some e.1 else r) none with
  | some a => .ok a
  | none => .error .throws

/-- `convert<InertialPosition>::decode`, src/maliput/base/traffic_light_book_loader.cc:73-81, and the
reading of a corner of a bounding box, lines 139-148. -/
def asPoint (c : Conv) (n : Node) : Except Err (ℚ × ℚ × ℚ) :=
  match n with
  | some (.seq [x, y, z]) => do
    return (← Node.asDouble c (some x), ← Node.asDouble c (some y), ← Node.asDouble c (some z))
  | _ => .error .throws

/-- `convert<Rotation>::decode`, src/maliput/base/traffic_light_book_loader.cc:100-108. -/
def asRotation (c : Conv) (n : Node) : Except Err (ℚ × ℚ × ℚ × ℚ) :=
  match n with
  | some (.seq [w, x, y, z]) => do
    return (← Node.asDouble c (some w), ← Node.asDouble c (some x), ← Node.asDouble c (some y),
      ← Node.asDouble c (some z))
  | _ => .error .throws

/-- `convert<Bulb::BoundingBox>::decode`, src/maliput/base/traffic_light_book_loader.cc:135-150. -/
def asBulbBox (c : Conv) (n : Node) : Except Err BulbBox := do
  n.needMap
  return ⟨← asPoint c (← required n "min"), ← asPoint c (← required n "max")⟩

/-- The reading of the key "Pose", src/maliput/base/traffic_light_book_loader.cc:251-257, 296-302, 316-322,
with the keys of the position and the orientation. -/
def asPose (c : Conv) (positionKey orientationKey : String) (n : Node) : Except Err Pose := do
  let pose ← required n "Pose"
  pose.needMap
  let p ← required pose positionKey
  let r ← required pose orientationKey
  return ⟨← asPoint c p, ← asRotation c r⟩

/-- The reading of the key "BoundingBox" in `BuildBulb`,
src/maliput/base/traffic_light_book_loader.cc:259-264. -/
def bulbBox (c : Conv) (n : Node) : Except Err BulbBox := do
  let v ← n.field "BoundingBox"
  if v.isDefined then
    v.needMap
    asBulbBox c v
  else return .default

/-- The reading of the key "ArrowOrientation" in `BuildBulb`,
src/maliput/base/traffic_light_book_loader.cc:274-279. -/
def arrowOrientation (c : Conv) (type : BulbType) (n : Node) : Except Err (Option ℚ) := do
  if type = .arrow then
    return some (← (← required n "ArrowOrientation").asDouble c)
  else return none

/-- The reading of the key "States" in `BuildBulb`, src/maliput/base/traffic_light_book_loader.cc:281-285,
with `convert<std::vector<BulbState>>::decode`, lines 218-237. -/
def bulbStates (n : Node) : Except Err (List BulbState) := do
  let v ← n.field "States"
  if v.isDefined then
    v.needSeq
    v.nodes.mapM (asMapped bulbStateMapper)
  else return [.on, .off]

/-- `BuildBulb`, src/maliput/base/traffic_light_book_loader.cc:245-289. -/
def buildBulb (c : Conv) (n : Node) : Except Err Bulb := do
  n.needMap
  let id ← (← required n "ID").asId
  let pose ← asPose c "position_bulb_group" "orientation_bulb_group" n
  let box ← bulbBox c n
  let color ← asMapped bulbColorMapper (← required n "Color")
  let type ← asMapped bulbTypeMapper (← required n "Type")
  let arrow ← arrowOrientation c type n
  let states ← bulbStates n
  Bulb.make id pose color type arrow (some states) box

/-- `BuildBulbGroup`, src/maliput/base/traffic_light_book_loader.cc:291-311. -/
def buildBulbGroup (c : Conv) (n : Node) : Except Err BulbGroup := do
  n.needMap
  let id ← (← required n "ID").asId
  let pose ← asPose c "position_traffic_light" "orientation_traffic_light" n
  let bulbs ← required n "Bulbs"
  bulbs.needSeq
  BulbGroup.make id pose ((← bulbs.nodes.mapM (buildBulb c)).map some)

/-- `BuildTrafficLight`, src/maliput/base/traffic_light_book_loader.cc:313-332. -/
def buildTrafficLight (c : Conv) (n : Node) : Except Err TrafficLight := do
  n.needMap
  let id ← (← n.field "ID").asId
  let pose ← asPose c "position_road_network" "orientation_road_network" n
  let groups ← required n "BulbGroups"
  groups.needSeq
  TrafficLight.make id pose ((← groups.nodes.mapM (buildBulbGroup c)).map some)

/-- `BuildFrom`, src/maliput/base/traffic_light_book_loader.cc:334-344. -/
def loadTrafficLights (c : Conv) (root : Doc) : Except Err TrafficLights.Book := do
  Node.needMap (some root)
  let lights ← required (some root) "TrafficLights"
  lights.needSeq
  lights.nodes.foldlM (fun b n => do
    let t ← buildTrafficLight c n
    Outcome.get (b.add (some t))) .empty

end Maliput.Loader
