import Verif.Model.RegistryLoader
import Verif.Model.TrafficLightLoader

set_option autoImplicit false

/-!
Model of the `encode` halves of the `YAML::convert` specializations of src/maliput/base.  Contract of yaml-cpp:
a default constructed node is null; `push_back` on it makes it a sequence; `node[key] = value` makes it a mapping;
assigning a text makes it a scalar.  How a number is written is an arbitrary function to texts.
-/
namespace Maliput.Loader

open Maliput.TrafficLights Maliput.Yaml Maliput.Rules

/-- `Node node;` followed by one `push_back` for each element, the loops of
src/maliput/base/road_rulebook_loader.cc:67-70, src/maliput/base/traffic_light_book_loader.cc:206-210,
src/maliput/base/rule_registry_loader.cc:50-53: without elements the node stays null. -/
def pushedNode (l : List Doc) : Doc :=
  match l with
  | [] => .null
  | _ => .seq l

/-- `encode` of `convert<maliput::api::SRange>`, src/maliput/base/yaml_conversion.cc:36-41. -/
def encodeSRange (text : ℚ → String) (r : SRange) : Doc := pushedNode [.scalar (text r.s0), .scalar (text r.s1)]

/-- `encode` of `convert<InertialPosition>`, src/maliput/base/traffic_light_book_loader.cc:61-67, and the corners of
a bounding box, lines 114-122. -/
def encodePoint (text : ℚ → String) (p : ℚ × ℚ × ℚ) : Doc :=
  pushedNode [.scalar (text p.1), .scalar (text p.2.1), .scalar (text p.2.2)]

/-- `encode` of `convert<Rotation>`, src/maliput/base/traffic_light_book_loader.cc:86-94. -/
def encodeRotation (text : ℚ → String) (q : ℚ × ℚ × ℚ × ℚ) : Doc :=
  pushedNode [.scalar (text q.1), .scalar (text q.2.1), .scalar (text q.2.2.1), .scalar (text q.2.2.2)]

/-- `encode` of `convert<Bulb::BoundingBox>`, src/maliput/base/traffic_light_book_loader.cc:113-129. -/
def encodeBulbBox (text : ℚ → String) (b : BulbBox) : Doc :=
  .map [(.scalar "min", encodePoint text b.min), (.scalar "max", encodePoint text b.max)]

/-- `mapper.at(key)` for a `std::unordered_map` given by its entries. -/
def nameOf {α : Type} [DecidableEq α] (mapper : List (α × String)) (a : α) : Except Err String :=
  match mapper.find? fun e => decide (e.1 = a) with
  | some e => .ok e.2
  | none => .error .outOfRange

/-- `encode` of `convert<BulbColor>`, src/maliput/base/traffic_light_book_loader.cc:155-159,
`encode` of `convert<BulbType>`, lines 180-184, and `encode` of `convert<maliput::api::rules::BulbState>`,
src/maliput/base/phase_ring_book_loader.cc:53-57, src/maliput/base/phase_ring_book_loader_old_rules.cc:56-60. -/
def encodePushed {α : Type} [DecidableEq α] (mapper : List (α × String)) (a : α) : Except Err Doc := do
  return pushedNode [.scalar (← nameOf mapper a)]

/-- `encode` of `convert<std::vector<BulbState>>`, src/maliput/base/traffic_light_book_loader.cc:205-212. -/
def encodeBulbStates (states : List BulbState) : Except Err Doc := do
  return pushedNode ((← states.mapM (nameOf bulbStateMapper)).map .scalar)

/-- `encode` of `convert<RightOfWayRule::State::YieldGroup>`, src/maliput/base/road_rulebook_loader.cc:66-72. -/
def encodeYieldGroup (ids : List String) : Doc := pushedNode (ids.map .scalar)

/-- `encode` of `convert<DirectionUsageRule::State::Severity>`, src/maliput/base/road_rulebook_loader.cc:91-101. -/
def encodeDirectionSeverity (s : DirectionSeverity) : Except Err Doc :=
  if s = .preferred then .ok (.scalar "Preferred")
  else do
    throwUnless (decide (s = .strict))
    return .scalar "Strict"

/-- `encode` of `convert<DirectionUsageRule::State::Type>`, src/maliput/base/road_rulebook_loader.cc:128-133. -/
def encodeDirectionType (t : DirectionType) : Except Err Doc := do
  return .scalar (← nameOf directionTypeNames t)

/-- `encode` of `convert<std::map<std::string, std::vector<T>>>`, src/maliput/base/rule_registry_loader.cc:49-55. -/
def encodeRelatedKeys (m : Map String (List String)) : Doc := pushedNode (m.keys.map .scalar)

end Maliput.Loader
