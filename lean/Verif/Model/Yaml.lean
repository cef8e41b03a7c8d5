import Mathlib.Data.Rat.Defs
import Verif.Model.Map

set_option autoImplicit false

/-!
Contract of the part of the yaml-cpp library (version 0.8.0, MODULE.bazel:13) that the loaders of
src/maliput/base use: a parsed document is a tree; `const Node::operator[]` gives an invalid node for a
missing key, and an invalid node is not defined, iterates over nothing and throws for everything else.
All exceptions of the library (`InvalidNode`, `BadSubscript`, `BadConversion`) are `Err.throws`.  Parsing
of the text (`YAML::Load`, `YAML::LoadFile`) and documents with cyclic aliases are not modelled.
-/
namespace Maliput.Yaml

/-- A parsed document; the pairs of a mapping are kept in the order of the text. -/
inductive Doc where
  | null
  | scalar (s : String)
  | seq (l : List Doc)
  | map (l : List (Doc × Doc))

/-- A `YAML::Node` handle: `none` is an invalid node (the result of looking up a missing key). -/
abbrev Node := Option Doc

/-- The text conversions of yaml-cpp, `convert<double>` and `convert<int>`: arbitrary partial functions
from the text of a scalar. -/
structure Conv where
  toDouble : String → Option ℚ
  toInt : String → Option ℤ

/-- What an iterator over a node points at: a node and a pair of nodes; for a sequence the pair is
invalid, for a mapping the node itself is. -/
structure Item where
  self : Node
  first : Node
  second : Node

/-- The value of the first pair whose key is the scalar `k`. -/
def lookup (l : List (Doc × Doc)) (k : String) : Node :=
  (l.find? fun e => match e.1 with
    | .scalar s => decide (s = k)
    | _ => false).map (·.2)

namespace Node

/-- `IsDefined()` and the conversion to `bool`. -/
def isDefined (n : Node) : Bool := n.isSome

/-- `IsMap()`. -/
def isMap (n : Node) : Except Err Bool :=
  match n with
  | none => .error .throws
  | some (.map _) => .ok true
  | some _ => .ok false

/-- `IsSequence()`. -/
def isSeq (n : Node) : Except Err Bool :=
  match n with
  | none => .error .throws
  | some (.seq _) => .ok true
  | some _ => .ok false

/-- `MALIPUT_THROW_UNLESS(node.IsMap())`. -/
def needMap (n : Node) : Except Err Unit := do
  throwUnless (← isMap n)

/-- `MALIPUT_THROW_UNLESS(node.IsSequence())`. -/
def needSeq (n : Node) : Except Err Unit := do
  throwUnless (← isSeq n)

/-- `size()`. -/
def size (n : Node) : Except Err Nat :=
  match n with
  | none => .error .throws
  | some (.map l) => .ok l.length
  | some (.seq l) => .ok l.length
  | some _ => .ok 0

/-- `const Node::operator[](key)` for a string key. -/
def field (n : Node) (k : String) : Except Err Node :=
  match n with
  | none => .error .throws
  | some (.scalar _) => .error .throws
  | some (.map l) => .ok (lookup l k)
  | some _ => .ok none

/-- The items a range-based `for` visits. -/
def items (n : Node) : List Item :=
  match n with
  | some (.seq l) => l.map fun y => ⟨some y, none, none⟩
  | some (.map l) => l.map fun e => ⟨none, some e.1, some e.2⟩
  | _ => []

/-- The nodes a `for (const YAML::Node& x : node)` visits. -/
def nodes (n : Node) : List Node := (items n).map (·.self)

/-- `as<std::string>()`: the text of a scalar; the null node gives "null". -/
def asString (n : Node) : Except Err String :=
  match n with
  | some (.scalar s) => .ok s
  | some .null => .ok "null"
  | _ => .error .throws

/-- `as<double>()`. -/
def asDouble (c : Conv) (n : Node) : Except Err ℚ :=
  match n with
  | some (.scalar s) =>
    match c.toDouble s with
    | some q => .ok q
    | none => .error .throws
  | _ => .error .throws

/-- `as<int>()`. -/
def asInt (c : Conv) (n : Node) : Except Err ℤ :=
  match n with
  | some (.scalar s) =>
    match c.toInt s with
    | some q => .ok q
    | none => .error .throws
  | _ => .error .throws

/-- `TypeSpecificIdentifier(node.as<std::string>())` and `UniqueId{node.as<std::string>()}`: an empty
string is rejected, include/maliput/api/type_specific_identifier.h:77-79,
include/maliput/api/unique_id.h:52. -/
def asId (n : Node) : Except Err String := do
  let s ← asString n
  throwUnless (decide (s ≠ ""))
  return s

end Node

end Maliput.Yaml
