import Mathlib.Data.List.Forall2
import Verif.Model.DeprecatedRules
import Verif.Model.Rules
import Verif.Spec.Yaml

set_option autoImplicit false

/-!
The rulebook document format: what a document says about a rule (`Says...`), and which rules are valid on
a road geometry, given as the function from lane id to lane length (`Valid...`).
-/
namespace Maliput.Loader.Spec

open Maliput.Rules Maliput.Yaml Maliput.Yaml.Spec

/-- `d` names the lane of `r` and its range; without a range it means the whole lane. -/
structure SaysLaneRange (g : String → Option ℚ) (c : Conv) (laneKey rangeKey : String) (d : Doc)
    (r : LaneSRange) : Prop where
  lane : FieldReads d laneKey r.laneId
  range : (LacksField d rangeKey ∧ ∃ length, g r.laneId = some length ∧ r.sRange = ⟨0, length⟩) ∨
    ∃ a b, HasField d rangeKey (.seq [a, b]) ∧ ReadsNumber c a r.sRange.s0 ∧ ReadsNumber c b r.sRange.s1

/-- The lane exists, neither end of the range is negative and the range does not end behind the end of
the lane.  Nothing is required of the start of the range. -/
structure ValidLaneRange (g : String → Option ℚ) (r : LaneSRange) : Prop where
  named : r.laneId ≠ ""
  lane : ∃ length, g r.laneId = some length ∧ r.sRange.s1 ≤ length
  s0 : 0 ≤ r.sRange.s0
  s1 : 0 ≤ r.sRange.s1

/-- `d` is the sequence of the texts `ids`. -/
def SaysIds (d : Doc) (ids : List String) : Prop := ∃ l, d = .seq l ∧ List.Forall₂ Reads l ids

/-- The names of the states of right-of-way rules in documents. -/
def rowStateNames : List (String × RowStateType) := [("Go", .go), ("Stop", .stop), ("StopThenGo", .stopThenGo)]

/-- `d` is a mapping from distinct state names to the rules to yield to, and the states are those. -/
structure SaysRowStates (d : Doc) (states : Map String RowState) : Prop where
  names : ∃ l, d = .map l ∧ (l.map (·.1)).Nodup ∧
    ∀ e ∈ l, (∃ n ∈ rowStateNames, e.1 = .scalar n.1) ∧ ∃ ids, SaysIds e.2 ids
  states : ∀ name s, states.get? name = some s ↔
    ∃ t v ids, (name, t) ∈ rowStateNames ∧ HasField d name v ∧ SaysIds v ids ∧ s = ⟨name, t, ids⟩

/-- The value of a traffic light in the related bulb groups: a sequence of ids, or something that is
neither a sequence nor a mapping with pairs, which counts as no ids. -/
def SaysBulbGroups (d : Doc) (ids : List String) : Prop :=
  SaysIds d ids ∨ (ids = [] ∧ (d = .null ∨ (∃ s, d = .scalar s) ∨ d = .map []))

/-- What `d` says about a right-of-way rule. -/
structure SaysRow (g : String → Option ℚ) (c : Conv) (d : Doc) (r : RightOfWayRule) : Prop where
  id : FieldReads d "ID" r.id
  states : ∃ v, HasField d "States" v ∧ SaysRowStates v r.states
  zone : ∃ l, HasField d "Zone" (.seq l) ∧ List.Forall₂ (SaysLaneRange g c "Lane" "SRange") l r.zone
  zoneType : (LacksField d "ZoneType" ∧ r.zoneType = .stopExcluded) ∨
    (FieldReads d "ZoneType" "StopExcluded" ∧ r.zoneType = .stopExcluded) ∨
    (FieldReads d "ZoneType" "StopAllowed" ∧ r.zoneType = .stopAllowed)
  related : (LacksField d "RelatedBulbGroups" ∧ r.relatedBulbGroups.entries = []) ∨
    ∃ l, HasField d "RelatedBulbGroups" (.map l) ∧ List.Forall₂
      (fun (e : Doc × Doc) (kv : String × List String) => Reads e.1 kv.1 ∧ SaysBulbGroups e.2 kv.2)
      l r.relatedBulbGroups.entries

/-- The names of the bulb groups related to a rule: the traffic light, a dash and the bulb group. -/
def bulbIds (r : RightOfWayRule) : List String :=
  r.relatedBulbGroups.entries.flatMap fun e => e.2.map fun x => e.1 ++ "-" ++ x

/-- The right-of-way rules that can be loaded: no id is empty, there is a state, no state yields twice to
the same rule, the zone is valid, no bulb group of a traffic light is named twice and the joined names of
the bulb groups differ. -/
structure ValidRow (g : String → Option ℚ) (r : RightOfWayRule) : Prop where
  id : r.id ≠ ""
  some : r.states.entries ≠ []
  yields : ∀ name s, r.states.get? name = .some s → s.yieldTo.Nodup ∧ ∀ y ∈ s.yieldTo, y ≠ ""
  zone : ∀ z ∈ r.zone, ValidLaneRange g z
  related : ∀ light groups, r.relatedBulbGroups.get? light = .some groups →
    light ≠ "" ∧ groups.Nodup ∧ ∀ x ∈ groups, x ≠ ""
  bulbs : (bulbIds r).Nodup

/-- The names of directions in documents. -/
def directionNames : List (String × DirectionType) :=
  [("WithS", .withS), ("AgainstS", .againstS), ("Bidirectional", .bidirectional),
    ("BidirectionalTurnOnly", .bidirectionalTurnOnly), ("NoUse", .noUse), ("Parking", .parking)]

/-- What `d` says about a state of a direction usage rule. -/
structure SaysDirectionState (d : Doc) (s : DirectionState) : Prop where
  id : FieldReads d "ID" s.id
  type : ∃ name, FieldReads d "Type" name ∧ (name, s.type) ∈ directionNames
  severity : (FieldReads d "Severity" "Strict" ∧ s.severity = .strict) ∨
    (FieldReads d "Severity" "Preferred" ∧ s.severity = .preferred)

/-- What `d` says about a direction usage rule. -/
structure SaysDirection (g : String → Option ℚ) (c : Conv) (d : Doc) (r : DirectionUsageRule) : Prop where
  id : FieldReads d "ID" r.id
  states : ∃ l, HasField d "States" (.seq l) ∧
    List.Forall₂ (fun e (kv : String × DirectionState) => SaysDirectionState e kv.2 ∧ kv.1 = kv.2.id)
      l r.states.entries
  zone : ∃ v, HasField d "Zone" v ∧ SaysLaneRange g c "Lane" "SRange" v r.zone

/-- The direction usage rules that can be built. -/
structure ValidDirection (g : String → Option ℚ) (r : DirectionUsageRule) : Prop where
  id : r.id ≠ ""
  some : r.states.entries ≠ []
  states : ∀ name s, r.states.get? name = .some s → name ≠ ""
  zone : ValidLaneRange g r.zone

/-- The document is a rulebook with the given entries for right-of-way and direction usage rules. -/
def IsRulebook (root : Doc) (rows dirs : List Doc) : Prop :=
  ∃ book, HasField root "RoadRulebook" book ∧ HasField book "RightOfWayRules" (.seq rows) ∧
    HasField book "DirectionUsageRules" (.seq dirs)

/-- `d` is the discrete value rule that tells whether to stop in the zone of `r`. -/
structure IsStopRule (r : RightOfWayRule) (d : DiscreteValueRule) : Prop where
  id : d.id = "Vehicle-Stop-In-Zone-Behavior Rule Type/" ++ r.id
  typeId : d.typeId = "Vehicle-Stop-In-Zone-Behavior Rule Type"
  zone : d.zone = r.zone
  value : ∃ v, d.states = [v] ∧ v.severity = 0 ∧ v.relatedRules.entries = [] ∧ v.relatedUniqueIds.entries = [] ∧
    v.value = if r.zoneType = .stopExcluded then "DoNotStop" else "UnconstrainedParking"

/-- `v` is the discrete value for the state `s` of `r`. -/
structure IsRowValue (r : RightOfWayRule) (s : RowState) (v : DiscreteValue) : Prop where
  value : (v.value, s.type) ∈ rowStateNames
  severity : v.severity = 0
  rules : ∀ k l, v.relatedRules.get? k = some l ↔
    (k = "Vehicle-Stop-In-Zone-Behavior Rule Type" ∧
        l = ["Vehicle-Stop-In-Zone-Behavior Rule Type/" ++ r.id]) ∨
      (k = "Yield Group" ∧ l = s.yieldTo.map fun y => "Right-Of-Way Rule Type/" ++ y)
  bulbs : ∀ k l, v.relatedUniqueIds.get? k = some l ↔ k = "Bulb Group" ∧ l = bulbIds r

/-- `d` is the discrete value rule that mirrors the right-of-way rule `r`: one value per state. -/
structure IsRowRule (r : RightOfWayRule) (d : DiscreteValueRule) : Prop where
  id : d.id = "Right-Of-Way Rule Type/" ++ r.id
  typeId : d.typeId = "Right-Of-Way Rule Type"
  zone : d.zone = r.zone
  values : List.Forall₂ (fun (e : String × RowState) v => IsRowValue r e.2 v) r.states.entries d.states

end Maliput.Loader.Spec
