import Verif.Model.RuleRegistry
import Verif.Spec.RuleRegistry
import Verif.Spec.RulebookLoader

set_option autoImplicit false

/-! The formats of rule registry documents and of rulebook documents that use a rule registry. -/
namespace Maliput.Loader.Spec

open Maliput.Rules Maliput.RuleRegistry Maliput.Yaml Maliput.Yaml.Spec

/-- `d` is a mapping whose keys are distinct and among `names`. -/
def OnlyKeys (d : Doc) (names : List String) : Prop :=
  ∃ l, d = .map l ∧ (l.map (·.1)).Nodup ∧ ∀ e ∈ l, ∃ n ∈ names, e.1 = .scalar n

/-- The description of a discrete value: it has a value, and nothing but the keys of discrete values. -/
def IsDiscreteEntry (d : Doc) : Prop :=
  (∃ v, HasField d "value" v) ∧ OnlyKeys d ["value", "severity", "related_rules", "related_unique_ids"]

/-- The description of a range: it has a range and a description, and nothing but the keys of ranges. -/
def IsRangeEntry (d : Doc) : Prop :=
  (∃ v, HasField d "range" v) ∧ (∃ v, HasField d "description" v) ∧
    OnlyKeys d ["range", "description", "severity", "related_rules", "related_unique_ids"]

/-- The severity is 0 if it is not given, and not negative. -/
def SaysSeverity (c : Conv) (d : Doc) (s : ℤ) : Prop :=
  (LacksField d "severity" ∧ s = 0) ∨ ∃ v, HasField d "severity" v ∧ ReadsInt c v s ∧ 0 ≤ s

/-- The two bounds of a range, in order. -/
def SaysBounds (c : Conv) (d : Doc) (min max : ℚ) : Prop :=
  ∃ a b, HasField d "range" (.seq [a, b]) ∧ ReadsNumber c a min ∧ ReadsNumber c b max ∧ min ≤ max

/-- In a registry the related rules and unique ids are a sequence of group names, without members. -/
def SaysGroups (d : Doc) (key : String) (m : Map String (List String)) : Prop :=
  (LacksField d key ∧ m.entries = []) ∨
    ∃ l names, HasField d key (.seq l) ∧ List.Forall₂ Reads l names ∧
      ∀ k ids, m.get? k = some ids ↔ k ∈ names ∧ ids = []

/-- The state described by an entry of a registry. -/
structure SaysTypeState (c : Conv) (d : Doc) (s : State) : Prop where
  severity : SaysSeverity c d s.severity
  rules : SaysGroups d "related_rules" s.relatedRules
  ids : SaysGroups d "related_unique_ids" s.relatedUniqueIds

/-- The discrete value described by an entry of a registry. -/
structure SaysTypeValue (c : Conv) (d : Doc) (v : DiscreteValue) : Prop extends SaysTypeState c d v.toState where
  value : FieldReads d "value" v.value

/-- The range described by an entry of a registry. -/
structure SaysTypeRange (c : Conv) (d : Doc) (r : Range) : Prop extends SaysTypeState c d r.toState where
  bounds : SaysBounds c d r.min r.max
  description : FieldReads d "description" r.description

/-- The rule type described by a key and a value of the registry mapping.  The value is a sequence of
mappings.  At least one of them must be the description of a discrete value, and none that of a range, for
the type to be discrete (and the other way round); the others need not be well-formed. -/
def SaysType (c : Conv) (key value : Doc) : RuleRegistry.Op → Prop
  | .discrete t values => t ≠ "" ∧ Reads key t ∧ ∃ l, value = .seq l ∧ (∀ d ∈ l, ∃ m, d = .map m) ∧
      (∃ d ∈ l, IsDiscreteEntry d) ∧ (∀ d ∈ l, ¬ IsRangeEntry d) ∧ List.Forall₂ (SaysTypeValue c) l values
  | .range t ranges => t ≠ "" ∧ Reads key t ∧ ∃ l, value = .seq l ∧ (∀ d ∈ l, ∃ m, d = .map m) ∧
      (∃ d ∈ l, IsRangeEntry d) ∧ (∀ d ∈ l, ¬ IsDiscreteEntry d) ∧ List.Forall₂ (SaysTypeRange c) l ranges

/-- The document is a rule registry with the given pairs of type id and values. -/
def IsRegistry (root : Doc) (types : List (Doc × Doc)) : Prop := HasField root "RuleRegistry" (.map types)

/-! ### Rulebooks -/

/-- The pairs of group name and id listed by the related rules (or unique ids) of a value: a sequence of
mappings from group names to sequences of ids, in order.  What is not a mapping, or not a sequence, lists
nothing. -/
inductive ListsIds : List Doc → List (Doc × Doc) → Prop where
  | nil : ListsIds [] []
  | other {d : Doc} {l : List Doc} {ps : List (Doc × Doc)} : (∀ m, d ≠ .map m) → ListsIds l ps → ListsIds (d :: l) ps
  | map {m : List (Doc × Doc)} {l : List Doc} {ps : List (Doc × Doc)} :
      (∀ e ∈ m, ∀ m', e.2 = .map m' → m' = []) → ListsIds l ps →
      ListsIds (.map m :: l) (m.flatMap (fun e => (match e.2 with | .seq ids => ids | _ => []).map fun i => (e.1, i)) ++ ps)

/-- The related rules (or unique ids) of a value of a rule: the ids listed under a group name anywhere are
the members of the group, in order; a group without members is not a group. -/
def SaysRelated (d : Doc) (key : String) (m : Map String (List String)) : Prop :=
  ∃ l pairs ids, HasField d key (.seq l) ∧ ListsIds l pairs ∧
    List.Forall₂ (fun (p : Doc × Doc) (i : String × String) => Reads p.1 i.1 ∧ Reads p.2 i.2 ∧ i.2 ≠ "") pairs ids ∧
    ∀ k, m.get? k = if (ids.filter fun i => decide (i.1 = k)) = [] then none
      else some ((ids.filter fun i => decide (i.1 = k)).map (·.2))

/-- The state described by a value of a rule. -/
structure SaysRuleState (c : Conv) (d : Doc) (s : State) : Prop where
  severity : SaysSeverity c d s.severity
  rules : SaysRelated d "related_rules" s.relatedRules
  ids : SaysRelated d "related_unique_ids" s.relatedUniqueIds

/-- The discrete value described by an entry of a rule. -/
structure SaysRuleValue (c : Conv) (d : Doc) (v : DiscreteValue) : Prop extends SaysRuleState c d v.toState where
  entry : IsDiscreteEntry d
  value : FieldReads d "value" v.value

/-- The range described by an entry of a rule. -/
structure SaysRuleRange (c : Conv) (d : Doc) (r : Range) : Prop extends SaysRuleState c d r.toState where
  entry : IsRangeEntry d
  bounds : SaysBounds c d r.min r.max
  description : FieldReads d "description" r.description

/-- The id, the type and the zone described by a rule document. -/
structure SaysRuleBase (g : String → Option ℚ) (c : Conv) (d : Doc) (id type : String) (zone : List LaneSRange) :
    Prop where
  id : FieldReads d "id" id
  type : FieldReads d "type" type
  zone : ∃ l, HasField d "zone" (.seq l) ∧ List.Forall₂ (SaysLaneRange g c "lane_id" "s_range") l zone

/-- The discrete value rule described by a document. -/
structure SaysDiscreteRule (g : String → Option ℚ) (c : Conv) (d : Doc) (r : DiscreteValueRule) : Prop
    extends SaysRuleBase g c d r.id r.typeId r.zone where
  values : ∃ l, HasField d "values" (.seq l) ∧ List.Forall₂ (SaysRuleValue c) l r.states

/-- The range value rule described by a document. -/
structure SaysRangeRule (g : String → Option ℚ) (c : Conv) (d : Doc) (r : RangeValueRule) : Prop
    extends SaysRuleBase g c d r.id r.typeId r.zone where
  ranges : ∃ l, HasField d "ranges" (.seq l) ∧ List.Forall₂ (SaysRuleRange c) l r.states

/-- The rules a registry allows: no empty id, a valid zone, at least one value, values that can be the
values of a rule, and for each of them a registered value of the type with the same severity and text. -/
structure ValidDiscreteRule (g : String → Option ℚ) (reg : Registry) (r : DiscreteValueRule) : Prop where
  id : r.id ≠ "" ∧ r.typeId ≠ ""
  zone : ∀ z ∈ r.zone, ValidLaneRange g z
  some : r.states ≠ []
  states : ∀ v ∈ r.states, Rules.Spec.ValidState v.toState
  distinct : r.states.Pairwise fun a b => a.eq b = false ∧ b.eq a = false
  registered : ∃ l, getPossibleStates reg r.typeId = .some (r.typeId, .discreteValues l) ∧
    ∀ v ∈ r.states, ∃ w ∈ l, w.severity = v.severity ∧ w.value = v.value

/-- The same for range value rules. -/
structure ValidRangeRule (g : String → Option ℚ) (reg : Registry) (r : RangeValueRule) : Prop where
  id : r.id ≠ "" ∧ r.typeId ≠ ""
  zone : ∀ z ∈ r.zone, ValidLaneRange g z
  some : r.states ≠ []
  states : ∀ v ∈ r.states, Rules.Spec.ValidState v.toState ∧ v.min ≤ v.max
  distinct : r.states.Pairwise fun a b => a.eq b = false ∧ b.eq a = false
  registered : ∃ l, getPossibleStates reg r.typeId = .some (r.typeId, .ranges l) ∧
    ∀ v ∈ r.states, ∃ w ∈ l, w.severity = v.severity ∧ w.min = v.min ∧ w.max = v.max ∧
      w.description = v.description

/-- The document is a rulebook with the given entries. -/
def IsRuleList (root : Doc) (entries : List Doc) : Prop := HasField root "RoadRulebook" (.seq entries)

end Maliput.Loader.Spec
