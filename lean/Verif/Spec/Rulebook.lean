import Verif.Model.Rulebook
import Verif.Spec.Regions

set_option autoImplicit false

/-!
Specification of a rulebook: the rules added and not removed since.  Rules of the three deprecated
kinds have their own id spaces; discrete and range value rules share one.
-/
namespace Maliput.Rulebook.Spec

open Maliput.Rules

/-- The id of a rule, with its id space. -/
def key : AnyRule → IdVariant
  | .rightOfWay r => .rightOfWay r.id
  | .speedLimit r => .speedLimit r.id
  | .directionUsage r => .directionUsage r.id
  | .discreteValue r => .rule r.id
  | .rangeValue r => .rule r.id

/-- The lane ranges a rule applies to. -/
def zone : AnyRule → List LaneSRange
  | .rightOfWay r => r.zone
  | .speedLimit r => [r.zone]
  | .directionUsage r => [r.zone]
  | .discreteValue r => r.zone
  | .rangeValue r => r.zone

/-- What a call does to the collection of rules. -/
def apply (l : List AnyRule) : Op → List AnyRule
  | .add r => if ∃ x ∈ l, key x = key r then l else l ++ [r]
  | .remove k => l.filter (fun x => decide (key x ≠ k))
  | .removeAll => []

/-- The rules added and not removed in a history of calls. -/
def live (ops : List Op) : List AnyRule := ops.foldl apply []

/-- The call must be rejected: the added id is known, or the removed id is not. -/
def Rejected (l : List AnyRule) : Op → Prop
  | .add r => ∃ x ∈ l, key x = key r
  | .remove k => ∀ x ∈ l, key x ≠ k
  | .removeAll => False

/-- Everything a query returned: for each map, each of its keys (as an id of the map's kind) and the
rule stored there. -/
def contents (q : QueryResults) : List (IdVariant × AnyRule) :=
  q.rightOfWay.entries.map (fun e => (.rightOfWay e.1, .rightOfWay e.2)) ++
  q.speedLimit.entries.map (fun e => (.speedLimit e.1, .speedLimit e.2)) ++
  q.directionUsage.entries.map (fun e => (.directionUsage e.1, .directionUsage e.2)) ++
  q.discreteValueRules.entries.map (fun e => (.rule e.1, .discreteValue e.2)) ++
  q.rangeValueRules.entries.map (fun e => (.rule e.1, .rangeValue e.2))

/-- Some range of the rule's zone is on the same lane as, and within `tol` of, some queried range. -/
def Applies (r : AnyRule) (ranges : List LaneSRange) (tol : ℚ) : Prop :=
  ∃ z ∈ zone r, ∃ x ∈ ranges, Maliput.Spec.CloseLaneRanges z x tol

/-- The ranges of the added rules' zones are ranges a user can construct. -/
def ValidZones (ops : List Op) : Prop :=
  ∀ r, Op.add r ∈ ops → ∀ z ∈ zone r, Maliput.Spec.ValidRange z.sRange

/-- No call removes a rule whose zone lists a lane twice. -/
def NoRepeatedLaneRemoved (ops : List Op) : Prop :=
  ∀ pre k post, ops = pre ++ Op.remove k :: post → ∀ r ∈ live pre, key r = k →
    ((zone r).map (·.laneId)).Nodup

end Maliput.Rulebook.Spec
