import Verif.Model.DeprecatedRules
import Verif.Model.Rules
import Mathlib.Logic.Function.Basic

set_option autoImplicit false

/-!
Model of src/maliput/base/manual_rulebook.cc and of the non-virtual interface
include/maliput/api/rules/road_rulebook.h.
-/
namespace Maliput.Rulebook

open Maliput.Rules

/-- `IdVariant`, src/maliput/base/manual_rulebook.cc:50-51. -/
inductive IdVariant where
  | rightOfWay (id : String)
  | speedLimit (id : String)
  | directionUsage (id : String)
  | rule (id : String)
  deriving DecidableEq

/-- The members of `ManualRulebook::Impl`, src/maliput/base/manual_rulebook.cc:326-333.  `index` is
the member `map_` of `RangeIndex` (line 293): lane id to multimap from `IdVariant` to `SRange`. -/
structure Book where
  rightOfWays : Map String RightOfWayRule
  speedLimits : Map String SpeedLimitRule
  directionUsageRules : Map String DirectionUsageRule
  discreteValueRules : Map String DiscreteValueRule
  rangeValueRules : Map String RangeValueRule
  index : String → Option (List (IdVariant × SRange))

/-- The index type. -/
abbrev Index := String → Option (List (IdVariant × SRange))

/-- An empty rulebook, src/maliput/base/manual_rulebook.cc:96. -/
def Book.empty : Book := ⟨.empty, .empty, .empty, .empty, .empty, fun _ => none⟩

/-- `RangeIndex::AddRange`, src/maliput/base/manual_rulebook.cc:279. -/
def addRange (ix : Index) (id : IdVariant) (r : LaneSRange) : Index :=
  Function.update ix r.laneId (some ((ix r.laneId).getD [] ++ [(id, r.sRange)]))

/-- `RangeIndex::AddRule` for a zone of several ranges, src/maliput/base/manual_rulebook.cc:223-227,
240-244, 252-256; for a single range (lines 219, 235) use a one-element list. -/
def addRanges (ix : Index) (id : IdVariant) (zone : List LaneSRange) : Index :=
  zone.foldl (fun ix r => addRange ix id r) ix

/-- `RangeIndex::RemoveRanges`, src/maliput/base/manual_rulebook.cc:282-287: `map_.at` throws when the
lane has no entry. -/
def removeRange (ix : Index) (id : IdVariant) (lane : String) : Outcome Index :=
  match ix lane with
  | none => (ix, .error .outOfRange)
  | some l =>
    let l' := l.filter (fun e => decide (e.1 ≠ id))
    (Function.update ix lane (if l'.isEmpty then none else some l'), .ok ())

/-- `RangeIndex::RemoveRule` for a zone of several ranges, src/maliput/base/manual_rulebook.cc:229-233,
246-250, 258-262; for a single range (lines 221, 237) use a one-element list. -/
def removeRanges (ix : Index) (id : IdVariant) : List LaneSRange → Outcome Index
  | [] => (ix, .ok ())
  | r :: rest =>
    match removeRange ix id r.laneId with
    | (ix, .ok ()) => removeRanges ix id rest
    | (ix, .error e) => (ix, .error e)

/-- `RangeIndex::FindRules`, src/maliput/base/manual_rulebook.cc:264-275. -/
def indexFind (ix : Index) (r : LaneSRange) (tol : ℚ) : Except Err (List IdVariant) := do
  let found ← ((ix r.laneId).getD []).filterM (fun e => e.2.intersects r.sRange tol)
  return found.map (·.1)

/-- `AddRule(const RightOfWayRule&)`, src/maliput/base/manual_rulebook.cc:109, 300-308. -/
def addRightOfWay (b : Book) (r : RightOfWayRule) : Outcome Book :=
  let (m, isNew) := b.rightOfWays.emplace r.id r
  if isNew then ({ b with rightOfWays := m, index := addRanges b.index (.rightOfWay r.id) r.zone }, .ok ())
  else ({ b with rightOfWays := m }, .error .throws)

/-- `AddRule(const SpeedLimitRule&)`, src/maliput/base/manual_rulebook.cc:113, 300-308. -/
def addSpeedLimit (b : Book) (r : SpeedLimitRule) : Outcome Book :=
  let (m, isNew) := b.speedLimits.emplace r.id r
  if isNew then ({ b with speedLimits := m, index := addRanges b.index (.speedLimit r.id) [r.zone] }, .ok ())
  else ({ b with speedLimits := m }, .error .throws)

/-- `AddRule(const DirectionUsageRule&)`, src/maliput/base/manual_rulebook.cc:117, 300-308. -/
def addDirectionUsage (b : Book) (r : DirectionUsageRule) : Outcome Book :=
  let (m, isNew) := b.directionUsageRules.emplace r.id r
  if isNew then
    ({ b with directionUsageRules := m, index := addRanges b.index (.directionUsage r.id) [r.zone] }, .ok ())
  else ({ b with directionUsageRules := m }, .error .throws)

/-- `AddRule(const DiscreteValueRule&)`, src/maliput/base/manual_rulebook.cc:122-127. -/
def addDiscreteValueRule (b : Book) (r : DiscreteValueRule) : Outcome Book :=
  if b.rangeValueRules.has r.id then (b, .error .throws)
  else
    let (m, isNew) := b.discreteValueRules.emplace r.id r
    if isNew then ({ b with discreteValueRules := m, index := addRanges b.index (.rule r.id) r.zone }, .ok ())
    else ({ b with discreteValueRules := m }, .error .throws)

/-- `AddRule(const RangeValueRule&)`, src/maliput/base/manual_rulebook.cc:129-134. -/
def addRangeValueRule (b : Book) (r : RangeValueRule) : Outcome Book :=
  if b.discreteValueRules.has r.id then (b, .error .throws)
  else
    let (m, isNew) := b.rangeValueRules.emplace r.id r
    if isNew then ({ b with rangeValueRules := m, index := addRanges b.index (.rule r.id) r.zone }, .ok ())
    else ({ b with rangeValueRules := m }, .error .throws)

/-- The index after `removeRanges`, and `f` applied if that did not throw. -/
def afterIndex (b : Book) (o : Outcome Index) (f : Book → Book) : Outcome Book :=
  match o with
  | (ix, .ok ()) => (f { b with index := ix }, .ok ())
  | (ix, .error e) => ({ b with index := ix }, .error e)

/-- `RemoveRule(const RightOfWayRule::Id&)`, src/maliput/base/manual_rulebook.cc:111, 315-323.  The
last check (line 322) cannot fail, the id was found before. -/
def removeRightOfWay (b : Book) (id : String) : Outcome Book :=
  match b.rightOfWays.get? id with
  | none => (b, .error .throws)
  | some r => afterIndex b (removeRanges b.index (.rightOfWay id) r.zone)
      fun b => { b with rightOfWays := b.rightOfWays.erase id }

/-- `RemoveRule(const SpeedLimitRule::Id&)`, src/maliput/base/manual_rulebook.cc:115, 315-323. -/
def removeSpeedLimit (b : Book) (id : String) : Outcome Book :=
  match b.speedLimits.get? id with
  | none => (b, .error .throws)
  | some r => afterIndex b (removeRanges b.index (.speedLimit id) [r.zone])
      fun b => { b with speedLimits := b.speedLimits.erase id }

/-- `RemoveRule(const DirectionUsageRule::Id&)`, src/maliput/base/manual_rulebook.cc:119, 315-323. -/
def removeDirectionUsage (b : Book) (id : String) : Outcome Book :=
  match b.directionUsageRules.get? id with
  | none => (b, .error .throws)
  | some r => afterIndex b (removeRanges b.index (.directionUsage id) [r.zone])
      fun b => { b with directionUsageRules := b.directionUsageRules.erase id }

/-- `RemoveRule(const Rule::Id&)`, src/maliput/base/manual_rulebook.cc:136-150. -/
def removeRule (b : Book) (id : String) : Outcome Book :=
  match b.discreteValueRules.get? id with
  | some r => afterIndex b (removeRanges b.index (.rule id) r.zone)
      fun b => { b with discreteValueRules := b.discreteValueRules.erase id }
  | none =>
    match b.rangeValueRules.get? id with
    | some r => afterIndex b (removeRanges b.index (.rule id) r.zone)
        fun b => { b with rangeValueRules := b.rangeValueRules.erase id }
    | none => (b, .error .throws)

/-- `RoadRulebook::QueryResults`, include/maliput/api/rules/road_rulebook.h:64-73. -/
structure QueryResults where
  rightOfWay : Map String RightOfWayRule
  speedLimit : Map String SpeedLimitRule
  directionUsage : Map String DirectionUsageRule
  discreteValueRules : Map String DiscreteValueRule
  rangeValueRules : Map String RangeValueRule

/-- No results. -/
def QueryResults.empty : QueryResults := ⟨.empty, .empty, .empty, .empty, .empty⟩

/-- The body of the inner loop of `DoFindRules`, src/maliput/base/manual_rulebook.cc:156-179 (the
variant is never empty). -/
def collect (b : Book) (q : QueryResults) : IdVariant → Except Err QueryResults
  | .rightOfWay id => do
    let r ← b.rightOfWays.at! id
    return { q with rightOfWay := (q.rightOfWay.emplace id r).1 }
  | .speedLimit id => do
    let r ← b.speedLimits.at! id
    return { q with speedLimit := (q.speedLimit.emplace id r).1 }
  | .directionUsage id => do
    let r ← b.directionUsageRules.at! id
    return { q with directionUsage := (q.directionUsage.emplace id r).1 }
  | .rule id =>
    match b.rangeValueRules.get? id with
    | some r => return { q with rangeValueRules := (q.rangeValueRules.emplace id r).1 }
    | none =>
      match b.discreteValueRules.get? id with
      | some r => return { q with discreteValueRules := (q.discreteValueRules.emplace id r).1 }
      | none => .error .outOfRange

/-- `RoadRulebook::FindRules` and `DoFindRules`, include/maliput/api/rules/road_rulebook.h:85-88,
src/maliput/base/manual_rulebook.cc:152-183. -/
def findRules (b : Book) (ranges : List LaneSRange) (tol : ℚ) : Except Err QueryResults := do
  throwUnless (decide (tol ≥ 0))
  ranges.foldlM (fun q r => do
    let ids ← indexFind b.index r tol
    ids.foldlM (collect b) q) .empty

/-- `RoadRulebook::Rules`, src/maliput/base/manual_rulebook.cc:185-193. -/
def rules (b : Book) : QueryResults :=
  ⟨b.rightOfWays, b.speedLimits, b.directionUsageRules, b.discreteValueRules, b.rangeValueRules⟩

/-- `GetRule(const RightOfWayRule::Id&)`, src/maliput/base/manual_rulebook.cc:196, 310-313. -/
def getRightOfWay (b : Book) (id : String) : Except Err RightOfWayRule := b.rightOfWays.at! id

/-- `GetRule(const SpeedLimitRule::Id&)`, src/maliput/base/manual_rulebook.cc:198, 310-313. -/
def getSpeedLimit (b : Book) (id : String) : Except Err SpeedLimitRule := b.speedLimits.at! id

/-- `GetRule(const DirectionUsageRule::Id&)`, src/maliput/base/manual_rulebook.cc:200-202, 310-313. -/
def getDirectionUsage (b : Book) (id : String) : Except Err DirectionUsageRule := b.directionUsageRules.at! id

/-- `GetDiscreteValueRule`, src/maliput/base/manual_rulebook.cc:205. -/
def getDiscreteValueRule (b : Book) (id : String) : Except Err DiscreteValueRule := b.discreteValueRules.at! id

/-- `GetRangeValueRule`, src/maliput/base/manual_rulebook.cc:207. -/
def getRangeValueRule (b : Book) (id : String) : Except Err RangeValueRule := b.rangeValueRules.at! id

/-- A rule of any of the five kinds (the overloads of `ManualRulebook::AddRule`,
src/maliput/base/manual_rulebook.cc:344-360). -/
inductive AnyRule where
  | rightOfWay (r : RightOfWayRule)
  | speedLimit (r : SpeedLimitRule)
  | directionUsage (r : DirectionUsageRule)
  | discreteValue (r : DiscreteValueRule)
  | rangeValue (r : RangeValueRule)
  deriving DecidableEq

/-- A call of a mutating method. -/
inductive Op where
  | add (r : AnyRule)
  | remove (id : IdVariant)
  | removeAll

/-- The overload of `AddRule`, `RemoveRule` that is called, and `RemoveAll`
(src/maliput/base/manual_rulebook.cc:99-106, which clears everything). -/
def step (b : Book) : Op → Outcome Book
  | .add (.rightOfWay r) => addRightOfWay b r
  | .add (.speedLimit r) => addSpeedLimit b r
  | .add (.directionUsage r) => addDirectionUsage b r
  | .add (.discreteValue r) => addDiscreteValueRule b r
  | .add (.rangeValue r) => addRangeValueRule b r
  | .remove (.rightOfWay id) => removeRightOfWay b id
  | .remove (.speedLimit id) => removeSpeedLimit b id
  | .remove (.directionUsage id) => removeDirectionUsage b id
  | .remove (.rule id) => removeRule b id
  | .removeAll => (.empty, .ok ())

/-- A history of calls on a new rulebook. -/
def run (ops : List Op) : Book := ops.foldl (fun b op => (step b op).1) .empty

end Maliput.Rulebook
