import Mathlib.Data.Rat.Defs
import Mathlib.Algebra.Order.Ring.Rat
import Mathlib.Algebra.Order.Group.Unbundled.Abs
import Verif.Model.Basic

set_option autoImplicit false

/-!
Model of include/maliput/api/regions.h and src/maliput/api/regions.cc.
`double` is modelled by `ℚ` (no rounding, no NaN, no infinities).
-/
namespace Maliput

/-- `class SRange`, include/maliput/api/regions.h:46-127 (the two private members, lines 125-126). -/
structure SRange where
  s0 : ℚ
  s1 : ℚ
  deriving DecidableEq, Repr

namespace SRange

/-- `SRange::SRange(double s0, double s1)`, src/maliput/api/regions.cc:66-69. -/
def make (s0 s1 : ℚ) : Except Err SRange := do
  throwUnless (decide (s0 ≥ 0))
  throwUnless (decide (s1 ≥ 0))
  return ⟨s0, s1⟩

/-- `SRange::set_s0`, src/maliput/api/regions.cc:71-74. -/
def setS0 (r : SRange) (s0 : ℚ) : Except Err SRange := do
  throwUnless (decide (s0 ≥ 0))
  return { r with s0 := s0 }

/-- `SRange::set_s1`, src/maliput/api/regions.cc:76-79. -/
def setS1 (r : SRange) (s1 : ℚ) : Except Err SRange := do
  throwUnless (decide (s1 ≥ 0))
  return { r with s1 := s1 }

/-- `SRange::size`, include/maliput/api/regions.h:86. -/
def size (r : SRange) : ℚ := |r.s1 - r.s0|

/-- `SRange::WithS`, include/maliput/api/regions.h:91. -/
def withS (r : SRange) : Bool := decide (r.s1 > r.s0)

/-- `SRange::Intersects`, src/maliput/api/regions.cc:81-90. -/
def intersects (r o : SRange) (tol : ℚ) : Except Err Bool := do
  throwUnless (decide (min r.s0 r.s1 ≥ 0) && decide (min o.s0 o.s1 ≥ 0))
  if tol < 0 then
    throwUnless (decide (min r.size o.size / 2 ≥ |tol|))
  let wider ← make (max (min r.s0 r.s1 - tol) 0) (max r.s0 r.s1 + tol)
  return !(decide (max o.s0 o.s1 < wider.s0) || decide (min o.s0 o.s1 > wider.s1))

/-- `SRange::Contains`, src/maliput/api/regions.cc:92-103. -/
def contains (r o : SRange) (tol : ℚ) : Except Err Bool := do
  throwUnless (decide (min r.s0 r.s1 ≥ 0) && decide (min o.s0 o.s1 ≥ 0))
  if tol < 0 then
    throwUnless (decide (min r.size o.size / 2 ≥ |tol|))
  let minRange := max (if r.withS then r.s0 - tol else r.s1 - tol) 0
  let maxRange := if r.withS then r.s1 + tol else r.s0 + tol
  let s1In := decide (o.s1 ≤ maxRange) && decide (o.s1 ≥ minRange)
  let s0In := decide (o.s0 ≤ maxRange) && decide (o.s0 ≥ minRange)
  return s1In && s0In

/-- `SRange::GetIntersection`, src/maliput/api/regions.cc:105-118. -/
def getIntersection (r o : SRange) (tol : ℚ) : Except Err (Option SRange) := do
  if ← r.intersects o tol then
    let wider ← make (max (min r.s0 r.s1 - tol) 0) (max r.s0 r.s1 + tol)
    let mx := if max o.s0 o.s1 ≥ wider.s1 then max r.s0 r.s1 else max o.s0 o.s1
    let mn := if min o.s0 o.s1 ≤ wider.s0 then min r.s0 r.s1 else min o.s0 o.s1
    return some (← make mn mx)
  else
    return none

end SRange

/-- `class LaneSRange`, include/maliput/api/regions.h:130-190.  `LaneId` is a string identifier
(include/maliput/api/type_specific_identifier.h). -/
structure LaneSRange where
  laneId : String
  sRange : SRange
  deriving DecidableEq, Repr

namespace LaneSRange

/-- `LaneSRange::length`, include/maliput/api/regions.h:153. -/
def length (r : LaneSRange) : ℚ := r.sRange.size

/-- `LaneSRange::Intersects`, src/maliput/api/regions.cc:120-122. -/
def intersects (r o : LaneSRange) (tol : ℚ) : Except Err Bool :=
  if r.laneId = o.laneId then r.sRange.intersects o.sRange tol else .ok false

/-- `LaneSRange::Contains`, src/maliput/api/regions.cc:124-126. -/
def contains (r o : LaneSRange) (tol : ℚ) : Except Err Bool :=
  if r.laneId = o.laneId then r.sRange.contains o.sRange tol else .ok false

/-- `LaneSRange::GetIntersection`, src/maliput/api/regions.cc:128-135. -/
def getIntersection (r o : LaneSRange) (tol : ℚ) : Except Err (Option LaneSRange) := do
  if ← r.intersects o tol then
    let i ← r.sRange.getIntersection o.sRange tol
    throwUnless i.isSome
    return i.map (fun s => ⟨r.laneId, s⟩)
  else
    return none

end LaneSRange

/-- `class LaneSRoute`, include/maliput/api/regions.h:200-244. -/
structure LaneSRoute where
  ranges : List LaneSRange
  deriving DecidableEq, Repr

namespace LaneSRoute

/-- `LaneSRoute::length`, include/maliput/api/regions.h:220-223. -/
def length (r : LaneSRoute) : ℚ := r.ranges.foldl (fun acc x => acc + x.length) 0

/-- The loop of `LaneSRoute::Intersects`, src/maliput/api/regions.cc:138-148. -/
def intersectsLoop (o : LaneSRoute) (tol : ℚ) : List LaneSRange → Except Err Bool
  | [] => .ok false
  | r :: rs =>
    match o.ranges.find? (fun x => r.laneId == x.laneId) with
    | some x => do
      if ← r.intersects x tol then return true
      else intersectsLoop o tol rs
    | none => intersectsLoop o tol rs

/-- `LaneSRoute::Intersects`, src/maliput/api/regions.cc:137-149. -/
def intersects (r o : LaneSRoute) (tol : ℚ) : Except Err Bool := intersectsLoop o tol r.ranges

end LaneSRoute

/-- The part of a `RoadGeometry` that `IsIncluded` uses: `ById().GetLane(id)`, `Lane::ToLanePosition`
restricted to the fields that are read (`distance` and `lane_position.s()`), and
`linear_tolerance()`.  The geometry itself is arbitrary. -/
structure IncludeGeometry (Pos : Type) where
  /-- `none` when the lane id is unknown, otherwise (s, distance) of `ToLanePosition`. -/
  toLane : String → Option (Pos → ℚ × ℚ)
  linearTolerance : ℚ

/-- The second loop of `IsIncluded`, src/maliput/api/regions.cc:159-167. -/
def isIncludedLoop {Pos : Type} (g : IncludeGeometry Pos) (p : Pos) : List LaneSRange → Except Err Bool
  | [] => .ok false
  | r :: rs =>
    match g.toLane r.laneId with
    | none => .error .ub   -- dereferences a null Lane*; excluded by the first loop
    | some f =>
      if (f p).2 ≤ g.linearTolerance then do
        let pt ← SRange.make (f p).1 (f p).1
        r.sRange.intersects pt g.linearTolerance
      else isIncludedLoop g p rs

/-- `IsIncluded`, src/maliput/api/regions.cc:151-168 (`road_geometry` is not null). -/
def isIncluded {Pos : Type} (g : IncludeGeometry Pos) (p : Pos) (region : List LaneSRange) :
    Except Err Bool := do
  throwUnless (!region.isEmpty)
  throwUnless (region.all fun r => (g.toLane r.laneId).isSome)
  isIncludedLoop g p region

end Maliput
