import Verif.Model.Route
import Verif.Spec.Regions
import Verif.Spec.Router

set_option autoImplicit false

/-!
What one expects of routes and of their phases: places of ranges, sides, and ways through a route.
-/
namespace Maliput.Route.Spec
open Maliput.Router (RoadNet RoadPos Phase)
open Maliput.Strategy (Pos)
open Maliput.Spec

/-- The phase was obtained from the constructor. -/
def BuiltPhase (net : RoadNet) (p : Phase) : Prop :=
  ∃ index tol starts ends ranges, Phase.make net index tol starts ends ranges = .ok p

/-- The route was obtained from the constructors of phases and routes. -/
def Built (net : RoadNet) (route : List Phase) : Prop := route ≠ [] ∧ ∀ p ∈ route, BuiltPhase net p

/-- Two lanes are next to each other, `b` on the left of `a`. -/
def LeftOf (net : RoadNet) (a b : Nat) : Prop := net.toLeft a = some b ∧ net.toRight b = some a

/-- `r` is the range at the place `j` of the phase number `i`. -/
def RangeAt (route : List Phase) (i j : Nat) (r : LaneSRange) : Prop :=
  ∃ p, route[i]? = some p ∧ p.ranges[j]? = some r

/-- `x` covers `r`, up to the tolerance. -/
def Holds (tol : ℚ) (x r : LaneSRange) : Prop := x.laneId = r.laneId ∧ CoversAllOf x.sRange r.sRange tol

/-- Some range of the route covers `r`. -/
def PartOf (tol : ℚ) (route : List Phase) (r : LaneSRange) : Prop := ∃ i j x, RangeAt route i j x ∧ Holds tol x r

/-- The first range of the route that covers `r` is the range `x` at the place `j` of the phase number `i`. -/
structure FirstPlace (tol : ℚ) (route : List Phase) (r : LaneSRange) (i j : Nat) (x : LaneSRange) : Prop where
  there : RangeAt route i j x
  holds : Holds tol x r
  first : ∀ i' j' y, RangeAt route i' j' y → Holds tol y r → i < i' ∨ (i = i' ∧ j ≤ j')

/-- No range of the route covers another one of its ranges. -/
def Distinct (tol : ℚ) (route : List Phase) : Prop :=
  ∀ i j x i' j' y, RangeAt route i j x → RangeAt route i' j' y → Holds tol x y → i = i' ∧ j = j'

/-- Two points are at most the tolerance apart. -/
def Near (tol : ℚ) (p q : Pos) : Prop :=
  0 ≤ tol ∧ (q 0 - p 0) ^ 2 + (q 1 - p 1) ^ 2 + (q 2 - p 2) ^ 2 ≤ tol ^ 2

/-- The first and the last point of a range, in the middle of its lane. -/
def FirstPoint (net : RoadNet) (x : LaneSRange) (q : RoadPos) : Prop :=
  ∃ l, net.byId x.laneId = some l ∧ q = ⟨l, x.sRange.s0, 0, 0⟩
def LastPoint (net : RoadNet) (x : LaneSRange) (q : RoadPos) : Prop :=
  ∃ l, net.byId x.laneId = some l ∧ q = ⟨l, x.sRange.s1, 0, 0⟩

/-- The range `x` ends where the range `y` begins. -/
def LeadsTo (net : RoadNet) (geo : Geo) (x y : LaneSRange) : Prop :=
  ∃ p q, LastPoint net x p ∧ FirstPoint net y q ∧ Near geo.tol (geo.toInertial p) (geo.toInertial q)

/-- The point `b` is on the left of a traveller at `a`: the determinant of the direction of travel, of the
vector from `a` to `b` and of the upward direction is positive. -/
def OnTheLeft (geo : Geo) (a b : RoadPos) : Prop :=
  let s := geo.sHat a
  let h := geo.hHat a
  let d := fun k => geo.toInertial b k - geo.toInertial a k
  0 < (s 1 * d 2 - s 2 * d 1) * h 0 + (s 2 * d 0 - s 0 * d 2) * h 1 + (s 0 * d 1 - s 1 * d 0) * h 2

/-- How the range at a place is related to that at another place; `x` and `y` are the two ranges.
The ranges of a phase are numbered from right to left. -/
def RelatedBy (net : RoadNet) (geo : Geo) (i j : Nat) (x : LaneSRange) (k l : Nat) (y : LaneSRange) : Relation → Prop
  | .coincident => i = k ∧ j = l
  | .adjacentLeft => i = k ∧ l = j + 1
  | .adjacentRight => i = k ∧ j = l + 1
  | .left => i = k ∧ l > j + 1
  | .right => i = k ∧ j > l + 1
  | .succeedingStraight => k = i + 1 ∧ ∃ p q, LastPoint net x p ∧ FirstPoint net y q ∧
      Near geo.tol (geo.toInertial p) (geo.toInertial q)
  | .succeedingLeft => k = i + 1 ∧ ∃ p q, LastPoint net x p ∧ FirstPoint net y q ∧
      ¬Near geo.tol (geo.toInertial p) (geo.toInertial q) ∧ OnTheLeft geo p q
  | .succeedingRight => k = i + 1 ∧ ∃ p q, LastPoint net x p ∧ FirstPoint net y q ∧
      ¬Near geo.tol (geo.toInertial p) (geo.toInertial q) ∧ ¬OnTheLeft geo p q
  | .precedingStraight => i = k + 1 ∧ ∃ p q, FirstPoint net x p ∧ LastPoint net y q ∧
      Near geo.tol (geo.toInertial p) (geo.toInertial q)
  | .precedingLeft => i = k + 1 ∧ ∃ p q, FirstPoint net x p ∧ LastPoint net y q ∧
      ¬Near geo.tol (geo.toInertial p) (geo.toInertial q) ∧ OnTheLeft geo p q
  | .precedingRight => i = k + 1 ∧ ∃ p q, FirstPoint net x p ∧ LastPoint net y q ∧
      ¬Near geo.tol (geo.toInertial p) (geo.toInertial q) ∧ ¬OnTheLeft geo p q
  | .unrelated => k > i + 1 ∨ i > k + 1
  | .unknown => False

/-- The relation seen from the other range, within a phase. -/
def swapSides : Relation → Relation
  | .left => .right
  | .right => .left
  | .adjacentLeft => .adjacentRight
  | .adjacentRight => .adjacentLeft
  | r => r

/-- Two ranges next to each other in a phase. -/
def Beside (route : List Phase) (x y : LaneSRange) : Prop :=
  ∃ i j, (RangeAt route i j x ∧ RangeAt route i (j + 1) y) ∨ (RangeAt route i (j + 1) x ∧ RangeAt route i j y)

/-- Two ranges of consecutive phases. -/
def InNextPhase (route : List Phase) (x y : LaneSRange) : Prop :=
  ∃ i j k, RangeAt route i j x ∧ RangeAt route (i + 1) k y

/-- The lane-s range that is just the point of a position. -/
def pointOf (net : RoadNet) (q : RoadPos) : LaneSRange := ⟨net.laneId q.lane, ⟨q.s, q.s⟩⟩

/-- The position where the route ends. -/
def EndOf (route : List Phase) (e : RoadPos) : Prop :=
  ∃ p, route.getLast? = some p ∧ p.endPositions.head? = some e

/-- The backends return positions that are on the lane. -/
def LanePositionsInRange (net : RoadNet) (geo : Geo) : Prop :=
  ∀ l pos, 0 ≤ (geo.geometry.toLanePosition l pos).s ∧ (geo.geometry.toLanePosition l pos).s ≤ net.length l

/-- The ids of lanes and the lanes found by id agree. -/
def IdsAgree (net : RoadNet) : Prop := ∀ id l, net.byId id = some l → net.laneId l = id

/-- `s` is on the range, up to the tolerance. -/
def OnRange (tol : ℚ) (r : LaneSRange) (s : ℚ) : Prop := ∃ x, Covers r.sRange x ∧ |x - s| ≤ tol

/-- The distance that counts for a range: where the lane's nearest position is on the range, its distance;
otherwise the distance to the middle of the lane at the end of the range that is closer along the lane. -/
def RangeDistance (net : RoadNet) (geo : Geo) (tol : ℚ) (pos : Pos) (r : LaneSRange) (d : ℚ) : Prop :=
  ∃ l, net.byId r.laneId = some l ∧
    let near := geo.geometry.toLanePosition l pos
    (OnRange tol r near.s ∧ d = near.distance ∨
      ¬OnRange tol r near.s ∧ ∃ s, (s = r.sRange.s0 ∨ s = r.sRange.s1) ∧
        (∀ x, Covers r.sRange x → |near.s - s| ≤ |near.s - x|) ∧ d = geo.distance (geo.toInertial ⟨l, s, 0, 0⟩) pos)

/-- A range is on a lane of the network, up to the tolerance. -/
def InNetwork (net : RoadNet) (tol : ℚ) (r : LaneSRange) : Prop :=
  ∃ l, net.byId r.laneId = some l ∧ 0 ≤ net.length l ∧ CoversAllOf ⟨0, net.length l⟩ r.sRange tol

/-- A position is on one of the ranges, up to the tolerance. -/
def InRanges (net : RoadNet) (tol : ℚ) (ranges : List LaneSRange) (q : RoadPos) : Prop :=
  0 ≤ q.s ∧ ∃ r ∈ ranges, r.laneId = net.laneId q.lane ∧ OnRange tol r q.s

/-- The lane of `b` is the one on the left of the lane of `a`. -/
def HasOnLeft (net : RoadNet) (a b : LaneSRange) : Prop :=
  ∃ la lb, net.byId a.laneId = some la ∧ net.byId b.laneId = some lb ∧ LeftOf net la lb

/-- Ranges ordered from right to left, and from left to right. -/
def RightToLeft (net : RoadNet) (ranges : List LaneSRange) : Prop := ranges.IsChain (HasOnLeft net)
def LeftToRight (net : RoadNet) (ranges : List LaneSRange) : Prop := ranges.IsChain (fun a b => HasOnLeft net b a)

/-- `to_left` and `to_right` agree. -/
def SidesAgree (net : RoadNet) : Prop := ∀ a b, net.toLeft a = some b ↔ net.toRight b = some a

/-- Mapping a position in the middle of a lane to the inertial frame and back gives the same `s`. -/
def RoundTrip (geo : Geo) : Prop :=
  ∀ l s, (geo.geometry.toLanePosition l (geo.toInertial ⟨l, s, 0, 0⟩)).s = s

end Maliput.Route.Spec
