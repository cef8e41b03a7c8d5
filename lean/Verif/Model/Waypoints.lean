import Verif.Model.Regions
import Verif.Model.Graph

set_option autoImplicit false

/-!
Model of `RoadGeometry::DoSampleAheadWaypoints`, src/maliput/api/road_geometry.cc.  A `double` is a rational number.
-/
namespace Maliput.Waypoints

open Maliput.RouteGraph (Stop lift)

/-- What the function uses of the road geometry; `P` are the inertial positions. -/
structure RoadGeometry (P : Type) where
  /-- `RoadGeometry::linear_tolerance` -/
  linearTolerance : ℚ
  /-- whether `ById().GetLane(id)` is not null -/
  hasLane : String → Bool
  /-- `Lane::ToInertialPosition` of the lane with this id at `(s, r, h)` -/
  toInertial : String → ℚ × ℚ × ℚ → P

variable {P : Type}

/-- The inner loop, src/maliput/api/road_geometry.cc:234-237: the sampled `s` and the accumulator afterwards.  The
number bounds the evaluations of the condition. -/
def sampleRange (rate s1 : ℚ) : Nat → ℚ → Except Stop (List ℚ × ℚ)
  | 0, _ => .error .depth
  | n + 1, step =>
    if step ≤ s1 then do
      let q ← sampleRange rate s1 n (step + rate)
      return (step :: q.1, q.2)
    else return ([], step)

/-- The outer loop, src/maliput/api/road_geometry.cc:227-239: the waypoints it adds and `previous_s_difference`
afterwards. -/
def sampleRanges (g : RoadGeometry P) (rate : ℚ) (bound : Nat) : List LaneSRange → ℚ → Except Stop (List P × ℚ)
  | [], previous => .ok ([], previous)
  | r :: rs, previous => do
    lift (throwUnless (g.hasLane r.laneId))
    let q ← sampleRange rate r.sRange.s1 bound (previous + r.sRange.s0 + rate)
    let rest ← sampleRanges g rate bound rs (q.2 - r.sRange.s1 - rate)
    return (q.1.map (fun s => g.toInertial r.laneId (s, 0, 0)) ++ rest.1, rest.2)

/-- `RoadGeometry::DoSampleAheadWaypoints`, src/maliput/api/road_geometry.cc:213-246.  `bound` bounds the iterations of
the inner loop; `front()` of an empty vector is undefined behaviour. -/
def sampleAheadWaypoints (g : RoadGeometry P) (bound : Nat) (route : LaneSRoute) (rate : ℚ) :
    Except Stop (List P) := do
  lift (throwUnless (decide (rate > 0)))
  let rate := max g.linearTolerance (min rate route.length)
  match route.ranges with
  | [] => .error (.err .ub)
  | first :: rest => do
    lift (throwUnless (g.hasLane first.laneId))
    let q ← sampleRanges g rate bound (first :: rest) 0
    let waypoints := g.toInertial first.laneId (first.sRange.s0, 0, 0) :: q.1
    if |q.2| > g.linearTolerance then do
      let last := (first :: rest).getLast (List.cons_ne_nil _ _)
      lift (throwUnless (g.hasLane last.laneId))
      return waypoints ++ [g.toInertial last.laneId (last.sRange.s1, 0, 0)]
    else return waypoints

end Maliput.Waypoints
