import Verif.Model.GeometryBase
import Verif.Model.RoadMesh

set_option autoImplicit false

/-!
# Containment

`Lane::Contains` (src/maliput/api/lane.cc) and `RoadNetwork` (src/maliput/api/road_network.cc).  What a lane of a backend
answers is a parameter; it may throw.
-/
namespace Maliput.Contains

open Maliput.RoadMesh (RBounds HBounds Srh)

/-- `Lane`, src/maliput/api/lane.cc:72-92, as what `Contains` asks it: its `length`, `segment_bounds`, `elevation_bounds`, and the
`linear_tolerance` of its road geometry, src/maliput/api/lane.cc:147, undefined for a lane that is not in one. -/
structure Lane where
  length : ℚ
  segmentBounds : ℚ → Except Err RBounds
  elevationBounds : ℚ → ℚ → Except Err HBounds
  tolerance : Except Err ℚ

/-- `IsWithinRange`, src/maliput/api/lane.cc:41-43. -/
def isWithinRange (x min max tolerance : ℚ) : Bool := decide (min - tolerance ≤ x) && decide (x ≤ max + tolerance)

/-- `Lane::Contains`, src/maliput/api/lane.cc:138-152. -/
def Lane.contains (l : Lane) (p : Srh) : Except Err Bool := do
  let segmentBounds ← l.segmentBounds p.s
  let elevationBounds ← l.elevationBounds p.s p.r
  let tolerance ← l.tolerance
  pure (isWithinRange p.s 0 l.length tolerance && isWithinRange p.r segmentBounds.min segmentBounds.max tolerance &&
    isWithinRange p.h elevationBounds.min elevationBounds.max tolerance)

/-- Which of the pointers given to the constructors of src/maliput/api/road_network.cc:42-89 are not null. -/
structure Parts where
  roadGeometry : Bool
  rulebook : Bool
  trafficLightBook : Bool
  intersectionBook : Bool
  phaseRingBook : Bool
  rightOfWayRuleStateProvider : Bool
  phaseProvider : Bool
  ruleRegistry : Bool
  discreteValueRuleStateProvider : Bool
  rangeValueRuleStateProvider : Bool
deriving DecidableEq

/-- `RoadNetwork::RoadNetwork`, src/maliput/api/road_network.cc:62-89: none of the pointers may be null. -/
def construct (p : Parts) : Except Err Unit := do
  throwUnless p.roadGeometry
  throwUnless p.rulebook
  throwUnless p.trafficLightBook
  throwUnless p.intersectionBook
  throwUnless p.phaseRingBook
  throwUnless p.phaseProvider
  throwUnless p.ruleRegistry
  throwUnless p.discreteValueRuleStateProvider
  throwUnless p.rangeValueRuleStateProvider

/-- `RoadNetwork::RoadNetwork` with a right of way provider (deprecated), src/maliput/api/road_network.cc:42-59. -/
def constructDeprecated (p : Parts) : Except Err Unit := do
  construct p
  throwUnless p.rightOfWayRuleStateProvider

/-- A road network: the objects of its road geometry, and what the lane at each address answers. -/
structure Network where
  world : Build.World
  lane : Nat → Lane

/-- `RoadPosition`, include/maliput/api/lane_data.h:323-337: the lane may be null. -/
structure RoadPosition where
  lane : Option Lane
  pos : Srh

/-- `RoadNetwork::Contains`, src/maliput/api/road_network.cc:91-93: the network is not used. -/
def Network.containsPosition (_ : Network) (p : RoadPosition) : Except Err Bool :=
  match p.lane with
  | none => .error .ub
  | some l => l.contains p.pos

/-- `RoadNetwork::Contains`, src/maliput/api/road_network.cc:95-97. -/
def Network.containsLane (n : Network) (id : String) : Bool := (Build.getLane n.world id).isSome

end Maliput.Contains
