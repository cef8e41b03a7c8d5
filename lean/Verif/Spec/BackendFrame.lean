import Verif.Model.BackendFrame

set_option autoImplicit false

/-! What the two frames mean. -/
namespace Maliput.Spec
open Maliput.Frame

/-- A position answer `r` for the point `x` on a set of points, each with its lane position: it is the nearest point, with its lane
position and its distance. -/
structure NearestPosition (distance : Vec ℚ → Vec ℚ → ℚ) (at_ : Vec ℚ → Vec ℚ → Prop) (x : Vec ℚ) (r : PositionResult ℚ) : Prop where
  on : at_ r.lanePosition r.nearestPosition
  distance_eq : r.distance = distance x r.nearestPosition
  least : ∀ p y, at_ p y → r.distance ≤ distance x y

/-- The result of a road position query, seen from a frame whose origin is at `-t`. -/
def movedBy {L : Type} (t : Vec ℚ) (r : Strategy.RoadPositionResult L) : Strategy.RoadPositionResult L :=
  { r with nearest := fun i => r.nearest i + t i }

end Maliput.Spec
