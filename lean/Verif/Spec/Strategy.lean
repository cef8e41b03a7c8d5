import Verif.Model.Strategy

set_option autoImplicit false

/-! What road position queries mean. -/
namespace Maliput.Spec
open Maliput.Strategy

variable {L : Type}

/-- The lanes of the road geometry, junction by junction, segment by segment. -/
def allLanes (g : Geometry L) : List L := g.junctions.flatten.flatten

/-- The distance of a lane to a position. -/
def laneDistance (g : Geometry L) (pos : Pos) (l : L) : ℚ := (g.toLanePosition l pos).distance

/-- `x` reports, for its lane, what the lane says about `pos`. -/
def Faithful (g : Geometry L) (pos : Pos) (x : RoadPositionResult L) : Prop :=
  (⟨x.s, x.r, x.h, x.nearest, x.distance⟩ : LanePositionResult) = g.toLanePosition x.lane pos

/-- The position of the result is between the lane bounds (left bound excluded). -/
def InLaneBounds (g : Geometry L) (x : RoadPositionResult L) : Prop :=
  (g.laneBounds x.lane x.s).1 ≤ x.r ∧ x.r < (g.laneBounds x.lane x.s).2

/-- `x` is to be preferred to `y`, or as good: it is closer; or as close and inside its lane bounds while
`y` is not; or equal in both and at most as far from the centerline. -/
def AtLeastAsGood (g : Geometry L) (x y : RoadPositionResult L) : Prop :=
  x.distance < y.distance ∨ x.distance = y.distance ∧
    ((InLaneBounds g x ∧ ¬ InLaneBounds g y) ∨ ((InLaneBounds g x ↔ InLaneBounds g y) ∧ |x.r| ≤ |y.r|))

/-- Distances of lanes are equal or differ by more than the threshold of the comparison. -/
def Separated (g : Geometry L) (pos : Pos) (lanes : List L) : Prop :=
  ∀ l ∈ lanes, ∀ m ∈ lanes, laneDistance g pos l = laneDistance g pos m ∨
    kEps < |laneDistance g pos l - laneDistance g pos m|

/-- Every lane has a sample point in the cube around `pos` with half edge the distance of the lane plus two
sampling steps. -/
def DenseSamples (g : Geometry L) (lanes : List L) (step : ℚ) (pos : Pos) : Prop :=
  ∀ l ∈ lanes, ∃ p ∈ samplePoints g lanes step, p.2 = l ∧ ∀ i, |p.1 i - pos i| ≤ laneDistance g pos l + 2 * step

/-- Sample points are on their lanes: the distance of the lane is at most the distance to the point. -/
def SamplesOnLanes (g : Geometry L) (norm : Pos → ℚ) (lanes : List L) (step : ℚ) (pos : Pos) : Prop :=
  ∀ p ∈ samplePoints g lanes step, laneDistance g pos p.2 ≤ norm (fun i => pos i - p.1 i)

/-- A lane of constant width whose map from (s, r) to space does not stretch distances, seen from `pos`: the
closest point of the lane has lane coordinates inside the lane. -/
def FlatLane (g : Geometry L) (pos : Pos) (l : L) : Prop :=
  0 ≤ (g.toLanePosition l pos).s ∧ (g.toLanePosition l pos).s ≤ g.length l ∧
  ∃ lo hi, (∀ s, g.laneBounds l s = (lo, hi)) ∧
    lo ≤ (g.toLanePosition l pos).r ∧ (g.toLanePosition l pos).r ≤ hi ∧
    ∀ s r i, |g.toInertialPosition l s r i - pos i| ≤
      laneDistance g pos l + |s - (g.toLanePosition l pos).s| + |r - (g.toLanePosition l pos).r|

end Maliput.Spec
