import Verif.Model.Router
import Verif.Spec.Graph

set_option autoImplicit false

/-! What one expects of a route. -/
namespace Maliput.Router
open Maliput.RouteGraph
open Maliput.Topo (Which LaneEnd)

/-- The route starts at the position. -/
def StartsAt (route : List Phase) (p : RoadPos) : Prop := ∃ f, route.head? = some f ∧ f.startPositions = [p]

/-- The route ends at the position. -/
def EndsAt (route : List Phase) (p : RoadPos) : Prop := ∃ l, route.getLast? = some l ∧ l.endPositions = [p]

/-- The cost of a phase: the length of its shortest range. -/
def IsCost (p : Phase) (c : ℚ) : Prop := (∃ r ∈ p.ranges, r.length = c) ∧ ∀ r ∈ p.ranges, c ≤ r.length

/-- A position is on one of the ranges. -/
def OnRanges (net : RoadNet) (tol : ℚ) (ranges : List LaneSRange) (q : RoadPos) : Prop :=
  ∃ r ∈ ranges, r.laneId = net.laneId q.lane ∧ min r.sRange.s0 r.sRange.s1 - tol ≤ q.s ∧
    q.s ≤ max r.sRange.s0 r.sRange.s1 + tol

/-- `s` is, up to the tolerance, where the position `q` is on a lane of the given length if the lane of `q` is
scaled to that length. -/
def Level (net : RoadNet) (tol : ℚ) (q : RoadPos) (length s : ℚ) : Prop :=
  |s - max 0 (min (q.s / net.length q.lane * length) length)| ≤ tol

/-- A phase along a segment: one range per lane, within the lane, with the start and end positions on them;
the ranges lead from the level of the first start position to the level of the first end position. -/
structure AlongSegment (net : RoadNet) (tol : ℚ) (seg : Nat) (p : Phase) : Prop where
  lanes : p.ranges.map LaneSRange.laneId = (net.segLanes seg).map net.laneId
  inside : ∀ r ∈ p.ranges, ∃ l, net.byId r.laneId = some l ∧ 0 ≤ r.sRange.s0 ∧ 0 ≤ r.sRange.s1 ∧
    r.sRange.s0 ≤ net.length l + tol ∧ r.sRange.s1 ≤ net.length l + tol
  starts : ∀ q ∈ p.startPositions, net.laneSeg q.lane = seg ∧ OnRanges net tol p.ranges q
  ends : ∀ q ∈ p.endPositions, net.laneSeg q.lane = seg ∧ OnRanges net tol p.ranges q
  spans : ∃ a b, p.startPositions.head? = some a ∧ p.endPositions.head? = some b ∧
    List.Forall₂ (fun l r => Level net tol a (net.length l) r.sRange.s0 ∧ Level net tol b (net.length l) r.sRange.s1)
      (net.segLanes seg) p.ranges

/-- The position is in the middle of an end of its lane, at which a lane of the segment begins or ends. -/
def AtInterface (net : RoadNet) (seg : Nat) (q : RoadPos) : Prop :=
  ∃ w : Which, q.s = (match w with | .start => 0 | .finish => net.length q.lane) ∧ q.r = 0 ∧ q.h = 0 ∧
    ∃ le, (le ∈ net.ongoing ⟨q.lane, w⟩ ∨ le ∈ net.confluent ⟨q.lane, w⟩) ∧ net.laneSeg le.lane = seg

/-- Every end position of the one phase continues at a start position of the next: geometrically, and on the
same lane or through an ongoing branch of the nearest end of the lane. -/
def Linked (net : RoadNet) (a b : Phase) : Prop :=
  a.endPositions.length = b.startPositions.length ∧
    ∀ e ∈ a.endPositions, ∃ p ∈ b.startPositions, net.close e p = true ∧
      (p.lane = e.lane ∨
        ∃ le ∈ net.ongoing ⟨e.lane, if e.s ≤ net.length e.lane - e.s then .start else .finish⟩, le.lane = p.lane)

/-- One can drive from the one lane onto the other. -/
def Joined (net : RoadNet) (l l' : Nat) : Prop := ∃ w w', (⟨l', w'⟩ : LaneEnd) ∈ net.ongoing ⟨l, w⟩

/-- The route can be driven without a lane switch: one lane per phase, each joined to the next, from the lane
of the start to the lane of the end. -/
def NoSwitch (net : RoadNet) (route : List Phase) (start end_ : RoadPos) : Prop :=
  ∃ lanes : List Nat, List.Forall₂ (fun l p => ∃ r ∈ p.ranges, r.laneId = net.laneId l) lanes route ∧
    lanes.head? = some start.lane ∧ lanes.getLast? = some end_.lane ∧ lanes.IsChain (Joined net)

/-- Lanes of the segment that, at the given end, have a branch of the given kind on the other segment. -/
def lanesTowards (net : RoadNet) (branches : LaneEnd → List LaneEnd) (s : Nat) (w : Which) (t : Nat) : List Nat :=
  (net.segLanes s).filter (fun l => (branches ⟨l, w⟩).any (fun le => decide (net.laneSeg le.lane = t)))

/-- The lanes of joined segments are joined in order, and joined segments are nowhere confluent. -/
structure InOrder (net : RoadNet) : Prop where
  pairs : ∀ s t w v, s ≠ t → lanesTowards net net.ongoing s w t ≠ [] → lanesTowards net net.ongoing t v s ≠ [] →
    List.Forall₂ (Joined net) (lanesTowards net net.ongoing s w t) (lanesTowards net net.ongoing t v s)
  unmixed : ∀ s t w v, s ≠ t → lanesTowards net net.ongoing s w t ≠ [] →
    lanesTowards net net.confluent s v t = [] ∧ lanesTowards net net.confluent t v s = []

end Maliput.Router
