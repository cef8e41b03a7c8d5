import Mathlib.Algebra.BigOperators.Group.List.Basic
import Verif.Model.LaneSequences

set_option autoImplicit false

/-! Lane sequences, U-turns and lane-s routes over a lane graph. -/
namespace Maliput.Routing
open Maliput.Topo

/-- A lane graph as a road geometry provides it: finite, distinct ids, lengths that are not negative,
branches lead to lanes of the road geometry. -/
structure LaneGraph.WellFormed (g : LaneGraph) : Prop where
  lanesNodup : g.lanes.Nodup
  closed : ∀ l ∈ g.lanes, ∀ w, ∀ le ∈ g.ongoing ⟨l, w⟩, le.lane ∈ g.lanes
  idInjective : ∀ a ∈ g.lanes, ∀ b ∈ g.lanes, g.id a = g.id b → a = b
  lengthNonneg : ∀ l, 0 ≤ g.length l

/-- `b` can be reached through an ongoing branch of one of the ends of `a`. -/
def Follows (g : LaneGraph) (a b : Nat) : Prop := ∃ w w', (⟨b, w'⟩ : LaneEnd) ∈ g.ongoing ⟨a, w⟩

/-- The lane sequences of the documentation of `FindLaneSequences`. -/
structure IsLaneSequence (g : LaneGraph) (start end_ : Nat) (maxLength : ℚ) (p : List Nat) : Prop where
  first : p.head? = some start
  last : p.getLast? = some end_
  connected : p.IsChain (Follows g)
  nodup : p.Nodup
  /-- the lanes between the first and the last -/
  bounded : (p.tail.dropLast.map g.length).sum ≤ maxLength

/-- Going from `a` to `b` one enters `b` through the end `w`. -/
def Enters (g : LaneGraph) (a b : Nat) (w : Which) : Prop := ∃ w', (⟨b, w⟩ : LaneEnd) ∈ g.ongoing ⟨a, w'⟩

/-- Going from `b` to `c` one leaves `b` through the end `w`. -/
def Leaves (g : LaneGraph) (b c : Nat) (w : Which) : Prop := ∃ w', (⟨c, w'⟩ : LaneEnd) ∈ g.ongoing ⟨b, w⟩

/-- Some intermediate lane of `p` is entered and left through the same end. -/
def UTurn (g : LaneGraph) (p : List Nat) : Prop :=
  ∃ i a b c w, p[i]? = some a ∧ p[i + 1]? = some b ∧ p[i + 2]? = some c ∧ Enters g a b w ∧ Leaves g b c w

/-- No lane is joined to the same lane at both of its ends. -/
def NoDoubleJoin (g : LaneGraph) : Prop :=
  ∀ a b, ¬ ((∃ w, (⟨b, w⟩ : LaneEnd) ∈ g.ongoing ⟨a, .start⟩) ∧ (∃ w, (⟨b, w⟩ : LaneEnd) ∈ g.ongoing ⟨a, .finish⟩))

/-- Every connection joins the finish of a lane with the start of another. -/
def UniformDirection (g : LaneGraph) : Prop := ∀ le, ∀ le' ∈ g.ongoing le, le'.which ≠ le.which

/-- Ongoing branches are symmetric (see `branchPoint_consistent`). -/
def SymmetricBranches (g : LaneGraph) : Prop := ∀ le, ∀ le' ∈ g.ongoing le, le ∈ g.ongoing le'

/-- The s-coordinate of a lane end. -/
def endS (g : LaneGraph) (le : LaneEnd) : ℚ :=
  match le.which with
  | .start => 0
  | .finish => g.length le.lane

/-- Consecutive ranges meet at lane ends that are joined by an ongoing branch. -/
def Meet (g : LaneGraph) (p : List Nat) (ranges : List LaneSRange) : Prop :=
  ∀ i a b ra rb, p[i]? = some a → p[i + 1]? = some b → ranges[i]? = some ra → ranges[i + 1]? = some rb →
    ∃ w w', (⟨b, w'⟩ : LaneEnd) ∈ g.ongoing ⟨a, w⟩ ∧
      ra.sRange.s1 = endS g ⟨a, w⟩ ∧ rb.sRange.s0 = endS g ⟨b, w'⟩

/-- The route drives along the lane sequence `p` from `startS` on the first to `endS` on the last lane. -/
structure RouteAlong (g : LaneGraph) (startS lastS : ℚ) (p : List Nat) (route : LaneSRoute) : Prop where
  lanes : route.ranges.map LaneSRange.laneId = p.map g.id
  first : ∃ r, route.ranges.head? = some r ∧ r.sRange.s0 = startS
  last : ∃ r, route.ranges.getLast? = some r ∧ r.sRange.s1 = lastS
  meet : Meet g p route.ranges

end Maliput.Routing
