import Verif.Model.Regions

set_option autoImplicit false

/-!
Specification of s-ranges as sets of s values, independent of how the code computes.
-/
namespace Maliput.Spec

/-- `s` lies on the directed range from `s0` to `s1`, whichever of the two is larger. -/
def Covers (r : SRange) (s : ℚ) : Prop := (r.s0 ≤ s ∧ s ≤ r.s1) ∨ (r.s1 ≤ s ∧ s ≤ r.s0)

/-- The ranges a user can hold: both ends are non-negative. -/
def ValidRange (r : SRange) : Prop := 0 ≤ r.s0 ∧ 0 ≤ r.s1

/-- Some point of `a` and some point of `b` are at most `tol` apart. -/
def CloseRanges (a b : SRange) (tol : ℚ) : Prop := ∃ x y, Covers a x ∧ Covers b y ∧ |x - y| ≤ tol

/-- `a` and `b` share an interval of length `len`. -/
def ShareLength (a b : SRange) (len : ℚ) : Prop :=
  ∃ x, Covers a x ∧ Covers b x ∧ Covers a (x + len) ∧ Covers b (x + len)

/-- Every point of `b` has a point of `a` at most `tol` away. -/
def CoversAllOf (a b : SRange) (tol : ℚ) : Prop := ∀ y, Covers b y → ∃ x, Covers a x ∧ |x - y| ≤ tol

/-- The range written the other way round. -/
def flip (r : SRange) : SRange := ⟨r.s1, r.s0⟩

/-- Two lane ranges are on the same lane and come within `tol` of each other. -/
def CloseLaneRanges (a b : LaneSRange) (tol : ℚ) : Prop :=
  a.laneId = b.laneId ∧ CloseRanges a.sRange b.sRange tol

/-- Two routes overlap: some lane range of one is close to some lane range of the other. -/
def RoutesOverlap (a b : LaneSRoute) (tol : ℚ) : Prop :=
  ∃ x ∈ a.ranges, ∃ y ∈ b.ranges, CloseLaneRanges x y tol

/-- All the ranges of a route are valid. -/
def ValidRoute (r : LaneSRoute) : Prop := ∀ x ∈ r.ranges, ValidRange x.sRange

/-- A position belongs to a region: for some range of the region its lane is within the linear
tolerance of the position and the `s` it maps to is within the tolerance of the range. -/
def InRegion {Pos : Type} (g : IncludeGeometry Pos) (p : Pos) (region : List LaneSRange) : Prop :=
  ∃ r ∈ region, ∃ f, g.toLane r.laneId = some f ∧ (f p).2 ≤ g.linearTolerance ∧
    ∃ x, Covers r.sRange x ∧ |x - (f p).1| ≤ g.linearTolerance

end Maliput.Spec
