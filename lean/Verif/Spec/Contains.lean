import Verif.Model.Contains
import Verif.Spec.GeometryBase
import Mathlib.Algebra.Order.Group.Unbundled.Abs

set_option autoImplicit false

/-! What it means for a position to be in a lane. -/
namespace Maliput.Contains.Spec

open Maliput.RoadMesh (RBounds HBounds Srh)

/-- A position in the volume of the lane, whose bounds are taken at the position `p`. -/
def InVolume (length : ℚ) (r : RBounds) (h : HBounds) (p : Srh) : Prop :=
  (0 ≤ p.s ∧ p.s ≤ length) ∧ (r.min ≤ p.r ∧ p.r ≤ r.max) ∧ (h.min ≤ p.h ∧ p.h ≤ h.max)

/-- Two positions of a lane that differ by at most `tol` in every coordinate. -/
def Near (tol : ℚ) (p q : Srh) : Prop := |p.s - q.s| ≤ tol ∧ |p.r - q.r| ≤ tol ∧ |p.h - q.h| ≤ tol

/-- The lane is in the road geometry of the network. -/
def HasLaneAt (n : Network) (l : Nat) : Prop := Build.HasLane n.world l

end Maliput.Contains.Spec
