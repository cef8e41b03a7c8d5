import Verif.Model.BoundingBox

set_option autoImplicit false

/-! Oriented boxes as sets of points. -/
namespace Maliput.Quat.Spec

open Maliput.Linear

/-- The vector is in the box of the size `size` about the origin whose sides are moved outwards by `slack`. -/
def Within (size : V3) (slack : ℝ) (u : V3) : Prop :=
  |u.x| ≤ size.x / 2 + slack ∧ |u.y| ≤ size.y / 2 + slack ∧ |u.z| ≤ size.z / 2 + slack

/-- The vector is a corner of the box of the size `size` about the origin. -/
def Corner (size : V3) (u : V3) : Prop :=
  (u.x = size.x / 2 ∨ u.x = -(size.x / 2)) ∧ (u.y = size.y / 2 ∨ u.y = -(size.y / 2)) ∧
  (u.z = size.z / 2 ∨ u.z = -(size.z / 2))

/-- The point with the coordinates `u` in the frame of the box: the matrix of the orientation takes differences in the
inertial frame to the frame of the box, so its transpose takes `u` to the inertial frame. -/
noncomputable def BoundingBox.point (b : BoundingBox) (u : V3) : V3 :=
  b.position.add (b.orientation.toMatrix.transpose.mulVec u)

/-- `p` is a point of the box whose sides are moved outwards by `slack`. -/
def BoundingBox.Mem (b : BoundingBox) (slack : ℝ) (p : V3) : Prop :=
  ∃ u, Within b.boxSize slack u ∧ p = BoundingBox.point b u

/-- `p` is a point of the box as it is documented: `orientation` is that of the box in the inertial frame, so that its
matrix takes `u` to the inertial frame. -/
def BoundingBox.DocumentedMem (b : BoundingBox) (p : V3) : Prop :=
  ∃ u, Within b.boxSize 0 u ∧ p = b.position.add (b.orientation.toMatrix.mulVec u)

end Maliput.Quat.Spec
