import Verif.Model.AxisAlignedBox

set_option autoImplicit false

/-! Boxes as sets of points. -/
namespace Maliput.Spec

/-- `p` is a point of the box whose sides are moved outwards by `t`. -/
def InBox (b : AxisAlignedBox) (t : ℚ) (p : Vec3) : Prop :=
  ∀ i, (b.minCorner i).add (-t) ≤ p i ∧ p i ≤ (b.maxCorner i).add t

/-- `p` is a point of the box. -/
def Mem (b : AxisAlignedBox) (p : Vec3) : Prop := ∀ i, b.minCorner i ≤ p i ∧ p i ≤ b.maxCorner i

/-- The boxes a user can hold (what the constructor accepts). -/
def ValidBox (b : AxisAlignedBox) : Prop := 0 ≤ b.tolerance ∧ ∀ i, b.minCorner i ≤ b.maxCorner i

end Maliput.Spec
