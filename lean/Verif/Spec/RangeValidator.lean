import Mathlib.Algebra.Order.Group.Unbundled.Abs
import Verif.Model.RangeValidator

set_option autoImplicit false

/-!
Specification of the range validator: sets of numbers and distances.
-/
namespace Maliput.RangeValidator.Spec

/-- The validators a user can obtain. -/
def Constructed (v : RangeValidator) : Prop :=
  ∃ min max tolerance epsilon,
    getRelative min max tolerance epsilon = .ok v ∨ getAbsolute min max tolerance epsilon = .ok v

/-- `s` is in the range extended by the tolerance. -/
def Accepted (v : RangeValidator) (s : ℚ) : Prop := v.min - v.tolerance ≤ s ∧ s ≤ v.max + v.tolerance

/-- `x` is at least `epsilon` away from both ends, inside the range. -/
def Inner (v : RangeValidator) (x : ℚ) : Prop := v.min + v.epsilon ≤ x ∧ x ≤ v.max - v.epsilon

/-- `x` is the number of the inner range that is closest to `s`. -/
def Closest (v : RangeValidator) (s x : ℚ) : Prop := Inner v x ∧ ∀ y, Inner v y → |s - x| ≤ |s - y|

end Maliput.RangeValidator.Spec
