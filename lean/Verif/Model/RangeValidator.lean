import Mathlib.Data.Rat.Defs
import Mathlib.Algebra.Order.Ring.Rat
import Verif.Model.Basic

set_option autoImplicit false

/-!
Model of include/maliput/common/range_validator.h and src/maliput/common/range_validator.cc.
`double` is `ℚ`.
-/
namespace Maliput

/-- `class RangeValidator`, include/maliput/common/range_validator.h:105-108. -/
structure RangeValidator where
  min : ℚ
  max : ℚ
  tolerance : ℚ
  epsilon : ℚ
  deriving DecidableEq, Repr

namespace RangeValidator

/-- `RangeValidator::EpsilonUse`, include/maliput/common/range_validator.h:88. -/
inductive EpsilonUse
  | absolute
  | relative
  deriving DecidableEq, Repr

/-- `RangeValidator::RangeValidator`, src/maliput/common/range_validator.cc:49-66. -/
def make (min max tolerance epsilon : ℚ) (mode : EpsilonUse) : Except Err RangeValidator := do
  throwUnless (decide (tolerance > 0))
  let eps := if mode = .relative then (max - min) * epsilon else epsilon
  throwUnless (decide (eps ≥ 0))
  throwUnless (decide (eps ≤ tolerance))
  throwUnless (decide (min + eps ≤ max))
  throwUnless (decide (min ≤ max - eps))
  return ⟨min, max, tolerance, eps⟩

/-- `RangeValidator::GetRelativeEpsilonValidator`, src/maliput/common/range_validator.cc:41-43. -/
def getRelative (min max tolerance epsilon : ℚ) : Except Err RangeValidator :=
  make min max tolerance epsilon .relative

/-- `RangeValidator::GetAbsoluteEpsilonValidator`, src/maliput/common/range_validator.cc:45-47. -/
def getAbsolute (min max tolerance epsilon : ℚ) : Except Err RangeValidator :=
  make min max tolerance epsilon .absolute

/-- `std::clamp(v, lo, hi)`: the behaviour is undefined if `hi < lo`. -/
def clamp (v lo hi : ℚ) : Except Err ℚ :=
  if hi < lo then .error .ub
  else if v < lo then .ok lo
  else if hi < v then .ok hi
  else .ok v

/-- `RangeValidator::operator()`, src/maliput/common/range_validator.cc:68-71. -/
def apply (v : RangeValidator) (s : ℚ) : Except Err ℚ := do
  throwUnless (decide (s ≥ v.min - v.tolerance))
  throwUnless (decide (s ≤ v.max + v.tolerance))
  clamp s (v.min + v.epsilon) (v.max - v.epsilon)

end RangeValidator
end Maliput
