import Verif.Spec.Double

set_option autoImplicit false

/-!
# What IEEE 754 says about the results of operations
-/
namespace Maliput.Dbl.Spec

/-- `r` is the finite double nearest to `q`. If another one is as near, `r` is an even multiple of the distance of the two, and so the one
whose last binary digit is 0. -/
def NearestEven (q r : ℚ) : Prop :=
  Representable r ∧ (∀ r', Representable r' → |q - r| ≤ |q - r'|) ∧
    ∀ r', Representable r' → r' ≠ r → |q - r'| = |q - r| → ∃ k : ℤ, r = 2 * k * |r - r'|

/-- An infinity. -/
def IsInf (d : Double) : Prop := d = .pinf ∨ d = .ninf

/-- Greater than zero, or less. -/
def Positive (d : Double) : Prop := d = .pinf ∨ ∃ q, d = .fin q ∧ 0 < q
/-- Less than zero. -/
def Negative (d : Double) : Prop := d = .ninf ∨ ∃ q, d = .fin q ∧ q < 0

end Maliput.Dbl.Spec
