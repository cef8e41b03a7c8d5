import Verif.Model.Double

set_option autoImplicit false

/-! Which values binary64 has. -/
namespace Maliput.Dbl.Spec

/-- A finite value of binary64: fewer than 54 binary digits and an exponent in range. -/
def Representable (q : ℚ) : Prop := ∃ m e : ℤ, |m| < 2 ^ 53 ∧ -1074 ≤ e ∧ e ≤ 971 ∧ q = m * 2 ^ e

/-- A value of binary64. -/
def IsDouble : Double → Prop
  | .fin q => Representable q
  | _ => True

/-- Not NaN. -/
def IsNumber (d : Double) : Prop := d ≠ .nan

/-- The order of numbers, infinities included; NaN is not part of it. -/
def Le (a b : Double) : Prop :=
  (a = .ninf ∧ b ≠ .nan) ∨ (b = .pinf ∧ a ≠ .nan) ∨ ∃ x y, a = .fin x ∧ b = .fin y ∧ x ≤ y

/-- How far a result may be from what it would be without rounding: half of the last place. -/
def slack (q : ℚ) : ℚ := max (|q| / 2 ^ 53) (1 / 2 ^ 1075)

end Maliput.Dbl.Spec
