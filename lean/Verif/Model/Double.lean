import Mathlib.Data.Int.Log
import Mathlib.Data.Rat.Floor
import Mathlib.Algebra.Order.Group.Unbundled.Abs
import Mathlib.Algebra.Order.Ring.Rat
import Mathlib.Algebra.Field.Rat
import Verif.Model.Basic

set_option autoImplicit false

/-!
# `double`

Binary64 of IEEE 754, with rounding to the nearest, ties to even, as every supported platform has it.  The two zeros are one value
here: no comparison tells them apart, and no function modelled with these numbers divides by a variable.
-/
namespace Maliput.Dbl

/-- A `double`. A finite one is its value; which values there are is said by `IsDouble`. -/
inductive Double
  | nan
  | ninf
  | fin (q : ℚ)
  | pinf
deriving DecidableEq

instance {n : Nat} : OfNat Double n := ⟨.fin n⟩

/-- The built in operator `<`. -/
def lt : Double → Double → Bool
  | .nan, _ => false
  | _, .nan => false
  | _, .ninf => false
  | .ninf, _ => true
  | .pinf, _ => false
  | .fin _, .pinf => true
  | .fin a, .fin b => decide (a < b)

/-- The built in operator `<=`. -/
def le : Double → Double → Bool
  | .nan, _ => false
  | _, .nan => false
  | .ninf, _ => true
  | _, .pinf => true
  | _, .ninf => false
  | .pinf, .fin _ => false
  | .fin a, .fin b => decide (a ≤ b)

/-- The built in operator `>`. -/
def gt (a b : Double) : Bool := lt b a
/-- The built in operator `>=`. -/
def ge (a b : Double) : Bool := le b a

/-- The exponent of the last place of the doubles near `q`: 53 binary digits, but none after the 1074th. -/
def lastPlace (q : ℚ) : ℤ := if q = 0 then -1074 else max (Int.log 2 |q| - 52) (-1074)

/-- The nearest integer, the even one of two. -/
def nearest (x : ℚ) : ℤ :=
  if x - ⌊x⌋ < 1 / 2 then ⌊x⌋ else if 1 / 2 < x - ⌊x⌋ then ⌊x⌋ + 1 else if ⌊x⌋ % 2 = 0 then ⌊x⌋ else ⌊x⌋ + 1

/-- Rounding as if the exponent had no upper bound. -/
def roundUnbounded (q : ℚ) : ℚ := nearest (q / 2 ^ lastPlace q) * 2 ^ lastPlace q

/-- From here on there is only infinity. -/
def overflow : ℚ := 2 ^ 1024

/-- Rounding to a `double`. -/
def toDouble (q : ℚ) : Double :=
  if overflow ≤ roundUnbounded q then .pinf else if roundUnbounded q ≤ -overflow then .ninf else .fin (roundUnbounded q)

/-- The unary operator `-`. -/
def neg : Double → Double
  | .nan => .nan
  | .ninf => .pinf
  | .fin q => .fin (-q)
  | .pinf => .ninf

/-- The operator `+`. -/
def add : Double → Double → Double
  | .nan, _ => .nan
  | _, .nan => .nan
  | .pinf, .ninf => .nan
  | .ninf, .pinf => .nan
  | .pinf, _ => .pinf
  | _, .pinf => .pinf
  | .ninf, _ => .ninf
  | _, .ninf => .ninf
  | .fin a, .fin b => toDouble (a + b)

/-- The operator `-`. -/
def sub (a b : Double) : Double := add a (neg b)

/-- An infinity times a number. -/
def infTimes (q : ℚ) : Double := if q = 0 then .nan else if 0 < q then .pinf else .ninf

/-- The operator `*`. -/
def mul : Double → Double → Double
  | .nan, _ => .nan
  | _, .nan => .nan
  | .pinf, .pinf => .pinf
  | .pinf, .ninf => .ninf
  | .ninf, .pinf => .ninf
  | .ninf, .ninf => .pinf
  | .pinf, .fin q => infTimes q
  | .fin q, .pinf => infTimes q
  | .ninf, .fin q => neg (infTimes q)
  | .fin q, .ninf => neg (infTimes q)
  | .fin a, .fin b => toDouble (a * b)

/-- The operator `/` with the divisor 2. -/
def half : Double → Double
  | .fin q => toDouble (q / 2)
  | d => d

/-- `std::fabs`. -/
def fabs : Double → Double
  | .fin q => .fin |q|
  | .ninf => .pinf
  | d => d

/-- `std::min`. -/
def stdMin (a b : Double) : Double := if lt b a then b else a
/-- `std::max`. -/
def stdMax (a b : Double) : Double := if lt a b then b else a

end Maliput.Dbl
