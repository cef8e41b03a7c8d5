import Mathlib.Order.Defs.LinearOrder

set_option autoImplicit false
set_option linter.unusedSectionVars false

/-!
Model of when a witness function triggers, src/maliput/drake/systems/framework/witness_function.h.  Scalars are a linear order with a zero.
-/
namespace Maliput.Witness

variable {R : Type} [Zero R] [LinearOrder R]

/-- `WitnessFunctionDirection`, src/maliput/drake/systems/framework/witness_function.h:21-38. -/
inductive Direction
  | none
  | positiveThenNonPositive
  | negativeThenNonNegative
  | crossesZero
  deriving DecidableEq

/-- `should_trigger`, src/maliput/drake/systems/framework/witness_function.h:178-198. -/
def shouldTrigger (direction : Direction) (w0 wf : R) : Bool :=
  match direction with
  | .none => (0 : R) > 0
  | .positiveThenNonPositive => w0 > 0 && wf ≤ 0
  | .negativeThenNonNegative => w0 < 0 && wf ≥ 0
  | .crossesZero => (w0 > 0 && wf ≤ 0) || (w0 < 0 && wf ≥ 0)

end Maliput.Witness
