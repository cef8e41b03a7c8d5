
set_option autoImplicit false
/-!
Conventions shared by all models: the outcome of a C++ call that does not return normally.
-/
namespace Maliput

/-- How a C++ call can fail to return normally.

* `throws`: `MALIPUT_THROW_UNLESS`, `MALIPUT_VALIDATE`, `MALIPUT_THROW_MESSAGE` and
  `MALIPUT_IS_IN_RANGE` (include/maliput/common/maliput_throw.h:87-119): a
  `maliput::common::assertion_error`.
* `outOfRange`: `std::out_of_range` thrown by a container's `at()`.
* `ub`: undefined behaviour (dereferencing an empty optional or a null pointer,
  `front()`/`back()` of an empty vector, out-of-bounds `operator[]`).
* `aborts`: `MALIPUT_DEMAND` (include/maliput/common/maliput_abort.h:90-97): the process ends. -/
inductive Err where
  | throws
  | outOfRange
  | ub
  | aborts
  deriving DecidableEq, Repr

/-- `MALIPUT_THROW_UNLESS(condition)`, include/maliput/common/maliput_throw.h:87-94. -/
def throwUnless (b : Bool) : Except Err Unit := if b then .ok () else .error .throws

end Maliput
