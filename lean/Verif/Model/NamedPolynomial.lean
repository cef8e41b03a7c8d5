import Verif.Model.PolynomialQueries

set_option autoImplicit false
set_option linter.unusedSectionVars false

/-! Model of the constructor of polynomials from a name, src/maliput/drake/common/polynomial.cc. -/
namespace Maliput.Poly
open Maliput

variable {R : Type} [Field R]

/-- `Polynomial`, the constructor from the name of a variable, src/maliput/drake/common/polynomial.cc:84-94. -/
def ofName (name : List Char) (num : Nat) : Except Err (Polynomial R) := do
  let id ← variableNameToId name num
  return ⟨[⟨1, [⟨id, 1⟩]⟩], true⟩

end Maliput.Poly
