import Verif.Model.Polynomial

set_option autoImplicit false
set_option linter.unusedSectionVars false

/-!
Model of how polynomials are written to a stream, src/maliput/drake/common/polynomial.h:391-427.

Simplifications: `write` is how the stream writes a coefficient, which depends on its precision and flags; it is any
function here.  Coefficients are the elements of a field, powers are natural numbers, as in `Verif.Model.Polynomial`.
-/
namespace Maliput.Poly

variable {R : Type} [Field R] [DecidableEq R]

/-- The name and the power of a term, src/maliput/drake/common/polynomial.h:407-410. -/
def termText (t : Term) : List Char :=
  idToVariableName t.var ++ if t.power ≠ 1 then '^' :: (toString t.power).toList else []

/-- The loop over the terms with its variable `print_star`, src/maliput/drake/common/polynomial.h:402-411. -/
def termsText : Bool → List Term → List Char
  | _, [] => []
  | printStar, t :: ts => (if printStar then ['*'] else []) ++ termText t ++ termsText true ts

/-- `operator<<(std::ostream& os, const Monomial& m)`, src/maliput/drake/common/polynomial.h:391-413. -/
def monomialText (write : R → List Char) (m : Monomial R) : List Char :=
  if m.coefficient = -1 then '-' :: termsText false m.terms
  else if m.coefficient ≠ 1 ∨ m.terms = [] then '(' :: (write m.coefficient ++ ')' :: termsText true m.terms)
  else termsText false m.terms

/-- The loop over the monomials, src/maliput/drake/common/polynomial.h:421-425. -/
def monomialsText (write : R → List Char) : List (Monomial R) → List Char
  | [] => []
  | [m] => monomialText write m
  | m :: n :: ms =>
    monomialText write m ++ (if n.coefficient ≠ -1 then ['+'] else []) ++ monomialsText write (n :: ms)

/-- `operator<<(std::ostream& os, const Polynomial& poly)`, src/maliput/drake/common/polynomial.h:415-427. -/
def polynomialText (write : R → List Char) (p : Polynomial R) : List Char :=
  if p.monomials = [] then ['0'] else monomialsText write p.monomials

end Maliput.Poly
