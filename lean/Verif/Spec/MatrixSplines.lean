import Verif.Model.MatrixSplines
import Verif.Spec.MatrixTrajectory

set_option autoImplicit false
set_option linter.unusedSectionVars false

/-! Specification of splines through matrices: one spline for each entry. -/
namespace Maliput.Piecewise.Spec

open Maliput Poly

variable {R : Type}

/-- One entry of each of the samples. -/
def column (ys : List (Mat R)) (r c : Nat) : Except Err (List R) := ys.mapM fun y => y.get r c

/-- A trajectory of matrices is made if all of its entries can be made, and these are its entries; if it is refused, then so are all of
its entries, with the same error. -/
def Lifts (rows cols : Nat) (made : Except Err (MP R)) (entries : Nat → Nat → Except Err (PP R)) : Prop :=
  match made with
  | .ok q => Shaped rows cols q ∧ ∀ r c, r < rows → c < cols → entries r c = entry q r c
  | .error e => ∀ r c, r < rows → c < cols → entries r c = .error e

end Maliput.Piecewise.Spec
