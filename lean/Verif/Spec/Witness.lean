import Verif.Model.Witness

set_option autoImplicit false
set_option linter.unusedSectionVars false

/-!
What is said about witness functions that are evaluated at one time after the other.
-/
namespace Maliput.Witness

/-- Whether `a` and `b` are the values at two times that follow each other. -/
def Consecutive {R : Type} (values : List R) (a b : R) : Prop := ∃ before after, values = before ++ a :: b :: after

end Maliput.Witness
