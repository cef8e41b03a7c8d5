import Mathlib.Data.List.Basic

set_option autoImplicit false

namespace Maliput.Spec

/-- `a` is the first object among the arguments (`none` being a null pointer) that has its id. -/
def FirstWithId {α : Type} (idOf : α → String) (ops : List (Option α)) (a : α) : Prop :=
  ∃ pre post, ops = pre ++ some a :: post ∧ ∀ a', some a' ∈ pre → idOf a' ≠ idOf a

end Maliput.Spec
