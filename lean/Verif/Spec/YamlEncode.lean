import Verif.Model.Yaml

set_option autoImplicit false

/-!
What it means that writing and reading a YAML document are inverse to each other.
-/
namespace Maliput.Yaml.Spec

open Maliput.Yaml

/-- Writing `a` succeeds and reading what was written gives `a` again. -/
def RoundTrip {α : Type} (write : α → Except Err Doc) (read : Node → Except Err α) (a : α) : Prop :=
  ∃ d, write a = .ok d ∧ read (some d) = .ok a

/-- Writing `a` succeeds and reading what was written throws. -/
def WrittenUnreadable {α : Type} (write : α → Except Err Doc) (read : Node → Except Err α) (a : α) : Prop :=
  ∃ d, write a = .ok d ∧ read (some d) = .error .throws

/-- Every number of the list is read from its text as itself. -/
def TextsFaithful (c : Conv) (text : ℚ → String) (l : List ℚ) : Prop :=
  ∀ q ∈ l, c.toDouble (text q) = some q

/-- A document with the single key `k`. -/
def only (k : String) (d : Doc) : Doc := .map [(.scalar k, d)]

end Maliput.Yaml.Spec
