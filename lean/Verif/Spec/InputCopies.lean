import Verif.Spec.Ports

set_option autoImplicit false
set_option linter.unusedSectionVars false

/-!
What copying the values of the input ports of one system to another should do.
-/
namespace Maliput.Ports

open Maliput

variable {K V : Type}

/-- Whether two ports take the same values. -/
def SamePort (p q : Declared K V) : Prop := p.size = q.size ∧ p.model.type = q.model.type

/-- Whether two systems have ports that take the same values, in the same order. -/
def SameShape (ps qs : List (Declared K V)) : Prop :=
  ps.length = qs.length ∧ ∀ (i : Nat) p q, ps[i]? = some p → qs[i]? = some q → SamePort p q

/-- What a port makes of a value: the elements of a vector as far as the port has room for them. -/
def Declared.cut (p : Declared K V) : Datum K V → Datum K V
  | .vector xs => match p.size with
    | some n => .vector (xs.take n)
    | none => .vector xs
  | d => d

/-- Whether a port takes a value from another system: a vector port takes vectors that are not too short, an abstract port takes values of
its type. -/
def Declared.takes (p : Declared K V) (d : Datum K V) : Prop :=
  match p.size, d with
  | some n, .vector xs => n ≤ xs.length
  | some _, .other _ _ => False
  | none, d => d.type = p.model.type

end Maliput.Ports
