import Verif.Model.CopyablePtr

set_option autoImplicit false
set_option linter.unusedSectionVars false

/-! Specification of copyable pointers: each container is a variable that has a value or none. -/
namespace Maliput.CopyablePtr.Spec

variable {V : Type}

/-- The values of the containers. -/
abbrev Values (V : Type) := Nat → Option V

/-- A variable has a new value. -/
def Values.put (s : Values V) (i : Nat) (x : Option V) : Values V := fun j => if j = i then x else s j

/-- What an operation does to the values, and how it ends.  An operation that throws changes nothing. -/
def step (clone : V → Except Err V) (s : Values V) : Op V → Values V × Except Err Unit
  | .takeNew i v => (s.put i (some v), .ok ())
  | .clear i => (s.put i none, .ok ())
  | .copyRef i j =>
    match s j with
    | none => (s, .error .ub)
    | some v =>
      match clone v with
      | .error e => (s, .error e)
      | .ok w => (s.put i (some w), .ok ())
  | .copyAssign i j =>
    if i = j then (s, .ok ())
    else match s j with
      | none => (s.put i none, .ok ())
      | some v =>
        match clone v with
        | .error e => (s, .error e)
        | .ok w => (s.put i (some w), .ok ())
  | .moveAssign i j => if i = j then (s, .ok ()) else ((s.put j none).put i (s j), .ok ())
  | .write i f =>
    match s i with
    | none => (s, .error .ub)
    | some v => (s.put i (some (f v)), .ok ())

/-- A history of operations. -/
def run (clone : V → Except Err V) (s : Values V) : List (Op V) → Values V × List (Except Err Unit)
  | [] => (s, [])
  | o :: os => ((run clone (step clone s o).1 os).1, (step clone s o).2 :: (run clone (step clone s o).1 os).2)

/-- Every object on the heap belongs to exactly one container, and every container that is not empty has an object. -/
def Owned (m : Memory V) : Prop :=
  (∀ i a, m.held i = some a → ∃ v, m.objects a = some v) ∧
  (∀ a v, m.objects a = some v → ∃ i, m.held i = some a ∧ ∀ j, m.held j = some a → j = i)

end Maliput.CopyablePtr.Spec
