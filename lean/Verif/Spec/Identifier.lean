import Verif.Model.Identifier

set_option autoImplicit false
set_option linter.unusedSectionVars false

/-! Specification of identifiers: a variable knows the call that made its identifier, if any. -/
namespace Maliput.Ident.Spec

/-- How many calls have been made, and the call that made what a thread got and what each variable has. -/
structure Calls where
  made : Nat
  got : Nat → Option (Nat × Nat)
  vars : Nat → Nat → Option Nat

/-- One step: a call is a new one, a copy is of the same call as its source, and a default is of no call. -/
def step (w : Calls) : Step → Calls
  | .get thread tag => { w with made := w.made + 1, got := fun t => if t = thread then some (tag, w.made) else w.got t }
  | .store thread x =>
    match w.got thread with
    | none => w
    | some (tag, n) =>
      { w with got := fun t => if t = thread then none else w.got t,
               vars := fun g y => if g = tag ∧ y = x then some n else w.vars g y }
  | .copy tag x y => { w with vars := fun g z => if g = tag ∧ z = x then w.vars tag y else w.vars g z }
  | .reset tag x => { w with vars := fun g z => if g = tag ∧ z = x then none else w.vars g z }

/-- Nothing was called. -/
def start : Calls := ⟨0, fun _ => none, fun _ _ => none⟩

/-- All the steps. -/
def run : List Step → Calls → Calls
  | [], w => w
  | s :: ss, w => run ss (step w s)

end Maliput.Ident.Spec
