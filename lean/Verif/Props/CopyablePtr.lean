import Verif.Lemmas.CopyablePtr

set_option autoImplicit false
set_option linter.unusedSectionVars false

/-! C149: copyable pointers. -/
namespace Maliput.Props

open Maliput.CopyablePtr
open Maliput.CopyablePtr.Spec (Values Owned)

section
variable {V : Type}

/-- **C149.** Whatever a program does with its containers, each of them looks as if it were a variable with a value of its own:
a copy is independent of its source, a move empties the source, assigning a container to itself changes nothing, and every
operation ends as the specification says, an operation that throws having changed nothing. -/
theorem copyable_ptr_values (clone : V → Except Err V) (ops : List (Op V)) :
    (∀ i, view (run clone empty ops).1 i = .ok ((Spec.run clone (fun _ => none) ops).1 i)) ∧
      (run clone empty ops).2 = (Spec.run clone (fun _ => none) ops).2 := by
  obtain ⟨h, e⟩ := run_stands (clone := clone) ops empty_stands
  refine ⟨fun i => ?_, e⟩
  unfold view
  rw [h.values i]
  cases ei : (run clone empty ops).1.held i with
  | none => rfl
  | some a =>
    obtain ⟨v, hv⟩ := h.live i a ei
    simp [object, hv, Except.map]

/-- **C149.** Whatever a program does with its containers, every object on the heap belongs to exactly one container, and
every container that is not empty has an object: nothing is lost, deleted twice or used after it was deleted. -/
theorem copyable_ptr_owned (clone : V → Except Err V) (ops : List (Op V)) : Owned (run clone empty ops).1 := by
  obtain ⟨h, _⟩ := run_stands (clone := clone) ops empty_stands
  refine ⟨h.live, fun a v hv => ?_⟩
  obtain ⟨i, hi⟩ := h.owned a v hv
  exact ⟨i, hi, fun j hj => h.one j i a hj hi⟩

/-- **C149.** When all containers have been emptied, nothing is left on the heap. -/
theorem copyable_ptr_no_leak (clone : V → Except Err V) (ops : List (Op V))
    (h : ∀ i, view (run clone empty ops).1 i = .ok none) (a : Nat) : (run clone empty ops).1.objects a = none := by
  obtain ⟨hl, ho⟩ := copyable_ptr_owned clone ops
  cases e : (run clone empty ops).1.objects a with
  | none => rfl
  | some v =>
    obtain ⟨i, hi, _⟩ := ho a v e
    have := h i
    simp [view, hi, object, e, Except.map] at this

/-- Three containers: the first is copied to the second and moved to the third, and then the third is changed; a copy of 7
throws. -/
def copyableOps : List (Op Nat) :=
  [.takeNew 0 5, .copyAssign 1 0, .moveAssign 2 0, .write 2 (· + 2), .copyAssign 1 2, .copyRef 1 1, .moveAssign 2 2, .copyRef 0 0]

/-- A copy of 7 throws. -/
def cloneBut7 (v : Nat) : Except Err Nat := if v = 7 then .error .throws else .ok v

example : (List.range 3).map (view (run cloneBut7 empty copyableOps).1) = [.ok none, .ok (some 5), .ok (some 7)] := by decide
example : (run cloneBut7 empty copyableOps).2 =
    [.ok (), .ok (), .ok (), .ok (), .error .throws, .ok (), .ok (), .error .ub] := by decide
example : (Spec.run cloneBut7 (fun _ => none) copyableOps).1 2 = some 7 := by decide
example (i : Nat) : view (run cloneBut7 empty [.takeNew 0 5, .clear 0]).1 i = .ok none := by
  rcases i with _ | i
  · decide
  · simp [run, step, takeNew, clear, resetTo, allocate, delete, view, CopyablePtr.set, empty]

/-- **C149, witness.** A container that is given the address it holds deletes its object and goes on holding it. -/
theorem copyable_ptr_own_address (clone : V → Except Err V) (v : V) :
    (takeHeld (run clone empty [.takeNew 0 v]).1 0 0).2 = .ok () ∧
      view (takeHeld (run clone empty [.takeNew 0 v]).1 0 0).1 0 = .error .ub := by
  simp [run, step, takeNew, takeHeld, resetTo, allocate, delete, view, CopyablePtr.set, empty, object, Except.map]

/-- **C149, witness.** A container that is given the address of another one shares its object: what is copied from one to the
other then aborts, and emptying one leaves the other with a deleted object. -/
theorem copyable_ptr_shared_address (clone : V → Except Err V) (v : V) :
    (copyAssign clone (takeHeld (run clone empty [.takeNew 0 v]).1 1 0).1 1 0).2 = .error .aborts ∧
      view (clear (takeHeld (run clone empty [.takeNew 0 v]).1 1 0).1 0).1 1 = .error .ub := by
  simp [run, step, takeNew, takeHeld, copyAssign, clear, resetTo, allocate, delete, view, CopyablePtr.set, empty, object,
    Except.map]

end
end Maliput.Props
