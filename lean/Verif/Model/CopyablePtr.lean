import Verif.Model.Basic

set_option autoImplicit false
set_option linter.unusedSectionVars false

/-!
Model of src/maliput/drake/common/copyable_unique_ptr.h: containers that own an object on the heap.

Containers are numbered, and all of them have been made; a constructor is the assignment to an empty container, and the
destructor is the assignment of null.  The heap gives every new object an address that was not used before.  `clone` is
what copying an object gives, by its copy constructor or its `Clone()`; it may throw.  Containers of other types `U`, and
containers of the standard library, are like those of type `T` (lines 200-203, 226-232, 247-251 and 257-270).
-/
namespace Maliput.CopyablePtr

variable {V : Type}

/-- The heap and the containers: the objects that have not been deleted, the next unused address, and the address that each
container holds, where `none` is null. -/
structure Memory (V : Type) where
  objects : Nat → Option V
  unused : Nat
  held : Nat → Option Nat

/-- `copyable_unique_ptr`, default constructor, src/maliput/drake/common/copyable_unique_ptr.h:120: nothing is on the heap,
and all containers are empty. -/
def empty : Memory V := ⟨fun _ => none, 0, fun _ => none⟩

/-- A function at one more place. -/
def set {α : Type} (f : Nat → α) (i : Nat) (x : α) : Nat → α := fun j => if j = i then x else f j

/-- The `delete` of an object; deleting one twice is undefined. -/
def delete (m : Memory V) (a : Nat) : Memory V × Except Err Unit :=
  match m.objects a with
  | none => (m, .error .ub)
  | some _ => ({ m with objects := set m.objects a none }, .ok ())

/-- The `reset` of `std::unique_ptr`: the new address is kept, then the old object is deleted. -/
def resetTo (m : Memory V) (i : Nat) (p : Option Nat) : Memory V × Except Err Unit :=
  match m.held i with
  | none => ({ m with held := set m.held i p }, .ok ())
  | some a => delete { m with held := set m.held i p } a

/-- The object of an address; an object that was deleted must not be used. -/
def object (m : Memory V) (a : Nat) : Except Err V :=
  match m.objects a with
  | none => .error .ub
  | some v => .ok v

/-- A new object. -/
def allocate (m : Memory V) (v : V) : Memory V × Nat := ({ m with objects := set m.objects m.unused (some v), unused := m.unused + 1 }, m.unused)

/-- `CopyOrNull`, src/maliput/drake/common/copyable_unique_ptr.h:413, with `CopyOrNullHelper`, lines 401-410. -/
def copyOrNull (clone : V → Except Err V) (m : Memory V) : Option Nat → Memory V × Except Err (Option Nat)
  | none => (m, .ok none)
  | some a =>
    match object m a >>= clone with
    | .error e => (m, .error e)
    | .ok v => ((allocate m v).1, .ok (some (allocate m v).2))

/-- `reset(CopyOrNull(ptr))`, src/maliput/drake/common/copyable_unique_ptr.h:180, 215 and 230: what throws while it copies has not
reset anything. -/
def resetCopy (clone : V → Except Err V) (m : Memory V) (i : Nat) (p : Option Nat) : Memory V × Except Err Unit :=
  match copyOrNull clone m p with
  | (m', .error e) => (m', .error e)
  | (m', .ok q) => resetTo m' i q

/-- `operator=(T* ptr)`, src/maliput/drake/common/copyable_unique_ptr.h:170-173, with a new object. -/
def takeNew (m : Memory V) (i : Nat) (v : V) : Memory V × Except Err Unit := resetTo (allocate m v).1 i (some (allocate m v).2)

/-- `operator=(T* ptr)`, src/maliput/drake/common/copyable_unique_ptr.h:170-173, with the address that a container holds, which
`get_mutable` gives, line 298. -/
def takeHeld (m : Memory V) (i j : Nat) : Memory V × Except Err Unit := resetTo m i (m.held j)

/-- `operator=(T* ptr)`, src/maliput/drake/common/copyable_unique_ptr.h:170-173, with null. -/
def clear (m : Memory V) (i : Nat) : Memory V × Except Err Unit := resetTo m i none

/-- `operator=(const T& ref)`, src/maliput/drake/common/copyable_unique_ptr.h:179-182, with the object of a container, which `operator*`
gives, lines 322 and 340; null must not be dereferenced. -/
def copyRef (clone : V → Except Err V) (m : Memory V) (i j : Nat) : Memory V × Except Err Unit :=
  match m.held j with
  | none => (m, .error .ub)
  | some a => resetCopy clone m i (some a)

/-- `operator=(const std::unique_ptr<T>& src)`, src/maliput/drake/common/copyable_unique_ptr.h:211-218, to which the assignment of another
container of the class leads, lines 190-192. -/
def copyAssign (clone : V → Except Err V) (m : Memory V) (i j : Nat) : Memory V × Except Err Unit :=
  if i = j then (m, .ok ())
  else if ¬(m.held i ≠ m.held j ∨ m.held i = none) then (m, .error .aborts)
  else resetCopy clone m i (m.held j)

/-- `operator=(copyable_unique_ptr&& cu_ptr)`, src/maliput/drake/common/copyable_unique_ptr.h:238-241: the source is released, then the
target is reset. -/
def moveAssign (m : Memory V) (i j : Nat) : Memory V × Except Err Unit :=
  resetTo { m with held := set m.held j none } i (m.held j)

/-- `operator*`, src/maliput/drake/common/copyable_unique_ptr.h:340, and a change of the object by the
reference that it gives; null must not be dereferenced. -/
def write (m : Memory V) (i : Nat) (f : V → V) : Memory V × Except Err Unit :=
  match m.held i with
  | none => (m, .error .ub)
  | some a =>
    match object m a with
    | .error e => (m, .error e)
    | .ok v => ({ m with objects := set m.objects a (some (f v)) }, .ok ())

/-- What a program may do with its containers. -/
inductive Op (V : Type)
  | takeNew (i : Nat) (v : V)
  | clear (i : Nat)
  | copyRef (i j : Nat)
  | copyAssign (i j : Nat)
  | moveAssign (i j : Nat)
  | write (i : Nat) (f : V → V)

/-- One operation. -/
def step (clone : V → Except Err V) (m : Memory V) : Op V → Memory V × Except Err Unit
  | .takeNew i v => takeNew m i v
  | .clear i => clear m i
  | .copyRef i j => copyRef clone m i j
  | .copyAssign i j => copyAssign clone m i j
  | .moveAssign i j => moveAssign m i j
  | .write i f => write m i f

/-- A history of operations, with how each of them ended. -/
def run (clone : V → Except Err V) (m : Memory V) : List (Op V) → Memory V × List (Except Err Unit)
  | [] => (m, [])
  | o :: os =>
    let r := step clone m o
    let rest := run clone r.1 os
    (rest.1, r.2 :: rest.2)

/-- `empty`, src/maliput/drake/common/copyable_unique_ptr.h:280, and `get`, line 286: what a program sees in a container. -/
def view (m : Memory V) (i : Nat) : Except Err (Option V) :=
  match m.held i with
  | none => .ok none
  | some a => (object m a).map some

end Maliput.CopyablePtr
