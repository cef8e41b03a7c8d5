import Mathlib.Algebra.Order.Ring.Int
import Verif.Model.Basic

set_option autoImplicit false
set_option linter.unusedSectionVars false

/-!
Model of src/maliput/drake/common/identifier.h: identifiers of several types, one for each tag, that threads ask for at the same
time.  A 64-bit integer is an integer; the counter of a tag wraps around.
-/
namespace Maliput.Ident

/-- The next number of an atomic 64-bit counter. -/
def increment (x : Int) : Int := (x + 1).bmod 18446744073709551616

/-- `Identifier`, src/maliput/drake/common/identifier.h:144, by the default constructor. -/
def invalid : Int := 0

/-- `is_valid`, src/maliput/drake/common/identifier.h:157. -/
def isValid (a : Int) : Bool := a > 0

/-- `get_value`, src/maliput/drake/common/identifier.h:149-154; `armed` says that the assertions are compiled. -/
def getValue (armed : Bool) (a : Int) : Except Err Int := do
  if armed then throwUnless (isValid a)
  return a

/-- `operator==`, src/maliput/drake/common/identifier.h:162. -/
def eq (armed : Bool) (a b : Int) : Except Err Bool := do return (← getValue armed a) == (← getValue armed b)

/-- `operator!=`, src/maliput/drake/common/identifier.h:167. -/
def ne (armed : Bool) (a b : Int) : Except Err Bool := do return (← getValue armed a) != (← getValue armed b)

/-- `operator<`, src/maliput/drake/common/identifier.h:172. -/
def lt (armed : Bool) (a b : Int) : Except Err Bool := do return decide ((← getValue armed a) < (← getValue armed b))

/-- `is_same_as_valid_id`, src/maliput/drake/common/identifier.h:203. -/
def isSameAsValid (armed : Bool) (a b : Int) : Except Err Bool := do return a == (← getValue armed b)

/-- `to_string`, src/maliput/drake/common/identifier.h:227-230, and `operator<<`, lines 218-222. -/
def text (armed : Bool) (a : Int) : Except Err String := do return toString (← getValue armed a)

/-- The counters of the tags, what a thread got and has not stored yet, and the variables of each tag. -/
structure World where
  counter : Nat → Int
  got : Nat → Option (Nat × Int)
  vars : Nat → Nat → Int

/-- What a thread does next. -/
inductive Step
  /-- The thread gets a new identifier of a tag. -/
  | get (thread tag : Nat)
  /-- The thread stores what it got in a variable. -/
  | store (thread x : Nat)
  /-- A variable is copied to another one of the tag. -/
  | copy (tag x y : Nat)
  /-- A variable becomes the default. -/
  | reset (tag x : Nat)

/-- A function at one more place. -/
def put {α : Type} (f : Nat → α) (i : Nat) (a : α) : Nat → α := fun j => if j = i then a else f j

/-- `get_new_id`, src/maliput/drake/common/identifier.h:179-185: the counter of the tag is read and incremented at once, because it is
atomic. -/
def getNewId (w : World) (thread tag : Nat) : World :=
  { w with counter := put w.counter tag (increment (w.counter tag)), got := put w.got thread (some (tag, w.counter tag)) }

/-- One step of one thread. -/
def step (w : World) : Step → World
  | .get thread tag => getNewId w thread tag
  | .store thread x =>
    match w.got thread with
    | none => w
    | some (tag, a) => { w with got := put w.got thread none, vars := put w.vars tag (put (w.vars tag) x a) }
  | .copy tag x y => { w with vars := put w.vars tag (put (w.vars tag) x (w.vars tag y)) }
  | .reset tag x => { w with vars := put w.vars tag (put (w.vars tag) x invalid) }

/-- The start of the program: the counters start at 1, src/maliput/drake/common/identifier.h:183, and all variables are defaults. -/
def start : World := ⟨fun _ => 1, fun _ => none, fun _ _ => invalid⟩

/-- The steps of all threads, in the order in which they happen. -/
def run : List Step → World → World
  | [], w => w
  | s :: ss, w => run ss (step w s)

end Maliput.Ident
