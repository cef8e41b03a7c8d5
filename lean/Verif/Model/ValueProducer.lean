import Verif.Model.Basic

set_option autoImplicit false
set_option linter.unusedSectionVars false

/-!
Model of src/maliput/drake/systems/framework/value_producer.h and .cc.  `Ty` are the types of outputs and `El t` their values; an erased
value is a type and a value of it.  `Obj` are instances, `Cls` their class after a cast, `Base` contexts and `Ctx` the type of contexts a
function asks for.  A pointer that may be null is an `Option`.  Moved-from producers are not modelled.
-/
namespace Maliput.Producer
open Maliput

variable {Ty : Type} [DecidableEq Ty] {El : Ty → Type} {Obj Cls Base Ctx : Type}

/-- An `AbstractValue`: the type and the value. -/
abbrev Erased (El : Ty → Type) := (t : Ty) × El t

/-- `AllocateCallback`, src/maliput/drake/systems/framework/value_producer.h. -/
abbrev AllocateCallback (El : Ty → Type) := Unit → Except Err (Erased El)

/-- `CalcCallback`, src/maliput/drake/systems/framework/value_producer.h: the storage afterwards, and whether it threw. -/
abbrev CalcCallback (Base : Type) (El : Ty → Type) := Base → Erased El → Erased El × Except Err Unit

/-- `ThrowBadNull` unless a pointer is set, src/maliput/drake/systems/framework/value_producer.cc:45. -/
def nonNull {α : Type} : Option α → Except Err α
  | some a => .ok a
  | none => .error .throws

/-- `instance_cast`, src/maliput/drake/systems/framework/value_producer.h:347-356; `cast` is the `dynamic_cast`. -/
def instanceCast (cast : Obj → Option Cls) (obj : Option Obj) : Except Err Cls := do
  nonNull (cast (← nonNull obj))

/-- `context_cast`, src/maliput/drake/systems/framework/value_producer.h:359-365. -/
def contextCast (cast : Base → Option Ctx) (context : Base) : Except Err Ctx := nonNull (cast context)

/-- `get_mutable_value`, src/maliput/drake/common/value.h: the value, if it is of the type. -/
def getMutable (t : Ty) (v : Erased El) : Except Err (El t) := if h : v.1 = t then .ok (h ▸ v.2) else .error .throws

/-- A function with an output argument: the output afterwards, and whether it threw. -/
abbrev OutFunction (Ctx : Type) (α : Type) := Ctx → α → α × Except Err Unit

/-- The callback around a function with an output argument, src/maliput/drake/systems/framework/value_producer.h:378-382, 412-416. -/
def wrapOut (t : Ty) (cast : Base → Option Ctx) (f : OutFunction Ctx (El t)) : CalcCallback Base El := fun context result =>
  match contextCast cast context with
  | .error e => (result, .error e)
  | .ok c =>
    match getMutable t result with
    | .error e => (result, .error e)
    | .ok x => (⟨t, (f c x).1⟩, (f c x).2)

/-- The callback around a function with a result, src/maliput/drake/systems/framework/value_producer.h:396-400, 428-432. -/
def wrapReturn (t : Ty) (cast : Base → Option Ctx) (f : Ctx → Except Err (El t)) : CalcCallback Base El := fun context result =>
  match contextCast cast context with
  | .error e => (result, .error e)
  | .ok c =>
    match getMutable t result with
    | .error e => (result, .error e)
    | .ok _ =>
      match f c with
      | .error e => (result, .error e)
      | .ok y => (⟨t, y⟩, .ok ())

/-- The ways to give the calculation: 1 to 5 in the documentation. -/
inductive CalcArg (Obj Cls Base Ctx : Type) (El : Ty → Type) (t : Ty)
  | memberOut (cast : Obj → Option Cls) (obj : Option Obj) (ctx : Base → Option Ctx) (f : Option (Cls → OutFunction Ctx (El t)))
  | memberReturn (cast : Obj → Option Cls) (obj : Option Obj) (ctx : Base → Option Ctx) (f : Option (Cls → Ctx → Except Err (El t)))
  | functionOut (ctx : Base → Option Ctx) (f : Option (OutFunction Ctx (El t)))
  | functionReturn (ctx : Base → Option Ctx) (f : Option (Ctx → Except Err (El t)))
  | generic (f : Option (CalcCallback Base El))

/-- The ways to allocate the output: a to d in the documentation. -/
inductive AllocateArg (Obj Cls : Type) (El : Ty → Type) (t : Ty)
  | default (value : El t)
  | model (value : El t)
  | member (cast : Obj → Option Cls) (obj : Option Obj) (f : Option (Cls → Except Err (Option (El t))))
  | generic (f : Option (AllocateCallback El))

/-- `make_calc_mode_1` to `make_calc_mode_4`, src/maliput/drake/systems/framework/value_producer.h:367-433; a generic callback is
passed on. -/
def makeCalc {t : Ty} : CalcArg Obj Cls Base Ctx El t → Except Err (Option (CalcCallback Base El))
  | .memberOut cast obj ctx f => do
    let typed ← instanceCast cast obj
    let f ← nonNull f
    return some (wrapOut t ctx (f typed))
  | .memberReturn cast obj ctx f => do
    let typed ← instanceCast cast obj
    let f ← nonNull f
    return some (wrapReturn t ctx (f typed))
  | .functionOut ctx f => do return some (wrapOut t ctx (← nonNull f))
  | .functionReturn ctx f => do return some (wrapReturn t ctx (← nonNull f))
  | .generic f => return f

/-- `make_allocate_mode_a` to `make_allocate_mode_c`, src/maliput/drake/systems/framework/value_producer.h:435-463, with the check of
null in the constructor of `Value`, src/maliput/drake/common/value.h:611-614; a generic callback is passed on. -/
def makeAllocate {t : Ty} : AllocateArg Obj Cls El t → Except Err (Option (AllocateCallback El))
  | .default x => return some fun _ => .ok ⟨t, x⟩
  | .model x => return some fun _ => .ok ⟨t, x⟩
  | .member cast obj f => do
    let typed ← instanceCast cast obj
    let f ← nonNull f
    return some fun _ => do
      match ← f typed with
      | some x => return ⟨t, x⟩
      | none => .error .aborts
  | .generic f => return f

/-- The members of `ValueProducer`, src/maliput/drake/systems/framework/value_producer.h:465-466. -/
structure ValueProducer (Base : Type) (El : Ty → Type) where
  allocate_ : Option (AllocateCallback El)
  calc_ : Option (CalcCallback Base El)

/-- `ValueProducer`, the default constructor, src/maliput/drake/systems/framework/value_producer.cc:10. -/
def ValueProducer.invalid : ValueProducer Base El := ⟨none, none⟩

/-- `ValueProducer`, the constructors, src/maliput/drake/systems/framework/value_producer.cc:12-20. -/
def ValueProducer.make {t : Ty} (allocate : AllocateArg Obj Cls El t) (calc_ : CalcArg Obj Cls Base Ctx El t) :
    Except Err (ValueProducer Base El) := do
  let a ← makeAllocate allocate
  let c ← makeCalc calc_
  throwUnless a.isSome
  throwUnless c.isSome
  return ⟨a, c⟩

/-- `is_valid`, src/maliput/drake/systems/framework/value_producer.cc:24. -/
def ValueProducer.isValid (p : ValueProducer Base El) : Bool := p.allocate_.isSome && p.calc_.isSome

/-- `Allocate`, src/maliput/drake/systems/framework/value_producer.cc:28-33. -/
def ValueProducer.allocate (p : ValueProducer Base El) : Except Err (Erased El) :=
  match p.allocate_ with
  | none => .error .throws
  | some f => f ()

/-- `Calc`, src/maliput/drake/systems/framework/value_producer.cc:35-43: the output afterwards, and whether it threw. -/
def ValueProducer.calc (p : ValueProducer Base El) (context : Base) (output : Option (Erased El)) :
    Option (Erased El) × Except Err Unit :=
  match output with
  | none => (none, .error .throws)
  | some v =>
    match p.calc_ with
    | none => (some v, .error .throws)
    | some f => (some (f context v).1, (f context v).2)

end Maliput.Producer
