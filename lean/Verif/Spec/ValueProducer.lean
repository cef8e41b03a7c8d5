import Verif.Model.ValueProducer

set_option autoImplicit false
set_option linter.unusedSectionVars false

/-! Specification of value producers: what the arguments of a constructor mean. -/
namespace Maliput.Spec
open Maliput Producer

variable {Ty : Type} [DecidableEq Ty] {El : Ty → Type} {Obj Cls Base Ctx : Type}

/-- An instance that is set and of the class. -/
def Instance (cast : Obj → Option Cls) (obj : Option Obj) (c : Cls) : Prop := ∃ o, obj = some o ∧ cast o = some c

/-- The function that a calculation means: what it does with a context of its type and an output of its type. -/
inductive Means {t : Ty} : CalcArg Obj Cls Base Ctx El t → (Base → Option Ctx) → OutFunction Ctx (El t) → Prop
  | memberOut {cast obj ctx f c} : Instance cast obj c → Means (.memberOut cast obj ctx (some f)) ctx (f c)
  | memberReturn {cast obj ctx f c} : Instance cast obj c →
      Means (.memberReturn cast obj ctx (some f)) ctx fun x old => match f c x with | .ok y => (y, .ok ()) | .error e => (old, .error e)
  | functionOut {ctx f} : Means (.functionOut ctx (some f)) ctx f
  | functionReturn {ctx f} :
      Means (.functionReturn ctx (some f)) ctx fun x old => match f x with | .ok y => (y, .ok ()) | .error e => (old, .error e)

/-- A calculation that is set, with an instance of its class if it needs one. -/
def UsableCalc {t : Ty} : CalcArg Obj Cls Base Ctx El t → Prop
  | .memberOut cast obj _ f => (∃ c, Instance cast obj c) ∧ f ≠ none
  | .memberReturn cast obj _ f => (∃ c, Instance cast obj c) ∧ f ≠ none
  | .functionOut _ f => f ≠ none
  | .functionReturn _ f => f ≠ none
  | .generic f => f ≠ none

/-- An allocation that is set, with an instance of its class if it needs one. -/
def UsableAllocate {t : Ty} : AllocateArg Obj Cls El t → Prop
  | .member cast obj f => (∃ c, Instance cast obj c) ∧ f ≠ none
  | .generic f => f ≠ none
  | _ => True

end Maliput.Spec
