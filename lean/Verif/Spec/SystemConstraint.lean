import Verif.Model.SystemConstraint
import Mathlib.Order.WithBot

set_option autoImplicit false
set_option linter.unusedSectionVars false

/-!
What constraints of systems should mean: bounds as numbers of a line with two ends, and values that lie between bounds up to a tolerance.
-/
namespace Maliput.SystemConstraint.Spec

open Maliput Maliput.SystemConstraint

variable {R Ctx : Type} [Field R] [LinearOrder R]

/-- A number on the line with two ends. -/
def num (x : R) : WithBot (WithTop R) := ((x : WithTop R) : WithBot (WithTop R))

/-- A bound on the line with two ends. -/
def val : Bound R → WithBot (WithTop R)
  | .negInf => ⊥
  | .fin x => num x
  | .posInf => ⊤

/-- A value between two bounds, up to a tolerance. -/
def Between (tol : R) (l u : Bound R) (v : R) : Prop := val l ≤ num (v + tol) ∧ num (v - tol) ≤ val u

/-- Each value of a vector between its bounds, up to a tolerance. -/
def Meets (tol : R) (lower upper : List (Bound R)) (values : List R) : Prop :=
  ∀ (i : Nat) (l u : Bound R) (v : R), lower[i]? = some l → upper[i]? = some u → values[i]? = some v → Between tol l u v

/-- Bounds that one of the public constructors gave. -/
inductive Made : Bounds R → Prop
  | both (lower upper : List (Bound R)) (b : Bounds R) : bounds lower upper = .ok b → Made b
  | lower (lower : List (Bound R)) (b : Bounds R) : lowerBounds lower = .ok b → Made b
  | upper (upper : List (Bound R)) (b : Bounds R) : upperBounds upper = .ok b → Made b
  | equality (size : Int) (b : Bounds R) : SystemConstraint.equality size = .ok b → Made b
  | default : Made (zeroBounds 0)

/-- A call that adds a constraint. -/
inductive Add (R Ctx : Type)
  | internal (k : Constraint R Ctx)
  | external (e : External R Ctx)

/-- One call. -/
def perform (s : System R Ctx) : Add R Ctx → System R Ctx × Except Err Nat
  | .internal k => addConstraint s k
  | .external e => ((addExternal s e).1, .ok (addExternal s e).2)

/-- Calls in order: the system, and what each call gave. -/
def performAll (s : System R Ctx) : List (Add R Ctx) → System R Ctx × List (Except Err Nat)
  | [] => (s, [])
  | a :: l => ((performAll (perform s a).1 l).1, (perform s a).2 :: (performAll (perform s a).1 l).2)

def isExternal : Add R Ctx → Bool
  | .internal _ => false
  | .external _ => true

/-- Whether a call was accepted. -/
def accepted : Except Err Nat → Bool
  | .ok _ => true
  | .error _ => false

/-- The constraint that a call asks for: an internal one also demands contexts of its system; an external one without a function has no
values at all. -/
def asked (id : Nat) : Add R Ctx → Constraint R Ctx
  | .internal k => ⟨k.fn, k.bounds, k.description, some id⟩
  | .external ⟨d, b, some f⟩ => ⟨some f, b, d, none⟩
  | .external ⟨d, _, none⟩ => ⟨some fun _ => .ok [], zeroBounds 0, d ++ " (disabled for this scalar type)", none⟩

end Maliput.SystemConstraint.Spec
