import Verif.Model.Basic
import Mathlib.Algebra.Field.Defs

set_option autoImplicit false
set_option linter.unusedSectionVars false

/-!
Model of the time derivatives of a leaf system in explicit and implicit form, and of the maps between velocities and derivatives of
positions, src/maliput/drake/systems/framework/system.cc, system.h and system_base.h, as they are without overrides.  A context and a
continuous state carry the identifier of the system they were made for.  The vector of the derivatives in the cache is made anew by
each evaluation here; that the cache gives the same values is C107 and C108.
-/
namespace Maliput.Implicit
open Maliput

variable {R C : Type}

/-- A context: the identifier of its system, and everything a system may read. -/
structure Ctx (C : Type) where
  id : Nat
  content : C

/-- A continuous state as the derivatives use it: the identifier of its system, if any, and the values. -/
structure Derivatives (R : Type) where
  id : Option Nat
  values : List R
  deriving DecidableEq

/-- The members of a system that matter here.  `derive` is the override of `DoCalcTimeDerivatives`, which gets the values to be
overwritten and cannot change their number. -/
structure Sys (R C : Type) where
  id : Nat
  numStates : Nat
  residualSize : Option Nat
  derive : Option (C → List R → Except Err (List R))

/-- `set_implicit_time_derivatives_residual_size`, src/maliput/drake/systems/framework/system_base.h:1079-1082. -/
def Sys.declareResidualSize (s : Sys R C) (n : Int) : Sys R C :=
  { s with residualSize := if n > 0 then some n.toNat else none }

/-- `implicit_time_derivatives_residual_size`, src/maliput/drake/systems/framework/system_base.h:728-731. -/
def Sys.size (s : Sys R C) : Nat :=
  match s.residualSize with
  | some n => n
  | none => s.numStates

/-- `ValidateContext`, src/maliput/drake/systems/framework/system_base.h:744-748. -/
def Sys.validateContext (s : Sys R C) (c : Ctx C) : Except Err Unit := throwUnless (c.id = s.id)

/-- `ValidateCreatedForThisSystem`, src/maliput/drake/systems/framework/system_base.h:773-783. -/
def Sys.validateCreated (s : Sys R C) (d : Derivatives R) : Except Err Unit := throwUnless (d.id = some s.id)

/-- `AllocateTimeDerivatives`, src/maliput/drake/systems/framework/leaf_system.cc:175-177, with the values of the model vector. -/
def Sys.allocate (s : Sys R C) (initial : R) : Derivatives R := ⟨some s.id, List.replicate s.numStates initial⟩

/-- `DoCalcTimeDerivatives`, src/maliput/drake/systems/framework/system.cc:887-893, or its override. -/
def Sys.doCalc (s : Sys R C) (c : Ctx C) (d : Derivatives R) : Except Err (Derivatives R) :=
  match s.derive with
  | some f => do return { d with values := ← f c.content d.values }
  | none => if d.values.length = 0 then .ok d else .error .aborts

/-- `CalcTimeDerivatives`, src/maliput/drake/systems/framework/system.cc:237-242. -/
def Sys.calcTimeDerivatives (s : Sys R C) (c : Ctx C) (d : Derivatives R) : Except Err (Derivatives R) := do
  s.validateContext c
  s.validateCreated d
  s.doCalc c d

/-- `EvalTimeDerivatives`, src/maliput/drake/systems/framework/system.h:240-244. -/
def Sys.evalTimeDerivatives (s : Sys R C) (initial : R) (c : Ctx C) : Except Err (Derivatives R) := do
  s.validateContext c
  s.calcTimeDerivatives c (s.allocate initial)

variable [Field R]

/-- `DoCalcImplicitTimeDerivativesResidual`, src/maliput/drake/systems/framework/system.cc:896-916: the residual afterwards, and
whether an exception was thrown. -/
def Sys.doResidual (s : Sys R C) (initial : R) (c : Ctx C) (proposed : Derivatives R) (residual : List R) :
    List R × Except Err Unit :=
  if residual.length ≠ proposed.values.length then (residual, .error .throws)
  else
    match s.evalTimeDerivatives initial c with
    | .error e => (proposed.values, .error e)
    | .ok d =>
      if d.values.length = proposed.values.length then (List.zipWith (· - ·) proposed.values d.values, .ok ())
      else (proposed.values, .error .ub)

/-- `CalcImplicitTimeDerivativesResidual`, src/maliput/drake/systems/framework/system.cc:245-262. -/
def Sys.residual (s : Sys R C) (initial : R) (c : Ctx C) (proposed : Derivatives R) (residual : List R) : List R × Except Err Unit :=
  if residual.length ≠ s.size then (residual, .error .throws)
  else
    match s.validateContext c with
    | .error e => (residual, .error e)
    | .ok () =>
      match s.validateCreated proposed with
      | .error e => (residual, .error e)
      | .ok () => s.doResidual initial c proposed residual

/-- `MapVelocityToQDot`, src/maliput/drake/systems/framework/system.cc:467-477, 973-986: the vector of the derivatives of the positions
afterwards. -/
def Sys.velocityToQDot (s : Sys R C) (c : Ctx C) (velocity qdot : List R) : Except Err (List R) := do
  s.validateContext c
  throwUnless (qdot.length = velocity.length)
  return velocity

/-- `MapQDotToVelocity`, src/maliput/drake/systems/framework/system.cc:480-490, 958-971: the vector of the velocities afterwards. -/
def Sys.qDotToVelocity (s : Sys R C) (c : Ctx C) (qdot velocity : List R) : Except Err (List R) := do
  s.validateContext c
  throwUnless (velocity.length = qdot.length)
  return qdot

end Maliput.Implicit
