import Verif.Model.Basic
import Mathlib.Algebra.Order.Field.Basic
import Mathlib.Algebra.Order.Ring.Abs

set_option autoImplicit false
set_option linter.unusedSectionVars false

/-!
Model of the constraints of systems: src/maliput/drake/systems/framework/system_constraint.h, system_constraint.cc, and the functions of
system.cc and leaf_system.cc that add and check them.

The values of a constraint are finite numbers of an ordered field; its bounds may be infinite.  A function that computes the values is
given as the vector that it leaves, or its exception.  Contexts are a parameter; all that is read of one here is the id of its system.
-/
namespace Maliput.SystemConstraint

open Maliput

/-- A bound: a number or an infinity (`std::numeric_limits<double>::infinity()`). -/
inductive Bound (R : Type)
  | negInf
  | fin (x : R)
  | posInf
  deriving DecidableEq

variable {R : Type} [Field R] [LinearOrder R]

/-- `<=` of two bounds, as of doubles. -/
def Bound.le : Bound R → Bound R → Bool
  | .negInf, _ => true
  | _, .posInf => true
  | .fin a, .fin b => a ≤ b
  | _, _ => false

/-- `SystemConstraintType`, src/maliput/drake/systems/framework/system_constraint.h:29-32. -/
inductive Kind
  | equality
  | inequality
  deriving DecidableEq

/-- `SystemConstraintBounds`, src/maliput/drake/systems/framework/system_constraint.h:36-80. -/
structure Bounds (R : Type) where
  size : Nat
  kind : Kind
  lower : List (Bound R)
  upper : List (Bound R)
  deriving DecidableEq

/-- `BoundsToType`, src/maliput/drake/systems/framework/system_constraint.cc:7-22. -/
def boundsToType (lower upper : List (Bound R)) : Except Err Kind := do
  throwUnless (lower.length = upper.length)
  throwUnless ((lower.zip upper).all fun p => p.1.le p.2)
  if (lower.zip upper).any fun p => p.1 ≠ p.2 then
    return .inequality
  throwUnless (lower.all fun b => b = .fin 0)
  throwUnless (upper.all fun b => b = .fin 0)
  return .equality

/-- The constructor with both bounds, src/maliput/drake/systems/framework/system_constraint.cc:26-28. -/
def bounds (lower upper : List (Bound R)) : Except Err (Bounds R) := do
  let kind ← boundsToType lower upper
  return ⟨lower.length, kind, lower, upper⟩

/-- The constructor with lower bounds only, src/maliput/drake/systems/framework/system_constraint.cc:30-31. -/
def lowerBounds (lower : List (Bound R)) : Except Err (Bounds R) := bounds lower (List.replicate lower.length .posInf)

/-- The constructor with upper bounds only, src/maliput/drake/systems/framework/system_constraint.cc:33-35. -/
def upperBounds (upper : List (Bound R)) : Except Err (Bounds R) := bounds (List.replicate upper.length .negInf) upper

/-- The constructor with a size, src/maliput/drake/systems/framework/system_constraint.cc:37-41. -/
def zeroBounds (size : Nat) : Bounds R := ⟨size, .equality, List.replicate size (.fin 0), List.replicate size (.fin 0)⟩

/-- `Equality`, src/maliput/drake/systems/framework/system_constraint.h:46-49. -/
def equality (size : Int) : Except Err (Bounds R) := do
  throwUnless (0 ≤ size)
  return zeroBounds size.toNat

/-- `SystemConstraint`, src/maliput/drake/systems/framework/system_constraint.h:136-270.  A missing function is an empty `std::function`;
the system, which the second kind of function is given, is part of the function here. -/
structure Constraint (R Ctx : Type) where
  fn : Option (Ctx → Except Err (List R))
  bounds : Bounds R
  description : String
  systemId : Option Nat

/-- `MALIPUT_DRAKE_DEMAND`, src/maliput/drake/common/drake_assert.h:107-114. -/
def demand (b : Bool) : Except Err Unit := if b then .ok () else .error .aborts

variable {Ctx : Type} (idOf : Ctx → Nat)

/-- `MaybeValidateSystemIdsMatch`, src/maliput/drake/systems/framework/system_constraint.h:258-260. -/
def validate (k : Constraint R Ctx) (c : Ctx) : Except Err Unit :=
  demand (match k.systemId with
    | none => true
    | some i => i = idOf c)

/-- `Calc`, src/maliput/drake/systems/framework/system_constraint.h:188-197.  A call of an empty function throws `std::bad_function_call`. -/
def calcValue (k : Constraint R Ctx) (c : Ctx) : Except Err (List R) := do
  validate idOf k c
  match k.fn with
  | none => .error .throws
  | some f => do
    let value ← f c
    demand (value.length = k.bounds.size)
    return value

/-- `(value - lower) >= -tol` for one element, src/maliput/drake/systems/framework/system_constraint.h:221. -/
def aboveWithin (tol value : R) : Bound R → Bool
  | .negInf => true
  | .fin l => -tol ≤ value - l
  | .posInf => false

/-- `(upper - value) >= -tol` for one element, src/maliput/drake/systems/framework/system_constraint.h:222. -/
def belowWithin (tol value : R) : Bound R → Bool
  | .negInf => false
  | .fin u => -tol ≤ u - value
  | .posInf => true

/-- `CheckSatisfied`, src/maliput/drake/systems/framework/system_constraint.h:201-225. -/
def checkSatisfied (k : Constraint R Ctx) (c : Ctx) (tol : R) : Except Err Bool := do
  validate idOf k c
  demand (0 ≤ tol)
  let value ← calcValue idOf k c
  match k.bounds.kind with
  | .equality =>
    if tol = 0 then
      return value.all fun v => v = 0
    else
      return value.all fun v => |v| ≤ tol
  | .inequality =>
    if tol = 0 then
      return ((value.zip k.bounds.lower).all fun p => p.2.le (.fin p.1)) && (value.zip k.bounds.upper).all fun p => Bound.le (.fin p.1) p.2
    else
      return ((value.zip k.bounds.lower).all fun p => aboveWithin tol p.1 p.2) && (value.zip k.bounds.upper).all fun p => belowWithin tol p.1 p.2

/-- `ExternalSystemConstraint`, src/maliput/drake/systems/framework/system_constraint.h:278-343, for `double`. -/
structure External (R Ctx : Type) where
  description : String
  bounds : Bounds R
  fn : Option (Ctx → Except Err (List R))

/-- What a system knows of its constraints, `constraints_` and `external_constraints_`,
src/maliput/drake/systems/framework/system.h:1633-1645. -/
structure System (R Ctx : Type) where
  id : Nat
  constraints : List (Constraint R Ctx)
  externals : List (External R Ctx)

/-- `AddConstraint`, src/maliput/drake/systems/framework/system.cc:869-885, of a constraint that was made for this system: the index. -/
def addConstraint (s : System R Ctx) (k : Constraint R Ctx) : System R Ctx × Except Err Nat :=
  if s.externals ≠ [] then (s, .error .throws)
  else ({ s with constraints := s.constraints ++ [{ k with systemId := some s.id }] }, .ok s.constraints.length)

/-- `AddExternalConstraint`, src/maliput/drake/systems/framework/system.cc:221-234: the index. -/
def addExternal (s : System R Ctx) (e : External R Ctx) : System R Ctx × Nat :=
  let k : Constraint R Ctx :=
    match e.fn with
    | some f => ⟨some f, e.bounds, e.description, none⟩
    | none => ⟨some fun _ => .ok [], zeroBounds 0, e.description ++ " (disabled for this scalar type)", none⟩
  ({ s with constraints := s.constraints ++ [k], externals := s.externals ++ [e] }, s.constraints.length)

/-- `get_constraint`, src/maliput/drake/systems/framework/system.cc:676-682. -/
def getConstraint (s : System R Ctx) (index : Int) : Except Err (Constraint R Ctx) :=
  if index < 0 ∨ s.constraints.length ≤ index then .error .outOfRange
  else match s.constraints[index.toNat]? with
    | some k => .ok k
    | none => .error .ub

/-- The loop of `CheckSystemConstraintsSatisfied`, src/maliput/drake/systems/framework/system.cc:689-697. -/
def checkAll (c : Ctx) (tol : R) : List (Constraint R Ctx) → Except Err Bool
  | [] => .ok true
  | k :: l => do
    let b ← checkSatisfied idOf k c tol
    if b then checkAll c tol l else return false

/-- `CheckSystemConstraintsSatisfied`, src/maliput/drake/systems/framework/system.cc:685-699, with `ValidateContext`, system_base.h:744-748. -/
def checkSystem (s : System R Ctx) (c : Ctx) (tol : R) : Except Err Bool := do
  throwUnless (idOf c = s.id)
  demand (0 ≤ tol)
  checkAll idOf c tol s.constraints

/-- `DeclareInequalityConstraint`, src/maliput/drake/systems/framework/leaf_system.cc:721-726. -/
def declareInequality (s : System R Ctx) (f : Option (Ctx → Except Err (List R))) (b : Bounds R) (description : String) :
    System R Ctx × Except Err Nat := addConstraint s ⟨f, b, description, none⟩

/-- `DeclareEqualityConstraint`, src/maliput/drake/systems/framework/leaf_system.cc:715-718. -/
def declareEquality (s : System R Ctx) (f : Option (Ctx → Except Err (List R))) (count : Int) (description : String) :
    System R Ctx × Except Err Nat :=
  match equality count with
  | .error e => (s, .error e)
  | .ok b => declareInequality s f b description

/-- `std::isinf`. -/
def Bound.isInf : Bound R → Bool
  | .fin _ => false
  | _ => true

/-- The elements at some indices; an access beyond a vector is undefined. -/
def pick {α : Type} (l : List α) (indices : List Nat) : Except Err (List α) :=
  indices.mapM fun i => match l[i]? with
    | some x => .ok x
    | none => .error .ub

/-- An index and whether a bound of its element is finite, src/maliput/drake/systems/framework/leaf_system.cc:932-936; an access beyond a
vector is undefined. -/
def mark (lower upper : List (Bound R)) (i : Nat) : Except Err (Nat × Bool) :=
  match lower[i]?, upper[i]? with
  | some l, some u => .ok (i, !l.isInf || !u.isInf)
  | _, _ => .error .ub

/-- `MaybeDeclareVectorBaseInequalityConstraint`, src/maliput/drake/systems/framework/leaf_system.cc:919-955, for a model vector of a size with
these element bounds (`GetElementBounds`, vector_base.h:198-201), both of them of the size of the vector or both empty as its comment
requires.  The vector of a context is a function that may throw. -/
def maybeDeclareVector (s : System R Ctx) (kind : String) (size : Nat) (lower upper : List (Bound R))
    (vector : Ctx → Except Err (List R)) : System R Ctx × Except Err (Option Nat) :=
  if lower.length = 0 ∧ upper.length = 0 then (s, .ok none)
  else
    match (List.range size).mapM (mark lower upper) with
    | .error e => (s, .error e)
    | .ok marked =>
      let indices := (marked.filter (·.2)).map (·.1)
      if indices = [] then (s, .ok none)
      else
        match (do bounds (← pick lower indices) (← pick upper indices)) with
        | .error e => (s, .error e)
        | .ok b =>
          match declareInequality s (some fun c => do pick (← vector c) indices) b kind with
          | (s', .error e) => (s', .error e)
          | (s', .ok i) => (s', .ok (some i))

end Maliput.SystemConstraint
