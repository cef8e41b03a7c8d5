import Verif.Model.ValueProducer

set_option autoImplicit false
set_option linter.unusedSectionVars false

/-!
Model of the output ports of states, src/maliput/drake/systems/framework/leaf_system.cc.  Vectors are lists and abstract values are pairs
of a type and a value: what is cloned is copied.  Names, tickets and caches of ports, inequality constraints, and contexts made before the
last declaration are not modelled.
-/
namespace Maliput.StatePorts
open Maliput Producer

variable {Ty : Type} [DecidableEq Ty] {K : Type} {El : Ty → Type}

/-- The models of the states that a leaf system declared, src/maliput/drake/systems/framework/leaf_system.h. -/
structure Leaf (K : Type) (El : Ty → Type) where
  continuous : List K := []
  discrete : List (List K) := []
  abstract : List (Erased El) := []

/-- A declaration of a state. -/
inductive Declaration (K : Type) (El : Ty → Type)
  | continuous (model : List K) (numQ numV numZ : Int)
  | discrete (model : List K)
  | abstract (model : Erased El)

/-- `DeclareContinuousState`, `DeclareDiscreteState` and `DeclareAbstractState`,
src/maliput/drake/systems/framework/leaf_system.cc:518-569. -/
def Leaf.declare (s : Leaf K El) : Declaration K El → Except Err (Leaf K El)
  | .continuous model q v z => if (model.length : Int) = q + v + z then .ok { s with continuous := model } else .error .aborts
  | .discrete model => .ok { s with discrete := s.discrete ++ [model] }
  | .abstract model => .ok { s with abstract := s.abstract ++ [model] }

/-- Declarations one after the other. -/
def Leaf.declareAll (s : Leaf K El) : List (Declaration K El) → Except Err (Leaf K El)
  | [] => .ok s
  | d :: ds => do (← s.declare d).declareAll ds

/-- An index as it is given: `none` is one that was never set. -/
inductive Index
  | continuous (index : Option Nat)
  | discrete (index : Nat)
  | abstract (index : Option Nat)

/-- The callbacks of an output port: the index and, for vectors, the model that the callback for the allocation copied. -/
inductive Port (K : Type)
  | continuous (model : List K)
  | discrete (index : Nat) (model : List K)
  | abstract (index : Nat)

/-- `DeclareStateOutputPort`, src/maliput/drake/systems/framework/leaf_system.cc:638-675.  An index of a discrete state that was never
set is not modelled. -/
def Leaf.declarePort (s : Leaf K El) : Index → Except Err (Port K)
  | .continuous i =>
    match i with
    | none => .error .throws
    | some i => if i = 0 then .ok (.continuous s.continuous) else .error .throws
  | .discrete i =>
    match s.discrete[i]? with
    | none => .error .throws
    | some model => .ok (.discrete i model)
  | .abstract i =>
    match i with
    | none => .error .throws
    | some i => if i < s.abstract.length then .ok (.abstract i) else .error .throws

/-- The states in a context. -/
structure States (K : Type) (El : Ty → Type) where
  continuous : List K
  discrete : List (List K)
  abstract : List (Erased El)

/-- The states of a new context, src/maliput/drake/systems/framework/leaf_system.cc (see the model of contexts of leaf systems). -/
def Leaf.allocate (s : Leaf K El) : States K El := ⟨s.continuous, s.discrete, s.abstract⟩

/-- A write to a state, by the user or in a step. -/
inductive Write (K : Type) (El : Ty → Type)
  | continuous (values : List K)
  | discrete (index : Nat) (values : List K)
  | abstract (index : Nat) (value : Erased El)

/-- `SetFrom`, src/maliput/drake/systems/framework/vector_base.h:89-97. -/
def setVector (old new : List K) : Except Err (List K) := if new.length = old.length then .ok new else .error .throws

/-- `SetFrom`, src/maliput/drake/common/value.h. -/
def setValue (old new : Erased El) : Except Err (Erased El) := if old.1 = new.1 then .ok new else .error .throws

/-- A write that is refused changes nothing. -/
def States.write (c : States K El) : Write K El → States K El
  | .continuous xs => match setVector c.continuous xs with | .ok ys => { c with continuous := ys } | .error _ => c
  | .discrete i xs =>
    match c.discrete[i]? with
    | none => c
    | some old => match setVector old xs with | .ok ys => { c with discrete := c.discrete.set i ys } | .error _ => c
  | .abstract i v =>
    match c.abstract[i]? with
    | none => c
    | some old => match setValue old v with | .ok w => { c with abstract := c.abstract.set i w } | .error _ => c

/-- What a port gives. -/
inductive Output (K : Type) (El : Ty → Type)
  | vector (values : List K)
  | value (value : Erased El)

/-- An output is allocated and calculated: the callbacks in src/maliput/drake/systems/framework/leaf_system.cc:643-646, 654-658, 668-671,
with `CloneModel`, src/maliput/drake/systems/framework/model_values.cc:19-29. -/
def Port.eval (s : Leaf K El) (c : States K El) : Port K → Except Err (Output K El)
  | .continuous model => do return .vector (← setVector model c.continuous)
  | .discrete i model =>
    match c.discrete[i]? with
    | none => .error .throws
    | some xs => do return .vector (← setVector model xs)
  | .abstract i =>
    match s.abstract[i]?, c.abstract[i]? with
    | some model, some v => do return .value (← setValue model v)
    | _, _ => .error .ub

end Maliput.StatePorts
