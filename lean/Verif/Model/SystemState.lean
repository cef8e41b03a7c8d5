import Verif.Model.StateVectors
import Verif.Model.TypeErasure

set_option autoImplicit false

/-!
Model of the discrete and abstract values of a system, src/maliput/drake/systems/framework/discrete_values.h and abstract_values.cc, and
of `State`, state.h, and `Parameters`, parameters.h, which consist of them.  The values of all vectors are in one memory
(Verif/Model/StateVectors.lean), all abstract values in another one (Verif/Model/TypeErasure.lean); groups and entries are pointers.
An exception does not undo what was written before it: functions that write several things return the memory and the exception.
Values are not destroyed while they are used, and `T` and `U` are the same.
-/
namespace Maliput.SysState
open Maliput StateVec TypeErasure

variable {K V : Type}

/-- The memory. -/
structure Mem (K V : Type) where
  vectors : Heap K
  values : List (Value V)
deriving DecidableEq

/-- The loops of `SetFrom` over pointers: what `f` gives for the value and the other value is written; an exception ends the loop. -/
def copyLoop {α : Type} (f : α → α → Except Err α) : List α → List (Nat × Nat) → List α × Option Err
  | w, [] => (w, none)
  | w, (i, j) :: rest =>
    match w[i]?, w[j]? with
    | some x, some y =>
      match f x y with
      | .ok z => copyLoop f (w.set i z) rest
      | .error e => (w, some e)
    | _, _ => (w, some .ub)

/-! ### Discrete values -/

/-- `data_` of `DiscreteValues`, src/maliput/drake/systems/framework/discrete_values.h:237-239. -/
abbrev Discrete := List Nat

/-- `DiscreteValues`, the constructors with vectors, src/maliput/drake/systems/framework/discrete_values.h:49-63; `none` is a null
pointer. -/
def Discrete.make : List (Option Nat) → Except Err Discrete
  | [] => .ok []
  | none :: _ => .error .throws
  | some a :: rest => do return a :: (← Discrete.make rest)

/-- `AppendGroup`, src/maliput/drake/systems/framework/discrete_values.h:72-80. -/
def Discrete.appendGroup (d : Discrete) : Option Nat → Except Err (Discrete × Int)
  | none => .error .throws
  | some a => .ok (d ++ [a], d.length)

/-- `get_mutable_vector(index)`, src/maliput/drake/systems/framework/discrete_values.h:149-152; `get_vector(index)`, `get_value(index)`
and `get_mutable_value(index)`, lines 142-167, check the same. -/
def Discrete.getVector (d : Discrete) (index : Int) : Except Err Nat := do
  throwUnless (decide (0 ≤ index ∧ index < d.length))
  match d[index.toNat]? with
  | some a => .ok a
  | none => .error .ub

/-- `get_mutable_vector()`, src/maliput/drake/systems/framework/discrete_values.h:112-115, with `ThrowUnlessExactlyOneGroup`, lines
212-221; so do the other methods without an index, lines 95-136. -/
def Discrete.getOnlyVector (d : Discrete) : Except Err Nat := do
  throwUnless (decide (d.length = 1))
  d.getVector 0

/-- `set_value(index, value)`, src/maliput/drake/systems/framework/discrete_values.h:170-170. -/
def Discrete.setValue (h : Heap K) (d : Discrete) (index : Int) (value : List K) : Except Err (Heap K) := do
  (Vec.basic (← d.getVector index)).setFromVector h value

/-- One group of `SetFrom`, src/maliput/drake/systems/framework/discrete_values.h:181-182. -/
def copyGroup (x y : List K) : Except Err (List K) := if x.length = y.length then .ok y else .error .throws

/-- `SetFrom`, src/maliput/drake/systems/framework/discrete_values.h:175-184. -/
def Discrete.setFrom (h : Heap K) (d other : Discrete) : Heap K × Option Err :=
  if d.length = other.length then copyLoop copyGroup h (d.zip other) else (h, some .throws)

/-- `DoClone`, src/maliput/drake/systems/framework/discrete_values.h:229-235. -/
def Discrete.clone (h : Heap K) (d : Discrete) : Heap K × Discrete :=
  (h ++ d.map (valuesAt h), (List.range d.length).map (h.length + ·))

/-! ### Abstract values -/

/-- `data_` of `AbstractValues`, src/maliput/drake/systems/framework/abstract_values.cc:10-23; `none` is a null pointer. -/
abbrev Abstract := List (Option Nat)

/-- `get_mutable_value`, src/maliput/drake/systems/framework/abstract_values.cc:33-37, and `get_value`, lines 27-31.  `armed`: the
assertions are enabled. -/
def Abstract.getValue (armed : Bool) (a : Abstract) (index : Int) : Except Err Nat :=
  if 0 ≤ index ∧ index < a.length then
    match a[index.toNat]? with
    | some (some p) => .ok p
    | _ => .error (if armed then .aborts else .ub)
  else .error (if armed then .aborts else .ub)

/-- The loop of `SetFrom`, src/maliput/drake/systems/framework/abstract_values.cc:41-44. -/
def Abstract.setFromLoop (armed : Bool) (hash : CType → BitVec 64) (w : List (Value V)) (a other : Abstract) : Nat → Nat →
    List (Value V) × Option Err
  | 0, _ => (w, none)
  | n + 1, i =>
    match a.getValue armed i with
    | .error e => (w, some e)
    | .ok p =>
      match other.getValue armed i with
      | .error e => (w, some e)
      | .ok q =>
        match copyLoop (TypeErasure.setFrom armed hash) w [(p, q)] with
        | (w, none) => Abstract.setFromLoop armed hash w a other n (i + 1)
        | (w, some e) => (w, some e)

/-- `AbstractValues::SetFrom`, src/maliput/drake/systems/framework/abstract_values.cc:39-45. -/
def Abstract.setFrom (armed : Bool) (hash : CType → BitVec 64) (w : List (Value V)) (a other : Abstract) :
    List (Value V) × Option Err :=
  if armed ∧ a.length ≠ other.length then (w, some .aborts) else Abstract.setFromLoop armed hash w a other a.length 0

/-- `datum->Clone()`, src/maliput/drake/systems/framework/abstract_values.cc:51-51. -/
def cloneEntry (w : List (Value V)) (p : Option Nat) : Except Err (Value V) :=
  match p.bind (w[·]?) with
  | some v => .ok (TypeErasure.clone v)
  | none => .error .ub

/-- `AbstractValues::Clone`, src/maliput/drake/systems/framework/abstract_values.cc:47-54. -/
def Abstract.clone (w : List (Value V)) (a : Abstract) : Except Err (List (Value V) × Abstract) := do
  let cloned ← a.mapM (cloneEntry w)
  return (w ++ cloned, (List.range a.length).map fun i => some (w.length + i))

/-! ### States -/

/-- The members of `State`, src/maliput/drake/systems/framework/state.h:131-134. -/
structure State where
  continuous : CState
  discrete : Discrete
  abstract : Abstract

/-- `State::SetFrom`, src/maliput/drake/systems/framework/state.h:109-114. -/
def State.setFrom (armed : Bool) (hash : CType → BitVec 64) (m : Mem K V) (s other : State) : Mem K V × Option Err :=
  match s.continuous.setFrom m.vectors other.continuous with
  | .error e => (m, some e)
  | .ok h =>
    match s.discrete.setFrom h other.discrete with
    | (h, some e) => (⟨h, m.values⟩, some e)
    | (h, none) =>
      let r := s.abstract.setFrom armed hash m.values other.abstract
      (⟨h, r.1⟩, r.2)

/-- `LeafContext::DoCloneState`, src/maliput/drake/systems/framework/leaf_context.cc:30-47.  The `dynamic_cast` throws if the continuous
state is not a `BasicVector`. -/
def State.clone (m : Mem K V) (s : State) : Except Err (Mem K V × State) :=
  match s.continuous.state with
  | .sub .. => .error .throws
  | .basic a => do
    let h := m.vectors
    let h1 := h ++ [valuesAt h a]
    let c ← CState.make h1 (.basic h.length) (s.continuous.q.size h) (s.continuous.v.size h) (s.continuous.z.size h)
    let d := s.discrete.clone h1
    let x ← s.abstract.clone m.values
    return (⟨d.1, x.1⟩, ⟨c, d.2, x.2⟩)

/-! ### Parameters -/

/-- The members of `Parameters`, src/maliput/drake/systems/framework/parameters.h:140-142. -/
structure Parameters where
  numeric : Discrete
  abstract : Abstract

/-- `Parameters::SetFrom`, src/maliput/drake/systems/framework/parameters.h:118-123. -/
def Parameters.setFrom (armed : Bool) (hash : CType → BitVec 64) (m : Mem K V) (p other : Parameters) : Mem K V × Option Err :=
  match p.numeric.setFrom m.vectors other.numeric with
  | (h, some e) => (⟨h, m.values⟩, some e)
  | (h, none) =>
    let r := p.abstract.setFrom armed hash m.values other.abstract
    (⟨h, r.1⟩, r.2)

/-- `Parameters::Clone`, src/maliput/drake/systems/framework/parameters.h:109-116. -/
def Parameters.clone (m : Mem K V) (p : Parameters) : Except Err (Mem K V × Parameters) := do
  let d := p.numeric.clone m.vectors
  let x ← p.abstract.clone m.values
  return (⟨d.1, x.1⟩, ⟨d.2, x.2⟩)

/-! ### Histories -/

/-- What is done with the states of a system; states are named by the order in which they are made. -/
inductive Op (K V : Type)
  | clone (s : Nat)
  | setFrom (s other : Nat)
  /-- `get_mutable_continuous_state().SetFromVector(values)`. -/
  | setContinuous (s : Nat) (values : List K)
  /-- `get_mutable_discrete_state().set_value(group, values)`. -/
  | setDiscrete (s : Nat) (group : Int) (values : List K)
  /-- `get_mutable_abstract_state().get_mutable_value(index).set_value<T>(x)`. -/
  | setAbstract (s : Nat) (index : Int) (t : CType) (x : V)

/-- A memory and the states in it. -/
structure World (K V : Type) where
  mem : Mem K V
  states : List State

/-- One operation: the world afterwards and the exception. -/
def World.exec (armed : Bool) (hash : CType → BitVec 64) (w : World K V) : Op K V → World K V × Option Err
  | .clone i =>
    match w.states[i]? with
    | none => (w, some .ub)
    | some s =>
      match s.clone w.mem with
      | .ok (m, c) => (⟨m, w.states ++ [c]⟩, none)
      | .error e => (w, some e)
  | .setFrom i j =>
    match w.states[i]?, w.states[j]? with
    | some s, some o =>
      let r := s.setFrom armed hash w.mem o
      (⟨r.1, w.states⟩, r.2)
    | _, _ => (w, some .ub)
  | .setContinuous i values =>
    match w.states[i]? with
    | none => (w, some .ub)
    | some s =>
      match s.continuous.state.setFromVector w.mem.vectors values with
      | .ok h => (⟨⟨h, w.mem.values⟩, w.states⟩, none)
      | .error e => (w, some e)
  | .setDiscrete i group values =>
    match w.states[i]? with
    | none => (w, some .ub)
    | some s =>
      match s.discrete.setValue w.mem.vectors group values with
      | .ok h => (⟨⟨h, w.mem.values⟩, w.states⟩, none)
      | .error e => (w, some e)
  | .setAbstract i index t x =>
    match w.states[i]? with
    | none => (w, some .ub)
    | some s =>
      match s.abstract.getValue armed index with
      | .error e => (w, some e)
      | .ok p =>
        match w.mem.values[p]? with
        | none => (w, some .ub)
        | some v =>
          match setValue armed hash t x v with
          | .ok v => (⟨⟨w.mem.vectors, w.mem.values.set p v⟩, w.states⟩, none)
          | .error e => (w, some e)

/-- Several operations: the world afterwards and the exceptions.  A program that catches an exception goes on. -/
def World.run (armed : Bool) (hash : CType → BitVec 64) : World K V → List (Op K V) → World K V × List (Option Err)
  | w, [] => (w, [])
  | w, o :: os =>
    let r := w.exec armed hash o
    let r' := World.run armed hash r.1 os
    (r'.1, r.2 :: r'.2)

end Maliput.SysState
