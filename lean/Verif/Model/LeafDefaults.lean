import Verif.Model.SystemState

set_option autoImplicit false

/-!
Model of what leaf systems declare about their states and parameters and of the contexts made from it,
src/maliput/drake/systems/framework/leaf_system.cc and model_values.cc.  Vectors and abstract values are in the memories of
Verif/Model/SystemState.lean, where they stay.  The virtual functions a system can override, `SetDefaultState`, `SetDefaultParameters`,
`DoMakeLeafContext` and `DoValidateAllocatedLeafContext`, are those of `LeafSystem`.  Constraints on the elements of vectors, the cache,
the tickets, ports and the time are not part of this model.  `int`s do not overflow.
-/
namespace Maliput.LeafDefaults
open Maliput StateVec TypeErasure SysState

variable {K V : Type}

/-! ### Model values -/

/-- `values_` of `ModelValues`, src/maliput/drake/systems/framework/model_values.h:69-70: where the models are, `none` is a null pointer.  The
vector in a `Value<BasicVector<T>>` is in the memory of the vectors. -/
abbrev Models := List (Option Nat)

/-- `AddModel`, src/maliput/drake/systems/framework/model_values.cc:12-17, and `AddVectorModel`, model_values.h:73-80. -/
def Models.add (ms : Models) (index : Int) (model : Option Nat) : Except Err Models :=
  if index ≥ ms.length then .ok (ms ++ List.replicate (index.toNat - ms.length) none ++ [model]) else .error .aborts

/-- The model `CloneModel` clones, src/maliput/drake/systems/framework/model_values.cc:20-21; `values_[index]` with a negative index is
undefined. -/
def Models.find (ms : Models) (index : Int) : Except Err (Option Nat) :=
  if index < ms.length then
    if index < 0 then .error .ub else .ok (ms.getD index.toNat none)
  else .ok none

/-- `CloneModel`, src/maliput/drake/systems/framework/model_values.cc:19-29. -/
def cloneModel (w : List (Value V)) (ms : Models) (index : Int) : Except Err (List (Value V) × Option Nat) := do
  match ← ms.find index with
  | none => return (w, none)
  | some a =>
    match w[a]? with
    | none => .error .ub
    | some v => return (w ++ [TypeErasure.clone v], some w.length)

/-- `CloneAllModels`, src/maliput/drake/systems/framework/model_values.h:52-58: these indices. -/
def cloneModels (w : List (Value V)) (ms : Models) : List Nat → Except Err (List (Value V) × Models)
  | [] => .ok (w, [])
  | i :: is => do
    let (w, p) ← cloneModel w ms i
    let (w, ps) ← cloneModels w ms is
    return (w, p :: ps)

/-- `CloneVectorModel`, src/maliput/drake/systems/framework/model_values.h:82-90.  The intermediate clone is left out. -/
def cloneVectorModel (h : Heap K) (ms : Models) (index : Int) : Except Err (Heap K × Option Nat) := do
  match ← ms.find index with
  | none => return (h, none)
  | some a =>
    match h[a]? with
    | none => .error .ub
    | some xs => return (h ++ [xs], some h.length)

/-! ### Declarations -/

/-- The members of `LeafSystem` with models, src/maliput/drake/systems/framework/leaf_system.h:1958-1975, and the numbers of kinds of
continuous variables, system_base.h:1035-1042. -/
structure System where
  continuous : Nat
  nq : Int
  nv : Int
  nz : Int
  discrete : Discrete
  abstract : Models
  numeric : Models
  parameters : Models

/-- `LeafSystem`, the constructor, src/maliput/drake/systems/framework/leaf_system.cc:294-310: the model of the continuous state is an empty vector. -/
def makeSystem (m : Mem K V) : Mem K V × System :=
  (⟨m.vectors ++ [[]], m.values⟩, ⟨m.vectors.length, 0, 0, 0, [], [], [], []⟩)

/-- `DeclareContinuousState` with a vector and numbers, src/maliput/drake/systems/framework/leaf_system.cc:517-537. -/
def declareContinuous (m : Mem K V) (s : System) (model : Nat) (nq nv nz : Int) : Except Err (Mem K V × System × Int) :=
  let xs := valuesAt m.vectors model
  if (xs.length : Int) = nq + nv + nz then
    .ok (⟨m.vectors ++ [xs], m.values⟩, { s with continuous := m.vectors.length, nq := nq, nv := nv, nz := nz }, 0)
  else .error .aborts

/-- `DeclareContinuousState` with a vector, src/maliput/drake/systems/framework/leaf_system.cc:510-515. -/
def declareMisc (m : Mem K V) (s : System) (model : Nat) : Except Err (Mem K V × System × Int) :=
  declareContinuous m s model 0 0 (valuesAt m.vectors model).length

/-- `VectorX<T>::Zero(n)`; a negative size is an assertion of Eigen, without which it is undefined. -/
def zeros [Zero K] (armed : Bool) (n : Int) : Except Err (List K) :=
  if 0 ≤ n then .ok (List.replicate n.toNat 0) else .error (if armed then .aborts else .ub)

/-- `DeclareContinuousState` with numbers, src/maliput/drake/systems/framework/leaf_system.cc:504-508; with one number, lines 498-502, `nq` and
`nv` are 0. -/
def declareContinuousSizes [Zero K] (armed : Bool) (m : Mem K V) (s : System) (nq nv nz : Int) :
    Except Err (Mem K V × System × Int) := do
  let xs ← zeros armed (nq + nv + nz)
  declareContinuous ⟨m.vectors ++ [xs], m.values⟩ s m.vectors.length nq nv nz

/-- `DeclareDiscreteState` with a vector, src/maliput/drake/systems/framework/leaf_system.cc:539-550, and with a vector of Eigen, lines 552-555. -/
def declareDiscrete (m : Mem K V) (s : System) (model : Nat) : Except Err (Mem K V × System × Int) := do
  let index : Int := s.discrete.length
  let (discrete, _) ← s.discrete.appendGroup (some m.vectors.length)
  return (⟨m.vectors ++ [valuesAt m.vectors model], m.values⟩, { s with discrete := discrete }, index)

/-- `DeclareDiscreteState` with a number, src/maliput/drake/systems/framework/leaf_system.cc:557-561. -/
def declareDiscreteSize [Zero K] (m : Mem K V) (s : System) (n : Int) : Except Err (Mem K V × System × Int) :=
  if 0 ≤ n then
    declareDiscrete ⟨m.vectors ++ [List.replicate n.toNat 0], m.values⟩ s m.vectors.length
  else .error .aborts

/-- `DeclareAbstractState`, src/maliput/drake/systems/framework/leaf_system.cc:563-569. -/
def declareAbstract (m : Mem K V) (s : System) (model : Nat) : Except Err (Mem K V × System × Int) :=
  match m.values[model]? with
  | none => .error .ub
  | some v => do
    let index : Int := s.abstract.length
    let abstract ← s.abstract.add index (some m.values.length)
    return (⟨m.vectors, m.values ++ [TypeErasure.clone v]⟩, { s with abstract := abstract }, index)

/-- `DeclareNumericParameter`, src/maliput/drake/systems/framework/leaf_system.cc:462-473. -/
def declareNumeric (m : Mem K V) (s : System) (model : Nat) : Except Err (Mem K V × System × Int) := do
  let index : Int := s.numeric.length
  let numeric ← s.numeric.add index (some m.vectors.length)
  return (⟨m.vectors ++ [valuesAt m.vectors model], m.values⟩, { s with numeric := numeric }, index)

/-- `DeclareAbstractParameter`, src/maliput/drake/systems/framework/leaf_system.cc:475-481. -/
def declareParameter (m : Mem K V) (s : System) (model : Nat) : Except Err (Mem K V × System × Int) :=
  match m.values[model]? with
  | none => .error .ub
  | some v => do
    let index : Int := s.parameters.length
    let parameters ← s.parameters.add index (some m.values.length)
    return (⟨m.vectors, m.values ++ [TypeErasure.clone v]⟩, { s with parameters := parameters }, index)

/-! ### Contexts -/

/-- A `LeafContext`: the system it was created for, its state and its parameters, src/maliput/drake/systems/framework/leaf_context.h:82-83 and context.h:813-813. -/
structure Context where
  system : Nat
  state : State
  parameters : Parameters

/-- `AllocateContinuousState`, src/maliput/drake/systems/framework/leaf_system.cc:420-429, which is `AllocateTimeDerivatives`, lines 174-177. -/
def allocateContinuous (h : Heap K) (s : System) : Except Err (Heap K × CState) :=
  let xs := valuesAt h s.continuous
  if (xs.length : Int) = s.nq + s.nv + s.nz then do
    let c ← CState.make (h ++ [xs]) (.basic h.length) s.nq s.nv s.nz
    return (h ++ [xs], c)
  else .error .aborts

/-- `AllocateAbstractState`, src/maliput/drake/systems/framework/leaf_system.cc:436-439. -/
def allocateAbstract (w : List (Value V)) (s : System) : Except Err (List (Value V) × Abstract) :=
  cloneModels w s.abstract (List.range s.abstract.length)

/-- The first loop of `AllocateParameters`, src/maliput/drake/systems/framework/leaf_system.cc:445-449, with the check of `DiscreteValues` that no vector
is missing. -/
def allocateNumeric (armed : Bool) (h : Heap K) (ms : Models) : List Nat → Except Err (Heap K × Discrete)
  | [] => .ok (h, [])
  | i :: is => do
    let (h, p) ← cloneVectorModel h ms i
    match p with
    | none => .error (if armed then .aborts else .throws)
    | some a => do
      let (h, as) ← allocateNumeric armed h ms is
      return (h, a :: as)

/-- `AllocateParameters`, src/maliput/drake/systems/framework/leaf_system.cc:441-460. -/
def allocateParameters (armed : Bool) (m : Mem K V) (s : System) : Except Err (Mem K V × Parameters) := do
  let (h, numeric) ← allocateNumeric armed m.vectors s.numeric (List.range s.numeric.length)
  let (w, abstract) ← cloneModels m.values s.parameters (List.range s.parameters.length)
  return (⟨h, w⟩, ⟨numeric, abstract⟩)

/-- `DoAllocateContext`, src/maliput/drake/systems/framework/leaf_system.cc:80-124.  All vectors are `BasicVector`s.  `AllocateDiscreteState`, lines
431-434, is the clone of the groups. -/
def allocateContext (armed : Bool) (m : Mem K V) (id : Nat) (s : System) : Except Err (Mem K V × Context) := do
  let (m, parameters) ← allocateParameters armed m s
  let (h, continuous) ← allocateContinuous m.vectors s
  let discrete := s.discrete.clone h
  let (w, abstract) ← allocateAbstract m.values s
  return (⟨discrete.1, w⟩, ⟨id, ⟨continuous, discrete.2, abstract⟩, parameters⟩)

/-- The loop for systems without models of groups, src/maliput/drake/systems/framework/leaf_system.cc:143-147. -/
def zeroGroups [Zero K] (h : Heap K) : List Nat → Heap K × Option Err
  | [] => (h, none)
  | a :: as =>
    match (Vec.basic a).setFromVector h (List.replicate (valuesAt h a).length 0) with
    | .ok h => zeroGroups h as
    | .error e => (h, some e)

/-- `ContinuousState::SetFromVector`, src/maliput/drake/systems/framework/continuous_state.h:175-178. -/
def setContinuousFrom (armed : Bool) (h : Heap K) (c : CState) (xs : List K) : Except Err (Heap K) :=
  if armed ∧ (xs.length : Int) ≠ c.state.size h then .error .aborts else c.state.setFromVector h xs

/-- `SetDefaultState`, src/maliput/drake/systems/framework/leaf_system.cc:126-152, of a context and a state made for these systems. -/
def setDefaultState [Zero K] (armed : Bool) (hash : CType → BitVec 64) (m : Mem K V) (id : Nat) (s : System)
    (contextFor stateFor : Nat) (x : State) : Mem K V × Option Err :=
  if contextFor ≠ id then (m, some .throws)
  else if stateFor ≠ id then (m, some .throws)
  else
    match setContinuousFrom armed m.vectors x.continuous (valuesAt m.vectors s.continuous) with
    | .error e => (m, some e)
    | .ok h =>
      if s.discrete.length ≠ 0 ∧ s.discrete.length ≠ x.discrete.length then (⟨h, m.values⟩, some .aborts)
      else
        match if s.discrete.length > 0 then x.discrete.setFrom h s.discrete else zeroGroups h x.discrete with
        | (h, some e) => (⟨h, m.values⟩, some e)
        | (h, none) =>
          match cloneModels m.values s.abstract (List.range s.abstract.length) with
          | .error e => (⟨h, m.values⟩, some e)
          | .ok (w, models) =>
            let r := x.abstract.setFrom armed hash w models
            (⟨h, r.1⟩, r.2)

/-- The first loop of `SetDefaultParameters`, src/maliput/drake/systems/framework/leaf_system.cc:158-166. -/
def setDefaultNumeric [One K] (h : Heap K) (ms : Models) (numeric : Discrete) : List Nat → Heap K × Option Err
  | [] => (h, none)
  | i :: is =>
    match numeric.getVector i with
    | .error e => (h, some e)
    | .ok p =>
      match cloneVectorModel h ms i with
      | .error e => (h, some e)
      | .ok (h, model) =>
        match (match model with
          | some a => (Vec.basic p).setFrom h (.basic a)
          | none => (Vec.basic p).setFromVector h (List.replicate (valuesAt h p).length 1)) with
        | .error e => (h, some e)
        | .ok h => setDefaultNumeric h ms numeric is

/-- The second loop of `SetDefaultParameters`, src/maliput/drake/systems/framework/leaf_system.cc:167-171. -/
def setDefaultAbstract (armed : Bool) (hash : CType → BitVec 64) (w : List (Value V)) (ms : Models) (abstract : Abstract) :
    List Nat → List (Value V) × Option Err
  | [] => (w, none)
  | i :: is =>
    match abstract.getValue armed i with
    | .error e => (w, some e)
    | .ok p =>
      match cloneModel w ms i with
      | .error e => (w, some e)
      | .ok (w, none) => (w, some .ub)
      | .ok (w, some a) =>
        match copyLoop (TypeErasure.setFrom armed hash) w [(p, a)] with
        | (w, some e) => (w, some e)
        | (w, none) => setDefaultAbstract armed hash w ms abstract is

/-- `SetDefaultParameters`, src/maliput/drake/systems/framework/leaf_system.cc:154-172, of a context and parameters made for these systems. -/
def setDefaultParameters [One K] (armed : Bool) (hash : CType → BitVec 64) (m : Mem K V) (id : Nat) (s : System)
    (contextFor parametersFor : Nat) (p : Parameters) : Mem K V × Option Err :=
  if contextFor ≠ id then (m, some .throws)
  else if parametersFor ≠ id then (m, some .throws)
  else
    match setDefaultNumeric m.vectors s.numeric p.numeric (List.range p.numeric.length) with
    | (h, some e) => (⟨h, m.values⟩, some e)
    | (h, none) =>
      let r := setDefaultAbstract armed hash m.values s.parameters p.abstract (List.range p.abstract.length)
      (⟨h, r.1⟩, r.2)

/-- `SetDefaultContext`, src/maliput/drake/systems/framework/system.cc:71-92.  The numbers that are checked afterwards are those of pointers, which do
not change. -/
def setDefaultContext [Zero K] [One K] (armed : Bool) (hash : CType → BitVec 64) (m : Mem K V) (id : Nat) (s : System) (c : Context) :
    Mem K V × Option Err :=
  if c.system ≠ id then (m, some .throws)
  else
    match setDefaultState armed hash m id s c.system c.system c.state with
    | (m, some e) => (m, some e)
    | (m, none) => setDefaultParameters armed hash m id s c.system c.system c.parameters

/-- `CreateDefaultContext`, src/maliput/drake/systems/framework/system.cc:64-69. -/
def createDefaultContext [Zero K] [One K] (armed : Bool) (hash : CType → BitVec 64) (m : Mem K V) (id : Nat) (s : System) :
    Except Err (Mem K V × Context) := do
  let (m, c) ← allocateContext armed m id s
  match setDefaultContext armed hash m id s c with
  | (m, none) => return (m, c)
  | (_, some e) => .error e

/-! ### Histories -/

/-- What a program has. -/
inductive Obj
  | vector (address : Nat)
  | value (address : Nat)
  | system (s : System)
  | context (c : Context)

/-- What is done; objects are named by the order in which they are made. -/
inductive Op (K V : Type)
  | newVector (xs : List K)
  | newValue (v : Value V)
  | newSystem
  /-- `SetFromVector` of a vector of the program. -/
  | setVector (a : Nat) (xs : List K)
  /-- `set_value` of a value of the program. -/
  | setValue (a : Nat) (t : CType) (x : V)
  | declareContinuous (s a : Nat) (nq nv nz : Int)
  | declareMisc (s a : Nat)
  | declareContinuousSizes (s : Nat) (nq nv nz : Int)
  | declareDiscrete (s a : Nat)
  | declareDiscreteSize (s : Nat) (n : Int)
  | declareAbstract (s a : Nat)
  | declareNumeric (s a : Nat)
  | declareParameter (s a : Nat)
  | allocate (s : Nat)
  | create (s : Nat)
  | setDefault (s c : Nat)
  /-- `SetDefaultState` of a system, a context and the state of a context. -/
  | setDefaultState (s c x : Nat)
  /-- `SetDefaultParameters` of a system, a context and the parameters of a context. -/
  | setDefaultParameters (s c p : Nat)
  /-- `SetContinuousState`, `SetDiscreteState`, and what the mutable accessors of a context allow. -/
  | setContinuous (c : Nat) (xs : List K)
  | setDiscrete (c : Nat) (group : Int) (xs : List K)
  | setAbstract (c : Nat) (index : Int) (t : CType) (x : V)
  | setNumeric (c : Nat) (group : Int) (xs : List K)
  | setParameter (c : Nat) (index : Int) (t : CType) (x : V)

/-- The memory and what the program has. -/
structure World (K V : Type) where
  mem : Mem K V
  objs : List Obj

/-- The result of a declaration. -/
def World.declared (w : World K V) (i : Nat) : Except Err (Mem K V × System × Int) → World K V × Except Err Int
  | .ok (m, s, index) => (⟨m, w.objs.set i (.system s)⟩, .ok index)
  | .error e => (w, .error e)

/-- The result of making a context: its name. -/
def World.made (w : World K V) : Except Err (Mem K V × Context) → World K V × Except Err Int
  | .ok (m, c) => (⟨m, w.objs ++ [.context c]⟩, .ok w.objs.length)
  | .error e => (w, .error e)

/-- The result of writing. -/
def World.wrote (w : World K V) : Mem K V × Option Err → World K V × Except Err Int
  | (m, none) => (⟨m, w.objs⟩, .ok 0)
  | (m, some e) => (⟨m, w.objs⟩, .error e)

/-- Writing a vector. -/
def writeVector (m : Mem K V) (a : Nat) (xs : List K) : Mem K V × Option Err :=
  match (Vec.basic a).setFromVector m.vectors xs with
  | .ok h => (⟨h, m.values⟩, none)
  | .error e => (m, some e)

/-- Writing an abstract value. -/
def writeValue (armed : Bool) (hash : CType → BitVec 64) (m : Mem K V) (a : Nat) (t : CType) (x : V) : Mem K V × Option Err :=
  match m.values[a]? with
  | none => (m, some .ub)
  | some v =>
    match TypeErasure.setValue armed hash t x v with
    | .ok v => (⟨m.vectors, m.values.set a v⟩, none)
    | .error e => (m, some e)

/-- Writing a group of a context. -/
def writeGroup (m : Mem K V) (d : Discrete) (group : Int) (xs : List K) : Mem K V × Option Err :=
  match d.getVector group with
  | .ok a => writeVector m a xs
  | .error e => (m, some e)

/-- Writing an abstract value of a context. -/
def writeAbstract (armed : Bool) (hash : CType → BitVec 64) (m : Mem K V) (d : Abstract) (index : Int) (t : CType) (x : V) :
    Mem K V × Option Err :=
  match d.getValue armed index with
  | .ok a => writeValue armed hash m a t x
  | .error e => (m, some e)

/-- One operation: the world afterwards and the result, which is the index for declarations, the name for new objects and 0 otherwise.
Names of objects that do not exist or are something else are not C++: nothing is done. -/
def World.exec [Zero K] [One K] (armed : Bool) (hash : CType → BitVec 64) (w : World K V) : Op K V → World K V × Except Err Int
  | .newVector xs => (⟨⟨w.mem.vectors ++ [xs], w.mem.values⟩, w.objs ++ [.vector w.mem.vectors.length]⟩, .ok w.objs.length)
  | .newValue v => (⟨⟨w.mem.vectors, w.mem.values ++ [v]⟩, w.objs ++ [.value w.mem.values.length]⟩, .ok w.objs.length)
  | .newSystem => (⟨(makeSystem w.mem).1, w.objs ++ [.system (makeSystem w.mem).2]⟩, .ok w.objs.length)
  | .setVector i xs =>
    match w.objs[i]? with
    | some (.vector a) => w.wrote (writeVector w.mem a xs)
    | _ => (w, .ok 0)
  | .setValue i t x =>
    match w.objs[i]? with
    | some (.value a) => w.wrote (writeValue armed hash w.mem a t x)
    | _ => (w, .ok 0)
  | .declareContinuous i j nq nv nz =>
    match w.objs[i]?, w.objs[j]? with
    | some (.system s), some (.vector a) => w.declared i (LeafDefaults.declareContinuous w.mem s a nq nv nz)
    | _, _ => (w, .ok 0)
  | .declareMisc i j =>
    match w.objs[i]?, w.objs[j]? with
    | some (.system s), some (.vector a) => w.declared i (LeafDefaults.declareMisc w.mem s a)
    | _, _ => (w, .ok 0)
  | .declareContinuousSizes i nq nv nz =>
    match w.objs[i]? with
    | some (.system s) => w.declared i (LeafDefaults.declareContinuousSizes armed w.mem s nq nv nz)
    | _ => (w, .ok 0)
  | .declareDiscrete i j =>
    match w.objs[i]?, w.objs[j]? with
    | some (.system s), some (.vector a) => w.declared i (LeafDefaults.declareDiscrete w.mem s a)
    | _, _ => (w, .ok 0)
  | .declareDiscreteSize i n =>
    match w.objs[i]? with
    | some (.system s) => w.declared i (LeafDefaults.declareDiscreteSize w.mem s n)
    | _ => (w, .ok 0)
  | .declareAbstract i j =>
    match w.objs[i]?, w.objs[j]? with
    | some (.system s), some (.value a) => w.declared i (LeafDefaults.declareAbstract w.mem s a)
    | _, _ => (w, .ok 0)
  | .declareNumeric i j =>
    match w.objs[i]?, w.objs[j]? with
    | some (.system s), some (.vector a) => w.declared i (LeafDefaults.declareNumeric w.mem s a)
    | _, _ => (w, .ok 0)
  | .declareParameter i j =>
    match w.objs[i]?, w.objs[j]? with
    | some (.system s), some (.value a) => w.declared i (LeafDefaults.declareParameter w.mem s a)
    | _, _ => (w, .ok 0)
  | .allocate i =>
    match w.objs[i]? with
    | some (.system s) => w.made (allocateContext armed w.mem i s)
    | _ => (w, .ok 0)
  | .create i =>
    match w.objs[i]? with
    | some (.system s) => w.made (createDefaultContext armed hash w.mem i s)
    | _ => (w, .ok 0)
  | .setDefault i j =>
    match w.objs[i]?, w.objs[j]? with
    | some (.system s), some (.context c) => w.wrote (setDefaultContext armed hash w.mem i s c)
    | _, _ => (w, .ok 0)
  | .setDefaultState i j k =>
    match w.objs[i]?, w.objs[j]?, w.objs[k]? with
    | some (.system s), some (.context c), some (.context d) =>
      w.wrote (LeafDefaults.setDefaultState armed hash w.mem i s c.system d.system d.state)
    | _, _, _ => (w, .ok 0)
  | .setDefaultParameters i j k =>
    match w.objs[i]?, w.objs[j]?, w.objs[k]? with
    | some (.system s), some (.context c), some (.context d) =>
      w.wrote (LeafDefaults.setDefaultParameters armed hash w.mem i s c.system d.system d.parameters)
    | _, _, _ => (w, .ok 0)
  | .setContinuous i xs =>
    match w.objs[i]? with
    | some (.context c) =>
      match setContinuousFrom armed w.mem.vectors c.state.continuous xs with
      | .ok h => w.wrote (⟨h, w.mem.values⟩, none)
      | .error e => w.wrote (w.mem, some e)
    | _ => (w, .ok 0)
  | .setDiscrete i group xs =>
    match w.objs[i]? with
    | some (.context c) => w.wrote (writeGroup w.mem c.state.discrete group xs)
    | _ => (w, .ok 0)
  | .setAbstract i index t x =>
    match w.objs[i]? with
    | some (.context c) => w.wrote (writeAbstract armed hash w.mem c.state.abstract index t x)
    | _ => (w, .ok 0)
  | .setNumeric i group xs =>
    match w.objs[i]? with
    | some (.context c) => w.wrote (writeGroup w.mem c.parameters.numeric group xs)
    | _ => (w, .ok 0)
  | .setParameter i index t x =>
    match w.objs[i]? with
    | some (.context c) => w.wrote (writeAbstract armed hash w.mem c.parameters.abstract index t x)
    | _ => (w, .ok 0)

/-- Several operations; a program catches exceptions and goes on, aborting and undefined behaviour end it. -/
def World.run [Zero K] [One K] (armed : Bool) (hash : CType → BitVec 64) : World K V → List (Op K V) → World K V × List (Except Err Int)
  | w, [] => (w, [])
  | w, o :: os =>
    let r := w.exec armed hash o
    match r.2 with
    | .error .aborts => (r.1, [r.2])
    | .error .ub => (r.1, [r.2])
    | _ =>
      let r' := World.run armed hash r.1 os
      (r'.1, r.2 :: r'.2)

end Maliput.LeafDefaults
