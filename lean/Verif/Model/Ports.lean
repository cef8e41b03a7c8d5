import Verif.Model.Basic

set_option autoImplicit false
set_option linter.unusedSectionVars false

/-!
Model of the ports of leaf systems and the fixed values of input ports, src/maliput/drake/systems/framework/leaf_system.cc, system.cc,
system_base.h, system_base.cc, context_base.cc, input_port.h and fixed_input_port_value.h.

An abstract value is a `Value<BasicVector<T>>` or a value of another type.  Names are lists of characters.  The system is the root, so its
input ports have values only if they are fixed.  The cache, the tickets and the constraints on elements (C145) are not part of this model,
except that a cache entry is declared for each output port.
-/
namespace Maliput.Ports

open Maliput

variable {K V : Type}

/-- An `AbstractValue`, src/maliput/drake/common/value.h:197-264: of the type `BasicVector<T>`, or of another type with a number. -/
inductive Datum (K V : Type)
  | vector (xs : List K)
  | other (type : Nat) (content : V)
  deriving DecidableEq

/-- `static_type_info`, src/maliput/drake/common/value.h:797-799; `none` stands for `BasicVector<T>`. -/
def Datum.type : Datum K V → Option Nat
  | .vector _ => none
  | .other t _ => some t

/-- An input port, src/maliput/drake/systems/framework/port_base.cc:11-26: its name and whether it is vector-valued, with its size. -/
structure InPort where
  name : List Char
  size : Option Nat
  deriving DecidableEq

/-- An output port with the number of its cache entry, src/maliput/drake/systems/framework/leaf_output_port.h:77-101. -/
structure OutPort where
  name : List Char
  size : Option Nat
  entry : Nat
  deriving DecidableEq

/-- What a leaf system knows of its ports: `input_ports_` and `output_ports_`, src/maliput/drake/systems/framework/system_base.h:1060-1063,
`model_input_values_`, leaf_system.h:1974, and the number of cache entries. -/
structure System (K V : Type) where
  inputs : List InPort
  models : List (Option (Datum K V))
  outputs : List OutPort
  entries : Nat
  deriving DecidableEq

/-- `MALIPUT_DRAKE_DEMAND`, src/maliput/drake/common/drake_assert.h:107-114. -/
def demand (b : Bool) : Except Err Unit := if b then .ok () else .error .aborts

/-- `NextInputPortName`, src/maliput/drake/systems/framework/system_base.h:839-844; `none` is `kUseDefaultName`. -/
def nextInputName (s : System K V) (name : Option (List Char)) : List Char := name.getD ('u' :: Nat.toDigits 10 s.inputs.length)

/-- `NextOutputPortName`, src/maliput/drake/systems/framework/system_base.h:850-855. -/
def nextOutputName (s : System K V) (name : Option (List Char)) : List Char := name.getD ('y' :: Nat.toDigits 10 s.outputs.length)

/-- `DeclareInputPort`, src/maliput/drake/systems/framework/system.cc:846-861, with `AddInputPort`, system_base.h:796-810: the index. -/
def declareInput (s : System K V) (name : Option (List Char)) (size : Option Nat) : System K V × Except Err Nat :=
  let name := nextInputName s name
  if name = [] then (s, .error .aborts)
  else if s.inputs.any fun p => p.name = name then (s, .error .throws)
  else ({ s with inputs := s.inputs ++ [⟨name, size⟩] }, .ok s.inputs.length)

/-- `AddModel`, src/maliput/drake/systems/framework/model_values.cc:12-17. -/
def addModel (models : List (Option (Datum K V))) (index : Nat) (d : Datum K V) : Except Err (List (Option (Datum K V))) :=
  if models.length ≤ index then .ok (models ++ List.replicate (index - models.length) none ++ [some d]) else .error .aborts

/-- `DeclareVectorInputPort`, src/maliput/drake/systems/framework/leaf_system.cc:571-583: the model is added before the name is looked at. -/
def declareVectorInput (s : System K V) (name : Option (List Char)) (model : List K) : System K V × Except Err Nat :=
  match addModel s.models s.inputs.length (.vector model) with
  | .error e => (s, .error e)
  | .ok models => declareInput { s with models := models } name (some model.length)

/-- `DeclareAbstractInputPort`, src/maliput/drake/systems/framework/leaf_system.cc:591-597. -/
def declareAbstractInput (s : System K V) (name : Option (List Char)) (model : Datum K V) : System K V × Except Err Nat :=
  match addModel s.models s.inputs.length model with
  | .error e => (s, .error e)
  | .ok models => declareInput { s with models := models } name none

/-- `CreateCachedLeafOutputPort`, src/maliput/drake/systems/framework/leaf_system.cc:893-916, with the name that
`DeclareVectorOutputPort` or `DeclareAbstractOutputPort` makes, lines 613-637, and `AddOutputPort`, system_base.h:819-833.  The prerequisites
of the calculation are given by a number. -/
def declareOutput (s : System K V) (name : Option (List Char)) (size : Option Nat) (prerequisites : Nat) :
    System K V × Except Err Nat :=
  let name := nextOutputName s name
  if name = [] then (s, .error .aborts)
  else if prerequisites = 0 then (s, .error .aborts)
  else
    let s' := { s with entries := s.entries + 1 }
    if s.outputs.any fun p => p.name = name then (s', .error .throws)
    else ({ s' with outputs := s.outputs ++ [⟨name, size, s.entries⟩] }, .ok s.outputs.length)

/-! ### Looking ports up -/

/-- `GetInputPort`, src/maliput/drake/systems/framework/system.cc:612-620, as the index of the port; `GetOutputPort`, lines 650-658, is the same
for the names of the output ports. -/
def findPort (names : List (List Char)) (name : List Char) : Except Err Nat :=
  go 0 names
where
  go (i : Nat) : List (List Char) → Except Err Nat
    | [] => .error .throws
    | n :: l => if name = n then .ok i else go (i + 1) l

/-- `HasInputPort`, src/maliput/drake/systems/framework/system.cc:622-630; `HasOutputPort`, lines 660-668, is the same for output ports. -/
def hasPort (names : List (List Char)) (name : List Char) : Bool := names.any fun n => name = n

/-- `get_input_port`, src/maliput/drake/systems/framework/system.h:858-866, with `GetInputPortBaseOrThrow`, system_base.h:989-994. -/
def getInput (s : System K V) (index : Int) : Except Err InPort :=
  if index < 0 then .error .outOfRange
  else match s.inputs[index.toNat]? with
    | none => .error .outOfRange
    | some p => .ok p

/-- `get_input_port` without an index, src/maliput/drake/systems/framework/system.h:869-879. -/
def onlyInput (s : System K V) : Except Err InPort := do
  throwUnless (s.inputs.length = 1)
  getInput s 0

/-- `InputPortSelection` or an index. -/
inductive Selection
  | useFirstIfItExists
  | noInput
  | index (i : Int)

/-- `get_input_port_selection`, src/maliput/drake/systems/framework/system.cc:593-610. -/
def select (s : System K V) : Selection → Except Err (Option InPort)
  | .index i => do return some (← getInput s i)
  | .useFirstIfItExists => if s.inputs.length > 0 then do return some (← getInput s 0) else .ok none
  | .noInput => .ok none

/-! ### Values of input ports -/

/-- `CloneModel`, src/maliput/drake/systems/framework/model_values.cc:19-29. -/
def cloneModel (models : List (Option (Datum K V))) (index : Nat) : Option (Datum K V) := (models[index]?).join

/-- `DoAllocateInput`, src/maliput/drake/systems/framework/leaf_system.cc:753-769.  `unset` is what a new `BasicVector<T>` is filled with. -/
def allocate (unset : K) (s : System K V) (index : Nat) (p : InPort) : Except Err (Datum K V) :=
  match cloneModel s.models index with
  | some d => .ok d
  | none =>
    match p.size with
    | some n => .ok (.vector (List.replicate n unset))
    | none => .error .throws

/-- `AllocateInputVector`, src/maliput/drake/systems/framework/system.cc:36-43, of a port of this system. -/
def allocateVector (unset : K) (s : System K V) (index : Nat) (p : InPort) : Except Err (List K) := do
  throwUnless p.size.isSome
  match ← allocate unset s index p with
  | .vector xs => return xs
  | .other _ _ => .error .throws

/-- What a port accepts: vectors of a size or values of a type. -/
inductive Checker
  | size (n : Nat)
  | type (t : Option Nat)
  deriving DecidableEq

/-- `MakeFixInputPortTypeChecker`, src/maliput/drake/systems/framework/system.cc:1001-1050. -/
def makeChecker (unset : K) (s : System K V) (index : Nat) (p : InPort) : Except Err Checker :=
  match p.size with
  | none => do return .type (← allocate unset s index p).type
  | some _ => do return .size (← allocateVector unset s index p).length

/-- The checks that `MakeFixInputPortTypeChecker` makes, src/maliput/drake/systems/framework/system.cc:1020-1026, 1033-1046. -/
def Checker.accepts : Checker → Datum K V → Bool
  | .type t, d => d.type = t
  | .size n, .vector xs => xs.length = n
  | .size _, .other _ _ => false

/-- A context: for each input port what it accepts and its fixed value. -/
structure Context (K V : Type) where
  checkers : List Checker
  values : List (Option (Datum K V))
  deriving DecidableEq

/-- The input ports of a new context, src/maliput/drake/systems/framework/system_base.cc:146-149, with `AddInputPort`,
context_base.cc:47-62. -/
def addPorts (unset : K) (s : System K V) : Nat → List InPort → Context K V → Except Err (Context K V)
  | _, [], c => .ok c
  | i, p :: l, c => do
    let k ← makeChecker unset s i p
    addPorts unset s (i + 1) l ⟨c.checkers ++ [k], c.values ++ [none]⟩

/-- A new context, src/maliput/drake/systems/framework/system_base.cc:111-150, as far as the input ports go. -/
def makeContext (unset : K) (s : System K V) : Except Err (Context K V) := addPorts unset s 0 s.inputs ⟨[], []⟩

/-- `FixInputPort`, src/maliput/drake/systems/framework/context_base.cc:39-45, with `SetFixedInputPortValue`, lines 79-111. -/
def fixInput (c : Context K V) (index : Int) (d : Datum K V) : Context K V × Except Err Unit :=
  if 0 ≤ index ∧ index < c.values.length then
    match c.checkers[index.toNat]? with
    | none => (c, .error .ub)
    | some k => if k.accepts d then ({ c with values := c.values.set index.toNat (some d) }, .ok ()) else (c, .error .throws)
  else (c, .error .aborts)

/-- `FixValue`, src/maliput/drake/systems/framework/input_port.h:135-145, of an abstract value, a `BasicVector` or an Eigen vector: what
`ToAbstract`, value_to_abstract_value.h:88-91 and 215-262, makes of the value is itself, or an exception for a vector port. -/
def fixValue (c : Context K V) (index : Nat) (p : InPort) (d : Datum K V) : Context K V × Except Err Unit :=
  match p.size, d with
  | some _, .other _ _ => (c, .error .throws)
  | _, d => fixInput c index d

/-- `GetMutableData` of a fixed value, src/maliput/drake/systems/framework/fixed_input_port_value.cc:8-16, and `SetFrom` of what it gives,
src/maliput/drake/common/value.h:786-789: nothing but the type is compared.  `none` is a port without a fixed value. -/
def overwrite (c : Context K V) (index : Nat) (d : Datum K V) : Context K V × Except Err Unit :=
  match c.values[index]? with
  | some (some d') => if d'.type = d.type then ({ c with values := c.values.set index (some d) }, .ok ()) else (c, .error .throws)
  | _ => (c, .error .ub)

/-- `DoEvalOptional` of an input port, src/maliput/drake/systems/framework/input_port_base.h:87, with `EvalAbstractInputImpl`,
system_base.cc:157-176, for a system without a parent; `HasValue`, input_port.h:150-153, is whether there is a value. -/
def evalOptional (c : Context K V) (index : Nat) : Option (Datum K V) := (c.values[index]?).join

/-- `Eval` as an abstract value, src/maliput/drake/systems/framework/input_port.h:73-77, with `DoEvalRequired`, input_port_base.h:78-84. -/
def eval (c : Context K V) (index : Nat) : Except Err (Datum K V) :=
  match evalOptional c index with
  | none => .error .throws
  | some d => .ok d

/-- `EvalBasicVectorInputImpl`, src/maliput/drake/systems/framework/system.cc:1052-1075. -/
def evalVector (s : System K V) (c : Context K V) (index : Int) : Except Err (Option (List K)) := do
  let p ← getInput s index
  match p.size with
  | none => .error .throws
  | some n =>
    match evalOptional c index.toNat with
    | none => return none
    | some (.other _ _) => .error .throws
    | some (.vector xs) => do
      demand (xs.length = n)
      return some xs

/-- The value that `AllocateFixedInputs` gives a port, src/maliput/drake/systems/framework/system.cc:136-141. -/
def valueToFix (unset : K) (s : System K V) (i : Nat) (p : InPort) : Except Err (Datum K V) :=
  match p.size with
  | some _ => (allocateVector unset s i p).map Datum.vector
  | none => allocate unset s i p

/-- `AllocateFixedInputs`, src/maliput/drake/systems/framework/system.cc:130-143, from a port on. -/
def fixAll (unset : K) (s : System K V) : Nat → List InPort → Context K V → Context K V × Except Err Unit
  | _, [], c => (c, .ok ())
  | i, p :: l, c =>
    match valueToFix unset s i p with
    | .error e => (c, .error e)
    | .ok d =>
      match fixValue c i p d with
      | (c', .error e) => (c', .error e)
      | (c', .ok ()) => fixAll unset s (i + 1) l c'

/-- A new system. -/
def fresh : System K V := ⟨[], [], [], 0⟩

end Maliput.Ports
