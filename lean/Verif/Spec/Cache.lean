import Mathlib.Logic.Relation
import Verif.Model.Cache

set_option autoImplicit false

/-!
What cached computations should give, without flags, trackers and notifications: the value which a calculator computes
from the present values of the sources, the sources it can look at, and what the tickets stand for.
-/
namespace Maliput.Cache.Spec

variable {V : Type}

/-- The calculator computes the value, when every cache entry it evaluates is computed anew. -/
inductive Computes (k : Calc V) (sources : Nat → V) : Prog V → V → Prop
  | ret (v : V) : Computes k sources (.ret v) v
  | read (t : Nat) (f : V → Prog V) (v : V) : Computes k sources (f (sources t)) v → Computes k sources (.read t f) v
  | eval (i : Nat) (f : V → Prog V) (u v : V) :
      Computes k sources (k.prog i) u → Computes k sources (f u) v → Computes k sources (.eval i f) v

/-- The calculator can look at the source, itself or through the cache entries it evaluates. -/
inductive Reads (k : Calc V) : Prog V → Nat → Prop
  | here (t : Nat) (f : V → Prog V) : Reads k (.read t f) t
  | afterRead (s t : Nat) (f : V → Prog V) (v : V) : Reads k (f v) t → Reads k (.read s f) t
  | inEval (i t : Nat) (f : V → Prog V) : Reads k (k.prog i) t → Reads k (.eval i f) t
  | afterEval (i t : Nat) (f : V → Prog V) (v : V) : Reads k (f v) t → Reads k (.eval i f) t

/-- What the tickets of a system stand for: `Part s a b` means that `a` includes `b`. The documentation of
`SystemBase::configuration_ticket` leaves out z, the code includes it. -/
inductive Part (s : System) : Nat → Nat → Prop
  | xc {t : Nat} : t ∈ [qTicket, vTicket, zTicket] → Part s xcTicket t
  | xd {t : Nat} : t ∈ s.discrete → Part s xdTicket t
  | xa {t : Nat} : t ∈ s.abstract → Part s xaTicket t
  | x {t : Nat} : t ∈ [xcTicket, xdTicket, xaTicket] → Part s xTicket t
  | pn {t : Nat} : t ∈ s.numeric → Part s pnTicket t
  | pa {t : Nat} : t ∈ s.abstractParams → Part s paTicket t
  | p {t : Nat} : t ∈ [pnTicket, paTicket] → Part s allParametersTicket t
  | exceptInputs {t : Nat} : t ∈ [timeTicket, accuracyTicket, xTicket, allParametersTicket] →
      Part s allSourcesExceptInputPortsTicket t
  | u {t : Nat} : t ∈ s.inputs → Part s allInputPortsTicket t
  | all {t : Nat} : t ∈ [allSourcesExceptInputPortsTicket, allInputPortsTicket] → Part s allSourcesTicket t
  | configuration {t : Nat} :
      t ∈ [accuracyTicket, qTicket, zTicket, xdTicket, xaTicket, allParametersTicket] → Part s configurationTicket t
  | kinematics {t : Nat} : t ∈ [configurationTicket, vTicket] → Part s kinematicsTicket t
  | entry {d : EntryDecl} {t : Nat} : d ∈ s.entries → t ∈ d.prerequisites → Part s d.ticket t
  | output {o : Nat × Nat} : o ∈ s.outputs → Part s o.1 o.2

/-- A ticket stands for a source, directly or through other tickets. -/
def Covers (s : System) (a t : Nat) : Prop := Relation.ReflTransGen (Part s) a t

/-- Every calculator only looks at sources which the prerequisites declared for its cache entry stand for. -/
def Declared (s : System) (k : Calc V) : Prop :=
  ∀ i d, s.entries[i]? = some d → ∀ t, Reads k (k.prog i) t → ∃ p ∈ d.prerequisites, Covers s p t

/-- The calculator only evaluates cache entries with the property. -/
def EvalsOnly (P : Nat → Prop) : Prog V → Prop
  | .ret _ => True
  | .throw => True
  | .read _ f => ∀ v, EvalsOnly P (f v)
  | .eval i f => P i ∧ ∀ v, EvalsOnly P (f v)

/-- No calculator evaluates its own cache entry, directly or through others: each entry has a rank and the calculators
only evaluate declared entries of lower ranks. -/
def Layered (s : System) (k : Calc V) (rank : Nat → Nat) : Prop :=
  ∀ i < s.entries.length, EvalsOnly (fun j => j < s.entries.length ∧ rank j < rank i) (k.prog i)

/-- The sources whose values an access sets or lets the caller change. -/
def touched (s : System) : Access → List Nat
  | .time => [timeTicket]
  | .accuracy => [accuracyTicket]
  | .state => [qTicket, vTicket, zTicket] ++ s.discrete ++ s.abstract
  | .continuousState => [qTicket, vTicket, zTicket]
  | .discreteState => s.discrete
  | .abstractState => s.abstract
  | .parameters => s.numeric ++ s.abstractParams
  | .numericParameter => s.numeric
  | .abstractParameter => s.abstractParams
  | .timeAndQ => [timeTicket, qTicket]
  | .vz => [vTicket, zTicket]
  | .timeAndContinuousState => [timeTicket, qTicket, vTicket, zTicket]
  | .stateAndParameters => [qTicket, vTicket, zTicket] ++ s.discrete ++ s.abstract ++ s.numeric ++ s.abstractParams
  | .timeStateAndParameters =>
    [timeTicket, accuracyTicket, qTicket, vTicket, zTicket] ++ s.discrete ++ s.abstract ++ s.numeric ++ s.abstractParams

/-- The values of the sources and which input ports are fixed, after an operation: only writes count. -/
def write (s : System) (x : (Nat → V) × (Nat → Bool)) : Op V → (Nat → V) × (Nat → Bool)
  | .modify a w => (fun t => if t ∈ touched s a then w t else x.1 t, x.2)
  | .fixInputPort p v =>
    match s.inputs[p]? with
    | some t => (Function.update x.1 t v, Function.update x.2 p true)
    | none => x
  | .setFixedInput p v =>
    match s.inputs[p]? with
    | some t => if x.2 p then (Function.update x.1 t v, x.2) else x
    | none => x
  | _ => x

/-- The values last written to the sources by a history of operations, from the given ones. -/
def written (s : System) (sources : Nat → V) (ops : List (Op V)) : Nat → V :=
  (ops.foldl (write s) (sources, fun _ => false)).1

/-- The sources which a predefined ticket stands for, as documented
(src/maliput/drake/systems/framework/system_base.h:487-667); configuration and kinematics as in the notes on what is
included currently. -/
def documented (s : System) (a : Nat) : List Nat :=
  let state := [qTicket, vTicket, zTicket] ++ s.discrete ++ s.abstract
  let parameters := s.numeric ++ s.abstractParams
  let configuration := [accuracyTicket, qTicket] ++ s.discrete ++ s.abstract ++ parameters
  match a with
  | 1 => [timeTicket]
  | 2 => [accuracyTicket]
  | 3 => [qTicket]
  | 4 => [vTicket]
  | 5 => [zTicket]
  | 6 => [qTicket, vTicket, zTicket]
  | 7 => s.discrete
  | 8 => s.abstract
  | 9 => state
  | 10 => s.numeric
  | 11 => s.abstractParams
  | 12 => parameters
  | 13 => [timeTicket, accuracyTicket] ++ state ++ parameters
  | 14 => s.inputs
  | 15 => [timeTicket, accuracyTicket] ++ state ++ parameters ++ s.inputs
  | 16 => configuration
  | 17 => configuration ++ [vTicket]
  | _ => []

end Maliput.Cache.Spec
