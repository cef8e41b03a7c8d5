import Verif.Model.Ports

set_option autoImplicit false
set_option linter.unusedSectionVars false

/-!
Model of `FixInputPortsFrom`, src/maliput/drake/systems/framework/system.cc:737-772, for leaf systems.  Systems are only instantiated for
`double`, so that nothing is converted.  Both contexts belong to their systems.
-/
namespace Maliput.Ports

open Maliput

variable {K V : Type}

/-- `PortEvalCast`, src/maliput/drake/systems/framework/port_base.h:143-150, to `BasicVector<T>`. -/
def castVector : Datum K V → Except Err (List K)
  | .vector xs => .ok xs
  | .other _ _ => .error .throws

/-- The loop over the elements, src/maliput/drake/systems/framework/system.cc:756-758: each element of the first vector becomes the one of
the second.  Eigen checks the index only in debug builds. -/
def copyInto : List K → List K → Except Err (List K)
  | [], _ => .ok []
  | _ :: l, x :: xs => do return x :: (← copyInto l xs)
  | _ :: _, [] => .error .ub

/-- What a port is fixed to, given the value of the other port, src/maliput/drake/systems/framework/system.cc:750-769. -/
def copied (unset : K) (s : System K V) (i : Nat) (p : InPort) (d : Datum K V) : Except Err (Datum K V) :=
  match p.size with
  | some _ => do
    let xs ← castVector d
    return .vector (← copyInto (← allocateVector unset s i p) xs)
  | none => .ok d

/-- The loop over the ports, src/maliput/drake/systems/framework/system.cc:743-771, from a port on.  The calls that fixed ports before one of
them failed stay. -/
def fixFrom (unset : K) (s other : System K V) (oc : Context K V) : Nat → List InPort → Context K V → Context K V × Except Err Unit
  | _, [], c => (c, .ok ())
  | i, p :: l, c =>
    match getInput other i with
    | .error e => (c, .error e)
    | .ok _ =>
      match evalOptional oc i with
      | none => fixFrom unset s other oc (i + 1) l c
      | some d =>
        match copied unset s i p d with
        | .error e => (c, .error e)
        | .ok d' =>
          match fixValue c i p d' with
          | (c', .error e) => (c', .error e)
          | (c', .ok ()) => fixFrom unset s other oc (i + 1) l c'

/-- `FixInputPortsFrom`, src/maliput/drake/systems/framework/system.cc:737-772. -/
def fixInputsFrom (unset : K) (s other : System K V) (oc c : Context K V) : Context K V × Except Err Unit :=
  fixFrom unset s other oc 0 s.inputs c

end Maliput.Ports
