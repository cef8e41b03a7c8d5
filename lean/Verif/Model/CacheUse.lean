import Verif.Model.Cache
import Mathlib.Algebra.Order.Field.Basic

set_option autoImplicit false

/-!
# Users of the cache

`src/maliput/drake/systems/framework/leaf_system.cc`: which outputs of a leaf system depend on which inputs.
`src/maliput/drake/systems/analysis/{initial_value_problem,runge_kutta3_integrator}.cc`: a step of the Runge-Kutta 3
integrator, with the context it works on and the cache entry of the time derivatives.
-/

namespace Maliput.Cache

open Maliput.RouteGraph (Stop)

/-! ## Direct feedthrough -/

section

variable {V : Type}

/-- `CacheEntry::has_default_prerequisites` (src/maliput/drake/systems/framework/cache_entry.h:290-295). -/
def EntryDecl.hasDefaultPrerequisites (d : EntryDecl) : Bool := d.prerequisites == [allSourcesTicket]

/-- The probe of a dependency in `LeafSystem::GetDirectFeedthroughs`
(src/maliput/drake/systems/framework/leaf_system.cc:246-263): the cache entry is marked up to date, the input port is
reported to have changed, and the entry is looked at. -/
def probe (input entry : Nat) (c : Context V) : Except Stop (Context V × Bool) := do
  let c ← noteChange [input] (c.mapEntry entry fun en => { en with outOfDate := false })
  match c.cache entry with
  | none => .error (.err .ub)
  | some en => .ok (c.mapEntry entry (fun en => { en with outOfDate := true }), en.outOfDate)

/-- The cache entry of an output port. The port holds a reference to it, which is found by its ticket here
(src/maliput/drake/systems/framework/leaf_output_port.h:60-63, leaf_system.cc:894-916). -/
def System.entryOf (s : System) (o : Nat × Nat) : Nat := s.entries.findIdx fun d => d.ticket == o.2

/-- The pairs of input and output ports, in the order of the set they are kept in
(src/maliput/drake/systems/framework/leaf_system.cc:210-217). -/
def System.portPairs (s : System) : List (Nat × Nat) :=
  (List.range s.inputs.length).flatMap fun u => (List.range s.outputs.length).map fun v => (u, v)

/-- The loop of `LeafSystem::GetDirectFeedthroughs` (src/maliput/drake/systems/framework/leaf_system.cc:231-264). -/
def feedthroughs (s : System) : List (Nat × Nat) → Context V → Except Stop (List (Nat × Nat))
  | [], _ => .ok []
  | (u, v) :: ps, c =>
    match s.inputs[u]?, s.outputs[v]? with
    | some input, some o =>
      match s.entries[s.entryOf o]? with
      | none => .error (.err .ub)
      | some d =>
        if d.hasDefaultPrerequisites then feedthroughs s ps c
        else do
          let r ← probe input (s.entryOf o) c
          let rest ← feedthroughs s ps r.1
          pure (if r.2 then (u, v) :: rest else rest)
    | _, _ => .error (.err .ub)

/-- `LeafSystem::GetDirectFeedthroughs` (src/maliput/drake/systems/framework/leaf_system.cc:205-280): the pairs it has no
answer for are left out of the result, since the code which added them is commented out. -/
def directFeedthroughs (alloc sources : Nat → V) (s : System) : Except Stop (List (Nat × Nat)) :=
  if s.portPairs.isEmpty then .ok []
  else do
    let c ← RouteGraph.lift (makeContext alloc sources s)
    feedthroughs s s.portPairs c

/-- `System::HasAnyDirectFeedthrough` (src/maliput/drake/systems/framework/system.cc:145-148). -/
def hasAnyDirectFeedthrough (alloc sources : Nat → V) (s : System) : Except Stop Bool := do
  let pairs ← directFeedthroughs alloc sources s
  pure (0 < pairs.length)

/-- `System::HasDirectFeedthrough` (src/maliput/drake/systems/framework/system.cc:159-167). -/
def hasDirectFeedthrough (alloc sources : Nat → V) (s : System) (input output : Nat) : Except Stop Bool := do
  let pairs ← directFeedthroughs alloc sources s
  pure (pairs.any fun p => p.1 == input && p.2 == output)

end

/-! ## A step of the integrator on a context -/

section

variable {R κ : Type} [Field R] [LinearOrder R]

/-- The index of the cache entry of the time derivatives (src/maliput/drake/systems/framework/system.cc:832-840). -/
def derivativesIndex : Nat := 4

/-- The ticket of the parameters of an `OdeSystem`. -/
def parametersTicket : Nat := 28

/-- `OdeSystem::OdeSystem` (src/maliput/drake/systems/analysis/initial_value_problem.cc:51-58). Its continuous state has
no positions and no velocities, all of it is z. -/
def odeSystem : Except Err System := declareAll [.numericParameter]

/-- `OdeSystem::DoCalcTimeDerivatives` (src/maliput/drake/systems/analysis/initial_value_problem.cc:61-79), for a state
with one component. Sources of another type than expected are an exception here. The other built in cache entries compute
zero (src/maliput/drake/systems/framework/system.cc:935-956). -/
def odeCalc (f : R → R → κ → R) : Calc (R ⊕ κ) where
  prog i :=
    if i = derivativesIndex then
      .read zTicket fun
        | .inr _ => .throw
        | .inl x => .read parametersTicket fun
          | .inl _ => .throw
          | .inr k => .read timeTicket fun
            | .inr _ => .throw
            | .inl t => .ret (.inl (f t x k))
    else .ret (.inl 0)
  spoil _ v := v

/-- `IntegratorBase::EvalTimeDerivatives` (src/maliput/drake/systems/analysis/integrator_base.h:1299-1309) without the
statistics, and the copy of its result (runge_kutta3_integrator.cc:70). -/
def evalDerivatives (k : Calc (R ⊕ κ)) (n : Nat) (c : Context (R ⊕ κ)) : Except Stop (Context (R ⊕ κ) × R) :=
  match evalEntry k n derivativesIndex c with
  | (c, .ok (.inl d)) => .ok (c, d)
  | (_, .ok (.inr _)) => .error (.err .ub)
  | (_, .error e) => .error e

/-- The sources after time and state are written. -/
def writeTimeAndState (sources : Nat → R ⊕ κ) (t x : R) : Nat → R ⊕ κ :=
  Function.update (Function.update sources timeTicket (.inl t)) zTicket (.inl x)

/-- `RungeKutta3Integrator::DoStep` (src/maliput/drake/systems/analysis/runge_kutta3_integrator.cc:43-144), for a state
with one component: the context after the step and the error estimate. The third derivative is not copied, it is read from
the storage of the cache entry after that is marked out of date. -/
def stepContext (k : Calc (R ⊕ κ)) (n : Nat) (h : R) (c : Context (R ⊕ κ)) : Except Stop (Context (R ⊕ κ) × R) := do
  match c.sources timeTicket with
  | .inr _ => .error (.err .ub)
  | .inl t0 =>
    let (c, xcdot0) ← evalDerivatives k n c
    match c.sources zTicket with
    | .inr _ => .error (.err .ub)
    | .inl xc0 =>
      let c ← modify .timeAndContinuousState
        (writeTimeAndState c.sources (t0 + h / 2) (xc0 + h / 2 * xcdot0)) c
      let (c, xcdotA) ← evalDerivatives k n c
      let c ← modify .timeAndContinuousState
        (writeTimeAndState c.sources (t0 + h) (xc0 + -h * xcdot0 + 2 * h * xcdotA)) c
      let (c, _) ← evalDerivatives k n c
      let c ← noteChange [qTicket, vTicket, zTicket] c
      match (c.cache derivativesIndex).map Entry.value with
      | some (.inl xcdotB) =>
        let h6 := h / 6
        let xc1 := xc0 + h6 * xcdot0 + 4 * h6 * xcdotA + h6 * xcdotB
        pure ({ c with sources := Function.update c.sources zTicket (.inl xc1) }, |xc0 + h * xcdotA - xc1|)
      | _ => .error (.err .ub)

end

end Maliput.Cache
