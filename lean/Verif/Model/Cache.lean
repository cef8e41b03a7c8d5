import Verif.Model.Graph

set_option autoImplicit false

/-!
# The cache and the dependency trackers of a leaf context

`src/maliput/drake/systems/framework/{dependency_tracker,cache,cache_entry,context_base,context,
system_base,system,leaf_system}.{h,cc}`: the integrators of `drake/systems/analysis` keep time,
state and parameters in a `Context`, ask for time derivatives through a cache entry of it, and rely
on the dependency trackers of the context to forget that entry when one of its inputs changes.

Simplifications, for the whole file: one leaf context which is its own root (diagrams and
subcontexts are not modelled); trackers are named by their tickets, not by their addresses; the
statistics counters, the descriptions and the debug log of the trackers are dropped; 64 bit
counters are unbounded; the values of the cache entries, of the sources and of the input ports have
one type `V`; the assertions which only debug builds check are dropped.
-/

namespace Maliput.Cache

open Maliput.RouteGraph (Stop)

/-! ## Tickets -/

/-- `internal::BuiltInTicketNumbers`
(src/maliput/drake/systems/framework/framework_common.h:257-289). -/
def nothingTicket : Nat := 0
/-- framework_common.h:261 -/
def timeTicket : Nat := 1
/-- framework_common.h:262 -/
def accuracyTicket : Nat := 2
/-- framework_common.h:263 -/
def qTicket : Nat := 3
/-- framework_common.h:264 -/
def vTicket : Nat := 4
/-- framework_common.h:265 -/
def zTicket : Nat := 5
/-- framework_common.h:266 -/
def xcTicket : Nat := 6
/-- framework_common.h:267 -/
def xdTicket : Nat := 7
/-- framework_common.h:268 -/
def xaTicket : Nat := 8
/-- framework_common.h:269 -/
def xTicket : Nat := 9
/-- framework_common.h:270 -/
def pnTicket : Nat := 10
/-- framework_common.h:271 -/
def paTicket : Nat := 11
/-- framework_common.h:272 -/
def allParametersTicket : Nat := 12
/-- framework_common.h:273 -/
def allSourcesExceptInputPortsTicket : Nat := 13
/-- framework_common.h:274 -/
def allInputPortsTicket : Nat := 14
/-- framework_common.h:275 -/
def allSourcesTicket : Nat := 15
/-- framework_common.h:276 -/
def configurationTicket : Nat := 16
/-- framework_common.h:277 -/
def kinematicsTicket : Nat := 17
/-- framework_common.h:282 -/
def xcdotTicket : Nat := 18
/-- framework_common.h:283 -/
def peTicket : Nat := 19
/-- framework_common.h:284 -/
def keTicket : Nat := 20
/-- framework_common.h:285 -/
def pcTicket : Nat := 21
/-- framework_common.h:286 -/
def pncTicket : Nat := 22
/-- framework_common.h:288 -/
def nextAvailableTicket : Nat := 23

/-! ## Systems and their declarations -/

/-- `CacheEntry` (src/maliput/drake/systems/framework/cache_entry.h:43, 337-353), without its
description and without its calculator, which `Calc` below supplies. The prerequisites are a
`std::set`, listed in the order of its iteration. -/
structure EntryDecl where
  ticket : Nat
  prerequisites : List Nat
  disabledByDefault : Bool
deriving DecidableEq, Repr

/-- The parts of `SystemBase` and `LeafSystem` which decide the trackers of a context
(src/maliput/drake/systems/framework/system_base.h:1131-1151): the tickets of the discrete state
groups, abstract states, numeric and abstract parameters and input ports, the cache entries, the
output ports (their ticket and the ticket they depend on) and the next ticket to give away. -/
structure System where
  discrete : List Nat
  abstract : List Nat
  numeric : List Nat
  abstractParams : List Nat
  inputs : List Nat
  entries : List EntryDecl
  outputs : List (Nat × Nat)
  next : Nat
deriving DecidableEq, Repr

/-- `SystemBase::DeclareCacheEntryWithKnownTicket` and the constructor of `CacheEntry`
(src/maliput/drake/systems/framework/system_base.cc:47-58, cache_entry.cc:13-32): no prerequisites
at all are refused. -/
def declareCacheEntryWithKnownTicket (ticket : Nat) (prerequisites : List Nat) (disabled : Bool)
    (s : System) : Except Err System := do
  throwUnless (!prerequisites.isEmpty)
  pure { s with entries := s.entries ++ [⟨ticket, prerequisites, disabled⟩] }

/-- `SystemBase::DeclareCacheEntry` (src/maliput/drake/systems/framework/system_base.cc:31-35) and
`SystemBase::assign_next_dependency_ticket` (system_base.h:921). -/
def declareCacheEntry (prerequisites : List Nat) (disabled : Bool) (s : System) :
    Except Err System :=
  declareCacheEntryWithKnownTicket s.next prerequisites disabled { s with next := s.next + 1 }

/-- What a leaf system can declare
(src/maliput/drake/systems/framework/system_base.h:861-904, system.cc:846-860,
leaf_system.cc:894-916). -/
inductive Decl
  | discreteState
  | abstractState
  | numericParameter
  | abstractParameter
  | inputPort
  | cacheEntry (prerequisites : List Nat) (disabledByDefault : Bool)
  | outputPort (prerequisites : List Nat)
deriving DecidableEq, Repr

/-- One declaration: `AddDiscreteStateGroup`, `AddAbstractState`, `AddNumericParameter`,
`AddAbstractParameter` (src/maliput/drake/systems/framework/system_base.h:861-904),
`System::DeclareInputPort` (system.cc:846-860), `DeclareCacheEntry` (system_base.cc:31-35) and
`LeafSystem::CreateCachedLeafOutputPort` (leaf_system.cc:894-916), which declares the cache entry of
the port first and gives the port a ticket of its own after that. -/
def declare (d : Decl) (s : System) : Except Err System :=
  match d with
  | .discreteState => .ok { s with discrete := s.discrete ++ [s.next], next := s.next + 1 }
  | .abstractState => .ok { s with abstract := s.abstract ++ [s.next], next := s.next + 1 }
  | .numericParameter => .ok { s with numeric := s.numeric ++ [s.next], next := s.next + 1 }
  | .abstractParameter =>
    .ok { s with abstractParams := s.abstractParams ++ [s.next], next := s.next + 1 }
  | .inputPort => .ok { s with inputs := s.inputs ++ [s.next], next := s.next + 1 }
  | .cacheEntry prerequisites disabled => declareCacheEntry prerequisites disabled s
  | .outputPort prerequisites => do
    let entryTicket := s.next
    let s ← declareCacheEntry prerequisites false s
    pure { s with outputs := s.outputs ++ [(s.next, entryTicket)], next := s.next + 1 }

/-- The constructors of `System` and `LeafSystem`
(src/maliput/drake/systems/framework/system.cc:797-843, leaf_system.cc:295-305): cache entries for
the potential energy, the kinetic energy, the conservative power and the nonconservative power, with
fresh tickets, for the time derivatives, with their well known ticket, and the scratch storage. -/
def newSystem : System where
  discrete := []
  abstract := []
  numeric := []
  abstractParams := []
  inputs := []
  entries := [
    ⟨nextAvailableTicket, [accuracyTicket, xTicket, allParametersTicket], false⟩,
    ⟨nextAvailableTicket + 1, [accuracyTicket, xTicket, allParametersTicket], false⟩,
    ⟨nextAvailableTicket + 2, [accuracyTicket, xTicket, allParametersTicket], false⟩,
    ⟨nextAvailableTicket + 3, [allSourcesTicket], false⟩,
    ⟨xcdotTicket, [allSourcesTicket], false⟩,
    ⟨nextAvailableTicket + 4, [nothingTicket], false⟩]
  outputs := []
  next := nextAvailableTicket + 5

/-- The system which a list of declarations makes (a constructor of a class derived from
`LeafSystem`, such as `OdeSystem`,
src/maliput/drake/systems/analysis/initial_value_problem.cc:51-59). -/
def declareAll (ds : List Decl) : Except Err System :=
  ds.foldlM (fun s d => declare d s) newSystem

/-! ## Contexts -/

/-- `DependencyTracker` (src/maliput/drake/systems/framework/dependency_tracker.h:361-380). -/
structure Tracker where
  subscribers : List Nat
  prerequisites : List Nat
  cacheIndex : Option Nat
  last : Int
deriving DecidableEq, Repr

/-- `CacheEntryValue` (src/maliput/drake/systems/framework/cache.h:579-601): the value, the serial
number and the two flags. -/
structure Entry (V : Type) where
  ticket : Nat
  value : V
  serial : Nat
  outOfDate : Bool
  disabled : Bool
deriving DecidableEq, Repr

/-- `ContextBase`, with its `DependencyGraph` and its `Cache`, and the values a `Context` stores
(src/maliput/drake/systems/framework/context_base.h:39, 545-578, dependency_tracker.h:526-530,
cache.h:737-741). `sources t` is the value of the source with ticket `t`: time, accuracy, q, v, z,
a discrete state group, an abstract state, a parameter, or an input port, whose missing value is one
of the values of `V`. `inputs` lists the ticket of each input port and the ticket of the value it is
fixed to. -/
structure Context (V : Type) where
  graph : Nat → Option Tracker
  size : Nat
  cache : Nat → Option (Entry V)
  frozen : Bool
  event : Int
  discrete : List Nat
  abstract : List Nat
  numeric : List Nat
  abstractParams : List Nat
  inputs : List (Nat × Option Nat)
  outputs : List Nat
  sources : Nat → V

variable {V : Type}

/-- Replaces one tracker of the graph. -/
def Context.setTracker (c : Context V) (t : Nat) (tr : Tracker) : Context V :=
  { c with graph := Function.update c.graph t (some tr) }

/-- Replaces one entry of the cache. -/
def Context.setEntry (c : Context V) (i : Nat) (en : Entry V) : Context V :=
  { c with cache := Function.update c.cache i (some en) }

/-- `DependencyGraph::CreateNewDependencyTracker`
(src/maliput/drake/systems/framework/dependency_tracker.h:444-452): aborts when there is one
already. -/
def createTracker (t : Nat) (cacheIndex : Option Nat) (c : Context V) : Except Err (Context V) :=
  match c.graph t with
  | some _ => .error .aborts
  | none => .ok { c.setTracker t ⟨[], [], cacheIndex, -1⟩ with size := max c.size (t + 1) }

/-- `DependencyTracker::SubscribeToPrerequisite` and `AddDownstreamSubscriber`
(src/maliput/drake/systems/framework/dependency_tracker.cc:80-100). The trackers are references; one
that does not exist is undefined behaviour. -/
def subscribe (subscriber prerequisite : Nat) (c : Context V) : Except Err (Context V) :=
  match c.graph subscriber with
  | none => .error .ub
  | some s =>
    let c := c.setTracker subscriber { s with prerequisites := s.prerequisites ++ [prerequisite] }
    match c.graph prerequisite with
    | none => .error .ub
    | some p =>
      .ok (c.setTracker prerequisite { p with subscribers := p.subscribers ++ [subscriber] })

/-- The steps which build the trackers of a context. -/
inductive Wire
  /-- `CreateNewDependencyTracker` without a cache entry. -/
  | create (t : Nat)
  /-- `SubscribeToPrerequisite`: the first tracker subscribes to the second. -/
  | subscribe (subscriber prerequisite : Nat)
  /-- The cache entry value and its tracker. -/
  | entry (index : Nat) (t : Nat) (disabled : Bool)
deriving DecidableEq, Repr

/-- One step. A cache entry value is created as in `Cache::CreateNewCacheEntryValue`
(src/maliput/drake/systems/framework/cache.cc:52-96), `SetInitialValue` (cache.h:98-107) and
`disable_caching` (cache.h:425): an existing tracker is used only for a well known ticket, and only
once (`set_cache_entry_value`, dependency_tracker.h:159-164). `alloc` gives the value that is
allocated for an entry. -/
def wire (alloc : Nat → V) (w : Wire) (c : Context V) : Except Err (Context V) :=
  match w with
  | .create t => createTracker t none c
  | .subscribe s p => Cache.subscribe s p c
  | .entry i t disabled =>
    match c.cache i with
    | some _ => .error .aborts
    | none =>
      let c := c.setEntry i ⟨t, alloc i, 1, true, disabled⟩
      match c.graph t with
      | some tr =>
        if t < nextAvailableTicket then
          match tr.cacheIndex with
          | some _ => .error .aborts
          | none => .ok (c.setTracker t { tr with cacheIndex := some i })
        else .error .aborts
      | none => createTracker t (some i) c

/-- `ContextBase::CreateBuiltInTrackers`
(src/maliput/drake/systems/framework/context_base.cc:119-264). -/
def builtInTrackers : List Wire := [
  .create nothingTicket,
  .create timeTicket,
  .create accuracyTicket,
  .create qTicket,
  .create vTicket,
  .create zTicket,
  .create xcTicket,
  .subscribe xcTicket qTicket,
  .subscribe xcTicket vTicket,
  .subscribe xcTicket zTicket,
  .create xdTicket,
  .create xaTicket,
  .create xTicket,
  .subscribe xTicket xcTicket,
  .subscribe xTicket xdTicket,
  .subscribe xTicket xaTicket,
  .create pnTicket,
  .create paTicket,
  .create allParametersTicket,
  .subscribe allParametersTicket pnTicket,
  .subscribe allParametersTicket paTicket,
  .create allInputPortsTicket,
  .create allSourcesExceptInputPortsTicket,
  .subscribe allSourcesExceptInputPortsTicket timeTicket,
  .subscribe allSourcesExceptInputPortsTicket accuracyTicket,
  .subscribe allSourcesExceptInputPortsTicket xTicket,
  .subscribe allSourcesExceptInputPortsTicket allParametersTicket,
  .create allSourcesTicket,
  .subscribe allSourcesTicket allSourcesExceptInputPortsTicket,
  .subscribe allSourcesTicket allInputPortsTicket,
  .create configurationTicket,
  .subscribe configurationTicket accuracyTicket,
  .subscribe configurationTicket qTicket,
  .subscribe configurationTicket zTicket,
  .subscribe configurationTicket xdTicket,
  .subscribe configurationTicket xaTicket,
  .subscribe configurationTicket allParametersTicket,
  .create kinematicsTicket,
  .subscribe kinematicsTicket configurationTicket,
  .subscribe kinematicsTicket vTicket,
  .create xcdotTicket,
  .create peTicket,
  .create keTicket,
  .create pcTicket,
  .create pncTicket]

/-- The lambda `make_trackers` of `SystemBase::CreateSourceTrackers`, and `ContextBase::AddInputPort`
for the input ports (src/maliput/drake/systems/framework/system_base.cc:116-127,
context_base.cc:47-62). -/
def makeTrackers (group : Nat) (tickets : List Nat) : List Wire :=
  tickets.flatMap fun t => [.create t, .subscribe group t]

/-- `SystemBase::CreateSourceTrackers`
(src/maliput/drake/systems/framework/system_base.cc:111-150). -/
def sourceTrackers (s : System) : List Wire :=
  makeTrackers xdTicket s.discrete ++ makeTrackers xaTicket s.abstract ++
    makeTrackers pnTicket s.numeric ++ makeTrackers paTicket s.abstractParams ++
    makeTrackers allInputPortsTicket s.inputs

/-- The loop over the cache entries of `SystemBase::InitializeContextBase` and the subscriptions of
`Cache::CreateNewCacheEntryValue` (src/maliput/drake/systems/framework/system_base.cc:83-92,
cache.cc:90-94). `index` is the index of the first of the entries. -/
def entryTrackers : Nat → List EntryDecl → List Wire
  | _, [] => []
  | index, d :: ds =>
    .entry index d.ticket d.disabledByDefault ::
      (d.prerequisites.map (.subscribe d.ticket) ++ entryTrackers (index + 1) ds)

/-- `ContextBase::AddOutputPort` for every output port
(src/maliput/drake/systems/framework/system_base.cc:98-101, context_base.cc:64-77). -/
def outputTrackers (outputs : List (Nat × Nat)) : List Wire :=
  outputs.flatMap fun o => [.create o.1, .subscribe o.1 o.2]

/-- Everything that is wired when a context is made: the constructor of `ContextBase`
(src/maliput/drake/systems/framework/context_base.h:236-238) and
`SystemBase::InitializeContextBase` (system_base.cc:60-104). -/
def wiring (s : System) : List Wire :=
  builtInTrackers ++ sourceTrackers s ++ entryTrackers 0 s.entries ++ outputTrackers s.outputs

/-- The context of a system (`LeafSystem::DoAllocateContext`,
src/maliput/drake/systems/framework/leaf_system.cc:80-124): the trackers and cache values wired as
above, and the given values of the sources. -/
def makeContext (alloc : Nat → V) (sources : Nat → V) (s : System) : Except Err (Context V) :=
  (wiring s).foldlM (fun c w => wire alloc w c) {
    graph := fun _ => none
    size := 0
    cache := fun _ => none
    frozen := false
    event := 0
    discrete := s.discrete
    abstract := s.abstract
    numeric := s.numeric
    abstractParams := s.abstractParams
    inputs := s.inputs.map fun t => (t, none)
    outputs := s.outputs.map Prod.fst
    sources := sources }

/-! ## Change notifications -/

/-- `CacheEntryValue::mark_out_of_date` (src/maliput/drake/systems/framework/cache.h:366) on the
entry a tracker points to; trackers without one point to a dummy. -/
def markOutOfDate (i : Option Nat) (c : Context V) : Context V :=
  match i with
  | none => c
  | some i =>
    match c.cache i with
    | none => c
    | some en => c.setEntry i { en with outOfDate := true }

/-- `DependencyTracker::NotePrerequisiteChange` and `NotifySubscribers`
(src/maliput/drake/systems/framework/dependency_tracker.cc:40-74). The first argument bounds the
depth of the recursion, which the code does not bound. -/
def notePrerequisiteChange : Nat → Int → Nat → Context V → Except Stop (Context V)
  | 0, _, _, _ => .error .depth
  | n + 1, e, t, c =>
    match c.graph t with
    | none => .error (.err .ub)
    | some tr =>
      if tr.last = e then .ok c
      else
        tr.subscribers.foldlM (fun c s => notePrerequisiteChange n e s c)
          (markOutOfDate tr.cacheIndex (c.setTracker t { tr with last := e }))

/-- `DependencyTracker::NoteValueChange` and `NotifySubscribers`
(src/maliput/drake/systems/framework/dependency_tracker.cc:23-35, 61-74). The recursion may go as
deep as there are trackers. -/
def noteValueChange (e : Int) (t : Nat) (c : Context V) : Except Stop (Context V) :=
  match c.graph t with
  | none => .error (.err .ub)
  | some tr =>
    if tr.last = e then .ok c
    else
      tr.subscribers.foldlM (fun c s => notePrerequisiteChange (c.size + 1) e s c)
        (c.setTracker t { tr with last := e })

/-- A change event: `ContextBase::start_new_change_event`
(src/maliput/drake/systems/framework/context_base.h:215-226) and the notification of the trackers of
the given tickets. -/
def noteChange (tickets : List Nat) (c : Context V) : Except Stop (Context V) :=
  tickets.foldlM (fun c t => noteValueChange (c.event) t c) { c with event := c.event + 1 }

/-- The ways in which a `Context` lets its values be changed. -/
inductive Access
  | time | accuracy | state | continuousState | discreteState | abstractState
  | parameters | numericParameter | abstractParameter
  | timeAndQ | vz | timeAndContinuousState | stateAndParameters | timeStateAndParameters
deriving DecidableEq, Repr

/-- The tickets each of them notifies and whose values it sets or gives mutable access to
(src/maliput/drake/systems/framework/context.cc:8-89, 121-138, 176-182, context.h:387-428, 612-631,
778-788, context_base.h:294-382): `SetTime`, `SetAccuracy`, `get_mutable_state`,
`get_mutable_continuous_state` (and `NoteContinuousStateChange`), `get_mutable_discrete_state`,
`get_mutable_abstract_state`, `get_mutable_parameters`, `get_mutable_numeric_parameter`,
`get_mutable_abstract_parameter`, `SetTimeAndGetMutableQVector`, `GetMutableVZVectors`,
`SetTimeAndGetMutableContinuousStateVector` (and `SetTimeAndNoteContinuousStateChange`),
`SetStateAndParametersFrom`, `SetTimeStateAndParametersFrom`. -/
def Context.accessed (c : Context V) : Access → List Nat
  | .time => [timeTicket]
  | .accuracy => [accuracyTicket]
  | .state => [qTicket, vTicket, zTicket] ++ c.discrete ++ c.abstract
  | .continuousState => [qTicket, vTicket, zTicket]
  | .discreteState => c.discrete
  | .abstractState => c.abstract
  | .parameters => c.numeric ++ c.abstractParams
  | .numericParameter => c.numeric
  | .abstractParameter => c.abstractParams
  | .timeAndQ => [timeTicket, qTicket]
  | .vz => [vTicket, zTicket]
  | .timeAndContinuousState => [timeTicket, qTicket, vTicket, zTicket]
  | .stateAndParameters =>
    [qTicket, vTicket, zTicket] ++ c.discrete ++ c.abstract ++ c.numeric ++ c.abstractParams
  | .timeStateAndParameters =>
    [timeTicket, accuracyTicket, qTicket, vTicket, zTicket] ++ c.discrete ++ c.abstract ++
      c.numeric ++ c.abstractParams

/-- A change of values: the notifications are sent first, then the values are written, before
anything else is evaluated. `w` gives the values after the change. -/
def modify (a : Access) (w : Nat → V) (c : Context V) : Except Stop (Context V) := do
  let c' ← noteChange (c.accessed a) c
  pure { c' with sources := fun t => if t ∈ c.accessed a then w t else c'.sources t }

/-- `ContextBase::FixInputPort` and `SetFixedInputPortValue`
(src/maliput/drake/systems/framework/context_base.cc:39-45, 79-111): the first time, a tracker for
the value is created with the next ticket of the graph and the tracker of the port subscribes to it.
The type check of the value is dropped. -/
def fixInputPort (port : Nat) (v : V) (c : Context V) : Except Stop (Context V) :=
  match c.inputs[port]? with
  | none => .error (.err .aborts)
  | some (portTicket, some valueTicket) => do
    let c ← noteChange [valueTicket] c
    pure { c with sources := Function.update c.sources portTicket v }
  | some (portTicket, none) => do
    let valueTicket := c.size
    let c ← RouteGraph.lift (createTracker valueTicket none c)
    let c ← RouteGraph.lift (subscribe portTicket valueTicket c)
    let c ← noteChange [valueTicket]
      { c with inputs := c.inputs.set port (portTicket, some valueTicket) }
    pure { c with sources := Function.update c.sources portTicket v }

/-- `FixedInputPortValue::GetMutableData` followed by a write
(src/maliput/drake/systems/framework/fixed_input_port_value.cc:8-16). There is no such value for a
port which is not fixed. -/
def setFixedInput (port : Nat) (v : V) (c : Context V) : Except Stop (Context V) :=
  match c.inputs[port]? with
  | some (portTicket, some valueTicket) => do
    let c ← noteChange [valueTicket] c
    pure { c with sources := Function.update c.sources portTicket v }
  | _ => .error (.err .ub)

/-! ## Evaluation -/

/-- What a calculator does: it reads sources of the context, evaluates other cache entries of it,
and returns a value or throws. Calculators are user code; the context they get is `const`. -/
inductive Prog (V : Type)
  | ret (v : V)
  | throw
  | read (t : Nat) (k : V → Prog V)
  | eval (i : Nat) (k : V → Prog V)

/-- The calculators of a system. `prog i` is that of entry `i`; `spoil i v` is what is left in the
storage of entry `i`, which held `v`, when its calculator throws. -/
structure Calc (V : Type) where
  prog : Nat → Prog V
  spoil : Nat → V → V

/-- Runs a calculator, with the given evaluation of cache entries. -/
def runProg (ev : Nat → Context V → Context V × Except Stop V) :
    Prog V → Context V → Context V × Except Stop V
  | .ret v, c => (c, .ok v)
  | .throw, c => (c, .error (.err .throws))
  | .read t k, c => runProg ev (k (c.sources t)) c
  | .eval i k, c =>
    match ev i c with
    | (c, .ok v) => runProg ev (k v) c
    | (c, .error e) => (c, .error e)

/-- `CacheEntry::EvalAbstract` and `UpdateValue`
(src/maliput/drake/systems/framework/cache_entry.h:161-165, 301-308),
`CacheEntryValue::needs_recomputation`, `GetMutableAbstractValueOrThrowHelper`, `ThrowIfFrozen` and
`mark_up_to_date` (cache.h:330-333, 510-516, 565-569, 351-354). The first argument bounds the depth
of nested evaluations, which the code does not bound. An exception leaves the flags as they are. -/
def evalEntry (k : Calc V) : Nat → Nat → Context V → Context V × Except Stop V
  | 0, _, c => (c, .error .depth)
  | n + 1, i, c =>
    match c.cache i with
    | none => (c, .error (.err .ub))
    | some en =>
      if en.outOfDate || en.disabled then
        if c.frozen then (c, .error (.err .throws))
        else
          match runProg (evalEntry k n) (k.prog i)
              (c.setEntry i { en with serial := en.serial + 1 }) with
          | (c, .ok v) =>
            match c.cache i with
            | none => (c, .error (.err .ub))
            | some en => (c.setEntry i { en with value := v, outOfDate := false }, .ok v)
          | (c, .error (.err .throws)) =>
            match c.cache i with
            | none => (c, .error (.err .ub))
            | some en =>
              (c.setEntry i { en with value := k.spoil i en.value }, .error (.err .throws))
          | (c, .error e) => (c, .error e)
      else (c, .ok en.value)

/-- `CacheEntry::GetKnownUpToDateAbstract`
(src/maliput/drake/systems/framework/cache_entry.h:196-200). -/
def getKnownUpToDate (i : Nat) (c : Context V) : Except Err V :=
  match c.cache i with
  | none => .error .ub
  | some en => if en.outOfDate then .error .throws else .ok en.value

/-! ## Cache control and cloning -/

/-- A change of the flags of every entry. -/
def Context.mapEntries (f : Entry V → Entry V) (c : Context V) : Context V :=
  { c with cache := fun i => (c.cache i).map f }

/-- A change of the flags of one entry. -/
def Context.mapEntry (i : Nat) (f : Entry V → Entry V) (c : Context V) : Context V :=
  { c with cache := fun j => if j = i then (c.cache j).map f else c.cache j }

/-- `Cache::DisableCaching` (src/maliput/drake/systems/framework/cache.cc:98-101). -/
def disableCaching (c : Context V) : Context V := c.mapEntries fun en => { en with disabled := true }

/-- `Cache::EnableCaching` (src/maliput/drake/systems/framework/cache.cc:103-106). -/
def enableCaching (c : Context V) : Context V := c.mapEntries fun en => { en with disabled := false }

/-- `Cache::SetAllEntriesOutOfDate` (src/maliput/drake/systems/framework/cache.cc:108-111). -/
def setAllOutOfDate (c : Context V) : Context V :=
  c.mapEntries fun en => { en with outOfDate := true }

/-- `CacheEntry::disable_caching` (src/maliput/drake/systems/framework/cache_entry.h:222-225). -/
def disableEntry (i : Nat) (c : Context V) : Context V :=
  c.mapEntry i fun en => { en with disabled := true }

/-- `CacheEntry::enable_caching` (src/maliput/drake/systems/framework/cache_entry.h:229-232). -/
def enableEntry (i : Nat) (c : Context V) : Context V :=
  c.mapEntry i fun en => { en with disabled := false }

/-- `ContextBase::FreezeCache` (src/maliput/drake/systems/framework/context_base.h:96,
cache.h:705). -/
def freeze (c : Context V) : Context V := { c with frozen := true }

/-- `ContextBase::UnfreezeCache` (src/maliput/drake/systems/framework/context_base.h:102,
cache.h:710). -/
def unfreeze (c : Context V) : Context V := { c with frozen := false }

/-- `ContextBase::Clone` (src/maliput/drake/systems/framework/context_base.cc:11-30),
`DependencyTracker::CloneWithoutPointers` and `RepairTrackerPointers`
(dependency_tracker.h:315-325, dependency_tracker.cc:181-218): everything is copied, the pointers
between trackers are replaced by those to the trackers with the same tickets in the clone, and the
last change event of every tracker is forgotten while the counter of change events is kept. -/
def clone (c : Context V) : Context V :=
  { c with graph := fun t => (c.graph t).map fun tr => { tr with last := -1 } }

/-! ## Histories -/

/-- What a program can do with a context. -/
inductive Op (V : Type)
  | modify (a : Access) (w : Nat → V)
  | fixInputPort (port : Nat) (v : V)
  | setFixedInput (port : Nat) (v : V)
  | eval (i : Nat)
  | disableCaching | enableCaching | setAllOutOfDate
  | disableEntry (i : Nat) | enableEntry (i : Nat)
  | freeze | unfreeze
  | clone

/-- The context after an operation. `n` bounds the depth of nested evaluations. After `clone` the
history goes on with the clone. -/
def Op.run (k : Calc V) (n : Nat) (c : Context V) : Op V → Context V
  | .modify a w => match Cache.modify a w c with | .ok c' => c' | .error _ => c
  | .fixInputPort p v => match Cache.fixInputPort p v c with | .ok c' => c' | .error _ => c
  | .setFixedInput p v => match Cache.setFixedInput p v c with | .ok c' => c' | .error _ => c
  | .eval i => (evalEntry k n i c).1
  | .disableCaching => Cache.disableCaching c
  | .enableCaching => Cache.enableCaching c
  | .setAllOutOfDate => Cache.setAllOutOfDate c
  | .disableEntry i => Cache.disableEntry i c
  | .enableEntry i => Cache.enableEntry i c
  | .freeze => Cache.freeze c
  | .unfreeze => Cache.unfreeze c
  | .clone => Cache.clone c

/-- The context after a list of operations. -/
def history (k : Calc V) (n : Nat) (ops : List (Op V)) (c : Context V) : Context V :=
  ops.foldl (Op.run k n) c

end Maliput.Cache
