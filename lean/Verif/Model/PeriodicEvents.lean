import Mathlib.Data.Rat.Floor
import Verif.Model.Double

set_option autoImplicit false

/-!
# Events of a leaf system

A leaf system (a system of differential equations, such as the ones the integrators solve) declares events that happen periodically,
at every step or at the initialization, and says when the next periodic ones are due.  Handlers are opaque: an event is known by its
kind, its trigger and a number standing for its callback.  The first part has exact times; the last definition is the search of the
next sample time in `double` arithmetic.
-/
namespace Maliput.Periodic

/-- `TriggerType`, src/maliput/drake/systems/framework/event.h:358-416. -/
inductive TriggerType
  | unknown
  | initialization
  | forced
  | timed
  | periodic
  | perStep
  | witness
deriving DecidableEq

/-- The class of an event, a `PublishEvent`, a `DiscreteUpdateEvent` or an `UnrestrictedUpdateEvent`. -/
inductive Kind
  | publish
  | discreteUpdate
  | unrestrictedUpdate
deriving DecidableEq

/-- An event: `Event`, src/maliput/drake/systems/framework/event.h:440-542. The event data are left out. -/
structure Event where
  kind : Kind
  trigger : TriggerType
  callback : Nat
deriving DecidableEq

/-- `is_discrete_update`, src/maliput/drake/systems/framework/event.h:593-593, 685-685 and 782-782. -/
def Event.isDiscreteUpdate (e : Event) : Bool := decide (e.kind = .discreteUpdate)

/-- `PeriodicEventData`, src/maliput/drake/systems/framework/event.h:255-282. -/
structure PeriodicEventData where
  period : ℚ
  offset : ℚ
deriving DecidableEq

/-- `CompositeEventCollection`, src/maliput/drake/systems/framework/event_collection.h:453-661, of a leaf system, as the events it
holds. -/
structure Composite where
  publish : List Event
  discreteUpdate : List Event
  unrestrictedUpdate : List Event
deriving DecidableEq

/-- `Clear`, src/maliput/drake/systems/framework/event_collection.h:462-466. -/
def Composite.cleared : Composite := ⟨[], [], []⟩

/-- `HasEvents`, src/maliput/drake/systems/framework/event_collection.h:471-474. -/
def Composite.hasEvents (c : Composite) : Bool := !c.publish.isEmpty || !c.discreteUpdate.isEmpty || !c.unrestrictedUpdate.isEmpty

/-- `AddToEnd`, src/maliput/drake/systems/framework/event_collection.h:570-574. -/
def Composite.addToEnd (c other : Composite) : Composite :=
  ⟨c.publish ++ other.publish, c.discreteUpdate ++ other.discreteUpdate, c.unrestrictedUpdate ++ other.unrestrictedUpdate⟩

/-- `SetFrom`, src/maliput/drake/systems/framework/event_collection.h:579-583 and 110-113, of a composite that is not the other one. -/
def Composite.setFrom (_c other : Composite) : Composite := Composite.cleared.addToEnd other

/-- `DoAddToComposite`, src/maliput/drake/systems/framework/event.h:658-662, 755-759 and 851-855. -/
def doAddToComposite (e : Event) (t : TriggerType) (c : Composite) : Composite :=
  let e' := { e with trigger := t }
  match e.kind with
  | .publish => { c with publish := c.publish ++ [e'] }
  | .discreteUpdate => { c with discreteUpdate := c.discreteUpdate ++ [e'] }
  | .unrestrictedUpdate => { c with unrestrictedUpdate := c.unrestrictedUpdate ++ [e'] }

/-- `AddToComposite`, src/maliput/drake/systems/framework/event.h:501-505. -/
def addToComposite (e : Event) (t : TriggerType) (c : Composite) : Except Err Composite :=
  if e.trigger = .unknown ∨ e.trigger = t then .ok (doAddToComposite e t c) else .error .aborts

/-- `AddToComposite`, src/maliput/drake/systems/framework/event.h:511-515. -/
def addToCompositeAsIs (e : Event) (c : Composite) : Except Err Composite :=
  if e.trigger ≠ .unknown then .ok (doAddToComposite e e.trigger c) else .error .aborts

/-- The events a leaf system has declared: `periodic_events_`, src/maliput/drake/systems/framework/leaf_system.h:1950-1950 and the two
collections after it. -/
structure System where
  periodic : List (PeriodicEventData × Event)
  perStep : Composite
  initialization : Composite

/-- A system without events. -/
def System.new : System := ⟨[], .cleared, .cleared⟩

/-- `DeclarePeriodicEvent`, src/maliput/drake/systems/framework/leaf_system.h:458-468. -/
def declarePeriodicEvent (s : System) (period offset : ℚ) (e : Event) : Except Err System :=
  if e.trigger = .unknown ∨ e.trigger = .periodic then
    .ok { s with periodic := s.periodic ++ [(⟨period, offset⟩, { e with trigger := .periodic })] }
  else .error .aborts

/-- `DeclarePerStepEvent`, src/maliput/drake/systems/framework/leaf_system.h:668-672. -/
def declarePerStepEvent (s : System) (e : Event) : Except Err System :=
  if e.trigger = .unknown ∨ e.trigger = .perStep then do
    let c ← addToComposite e .perStep s.perStep
    .ok { s with perStep := c }
  else .error .aborts

/-- `DeclareInitializationEvent`, src/maliput/drake/systems/framework/leaf_system.h:826-830. -/
def declareInitializationEvent (s : System) (e : Event) : Except Err System :=
  if e.trigger = .unknown ∨ e.trigger = .initialization then do
    let c ← addToComposite e .initialization s.initialization
    .ok { s with initialization := c }
  else .error .aborts

/-- `GetNextSampleTime`, src/maliput/drake/systems/framework/leaf_system.cc:16-39, with the assertions of a debug build. -/
def getNextSampleTime (a : PeriodicEventData) (now : ℚ) : Except Err ℚ :=
  if 0 < a.period then
    if 0 ≤ a.offset then
      if now < a.offset then .ok a.offset
      else
        let offsetTime := now - a.offset
        let nextK : ℚ := ⌈offsetTime / a.period⌉
        let nextT := a.offset + nextK * a.period
        let nextT := if nextT ≤ now then a.offset + (nextK + 1) * a.period else nextT
        if now < nextT then .ok nextT else .error .aborts
    else .error .aborts
  else .error .aborts

/-- The loop of `DoCalcNextUpdateTime`, src/maliput/drake/systems/framework/leaf_system.cc:353-363. The time `none` is infinity. -/
def nextEvents (now : ℚ) : List (PeriodicEventData × Event) → Option ℚ × List Event → Except Err (Option ℚ × List Event)
  | [], acc => .ok acc
  | (a, e) :: rest, (minTime, events) => do
    let t ← getNextSampleTime a now
    match minTime with
    | none => nextEvents now rest (some t, [e])
    | some m =>
      if t < m then nextEvents now rest (some t, [e])
      else if t = m then nextEvents now rest (some m, events ++ [e])
      else nextEvents now rest (some m, events)

/-- The last loop of `DoCalcNextUpdateTime`, src/maliput/drake/systems/framework/leaf_system.cc:367-369. -/
def addAll : List Event → Composite → Except Err Composite
  | [], c => .ok c
  | e :: rest, c => do
    let c ← addToCompositeAsIs e c
    addAll rest c

/-- `DoCalcNextUpdateTime`, src/maliput/drake/systems/framework/leaf_system.cc:333-370. The vector kept in the cache is cleared before it is
used. -/
def doCalcNextUpdateTime (s : System) (now : ℚ) (events : Composite) : Except Err (Option ℚ × Composite) :=
  if s.periodic.isEmpty then .ok (none, events)
  else do
    let (time, next) ← nextEvents now s.periodic (none, [])
    let c ← addAll next events
    .ok (time, c)

/-- The time of a `Context`, src/maliput/drake/systems/framework/context.h:800-808: with `PerturbTime` the true one is kept too. -/
structure Time where
  time : ℚ
  trueTime : Option ℚ

/-- `CalcNextUpdateTime`, src/maliput/drake/systems/framework/system.cc:321-363. The checks of the context and of the collection are
left out. `none` is infinity. -/
def calcNextUpdateTime (s : System) (context : Time) (_events : Composite) : Except Err (Option ℚ × Composite) := do
  let (time, events) ← doCalcNextUpdateTime s context.time .cleared
  if time.isSome && !events.hasEvents then .error .throws
  else
    match context.trueTime with
    | none => .ok (time, events)
    | some trueTime => .ok (if time = some context.time then some trueTime else time, events)

/-- `GetPerStepEvents`, src/maliput/drake/systems/framework/system.cc:366-371 and leaf_system.cc:840-842. -/
def getPerStepEvents (s : System) (events : Composite) : Composite := events.setFrom s.perStep

/-- `GetInitializationEvents`, src/maliput/drake/systems/framework/system.cc:374-379 and leaf_system.cc:845-847. -/
def getInitializationEvents (s : System) (events : Composite) : Composite := events.setFrom s.initialization

/-- `operator()`, src/maliput/drake/systems/framework/event.h:549-552. -/
def comesBefore (a b : PeriodicEventData) : Bool :=
  if a.period = b.period then decide (a.offset < b.offset) else decide (a.period < b.period)

/-- `operator[]` of the `std::map` with this order and `push_back` to what it returns. -/
def pushTo (a : PeriodicEventData) (e : Event) : List (PeriodicEventData × List Event) → List (PeriodicEventData × List Event)
  | [] => [(a, [e])]
  | (b, es) :: rest =>
    if comesBefore b a then (b, es) :: pushTo a e rest
    else if comesBefore a b then (a, [e]) :: (b, es) :: rest
    else (b, es ++ [e]) :: rest

/-- `DoGetPeriodicEvents`, src/maliput/drake/systems/framework/leaf_system.cc:773-779. -/
def getPeriodicEvents (s : System) : List (PeriodicEventData × List Event) := s.periodic.foldl (fun m p => pushTo p.1 p.2 m) []

/-- The loops of `GetUniquePeriodicDiscreteUpdateAttribute`, src/maliput/drake/systems/framework/system.cc:382-396. -/
def uniqueLoop : List (PeriodicEventData × List Event) → Option PeriodicEventData → Option PeriodicEventData
  | [], saved => saved
  | (a, es) :: rest, saved =>
    if es.any Event.isDiscreteUpdate then
      match saved with
      | some _ => none
      | none => uniqueLoop rest (some a)
    else uniqueLoop rest saved

/-- `GetUniquePeriodicDiscreteUpdateAttribute`, src/maliput/drake/systems/framework/system.cc:382-396. -/
def getUniquePeriodicDiscreteUpdateAttribute (s : System) : Option PeriodicEventData := uniqueLoop (getPeriodicEvents s) none

/-- `IsDifferenceEquationSystem`, src/maliput/drake/systems/framework/system.cc:399-420: the period if it returns true. The numbers are
those of the continuous states, the groups of discrete states and the abstract states. -/
def isDifferenceEquationSystem (s : System) (continuous discreteGroups abstract : Nat) : Option ℚ :=
  if continuous ≠ 0 ∨ abstract ≠ 0 then none
  else if discreteGroups ≠ 1 then none
  else
    match getUniquePeriodicDiscreteUpdateAttribute s with
    | none => none
    | some a => if a.offset ≠ 0 then none else some a.period

open Dbl in
/-- The operator `/` with a positive divisor. -/
def divBy (d : Double) (p : ℚ) : Double :=
  match d with
  | .fin q => toDouble (q / p)
  | d => d

open Dbl in
/-- `std::ceil`. -/
def ceil : Double → Double
  | .fin q => .fin ⌈q⌉
  | d => d

open Dbl in
/-- `GetNextSampleTime`, src/maliput/drake/systems/framework/leaf_system.cc:16-39, in the arithmetic of the machine and without the
assertions, as in a release. The arguments are finite and the period is positive. -/
def getNextSampleTimeDouble (period offset now : ℚ) : Double :=
  if now < offset then .fin offset
  else
    let offsetTime := sub (.fin now) (.fin offset)
    let nextK := ceil (divBy offsetTime period)
    let nextT := add (.fin offset) (mul nextK (.fin period))
    if le nextT (.fin now) then add (.fin offset) (mul (add nextK 1) (.fin period)) else nextT

end Maliput.Periodic
