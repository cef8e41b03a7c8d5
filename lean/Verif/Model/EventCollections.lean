import Mathlib.Data.List.FinRange
import Verif.Model.Basic

set_option autoImplicit false

/-!
Model of the collections of events, src/maliput/drake/systems/framework/event_collection.h, and of the handling of the events of a leaf
system, system.cc and leaf_system.cc.  A collection of a leaf system keeps the events in a vector and pointers to them in another one; the
pointers are followed when the events are handled.  The vector of events is therefore modelled with its memory: it is a block with an
address, and a larger block takes its place when it grows.  Which address and how much room the allocator gives is left open.
Events are values of any type `E`: the three kinds of events are not distinguished here.
-/
namespace Maliput.EventColl
open Maliput

variable {E S D : Type}

/-! ### Memory -/

/-- A block of memory with the events of a vector.  `live`: it was not freed. -/
structure Block (E : Type) where
  addr : Nat
  cap : Nat
  items : List E
  live : Bool
deriving DecidableEq

/-- All the blocks that were ever allocated, in this order. -/
abbrev Mem (E : Type) := List (Block E)

/-- The allocator: the address of a new block, which is not the one of a block in use (but may be the one of a freed block), and its
capacity if `n` elements are needed. -/
structure Allocator (E : Type) where
  place : Mem E → Nat
  room : Nat → Nat
  free : ∀ m : Mem E, ∀ b ∈ m, b.live = true → b.addr ≠ place m
  enough : ∀ n, n ≤ room n

/-- A pointer to an event: the `idx`-th one in the `block`-th block that was allocated, which has the address `addr`. -/
structure Ptr where
  block : Nat
  addr : Nat
  idx : Nat
deriving DecidableEq

/-- The block of a vector or of a pointer. -/
def blockAt (m : Mem E) (s : Nat) : Except Err (Block E) :=
  match m[s]? with
  | some b => if b.live then .ok b else .error .ub
  | none => .error .ub

/-- The event at a pointer. -/
def deref (m : Mem E) (p : Ptr) : Except Err E := do
  let b ← blockAt m p.block
  match b.items[p.idx]? with
  | some e => .ok e
  | none => .error .ub

/-- The elements are in a new block, and the old one is freed: what a vector does to grow. -/
def realloc (A : Allocator E) (m : Mem E) (s : Nat) (b : Block E) (n : Nat) (items : List E) : Mem E × Nat :=
  (m.set s { b with live := false } ++ [⟨A.place m, A.room n, items, true⟩], m.length)

/-- `std::vector::reserve`. -/
def reserveVec (A : Allocator E) (m : Mem E) (s n : Nat) : Except Err (Mem E × Nat) := do
  let b ← blockAt m s
  if n ≤ b.cap then return (m, s) else return realloc A m s b n b.items

/-- `std::vector::push_back`. -/
def pushBack (A : Allocator E) (m : Mem E) (s : Nat) (e : E) : Except Err (Mem E × Nat) := do
  let b ← blockAt m s
  if b.items.length < b.cap then return (m.set s { b with items := b.items ++ [e] }, s)
  else return realloc A m s b (b.items.length + 1) (b.items ++ [e])

/-! ### Collections of a leaf system -/

/-- `events_storage_` and `events_` of `LeafEventCollection`, src/maliput/drake/systems/framework/event_collection.h:425-430: the block of
the vector of events, and the pointers. -/
structure Coll where
  storage : Nat
  events : List Ptr
deriving DecidableEq

/-- The memory and the collections that were ever made, in this order; `none` if a collection was destroyed. -/
structure World (E : Type) where
  mem : Mem E
  colls : List (Option Coll)
deriving DecidableEq

/-- A collection. -/
def World.coll (w : World E) (i : Nat) : Except Err Coll :=
  match w.colls[i]? with
  | some (some c) => .ok c
  | _ => .error .ub

/-- `LeafEventCollection()`, src/maliput/drake/systems/framework/event_collection.h:319-319, with `kDefaultCapacity`, line 312: a vector
without elements has no block, so that only a new one is allocated. -/
def make (A : Allocator E) (w : World E) : World E :=
  ⟨w.mem ++ [⟨A.place w.mem, A.room 32, [], true⟩], w.colls ++ [some ⟨w.mem.length, []⟩]⟩

/-- `~LeafEventCollection`, which is implicit (src/maliput/drake/systems/framework/event_collection.h:305-431). -/
def destroy (w : World E) (i : Nat) : Except Err (World E) := do
  let c ← w.coll i
  let b ← blockAt w.mem c.storage
  return ⟨w.mem.set c.storage { b with live := false }, w.colls.set i none⟩

/-- `Reserve`, src/maliput/drake/systems/framework/event_collection.h:337-340.  The pointers are not written; the memory of their vector
is not modelled, as nothing points into it. -/
def reserve (A : Allocator E) (w : World E) (i n : Nat) : Except Err (World E) := do
  let c ← w.coll i
  let (m, s) ← reserveVec A w.mem c.storage n
  return ⟨m, w.colls.set i (some { c with storage := s })⟩

/-- `&events_storage_[k]` in `AddEvent`, src/maliput/drake/systems/framework/event_collection.h:364-373. -/
def pointerTo (s : Nat) (b : Block E) (k : Nat) : Ptr := ⟨s, b.addr, k⟩

/-- `events_.push_back(&events_storage_.back())` or the loop, src/maliput/drake/systems/framework/event_collection.h:364-373.  The
addresses of the first event and in the first pointer are compared. -/
def newPointers (s : Nat) (b : Block E) (old : List Ptr) : List Ptr :=
  match old with
  | [] => [pointerTo s b (b.items.length - 1)]
  | p :: _ =>
    if p.addr = b.addr ∧ p.idx = 0 then old ++ [pointerTo s b (b.items.length - 1)]
    else (List.range b.items.length).map (pointerTo s b)

/-- `AddEvent`, src/maliput/drake/systems/framework/event_collection.h:361-374. -/
def addEvent (A : Allocator E) (w : World E) (i : Nat) (e : E) : Except Err (World E) := do
  let c ← w.coll i
  let (m, s) ← pushBack A w.mem c.storage e
  let b ← blockAt m s
  return ⟨m, w.colls.set i (some ⟨s, newPointers s b c.events⟩)⟩

/-- `add_event`, src/maliput/drake/systems/framework/event_collection.h:353-356; `none` is a null pointer. -/
def addOwned (A : Allocator E) (w : World E) (i : Nat) : Option E → Except Err (World E)
  | none => .error .aborts
  | some e => addEvent A w i e

/-- `HasEvents`, src/maliput/drake/systems/framework/event_collection.h:379-379. -/
def leafHasEvents (w : World E) (i : Nat) : Except Err Bool := do
  let c ← w.coll i
  let b ← blockAt w.mem c.storage
  return !b.items.isEmpty

/-- `get_events`, src/maliput/drake/systems/framework/event_collection.h:347-347, and what is at the pointers. -/
def getEvents (w : World E) (i : Nat) : Except Err (List E) := do
  let c ← w.coll i
  c.events.mapM (deref w.mem)

/-- `Clear`, src/maliput/drake/systems/framework/event_collection.h:384-387. -/
def leafClear (w : World E) (i : Nat) : Except Err (World E) := do
  let c ← w.coll i
  let b ← blockAt w.mem c.storage
  return ⟨w.mem.set c.storage { b with items := [] }, w.colls.set i (some { c with events := [] })⟩

/-- The loop of `DoAddToEnd`, src/maliput/drake/systems/framework/event_collection.h:413-415. -/
def addAll (A : Allocator E) (i : Nat) : World E → List Ptr → Except Err (World E)
  | w, [] => .ok w
  | w, p :: rest => do
    let e ← deref w.mem p
    let w ← addEvent A w i e
    addAll A i w rest

/-- `DoAddToEnd`, src/maliput/drake/systems/framework/event_collection.h:409-416, for collections of leaf systems.  If `other` is the
collection itself, the loop is over the vector to which it adds pointers, which is undefined behaviour unless it is empty. -/
def leafAddToEnd (A : Allocator E) (w : World E) (i j : Nat) : Except Err (World E) := do
  let _ ← w.coll i
  let other ← w.coll j
  if i = j ∧ other.events ≠ [] then .error .ub
  else addAll A i w other.events

/-- `MakeForcedEventCollection`, src/maliput/drake/systems/framework/event_collection.h:326-331. -/
def makeForced (A : Allocator E) (forced : E) (w : World E) : Except Err (World E) :=
  addEvent A (make A w) w.colls.length forced

/-! ### Collections of diagrams -/

/-- `EventCollection`, src/maliput/drake/systems/framework/event_collection.h:100-152: the collection of a leaf system, or
`DiagramEventCollection`, lines 173-295, with pointers to the collections of its subsystems, of which some may be null. -/
inductive Tree where
  | leaf (i : Nat)
  | null
  | diagram (n : Nat) (subs : Fin n → Tree)

/-- `DiagramEventCollection(int)`, src/maliput/drake/systems/framework/event_collection.h:183-186. -/
def Tree.make (n : Nat) : Tree := .diagram n fun _ => .null

/-- `set_subevent_collection`, src/maliput/drake/systems/framework/event_collection.h:225-229, of a collection that was not yet used;
`set_and_own_subevent_collection`, lines 211-216, also keeps it alive. -/
def Tree.setSub (t : Tree) (index : Int) (sub : Tree) : Except Err Tree :=
  match t, sub with
  | _, .null => .error .aborts
  | .diagram n subs, sub =>
    if 0 ≤ index ∧ index < n then .ok (.diagram n fun k => if (k : Int) = index then sub else subs k) else .error .aborts
  | _, _ => .error .ub

/-- `get_subevent_collection`, src/maliput/drake/systems/framework/event_collection.h:238-241; a reference to null is undefined. -/
def Tree.getSub (t : Tree) (index : Int) : Except Err Tree :=
  match t with
  | .diagram n subs =>
    if h : 0 ≤ index ∧ index < n then
      match subs ⟨index.toNat, by omega⟩ with
      | .null => .error .ub
      | s => .ok s
    else .error .aborts
  | _ => .error .ub

/-- `AddEvent`, src/maliput/drake/systems/framework/event_collection.h:198-198 and 361-374. -/
def Tree.addEvent (A : Allocator E) (w : World E) (t : Tree) (e : E) : Except Err (World E) :=
  match t with
  | .leaf i => EventColl.addEvent A w i e
  | .diagram _ _ => .error .throws
  | .null => .error .ub

/-- `Clear`, src/maliput/drake/systems/framework/event_collection.h:254-258 and 384-387. -/
def Tree.clear : Tree → World E → Except Err (World E)
  | .leaf i, w => leafClear w i
  | .null, _ => .error .ub
  | .diagram n subs, w => (List.finRange n).foldlM (fun w k => (subs k).clear w) w

/-- `HasEvents`, src/maliput/drake/systems/framework/event_collection.h:264-269 and 379-379: the loop ends at the first subsystem with
events. -/
def Tree.hasEvents (w : World E) : Tree → Except Err Bool
  | .leaf i => leafHasEvents w i
  | .null => .error .ub
  | .diagram n subs => (List.finRange n).foldlM (fun b k => if b then .ok true else (subs k).hasEvents w) false

/-- `AddToEnd`, src/maliput/drake/systems/framework/event_collection.h:118-118, with `DoAddToEnd`, lines 282-290 and 409-416: a
`dynamic_cast` to the other class throws. -/
def Tree.addToEnd (A : Allocator E) : Tree → Tree → World E → Except Err (World E)
  | .null, _, _ => .error .ub
  | _, .null, _ => .error .ub
  | .leaf i, .leaf j, w => leafAddToEnd A w i j
  | .leaf _, .diagram _ _, _ => .error .throws
  | .diagram _ _, .leaf _, _ => .error .throws
  | .diagram n subs, .diagram n' subs', w =>
    if h : n = n' then (List.finRange n).foldlM (fun w k => (subs k).addToEnd A (subs' (Fin.cast h k)) w) w
    else .error .aborts

/-- `SetFrom`, src/maliput/drake/systems/framework/event_collection.h:110-113. -/
def Tree.setFrom (A : Allocator E) (t other : Tree) (w : World E) : Except Err (World E) := do
  let w ← t.clear w
  t.addToEnd A other w

/-! ### Histories -/

/-- A call; collections of leaf systems are referred to in the order in which they were made. -/
inductive Op (E : Type) where
  | make
  | makeForced (e : E)
  | destroy (i : Nat)
  | reserve (i n : Nat)
  | add (t : Tree) (e : E)
  | clear (t : Tree)
  | addToEnd (t other : Tree)
  | setFrom (t other : Tree)

/-- A call is executed. -/
def exec (A : Allocator E) (w : World E) : Op E → Except Err (World E)
  | .make => .ok (make A w)
  | .makeForced e => makeForced A e w
  | .destroy i => destroy w i
  | .reserve i n => reserve A w i n
  | .add t e => t.addEvent A w e
  | .clear t => t.clear w
  | .addToEnd t other => t.addToEnd A other w
  | .setFrom t other => t.setFrom A other w

/-- Calls are executed one after the other. -/
def run (A : Allocator E) (w : World E) (ops : List (Op E)) : Except Err (World E) := ops.foldlM (exec A) w

/-! ### Collections with all kinds of events -/

/-- `CompositeEventCollection`, src/maliput/drake/systems/framework/event_collection.h:453-661. -/
structure Composite where
  publish : Tree
  discrete : Tree
  unrestricted : Tree

/-- `LeafCompositeEventCollection()`, src/maliput/drake/systems/framework/event_collection.h:676-679. -/
def Composite.makeLeaf (A : Allocator E) (w : World E) : World E × Composite :=
  (make A (make A (make A w)), ⟨.leaf w.colls.length, .leaf (w.colls.length + 1), .leaf (w.colls.length + 2)⟩)

/-- The body of the loop of the constructor of `DiagramCompositeEventCollection`,
src/maliput/drake/systems/framework/event_collection.h:730-750. -/
def setSubs (c : Composite) (s : Composite × Nat) : Except Err Composite := do
  return ⟨← c.publish.setSub s.2 s.1.publish, ← c.discrete.setSub s.2 s.1.discrete, ← c.unrestricted.setSub s.2 s.1.unrestricted⟩

/-- `DiagramCompositeEventCollection`, the constructor, src/maliput/drake/systems/framework/event_collection.h:722-751: the collections
of the diagram point to those of the subsystems. -/
def Composite.makeDiagram (subs : List Composite) : Except Err Composite :=
  subs.zipIdx.foldlM setSubs ⟨Tree.make subs.length, Tree.make subs.length, Tree.make subs.length⟩

/-- `Clear`, src/maliput/drake/systems/framework/event_collection.h:462-466. -/
def Composite.clear (c : Composite) (w : World E) : Except Err (World E) := do
  let w ← c.publish.clear w
  let w ← c.discrete.clear w
  c.unrestricted.clear w

/-- `HasEvents`, src/maliput/drake/systems/framework/event_collection.h:471-474. -/
def Composite.hasEvents (c : Composite) (w : World E) : Except Err Bool := do
  if ← c.publish.hasEvents w then return true
  if ← c.discrete.hasEvents w then return true
  c.unrestricted.hasEvents w

/-- `AddToEnd`, src/maliput/drake/systems/framework/event_collection.h:570-574. -/
def Composite.addToEnd (A : Allocator E) (c other : Composite) (w : World E) : Except Err (World E) := do
  let w ← c.publish.addToEnd A other.publish w
  let w ← c.discrete.addToEnd A other.discrete w
  c.unrestricted.addToEnd A other.unrestricted w

/-- `SetFrom`, src/maliput/drake/systems/framework/event_collection.h:579-583. -/
def Composite.setFrom (A : Allocator E) (c other : Composite) (w : World E) : Except Err (World E) := do
  let w ← c.publish.setFrom A other.publish w
  let w ← c.discrete.setFrom A other.discrete w
  c.unrestricted.setFrom A other.unrestricted w

/-! ### Handling the events of a leaf system -/

/-- The loops of `DoPublish`, `DoCalcDiscreteVariableUpdates` and `DoCalcUnrestrictedUpdate`,
src/maliput/drake/systems/framework/leaf_system.cc:729-751: `handle` is what handling an event does to what it may write; the context and
the system are read only. -/
def handleAll (handle : E → S → Except Err S) (m : Mem E) : List Ptr → S → Except Err S
  | [], s => .ok s
  | p :: rest, s => do
    let e ← deref m p
    let s ← handle e s
    handleAll handle m rest s

/-- `dynamic_cast` and the check of `DispatchPublishHandler`, src/maliput/drake/systems/framework/leaf_system.cc:782-789; the same in
`DispatchDiscreteVariableUpdateHandler`, lines 792-804, and `DispatchUnrestrictedUpdateHandler`, lines 816-828. -/
def leafEvents (w : World E) (t : Tree) : Except Err (List Ptr) :=
  match t with
  | .leaf i => do
    let has ← leafHasEvents w i
    if has then return (← w.coll i).events else .error .aborts
  | .diagram _ _ => .error .throws
  | .null => .error .ub

/-- `Publish`, src/maliput/drake/systems/framework/system.cc:170-173, with `DispatchPublishHandler`, leaf_system.cc:782-789.  `S` is what
handlers have written elsewhere.  The check of the context is left out. -/
def publish (handle : E → S → Except Err S) (w : World E) (t : Tree) (s : S) : Except Err S := do
  let events ← leafEvents w t
  handleAll handle w.mem events s

/-- `CalcDiscreteVariableUpdates`, src/maliput/drake/systems/framework/system.cc:265-272, with
`DispatchDiscreteVariableUpdateHandler`, leaf_system.cc:792-804.  `current` is the discrete state of the context, `setFrom` is `SetFrom`
of discrete values. -/
def calcDiscreteUpdates (setFrom : S → S → Except Err S) (handle : E → S → Except Err S) (w : World E) (t : Tree) (current s : S) :
    Except Err S := do
  let events ← leafEvents w t
  let s ← setFrom s current
  handleAll handle w.mem events s

/-- `CalcUnrestrictedUpdate`, src/maliput/drake/systems/framework/system.cc:288-305, with `DispatchUnrestrictedUpdateHandler`,
leaf_system.cc:816-828.  `dims` are the numbers of states. -/
def calcUnrestrictedUpdate [DecidableEq D] (dims : S → D) (setFrom : S → S → Except Err S) (handle : E → S → Except Err S) (w : World E)
    (t : Tree) (current s : S) : Except Err S := do
  let before := dims s
  let events ← leafEvents w t
  let s ← setFrom s current
  let s ← handleAll handle w.mem events s
  if before ≠ dims s then .error .throws else return s

/-- `ApplyDiscreteVariableUpdate`, src/maliput/drake/systems/framework/system.cc:275-280, with `DoApplyDiscreteVariableUpdate`,
leaf_system.cc:807-813; `ApplyUnrestrictedUpdate`, system.cc:308-314, with `DoApplyUnrestrictedUpdate`, leaf_system.cc:831-837, is the
same for the whole state.  The result is the state of the context. -/
def applyUpdate (setFrom : S → S → Except Err S) (w : World E) (t : Tree) (updated current : S) : Except Err S := do
  let has ← t.hasEvents w
  if has then setFrom current updated else .error .aborts

end Maliput.EventColl
