import Verif.Model.EventCollections

set_option autoImplicit false

/-!
What collections of events are to hold: a list of events each.  The collection of a diagram consists of those of its leaf systems.
-/
namespace Maliput.EventColl.Spec
open Maliput

variable {E : Type}

/-- What a collection of a leaf system holds, and for how many events it has room without any allocation. -/
structure Plain (E : Type) where
  events : List E
  room : Nat

/-- The collections of leaf systems that were made; `none` if destroyed. -/
abbrev Plains (E : Type) := List (Option (Plain E))

/-- The collection exists and is `x`. -/
def Has (p : Plains E) (i : Nat) (x : Plain E) : Prop := p[i]? = some (some x)

/-- The events in a collection. -/
def eventsOf (p : Plains E) (i : Nat) : List E :=
  match p[i]? with
  | some (some x) => x.events
  | _ => []

/-- The events of one collection are changed. -/
def change (p : Plains E) (i : Nat) (f : Plain E → Plain E) : Plains E := p.modify i (Option.map f)

/-- The collections of leaf systems in a collection, in order. -/
def leaves : Tree → List Nat
  | .leaf i => [i]
  | .null => []
  | .diagram n subs => (List.finRange n).flatMap fun k => leaves (subs k)

/-- All pointers of the collection were set. -/
def Complete : Tree → Prop
  | .leaf _ => True
  | .null => False
  | .diagram _ subs => ∀ k, Complete (subs k)

/-- The two collections are for the same diagram. -/
def SameShape : Tree → Tree → Prop
  | .leaf _, .leaf _ => True
  | .diagram n subs, .diagram n' subs' => ∃ h : n = n', ∀ k, SameShape (subs k) (subs' (Fin.cast h k))
  | _, _ => False

/-- Leaf system by leaf system, the events of the second collection are added to the first one. -/
def appended (p : Plains E) (pairs : List (Nat × Nat)) : Plains E :=
  pairs.foldl (fun p ij => change p ij.1 fun x => { x with events := x.events ++ eventsOf p ij.2 }) p

/-- The collections are emptied. -/
def emptied (p : Plains E) (l : List Nat) : Plains E := l.foldl (fun p i => change p i fun x => { x with events := [] }) p

/-- What a call is to do. -/
def meant (p : Plains E) : Op E → Plains E
  | .make => p ++ [some ⟨[], 32⟩]
  | .makeForced e => p ++ [some ⟨[e], 32⟩]
  | .destroy i => p.set i none
  | .reserve i n => change p i fun x => { x with room := max x.room n }
  | .add t e => (leaves t).foldl (fun p i => change p i fun x => { x with events := x.events ++ [e] }) p
  | .clear t => emptied p (leaves t)
  | .addToEnd t other => appended p ((leaves t).zip (leaves other))
  | .setFrom t other => appended (emptied p (leaves t)) ((leaves t).zip (leaves other))

/-- What calls are to do. -/
def meantRun (p : Plains E) (ops : List (Op E)) : Plains E := ops.foldl meant p

/-- The collection exists. -/
def Live (p : Plains E) (t : Tree) : Prop := Complete t ∧ ∀ i ∈ leaves t, ∃ x, Has p i x

/-- A call is allowed: it uses collections that exist, events are added to collections of leaf systems only, collections of the same diagram
that have nothing in common are added or copied, and room for more events is only made in an empty collection. -/
def Valid (p : Plains E) : Op E → Prop
  | .make | .makeForced _ => True
  | .destroy i => ∃ x, Has p i x
  | .reserve i n => ∃ x, Has p i x ∧ (x.events = [] ∨ n ≤ x.room)
  | .add t _ => ∃ i x, t = .leaf i ∧ Has p i x
  | .clear t => Live p t
  | .addToEnd t other | .setFrom t other => Live p t ∧ Live p other ∧ SameShape t other ∧ ∀ i ∈ leaves t, i ∉ leaves other

/-- All calls of a history are allowed. -/
def AllValid (p : Plains E) : List (Op E) → Prop
  | [] => True
  | op :: ops => Valid p op ∧ AllValid (meant p op) ops

/-- The call does not remove events from the collection of a leaf system. -/
def Keeps (i : Nat) : Op E → Prop
  | .destroy k => k ≠ i
  | .clear t | .setFrom t _ => i ∉ leaves t
  | _ => True

end Maliput.EventColl.Spec
