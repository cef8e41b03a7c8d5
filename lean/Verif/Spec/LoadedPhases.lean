import Verif.Spec.PhaseRingLoader

set_option autoImplicit false

/-!
The calls on a phase provider that keep to the phases of a phase ring book.
-/
namespace Maliput.Loader.Spec

open Maliput.Phases

/-- The call does not take a ring of the book to a phase the ring does not have, nor announces such a phase. -/
def KeepsToRings (b : Phases.Book) : ProviderOp → Prop
  | .add _ _ _ _ => True
  | .set id phase next _ => ∀ ring, getPhaseRing b id = some ring →
      (∃ ph, ring.getPhase phase = some ph) ∧ ∀ n, next = some n → ∃ ph, ring.getPhase n = some ph

/-- The provider after the calls. -/
def after (p : Provider) (ops : List ProviderOp) : Provider := ops.foldl (fun p op => (Provider.step p op).1) p

/-- The states of a result, the current one and the next one if there is one, have the property. -/
def EachState {T : Type} (res : Result T) (P : T → Prop) : Prop :=
  P res.state ∧ ∀ n d, res.next = some (n, d) → P n

end Maliput.Loader.Spec
