import Verif.Model.ThreadPool

set_option autoImplicit false

/-! What the user of a thread pool sees: the trace of events. -/
namespace Maliput.ThreadPool

/-- Tasks accepted by `Queue`, in order. -/
def acceptedTasks (tr : List Event) : List Task := tr.filterMap fun | .accepted t => some t | _ => none
/-- Tasks taken by workers, in order. -/
def startedTasks (tr : List Event) : List Task := tr.filterMap fun | .started t => some t | _ => none
/-- Tasks that have run, in order of completion. -/
def completedTasks (tr : List Event) : List Task := tr.filterMap fun | .completed t => some t | _ => none
/-- Tasks discarded by `cancel_pending`. -/
def cancelledTasks (tr : List Event) : List Task :=
  tr.flatMap fun | .cancelled ts => ts | _ => []
/-- `cancel_pending` was never executed. -/
def NoCancel (tr : List Event) : Prop := ∀ ts, Event.cancelled ts ∉ tr

/-- Beginning a call is the only step that is up to the user; waking spuriously is up to the
implementation of condition variables. All the other steps are made by running threads. -/
def Label.Progress : Label → Prop
  | .work _ => True
  | .client _ _ => True
  | .spurious _ => False
  | .call _ _ => False

/-- Executions that count their steps: `Steps s tr k m s'` has `k` steps other than calls begun by
clients, and `m` begun calls. -/
inductive Steps (s : St) : List Event → Nat → Nat → St → Prop
  | refl : Steps s [] 0 0 s
  | move {tr k m s' l s'' e} : Steps s tr k m s' → step s' l = some (s'', e) →
      (∀ j c, l ≠ .call j c) → Steps s (tr ++ e.toList) (k + 1) m s''
  | call {tr k m s' j c s'' e} : Steps s tr k m s' → step s' (.call j c) = some (s'', e) →
      Steps s (tr ++ e.toList) k (m + 1) s''

end Maliput.ThreadPool
