import Verif.Lemmas.ThreadPool

set_option autoImplicit false
namespace Maliput.ThreadPool

/-- The worker is inside a critical section of `tasks_mutex_`. -/
def holdsT (pc : WPc) : Prop := pc = .tHeld ∨ pc = .tWillWait ∨ pc = .tHeldWoken
/-- The worker is inside a critical section of `start_mutex_`. -/
def holdsS (pc : WPc) : Prop := pc = .startHeld ∨ pc = .startWillWait
/-- The client is inside a critical section of `tasks_mutex_`. -/
def cHoldsT (pc : CPc) : Prop := (∃ t, pc = .qHeld t) ∨ pc = .cHeld ∨ pc = .fHeld ∨ pc = .fRelease
/-- The client is inside a critical section of `start_mutex_`. -/
def cHoldsS (pc : CPc) : Prop := pc = .sHeld ∨ pc = .sNotify
/-- The client is inside `Finish`. -/
def inFinish (pc : CPc) : Prop := pc = .fLock ∨ pc = .fHeld ∨ pc = .fRelease ∨ pc = .fWait
/-- The client is inside `Start`. -/
def inStart (pc : CPc) : Prop := pc = .sLock ∨ pc = .sHeld ∨ pc = .sNotify
/-- The client is inside `Queue`, past the check. -/
def inQueue (pc : CPc) : Prop := (∃ t, pc = .qLock t) ∨ ∃ t, pc = .qHeld t

/-- Locks are held exactly by the threads inside their critical sections. -/
structure InvLock (s : St) : Prop where
  wT : ∀ i pc, s.workers[i]? = some pc → holdsT pc → s.tlock = some (.worker i)
  cT : ∀ j pc, s.clients[j]? = some pc → cHoldsT pc → s.tlock = some (.client j)
  tw : ∀ i, s.tlock = some (.worker i) → ∃ pc, s.workers[i]? = some pc ∧ holdsT pc
  tc : ∀ j, s.tlock = some (.client j) → ∃ pc, s.clients[j]? = some pc ∧ cHoldsT pc
  wS : ∀ i pc, s.workers[i]? = some pc → holdsS pc → s.slock = some (.worker i)
  cS : ∀ j pc, s.clients[j]? = some pc → cHoldsS pc → s.slock = some (.client j)
  sw : ∀ i, s.slock = some (.worker i) → ∃ pc, s.workers[i]? = some pc ∧ holdsS pc
  sc : ∀ j, s.slock = some (.client j) → ∃ pc, s.clients[j]? = some pc ∧ cHoldsS pc

theorem holdsT_wakeAvail (pc : WPc) : holdsT (wakeAvail pc) ↔ holdsT pc := by cases pc <;> simp [holdsT, wakeAvail]
theorem holdsT_wakeStart (pc : WPc) : holdsT (wakeStart pc) ↔ holdsT pc := by cases pc <;> simp [holdsT, wakeStart]
theorem holdsS_wakeAvail (pc : WPc) : holdsS (wakeAvail pc) ↔ holdsS pc := by cases pc <;> simp [holdsS, wakeAvail]
theorem holdsS_wakeStart (pc : WPc) : holdsS (wakeStart pc) ↔ holdsS pc := by cases pc <;> simp [holdsS, wakeStart]

set_option maxHeartbeats 1000000 in
theorem invLock_step {s s' : St} {l : Label} {e : Option Event} (h : InvLock s) (hs : StepR s l e s') :
    InvLock s' := by
  obtain ⟨wT, cT, tw, tc, wS, cS, sw, sc⟩ := h
  cases hs <;> constructor <;>
    grind [holdsT, holdsS, cHoldsT, cHoldsS, holdsT_wakeAvail, holdsT_wakeStart, holdsS_wakeAvail, holdsS_wakeStart]

end Maliput.ThreadPool
