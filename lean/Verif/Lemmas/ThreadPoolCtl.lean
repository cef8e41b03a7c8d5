import Verif.Lemmas.ThreadPoolLock

set_option autoImplicit false
namespace Maliput.ThreadPool

/-- Only client 0 starts and finishes; what its program counter says about the flags; who can be
blocked on the condition variables. -/
structure InvCtl (s : St) : Prop where
  only0 : ∀ j pc, s.clients[j]? = some pc → inFinish pc ∨ inStart pc → j = 0
  fin : ∀ pc, s.clients[0]? = some pc → inFinish pc → s.finished = true
  q0 : ∀ pc, s.clients[0]? = some pc → inQueue pc ∨ inStart pc → s.finished = false
  nr : s.clients[0]? = some .sLock ∨ s.clients[0]? = some .sHeld → s.running = false
  sn : s.clients[0]? = some .sNotify → s.running = true
  ww : ∀ i : Nat, s.workers[i]? = some WPc.startWillWait → s.running = false
  ng : ∀ i : Nat, s.running = true → s.workers[i]? = some WPc.startWait → s.clients[0]? = some .sNotify
  nt : ∀ i : Nat, s.finished = true → s.workers[i]? = some WPc.tWait ∨ s.workers[i]? = some WPc.tWillWait →
    s.clients[0]? = some .fLock ∨ s.clients[0]? = some .fHeld

theorem map_wakeStart_get {l : List WPc} {i : Nat} {pc : WPc} (h : (l.map wakeStart)[i]? = some pc) :
    pc ≠ .startWait ∧ (pc = .startWoken ∨ l[i]? = some pc) := by
  rw [List.getElem?_map, Option.map_eq_some_iff] at h
  obtain ⟨q, hq, rfl⟩ := h
  cases q <;> simp_all [wakeStart]

theorem map_wakeAvail_get {l : List WPc} {i : Nat} {pc : WPc} (h : (l.map wakeAvail)[i]? = some pc) :
    pc ≠ .tWait ∧ (pc = .tWoken ∨ l[i]? = some pc) := by
  rw [List.getElem?_map, Option.map_eq_some_iff] at h
  obtain ⟨q, hq, rfl⟩ := h
  cases q <;> simp_all [wakeAvail]

set_option maxHeartbeats 1000000 in
theorem invCtl_step {s s' : St} {l : Label} {e : Option Event} (hl : InvLock s) (h : InvCtl s)
    (hs : StepR s l e s') : InvCtl s' := by
  obtain ⟨wT, cT, tw, tc, wS, cS, sw, sc⟩ := hl
  obtain ⟨only0, fin, q0, nr, sn, ww, ng, nt⟩ := h
  cases hs <;> constructor <;>
    grind [holdsT, holdsS, cHoldsT, cHoldsS, inFinish, inStart, inQueue, → map_wakeStart_get, → map_wakeAvail_get]

end Maliput.ThreadPool
