import Verif.Lemmas.ThreadPoolCtl

set_option autoImplicit false
namespace Maliput.ThreadPool

/-- The worker has not passed the wait for `Start`. -/
def inStartPhase (pc : WPc) : Prop :=
  pc = .startLock ∨ pc = .startHeld ∨ pc = .startWillWait ∨ pc = .startWait ∨ pc = .startWoken

/-- What the trace says about the state. -/
structure InvTr (tr : List Event) (s : St) : Prop where
  notStarted : Event.startCalled ∉ tr → s.running = false ∧ ∀ (i : Nat) pc, s.workers[i]? = some pc → inStartPhase pc
  started : Event.startCalled ∈ tr → Event.finishReturned ∉ tr → s.running = true
  finishing : Event.finishCalled ∈ tr → Event.finishReturned ∉ tr →
    ∃ pc, s.clients[0]? = some pc ∧ inFinish pc
  returned : Event.finishReturned ∈ tr → s.finished = true ∧ ∀ (i : Nat) pc, s.workers[i]? = some pc → pc = .done

theorem map_wakeAvail_inv {l : List WPc} {i : Nat} {pc : WPc} (h : (l.map wakeAvail)[i]? = some pc) :
    ∃ q : WPc, l[i]? = some q ∧ ((pc = WPc.tWoken ∧ q = WPc.tWait) ∨ pc = q) := by
  rw [List.getElem?_map, Option.map_eq_some_iff] at h
  obtain ⟨q, h1, h2⟩ := h
  refine ⟨q, h1, ?_⟩
  cases q <;> simp_all [wakeAvail]

theorem map_wakeStart_inv {l : List WPc} {i : Nat} {pc : WPc} (h : (l.map wakeStart)[i]? = some pc) :
    ∃ q : WPc, l[i]? = some q ∧ ((pc = WPc.startWoken ∧ q = WPc.startWait) ∨ pc = q) := by
  rw [List.getElem?_map, Option.map_eq_some_iff] at h
  obtain ⟨q, h1, h2⟩ := h
  refine ⟨q, h1, ?_⟩
  cases q <;> simp_all [wakeStart]

set_option maxHeartbeats 1000000 in
theorem invTr_step {tr : List Event} {s s' : St} {l : Label} {e : Option Event} (hc : InvCtl s)
    (h : InvTr tr s) (hs : StepR s l e s') : InvTr (tr ++ e.toList) s' := by
  obtain ⟨only0, fin, q0, nr, sn, ww, ng, nt⟩ := hc
  obtain ⟨notStarted, started, finishing, returned⟩ := h
  cases hs <;> constructor <;> simp only [Option.toList, List.append_nil, List.mem_append, List.mem_singleton,
    reduceCtorEq, or_false, or_true] <;>
    grind [inFinish, inStart, inStartPhase, → map_wakeStart_inv, → map_wakeAvail_inv, → List.mem_of_getElem?]

/-- With a single client nothing is queued after `Finish` was called, so a worker that left did so with
an empty queue that stays empty. -/
def InvDone (s : St) : Prop := ∀ i : Nat, s.workers[i]? = some WPc.done → s.finished = true ∧ s.tasks = []

theorem invDone_step {s s' : St} {l : Label} {e : Option Event} (h1 : s.clients.length = 1) (hc : InvCtl s)
    (h : InvDone s) (hs : StepR s l e s') : InvDone s' := by
  obtain ⟨only0, fin, q0, nr, sn, ww, ng, nt⟩ := hc
  unfold InvDone at *
  have hj : ∀ (j : Nat) pc, s.clients[j]? = some pc → j = 0 := by
    intro j pc hj
    have := (List.getElem?_eq_some_iff.mp hj).1
    omega
  cases hs <;> grind [inQueue, → map_wakeStart_get, → map_wakeAvail_get]

theorem length_step {s s' : St} {l : Label} {e : Option Event} (hs : StepR s l e s') :
    s'.clients.length = s.clients.length ∧ s'.workers.length = s.workers.length := by
  cases hs <;> simp

/-! ### All invariants along executions -/

/-- The conjunction of the invariants. -/
structure Inv (tr : List Event) (s : St) : Prop where
  q : InvQ tr s
  r : InvR tr s
  lock : InvLock s
  ctl : InvCtl s
  tr : InvTr tr s

theorem getElem?_replicate_some {α : Type} {n i : Nat} {a b : α} (h : (List.replicate n a)[i]? = some b) : b = a := by
  rw [List.getElem?_replicate] at h
  split at h
  · exact (Option.some.inj h).symm
  · cases h

theorem inv_init (n c : Nat) : Inv [] (init n c) := by
  have hw : ∀ (i : Nat) pc, (init n c).workers[i]? = some pc → pc = .startLock :=
    fun i pc h => getElem?_replicate_some h
  have hcl : ∀ (i : Nat) pc, (init n c).clients[i]? = some pc → pc = .idle :=
    fun i pc h => getElem?_replicate_some h
  refine ⟨⟨[], rfl, List.Sublist.refl _, List.Perm.refl _, fun _ => rfl⟩, ?_, ?_, ?_, ?_⟩
  · intro t
    have : ((init n c).workers.map (isRun t)) = List.replicate n 0 := by
      simp [init, isRun]
    rw [this]; simp [startedTasks, completedTasks]
  · constructor
    · intro i pc h hp; rw [hw i pc h] at hp; simp [holdsT] at hp
    · intro i pc h hp; rw [hcl i pc h] at hp; simp [cHoldsT] at hp
    · intro i h; cases h
    · intro i h; cases h
    · intro i pc h hp; rw [hw i pc h] at hp; simp [holdsS] at hp
    · intro i pc h hp; rw [hcl i pc h] at hp; simp [cHoldsS] at hp
    · intro i h; cases h
    · intro i h; cases h
  · constructor
    · intro i pc h hp; rw [hcl i pc h] at hp; simp [inFinish, inStart] at hp
    · intro pc h hp; rw [hcl 0 pc h] at hp; simp [inFinish] at hp
    · intro pc h hp; rfl
    · intro _; rfl
    · intro h; have := hcl 0 _ h; cases this
    · intro i h; rfl
    · intro i h; cases h
    · intro i h; cases h
  · constructor
    · intro _; exact ⟨rfl, fun i pc h => Or.inl (hw i pc h)⟩
    · intro h; cases h
    · intro h; cases h
    · intro h; cases h

theorem inv_step {tr : List Event} {s s' : St} {l : Label} {e : Option Event} (h : Inv tr s)
    (hs : StepR s l e s') : Inv (tr ++ e.toList) s' :=
  ⟨invQ_step h.q hs, invR_step h.r hs, invLock_step h.lock hs, invCtl_step h.lock h.ctl hs, invTr_step h.ctl h.tr hs⟩

theorem inv_exec {n c : Nat} {tr : List Event} {s : St} (h : Exec (init n c) tr s) :
    Inv tr s ∧ s.workers.length = n ∧ s.clients.length = c := by
  induction h with
  | refl => exact ⟨inv_init n c, by simp [init], by simp [init]⟩
  | snoc _ hs ih =>
    have hr := step_rel hs
    have := length_step hr
    exact ⟨inv_step ih.1 hr, this.2.trans ih.2.1, this.1.trans ih.2.2⟩

theorem invDone_exec {n : Nat} {tr : List Event} {s : St} (h : Exec (init n 1) tr s) : InvDone s := by
  induction h with
  | refl => intro i h; cases getElem?_replicate_some h
  | snoc he hs ih =>
    obtain ⟨h1, h2, h3⟩ := inv_exec he
    exact invDone_step h3 h1.ctl ih (step_rel hs)

/-! ### Progress and termination -/

/-- Steps a worker can still make before it exits, once `Finish` was called. -/
def rankW : WPc → Nat
  | .done => 0 | .tHeld => 1 | .tLock => 2 | .tHeldWoken => 3 | .tWoken => 4 | .tWait => 5 | .tWillWait => 6
  | .run _ => 3 | .startHeld => 3 | .startWoken => 4 | .startWait => 5 | .startWillWait => 6 | .startLock => 7

/-- Steps a client can still make inside its call (a push into the queue counts for more). -/
def rankC : CPc → Nat
  | .idle => 0 | .qNotify => 1 | .qHeld _ => 10 | .qLock _ => 11 | .cHeld => 1 | .cLock => 2
  | .sNotify => 1 | .sHeld => 2 | .sLock => 3 | .fWait => 1 | .fRelease => 2 | .fHeld => 3 | .fLock => 4

/-- Bounds the number of steps until everything has come to rest. -/
def measure (s : St) : Nat := 8 * s.tasks.length + (s.workers.map rankW).sum + (s.clients.map rankC).sum

/-- `Finish` was called, and the pool was started or is already down. -/
def Closing (s : St) : Prop := s.finished = true ∧ (s.running = true ∨ ∀ (i : Nat) pc, s.workers[i]? = some pc → pc = WPc.done)

theorem closing_step {s s' : St} {l : Label} {e : Option Event} (hc : InvCtl s) (h : Closing s)
    (hs : StepR s l e s') : Closing s' := by
  obtain ⟨only0, fin, q0, nr, sn, ww, ng, nt⟩ := hc
  obtain ⟨hf, hr⟩ := h
  cases hs <;> unfold Closing <;> grind [→ List.mem_of_getElem?, inStart, → map_wakeStart_inv, → map_wakeAvail_inv]

theorem rankW_wakeStart (pc : WPc) : rankW (wakeStart pc) ≤ rankW pc := by cases pc <;> simp [wakeStart, rankW]
theorem rankW_wakeAvail (pc : WPc) : rankW (wakeAvail pc) ≤ rankW pc := by cases pc <;> simp [wakeAvail, rankW]

theorem measure_step {s s' : St} {l : Label} {e : Option Event} (hc : InvCtl s) (h : Closing s)
    (hs : StepR s l e s') :
    ((∀ j c, l ≠ .call j c) → measure s' < measure s) ∧ measure s' ≤ measure s + 4 := by
  obtain ⟨only0, fin, q0, nr, sn, ww, ng, nt⟩ := hc
  obtain ⟨hf, hr⟩ := h
  cases hs
  case startAcq i pc hw hp hl =>
    have := sum_set rankW s.workers i pc .startHeld hw
    rcases hp with rfl | rfl <;> simp only [measure, rankW] at * <;> refine ⟨fun _ => ?_, ?_⟩ <;> omega
  case startNo i hw hr' =>
    rcases hr with hr | hr
    · rw [hr] at hr'; cases hr'
    · cases hr _ _ hw
  case tNo i hw ht hf' => rw [hf] at hf'; cases hf'
  case startGo i hw _ =>
    have := sum_set rankW s.workers i _ .tLock hw
    simp only [measure, rankW] at *; refine ⟨fun _ => ?_, ?_⟩ <;> omega
  case startBlock i hw =>
    have := sum_set rankW s.workers i _ .startWait hw
    simp only [measure, rankW] at *; refine ⟨fun _ => ?_, ?_⟩ <;> omega
  case tAcq i hw _ =>
    have := sum_set rankW s.workers i _ .tHeld hw
    simp only [measure, rankW] at *; refine ⟨fun _ => ?_, ?_⟩ <;> omega
  case tExit i hw _ _ =>
    have := sum_set rankW s.workers i _ .done hw
    simp only [measure, rankW] at *; refine ⟨fun _ => ?_, ?_⟩ <;> omega
  case tTake i t ts hw ht =>
    have := sum_set rankW s.workers i _ (.run t) hw
    simp only [measure, rankW, ht, List.length_cons] at *; refine ⟨fun _ => ?_, ?_⟩ <;> omega
  case tBlock i hw =>
    have := sum_set rankW s.workers i _ .tWait hw
    simp only [measure, rankW] at *; refine ⟨fun _ => ?_, ?_⟩ <;> omega
  case tReacq i hw _ =>
    have := sum_set rankW s.workers i _ .tHeldWoken hw
    simp only [measure, rankW] at *; refine ⟨fun _ => ?_, ?_⟩ <;> omega
  case tLoop i hw =>
    have := sum_set rankW s.workers i _ .tLock hw
    simp only [measure, rankW] at *; refine ⟨fun _ => ?_, ?_⟩ <;> omega
  case runDone i t hw =>
    have := sum_set rankW s.workers i _ .tLock hw
    simp only [measure, rankW] at *; refine ⟨fun _ => ?_, ?_⟩ <;> omega
  case spurS i hw =>
    have := sum_set rankW s.workers i _ .startWoken hw
    simp only [measure, rankW] at *; refine ⟨fun _ => ?_, ?_⟩ <;> omega
  case spurT i hw =>
    have := sum_set rankW s.workers i _ .tWoken hw
    simp only [measure, rankW] at *; refine ⟨fun _ => ?_, ?_⟩ <;> omega
  case callQueueNo j t hi hf => exact ⟨fun h => absurd rfl (h j (.queue t)), by omega⟩
  case callQueue j t hi hf' => rw [hf] at hf'; cases hf'
  case callCancel j hi =>
    have := sum_set rankC s.clients j _ .cLock hi
    refine ⟨fun h => absurd rfl (h j .cancel), ?_⟩
    simp only [measure, rankC] at *; omega
  case callStartNo hi _ => exact ⟨fun h => absurd rfl (h 0 .start), by omega⟩
  case callStart hi _ hf' => rw [hf] at hf'; cases hf'
  case callFinish hi =>
    have := sum_set rankC s.clients 0 _ .fLock hi
    refine ⟨fun h => absurd rfl (h 0 .finish), ?_⟩
    simp only [measure, rankC] at *; omega
  case qAcq j p t hi _ =>
    have := sum_set rankC s.clients j _ (.qHeld t) hi
    simp only [measure, rankC] at *; refine ⟨fun _ => ?_, ?_⟩ <;> omega
  case qPush j p t hi =>
    have := sum_set rankC s.clients j _ .qNotify hi
    simp only [measure, rankC, List.length_append, List.length_singleton] at *; refine ⟨fun _ => ?_, ?_⟩ <;> omega
  case qWake j i hi hw =>
    have := sum_set rankC s.clients j _ .idle hi
    have := sum_set rankW s.workers i _ .tWoken hw
    simp only [measure, rankC, rankW] at *; refine ⟨fun _ => ?_, ?_⟩ <;> omega
  case qNoWake j hi _ =>
    have := sum_set rankC s.clients j _ .idle hi
    simp only [measure, rankC] at *; refine ⟨fun _ => ?_, ?_⟩ <;> omega
  case cAcq j p hi _ =>
    have := sum_set rankC s.clients j _ .cHeld hi
    simp only [measure, rankC] at *; refine ⟨fun _ => ?_, ?_⟩ <;> omega
  case cClear j p hi =>
    have := sum_set rankC s.clients j _ .idle hi
    simp only [measure, rankC, List.length_nil] at *; refine ⟨fun _ => ?_, ?_⟩ <;> omega
  case sAcq j p hi _ =>
    have := sum_set rankC s.clients j _ .sHeld hi
    simp only [measure, rankC] at *; refine ⟨fun _ => ?_, ?_⟩ <;> omega
  case sSet j p hi =>
    have := sum_set rankC s.clients j _ .sNotify hi
    simp only [measure, rankC] at *; refine ⟨fun _ => ?_, ?_⟩ <;> omega
  case sWake j p hi =>
    have := sum_set rankC s.clients j _ .idle hi
    have := sum_map_le rankW wakeStart rankW_wakeStart s.workers
    simp only [measure, rankC] at *; refine ⟨fun _ => ?_, ?_⟩ <;> omega
  case fAcq j p hi _ =>
    have := sum_set rankC s.clients j _ .fHeld hi
    simp only [measure, rankC] at *; refine ⟨fun _ => ?_, ?_⟩ <;> omega
  case fWake j p hi =>
    have := sum_set rankC s.clients j _ .fRelease hi
    have := sum_map_le rankW wakeAvail rankW_wakeAvail s.workers
    simp only [measure, rankC] at *; refine ⟨fun _ => ?_, ?_⟩ <;> omega
  case fRel j p hi =>
    have := sum_set rankC s.clients j _ .fWait hi
    simp only [measure, rankC] at *; refine ⟨fun _ => ?_, ?_⟩ <;> omega
  case fRet j p hi _ =>
    have := sum_set rankC s.clients j _ .idle hi
    simp only [measure, rankC] at *; refine ⟨fun _ => ?_, ?_⟩ <;> omega

/-- A worker in a critical section can always move. -/
theorem enabled_holdsT {s : St} {i : Nat} {pc : WPc} (h : s.workers[i]? = some pc) (hp : holdsT pc ∨ holdsS pc) :
    ∃ r, step s (.work i) = some r := by
  simp only [step, h, Option.bind_some]
  rcases hp with (rfl | rfl | rfl) | (rfl | rfl) <;> simp only [workStep]
  · cases s.tasks with
    | nil => simp only; split <;> exact ⟨_, rfl⟩
    | cons t ts => exact ⟨_, rfl⟩
  · exact ⟨_, rfl⟩
  · exact ⟨_, rfl⟩
  · split <;> exact ⟨_, rfl⟩
  · exact ⟨_, rfl⟩

/-- A client in a critical section can always move. -/
theorem enabled_cHolds {s : St} {j : Nat} {pc : CPc} (h : s.clients[j]? = some pc) (hp : cHoldsT pc ∨ cHoldsS pc) :
    ∃ r, step s (.client j none) = some r := by
  simp only [step, h, Option.bind_some]
  rcases hp with (⟨t, rfl⟩ | rfl | rfl | rfl) | (rfl | rfl) <;> exact ⟨_, rfl⟩

theorem progress {s : St} (hl : InvLock s) (hc : InvCtl s) (hrun : s.running = true)
    (hfin : ∃ pc, s.clients[0]? = some pc ∧ inFinish pc) :
    ∃ l r, l.Progress ∧ step s l = some r := by
  -- a held lock: its owner moves
  cases ht : s.tlock with
  | some o =>
    cases o with
    | worker i =>
      obtain ⟨pc, h1, h2⟩ := hl.tw i ht
      obtain ⟨r, hr⟩ := enabled_holdsT h1 (Or.inl h2)
      exact ⟨_, r, by trivial, hr⟩
    | client j =>
      obtain ⟨pc, h1, h2⟩ := hl.tc j ht
      obtain ⟨r, hr⟩ := enabled_cHolds h1 (Or.inl h2)
      exact ⟨_, r, by trivial, hr⟩
  | none =>
  cases hs : s.slock with
  | some o =>
    cases o with
    | worker i =>
      obtain ⟨pc, h1, h2⟩ := hl.sw i hs
      obtain ⟨r, hr⟩ := enabled_holdsT h1 (Or.inr h2)
      exact ⟨_, r, by trivial, hr⟩
    | client j =>
      obtain ⟨pc, h1, h2⟩ := hl.sc j hs
      obtain ⟨r, hr⟩ := enabled_cHolds h1 (Or.inr h2)
      exact ⟨_, r, by trivial, hr⟩
  | none =>
  -- both locks are free
  obtain ⟨pc, h0, hp⟩ := hfin
  have hf := hc.fin pc h0 hp
  rcases hp with rfl | rfl | rfl | rfl
  · obtain ⟨r, hr⟩ : ∃ r, step s (.client 0 none) = some r := by
      simp only [step, h0, Option.bind_some, clientStep, ht, if_true]
      exact ⟨_, rfl⟩
    exact ⟨_, r, by trivial, hr⟩
  · have := hl.cT 0 _ h0 (Or.inr (Or.inr (Or.inl rfl))); rw [ht] at this; cases this
  · have := hl.cT 0 _ h0 (Or.inr (Or.inr (Or.inr rfl))); rw [ht] at this; cases this
  · -- waiting for the workers
    by_cases hd : s.workers.all (· == .done) = true
    · obtain ⟨r, hr⟩ : ∃ r, step s (.client 0 none) = some r := by
        simp only [step, h0, Option.bind_some, clientStep, hd, if_true]
        exact ⟨_, rfl⟩
      exact ⟨_, r, by trivial, hr⟩
    · rw [List.all_eq_true] at hd
      simp only [not_forall, beq_iff_eq] at hd
      obtain ⟨q, hq, hqd⟩ := hd
      obtain ⟨i, hi⟩ := List.mem_iff_getElem?.mp hq
      have nolock : (∃ r, step s (.work i) = some r) → ∃ l r, Label.Progress l ∧ step s l = some r :=
        fun ⟨r, hr⟩ => ⟨.work i, r, trivial, hr⟩
      have n1 := hc.ng i hrun
      have n2 := hc.nt i hf
      rw [h0] at n1 n2
      cases q
      case startLock => exact nolock (by simp only [step, hi, Option.bind_some, workStep, hs, if_true]; exact ⟨_, rfl⟩)
      case startWoken => exact nolock (by simp only [step, hi, Option.bind_some, workStep, hs, if_true]; exact ⟨_, rfl⟩)
      case startHeld => have := hl.wS i _ hi (Or.inl rfl); rw [hs] at this; cases this
      case startWillWait => have := hl.wS i _ hi (Or.inr rfl); rw [hs] at this; cases this
      case startWait => have := n1 hi; simp at this
      case tLock => exact nolock (by simp only [step, hi, Option.bind_some, workStep, ht, if_true]; exact ⟨_, rfl⟩)
      case tHeld => have := hl.wT i _ hi (Or.inl rfl); rw [ht] at this; cases this
      case tWillWait => have := hl.wT i _ hi (Or.inr (Or.inl rfl)); rw [ht] at this; cases this
      case tWait => have := n2 (Or.inl hi); simp at this
      case tWoken => exact nolock (by simp only [step, hi, Option.bind_some, workStep, ht, if_true]; exact ⟨_, rfl⟩)
      case tHeldWoken => have := hl.wT i _ hi (Or.inr (Or.inr rfl)); rw [ht] at this; cases this
      case run t => exact nolock (by simp only [step, hi, Option.bind_some, workStep]; exact ⟨_, rfl⟩)
      case done => exact absurd rfl hqd

theorem exec_trans {s s' s'' : St} {tr tr' : List Event} (h : Exec s tr s') (h' : Exec s' tr' s'') :
    Exec s (tr ++ tr') s'' := by
  induction h' with
  | refl => rw [List.append_nil]; exact h
  | snoc _ hs ih => rw [← List.append_assoc]; exact .snoc ih hs

theorem exec_runLabels : ∀ (ls : List Label) (s s' : St) (tr : List Event),
    runLabels s ls = some (s', tr) → Exec s tr s' := by
  intro ls
  induction ls with
  | nil => intro s s' tr h; simp only [runLabels, Option.some.injEq, Prod.mk.injEq] at h; obtain ⟨rfl, rfl⟩ := h; exact .refl
  | cons l ls ih =>
    intro s s' tr h
    simp only [runLabels] at h
    cases hst : step s l with
    | none => rw [hst] at h; cases h
    | some r =>
      obtain ⟨s1, e⟩ := r
      rw [hst] at h
      simp only [Option.map_eq_some_iff] at h
      obtain ⟨⟨s2, tr2⟩, h1, h2⟩ := h
      simp only [Prod.mk.injEq] at h2
      obtain ⟨rfl, rfl⟩ := h2
      have h3 : Exec s ([] ++ e.toList) s1 := .snoc .refl hst
      exact exec_trans h3 (ih s1 _ _ h1)

end Maliput.ThreadPool
