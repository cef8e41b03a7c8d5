import Verif.Lemmas.ThreadPoolLive

set_option autoImplicit false

/-! Properties C09 - C11: the thread pool under every schedule. -/
namespace Maliput.Props
open Maliput Maliput.ThreadPool

/-- A schedule used in the examples: two workers; the user queues 7, starts the pool, queues 8 and 9,
and finishes; worker 1 sleeps on the start condition, worker 0 on an empty queue. -/
def demoSchedule : List Label :=
  [.work 1, .work 1, .work 1,
   .call 0 (.queue 7), .client 0 none, .client 0 none, .client 0 none,
   .call 0 .start, .client 0 none, .client 0 none, .client 0 none,
   .work 0, .work 0, .work 0, .work 0, .work 0, .work 0, .work 0, .work 0,
   .call 0 (.queue 8), .client 0 none, .client 0 none, .client 0 (some 0),
   .call 0 (.queue 9), .client 0 none, .client 0 none, .client 0 none,
   .work 1, .work 1, .work 1, .work 1, .work 0, .work 0, .work 0, .work 0,
   .call 0 .finish, .client 0 none, .client 0 none, .client 0 none]

/-- The rest of the schedule, up to the return of `Finish`. -/
def demoRest : List Label :=
  [.work 1, .work 0, .work 1, .work 1, .work 0, .work 0, .client 0 none]

/-! ### C09 -/

/-- C09: whatever `n` workers and `c` client threads do, the sequence of started tasks is a subsequence
of the sequence of accepted tasks (each acceptance is started at most once, in queue order, and nothing
else is ever started), and no task completes more often than it was started. -/
theorem pool_started_fifo {n c : Nat} {tr : List Event} {s : St} (h : Exec (init n c) tr s) :
    (startedTasks tr).Sublist (acceptedTasks tr) ∧
    ∀ t, (completedTasks tr).count t ≤ (startedTasks tr).count t := by
  obtain ⟨hi, -, -⟩ := inv_exec h
  obtain ⟨X, h1, h2, -, -⟩ := hi.q
  refine ⟨?_, fun t => ?_⟩
  · rw [h1]; exact h2.trans (List.sublist_append_left _ _)
  · have := hi.r t; omega

/-- C09: without `cancel_pending` the started tasks are precisely the oldest accepted ones. -/
theorem pool_started_prefix {n c : Nat} {tr : List Event} {s : St} (h : Exec (init n c) tr s)
    (hc : NoCancel tr) : startedTasks tr ++ s.tasks = acceptedTasks tr := by
  obtain ⟨hi, -, -⟩ := inv_exec h
  obtain ⟨X, h1, -, -, h4⟩ := hi.q
  rw [h1, h4 hc]

/-- C09: every accepted task is exactly one of started, cancelled, still queued. -/
theorem pool_accounting {n c : Nat} {tr : List Event} {s : St} (h : Exec (init n c) tr s) :
    (acceptedTasks tr).Perm (startedTasks tr ++ cancelledTasks tr ++ s.tasks) := by
  obtain ⟨hi, -, -⟩ := inv_exec h
  obtain ⟨X, h1, -, h3, -⟩ := hi.q
  rw [h1]
  exact h3.append_right _

/-- An execution with tasks in all stages. -/
example : ∃ s tr, runLabels (init 2 1) demoSchedule = some (s, tr) ∧ Exec (init 2 1) tr s ∧
    NoCancel tr ∧ acceptedTasks tr = [7, 8, 9] ∧ startedTasks tr = [7, 8, 9] ∧ completedTasks tr = [7] := by
  have h : runLabels (init 2 1) demoSchedule = some ((runLabels (init 2 1) demoSchedule).get (by decide)) :=
    (Option.some_get _).symm
  refine ⟨_, _, h, exec_runLabels _ _ _ _ h, ?_, by decide, by decide, by decide⟩
  intro ts
  have : ∀ e ∈ ((runLabels (init 2 1) demoSchedule).get (by decide)).2,
      (match e with | Event.cancelled _ => false | _ => true) = true := by decide
  intro hm
  exact Bool.noConfusion (this _ hm)

/-! ### C10 -/

/-- C10: with one user thread (the class is not thread safe), when `Finish` has returned, all workers
have exited, every accepted task that was not cancelled has been started and has run to its end, in
particular exactly once. -/
theorem pool_finish_runs_all {n : Nat} (hn : n ≠ 0) {tr : List Event} {s : St} (h : Exec (init n 1) tr s)
    (hf : Event.finishReturned ∈ tr) :
    (∀ pc ∈ s.workers, pc = .done) ∧ s.tasks = [] ∧
    (acceptedTasks tr).Perm (completedTasks tr ++ cancelledTasks tr) ∧
    (NoCancel tr → startedTasks tr = acceptedTasks tr ∧ (completedTasks tr).Perm (acceptedTasks tr)) := by
  obtain ⟨hi, hw, -⟩ := inv_exec h
  obtain ⟨-, hd⟩ := hi.tr.returned hf
  have hdone : ∀ pc ∈ s.workers, pc = .done := fun pc hpc => by
    obtain ⟨i, h⟩ := List.mem_iff_getElem?.mp hpc
    exact hd i pc h
  have ht : s.tasks = [] := by
    have h0 : s.workers[0]? = some (s.workers[0]'(by omega)) := List.getElem?_eq_getElem _
    have h1 := hd 0 _ h0
    rw [h1] at h0
    exact (invDone_exec h 0 h0).2
  have hcs : (completedTasks tr).Perm (startedTasks tr) := by
    rw [List.perm_iff_count]
    intro t
    have h1 := hi.r t
    have h2 : (s.workers.map (isRun t)).sum = 0 := by
      rw [List.sum_eq_zero_iff_forall_eq_nat]
      intro x hx
      obtain ⟨pc, hpc, rfl⟩ := List.mem_map.mp hx
      rw [hdone pc hpc]; rfl
    omega
  have hacc := pool_accounting h
  rw [ht, List.append_nil] at hacc
  refine ⟨hdone, ht, hacc.trans (hcs.symm.append_right _), fun hc => ?_⟩
  have hp := pool_started_prefix h hc
  rw [ht, List.append_nil] at hp
  exact ⟨hp, hp ▸ hcs⟩

/-- The demo schedule runs to the return of `Finish`. -/
example : ∃ s tr, Exec (init 2 1) tr s ∧ Event.finishReturned ∈ tr ∧
    acceptedTasks tr = [7, 8, 9] ∧ completedTasks tr = [7, 8, 9] := by
  have h : runLabels (init 2 1) (demoSchedule ++ demoRest)
      = some ((runLabels (init 2 1) (demoSchedule ++ demoRest)).get (by decide)) := (Option.some_get _).symm
  exact ⟨_, _, exec_runLabels _ _ _ _ h, by decide, by decide, by decide⟩

/-- Two user threads: thread 1 is inside `Queue`, past its check, when thread 0 calls `Finish`. -/
def raceSchedule : List Label :=
  [.call 0 .start, .client 0 none, .client 0 none, .client 0 none,
   .work 0, .work 0, .call 1 (.queue 5), .call 0 .finish, .client 0 none, .client 0 none, .client 0 none,
   .work 0, .work 0, .client 0 none, .client 1 none, .client 1 none, .client 1 none]

/-- C10 needs a single user thread: if `Queue` races with `Finish`, `Queue` may accept a task after the
last worker has left; that task is never run, though `Finish` has returned. -/
theorem pool_finish_race : ∃ s tr, Exec (init 1 2) tr s ∧ Event.finishReturned ∈ tr ∧
    acceptedTasks tr = [5] ∧ startedTasks tr = [] ∧ s.workers = [.done] ∧ s.tasks = [5] := by
  have h : runLabels (init 1 2) raceSchedule = some ((runLabels (init 1 2) raceSchedule).get (by decide)) :=
    (Option.some_get _).symm
  exact ⟨_, _, exec_runLabels _ _ _ _ h, by decide, by decide, by decide, by decide, by decide⟩

/-! ### C11 -/

/-- After `Start` and `Finish` were called the system is closing. -/
theorem closing_of_inv {tr : List Event} {s : St} (hi : Inv tr s) (hs : Event.startCalled ∈ tr)
    (hf : Event.finishCalled ∈ tr) : Closing s := by
  by_cases hr : Event.finishReturned ∈ tr
  · obtain ⟨h1, h2⟩ := hi.tr.returned hr
    exact ⟨h1, Or.inr h2⟩
  · obtain ⟨pc, h1, h2⟩ := hi.tr.finishing hf hr
    exact ⟨hi.ctl.fin pc h1 h2, Or.inl (hi.tr.started hs hr)⟩

/-- C11: no deadlock. In every state reached by any schedule in which `Start` has taken effect and
`Finish` was called and has not returned, some thread can move, without relying on a spurious wake-up
or on another call by the user. -/
theorem pool_no_deadlock {n c : Nat} {tr : List Event} {s : St} (h : Exec (init n c) tr s)
    (hs : Event.startCalled ∈ tr) (hf : Event.finishCalled ∈ tr) (hr : Event.finishReturned ∉ tr) :
    ∃ l s' e, l.Progress ∧ step s l = some (s', e) := by
  obtain ⟨hi, -, -⟩ := inv_exec h
  obtain ⟨l, ⟨s', e⟩, h1, h2⟩ := progress hi.lock hi.ctl (hi.tr.started hs hr) (hi.tr.finishing hf hr)
  exact ⟨l, s', e, h1, h2⟩

/-- C11: no livelock. From every such state there is a bound on the number of steps all threads together
can still make (spurious wake-ups included), whatever the schedule; each further call adds at most 4. -/
theorem pool_terminates {n c : Nat} {tr : List Event} {s : St} (h : Exec (init n c) tr s)
    (hs : Event.startCalled ∈ tr) (hf : Event.finishCalled ∈ tr) :
    ∃ B, ∀ tr' k m s', Steps s tr' k m s' → k ≤ B + 4 * m := by
  obtain ⟨hi, -, -⟩ := inv_exec h
  have hcl := closing_of_inv hi hs hf
  refine ⟨measure s, fun tr' k m s' hst => ?_⟩
  have key : (InvLock s' ∧ InvCtl s' ∧ Closing s') ∧ k + measure s' ≤ measure s + 4 * m := by
    induction hst with
    | refl => exact ⟨⟨hi.lock, hi.ctl, hcl⟩, by omega⟩
    | move _ hst hl ih =>
      obtain ⟨⟨h1, h2, h3⟩, h4⟩ := ih
      have hr := step_rel hst
      have := (measure_step h2 h3 hr).1 hl
      exact ⟨⟨invLock_step h1 hr, invCtl_step h1 h2 hr, closing_step h2 h3 hr⟩, by omega⟩
    | call _ hst ih =>
      obtain ⟨⟨h1, h2, h3⟩, h4⟩ := ih
      have hr := step_rel hst
      have := (measure_step h2 h3 hr).2
      exact ⟨⟨invLock_step h1 hr, invCtl_step h1 h2 hr, closing_step h2 h3 hr⟩, by omega⟩
  omega

/-- C11: from every such state some continuation makes `Finish` return. -/
theorem pool_finish_can_return {n c : Nat} {tr : List Event} {s : St} (h : Exec (init n c) tr s)
    (hs : Event.startCalled ∈ tr) (hf : Event.finishCalled ∈ tr) :
    ∃ tr' s', Exec s tr' s' ∧ Event.finishReturned ∈ tr ++ tr' := by
  generalize hm : measure s = m
  induction m using Nat.strongRecOn generalizing s tr with
  | _ m ih =>
    by_cases hr : Event.finishReturned ∈ tr
    · exact ⟨[], s, .refl, by simpa using hr⟩
    · obtain ⟨l, s', e, hl, hst⟩ := pool_no_deadlock h hs hf hr
      obtain ⟨hi, -, -⟩ := inv_exec h
      have hlt := (measure_step hi.ctl (closing_of_inv hi hs hf) (step_rel hst)).1
        (by rintro j c rfl; exact hl)
      obtain ⟨tr', s'', h1, h2⟩ := ih (measure s') (hm ▸ hlt) (.snoc h hst)
        (List.mem_append_left _ hs) (List.mem_append_left _ hf) rfl
      refine ⟨e.toList ++ tr', s'', ?_, by rwa [← List.append_assoc]⟩
      have h3 : Exec s ([] ++ e.toList) s' := .snoc .refl hst
      exact exec_trans h3 h1

/-- The demo schedule meets the hypotheses. -/
example : ∃ s tr, Exec (init 2 1) tr s ∧ Event.startCalled ∈ tr ∧ Event.finishCalled ∈ tr ∧
    Event.finishReturned ∉ tr ∧ s.workers = [.run 9, .run 8] := by
  have h : runLabels (init 2 1) demoSchedule = some ((runLabels (init 2 1) demoSchedule).get (by decide)) :=
    (Option.some_get _).symm
  exact ⟨_, _, exec_runLabels _ _ _ _ h, by decide, by decide, by decide, by decide⟩

/-- C11 needs `Start`: a pool that was never started never returns from `Finish` (nor from the
destructor, which calls it), because all workers wait for `Start`, which is rejected once `Finish` was
called. -/
theorem pool_finish_without_start {n c : Nat} (hn : n ≠ 0) {tr : List Event} {s : St}
    (h : Exec (init n c) tr s) (hs : Event.startCalled ∉ tr) : Event.finishReturned ∉ tr := by
  intro hr
  obtain ⟨hi, hw, -⟩ := inv_exec h
  have h0 : s.workers[0]? = some (s.workers[0]'(by omega)) := List.getElem?_eq_getElem _
  have h1 := (hi.tr.returned hr).2 0 _ h0
  have h2 := (hi.tr.notStarted hs).2 0 _ h0
  rw [h1] at h2
  simp [inStartPhase] at h2

/-- Once `Finish` was called, every later `Start` and `Queue` is rejected. -/
theorem pool_rejects_after_finish {n c : Nat} {tr : List Event} {s : St} (h : Exec (init n c) tr s)
    (hf : Event.finishCalled ∈ tr) (j t : Nat) (hj : s.clients[j]? = some .idle) :
    step s (.call j (.queue t)) = some (s, some (.rejected t)) ∧
    (j = 0 → step s (.call j .start) = some (s, some .startRejected)) := by
  obtain ⟨hi, -, -⟩ := inv_exec h
  have hfin : s.finished = true := by
    by_cases hr : Event.finishReturned ∈ tr
    · exact (hi.tr.returned hr).1
    · obtain ⟨pc, h1, h2⟩ := hi.tr.finishing hf hr
      exact hi.ctl.fin pc h1 h2
  refine ⟨?_, ?_⟩
  · simp [step, hj, callStep, hfin]
  · rintro rfl; simp [step, hj, callStep, hfin]

/-- A pool that is finished without being started: both workers asleep or about to be. -/
example : ∃ s tr, Exec (init 2 1) tr s ∧ Event.startCalled ∉ tr ∧ Event.finishCalled ∈ tr ∧
    s.clients = [.fWait] := by
  have h : runLabels (init 2 1) [.work 0, .work 0, .work 0, .call 0 .finish, .client 0 none, .client 0 none, .client 0 none]
    = some ((runLabels (init 2 1) [.work 0, .work 0, .work 0, .call 0 .finish, .client 0 none, .client 0 none, .client 0 none]).get (by decide)) :=
    (Option.some_get _).symm
  exact ⟨_, _, exec_runLabels _ _ _ _ h, by decide, by decide, by decide⟩

end Maliput.Props
