import Verif.Model.Basic

set_option autoImplicit false

/-!
Model of include/maliput/utility/thread_pool.h and src/maliput/utility/thread_pool.cc as a labelled
transition system: `n` workers run `DoWork`, client threads call the API.  Every access to a mutex, a
condition variable or an atomic flag that other threads can observe is a separate step; code between
two such accesses is merged into one step.  Condition variables may wake up spuriously.  Client 0 is
the owner of the pool: only it calls `Start` and `Finish` (the class is documented as not thread
safe); the other clients call `Queue` and `cancel_pending`.  Tasks are identified by a number; running
a task is one atomic `run` state that can always be left (tasks terminate).  Futures returned by
`Queue` are not modelled.  Memory order is sequentially consistent (the flags are `std::atomic` with
default order, the rest is protected by mutexes).
-/
namespace Maliput.ThreadPool

/-- A queued task, `std::packaged_task<void()>`. -/
abbrev Task := Nat

/-- Program counter of a worker in `DoWork`, src/maliput/utility/thread_pool.cc:70-96. -/
inductive WPc
  /-- about to lock `start_mutex_`, line 72 -/
  | startLock
  /-- holds `start_mutex_`, about to test `is_running_`, lines 73-74 -/
  | startHeld
  /-- holds `start_mutex_`, has seen `is_running_ == false`, about to block in `wait`, line 74 -/
  | startWillWait
  /-- blocked on `start_`, line 74 -/
  | startWait
  /-- woken from `start_`, has to get `start_mutex_` back, line 74 -/
  | startWoken
  /-- about to lock `tasks_mutex_`, line 80 -/
  | tLock
  /-- holds `tasks_mutex_`, about to look at the queue, lines 81-89 -/
  | tHeld
  /-- holds `tasks_mutex_`, saw no task and `is_finished_ == false`, about to block in `wait`, line 85 -/
  | tWillWait
  /-- blocked on `available_`, line 85 -/
  | tWait
  /-- woken from `available_`, has to get `tasks_mutex_` back, line 85 -/
  | tWoken
  /-- holds `tasks_mutex_` after `wait`, line 86 -/
  | tHeldWoken
  /-- runs a task, lines 92-94 -/
  | run (t : Task)
  /-- `DoWork` has returned, line 83 -/
  | done
  deriving DecidableEq, Repr

/-- Program counter of a client thread. -/
inductive CPc
  | idle
  /-- `Queue`: passed the check, about to lock, include/maliput/utility/thread_pool.h:85 -/
  | qLock (t : Task)
  /-- `Queue`: holds `tasks_mutex_`, thread_pool.h:87 -/
  | qHeld (t : Task)
  /-- `Queue`: about to `notify_one`, thread_pool.h:90 -/
  | qNotify
  /-- `cancel_pending`: about to lock, thread_pool.cc:66 -/
  | cLock
  /-- `cancel_pending`: holds `tasks_mutex_`, thread_pool.cc:67 -/
  | cHeld
  /-- `Start`: passed the checks, about to lock, thread_pool.cc:47 -/
  | sLock
  /-- `Start`: holds `start_mutex_`, thread_pool.cc:48 -/
  | sHeld
  /-- `Start`: `is_running_` is set, about to `notify_all`, thread_pool.cc:49 -/
  | sNotify
  /-- `Finish`: `is_finished_` is set, about to lock, thread_pool.cc:55 -/
  | fLock
  /-- `Finish`: holds `tasks_mutex_`, about to `notify_all`, thread_pool.cc:56 -/
  | fHeld
  /-- `Finish`: notified, about to unlock, thread_pool.cc:57 -/
  | fRelease
  /-- `Finish`: waits for the workers, thread_pool.cc:58-60 -/
  | fWait
  deriving DecidableEq, Repr

/-- Who holds a mutex. -/
inductive Owner
  | worker (i : Nat)
  | client (j : Nat)
  deriving DecidableEq, Repr

/-- The members of `ThreadPool`, include/maliput/utility/thread_pool.h:115-138, and the threads. -/
structure St where
  tasks : List Task
  running : Bool
  finished : Bool
  tlock : Option Owner
  slock : Option Owner
  workers : List WPc
  clients : List CPc
  deriving DecidableEq, Repr

/-- The calls a client can make. -/
inductive Call
  | queue (t : Task) | cancel | start | finish
  deriving DecidableEq, Repr

/-- What a user can observe. -/
inductive Event
  /-- `Queue` put the task into the queue -/
  | accepted (t : Task)
  /-- `Queue` threw -/
  | rejected (t : Task)
  /-- a worker took the task -/
  | started (t : Task)
  /-- the task has run -/
  | completed (t : Task)
  /-- `cancel_pending` discarded these tasks -/
  | cancelled (ts : List Task)
  /-- `Start` took effect -/
  | startCalled
  /-- `Start` threw -/
  | startRejected
  | finishCalled
  | finishReturned
  deriving DecidableEq, Repr

/-- Which thread moves next. -/
inductive Label
  /-- worker `i` makes its next step -/
  | work (i : Nat)
  /-- worker `i` wakes up spuriously -/
  | spurious (i : Nat)
  /-- client `j` begins a call -/
  | call (j : Nat) (c : Call)
  /-- client `j` makes the next step of its call; `pick` is the worker woken by `notify_one` -/
  | client (j : Nat) (pick : Option Nat)
  deriving DecidableEq, Repr

/-- The constructor, src/maliput/utility/thread_pool.cc:35-40, with `c` client threads. -/
def init (n c : Nat) : St :=
  ⟨[], false, false, none, none, List.replicate n .startLock, List.replicate c .idle⟩

/-- `start_.notify_all()` on one worker. -/
def wakeStart : WPc → WPc
  | .startWait => .startWoken
  | pc => pc

/-- `available_.notify_all()` on one worker. -/
def wakeAvail : WPc → WPc
  | .tWait => .tWoken
  | pc => pc

/-- A step of worker `i`: `DoWork`, src/maliput/utility/thread_pool.cc:70-96. -/
def workStep (s : St) (i : Nat) (pc : WPc) : Option (St × Option Event) :=
  match pc with
  | .startLock | .startWoken =>
    if s.slock = none then
      some ({ s with slock := some (.worker i), workers := s.workers.set i .startHeld }, none)
    else none
  | .startHeld =>
    if s.running then some ({ s with slock := none, workers := s.workers.set i .tLock }, none)
    else some ({ s with workers := s.workers.set i .startWillWait }, none)
  | .startWillWait => some ({ s with slock := none, workers := s.workers.set i .startWait }, none)
  | .startWait => none
  | .tLock =>
    if s.tlock = none then
      some ({ s with tlock := some (.worker i), workers := s.workers.set i .tHeld }, none)
    else none
  | .tHeld =>
    match s.tasks with
    | [] =>
      if s.finished then some ({ s with tlock := none, workers := s.workers.set i .done }, none)
      else some ({ s with workers := s.workers.set i .tWillWait }, none)
    | t :: ts =>
      some ({ s with tasks := ts, tlock := none, workers := s.workers.set i (.run t) }, some (.started t))
  | .tWillWait => some ({ s with tlock := none, workers := s.workers.set i .tWait }, none)
  | .tWait => none
  | .tWoken =>
    if s.tlock = none then
      some ({ s with tlock := some (.worker i), workers := s.workers.set i .tHeldWoken }, none)
    else none
  | .tHeldWoken => some ({ s with tlock := none, workers := s.workers.set i .tLock }, none)
  | .run t => some ({ s with workers := s.workers.set i .tLock }, some (.completed t))
  | .done => none

/-- A spurious wake-up of worker `i` out of one of the two `wait` calls. -/
def spuriousStep (s : St) (i : Nat) (pc : WPc) : Option (St × Option Event) :=
  match pc with
  | .startWait => some ({ s with workers := s.workers.set i .startWoken }, none)
  | .tWait => some ({ s with workers := s.workers.set i .tWoken }, none)
  | _ => none

/-- Client `j` begins a call: the checks of `Queue` (thread_pool.h:77) and `Start`
(thread_pool.cc:45-46), and the first line of `Finish` (thread_pool.cc:53). -/
def callStep (s : St) (j : Nat) (c : Call) : Option (St × Option Event) :=
  match c with
  | .queue t =>
    if s.finished then some (s, some (.rejected t))
    else some ({ s with clients := s.clients.set j (.qLock t) }, none)
  | .cancel => some ({ s with clients := s.clients.set j .cLock }, none)
  | .start =>
    if j = 0 then
      if s.running || s.finished then some (s, some .startRejected)
      else some ({ s with clients := s.clients.set j .sLock }, none)
    else none
  | .finish =>
    if j = 0 then
      some ({ s with finished := true, clients := s.clients.set j .fLock }, some .finishCalled)
    else none

/-- A step of client `j` inside a call: `Queue` (thread_pool.h:75-92), `cancel_pending`
(thread_pool.cc:65-68), `Start` (thread_pool.cc:44-50), `Finish` (thread_pool.cc:52-63). -/
def clientStep (s : St) (j : Nat) (pick : Option Nat) (pc : CPc) : Option (St × Option Event) :=
  match pc with
  | .idle => none
  | .qLock t =>
    if s.tlock = none then
      some ({ s with tlock := some (.client j), clients := s.clients.set j (.qHeld t) }, none)
    else none
  | .qHeld t =>
    some ({ s with tasks := s.tasks ++ [t], tlock := none, clients := s.clients.set j .qNotify },
      some (.accepted t))
  | .qNotify =>
    match pick with
    | some i =>
      if s.workers[i]? = some .tWait then
        some ({ s with workers := s.workers.set i .tWoken, clients := s.clients.set j .idle }, none)
      else none
    | none =>
      if .tWait ∈ s.workers then none
      else some ({ s with clients := s.clients.set j .idle }, none)
  | .cLock =>
    if s.tlock = none then
      some ({ s with tlock := some (.client j), clients := s.clients.set j .cHeld }, none)
    else none
  | .cHeld =>
    some ({ s with tasks := [], tlock := none, clients := s.clients.set j .idle }, some (.cancelled s.tasks))
  | .sLock =>
    if s.slock = none then
      some ({ s with slock := some (.client j), clients := s.clients.set j .sHeld }, none)
    else none
  | .sHeld => some ({ s with running := true, clients := s.clients.set j .sNotify }, some .startCalled)
  | .sNotify =>
    some ({ s with slock := none, workers := s.workers.map wakeStart, clients := s.clients.set j .idle }, none)
  | .fLock =>
    if s.tlock = none then
      some ({ s with tlock := some (.client j), clients := s.clients.set j .fHeld }, none)
    else none
  | .fHeld =>
    some ({ s with workers := s.workers.map wakeAvail, clients := s.clients.set j .fRelease }, none)
  | .fRelease => some ({ s with tlock := none, clients := s.clients.set j .fWait }, none)
  | .fWait =>
    if s.workers.all (· == .done) then
      some ({ s with running := false, clients := s.clients.set j .idle }, some .finishReturned)
    else none

/-- One step of the system; `none` when the label is not enabled. -/
def step (s : St) : Label → Option (St × Option Event)
  | .work i => s.workers[i]?.bind (workStep s i)
  | .spurious i => s.workers[i]?.bind (spuriousStep s i)
  | .call j c => if s.clients[j]? = some .idle then callStep s j c else none
  | .client j pick => s.clients[j]?.bind (clientStep s j pick)

/-- `Exec s tr s'`: some finite execution leads from `s` to `s'` producing the events `tr`. -/
inductive Exec (s : St) : List Event → St → Prop
  | refl : Exec s [] s
  | snoc {tr s' l s'' e} : Exec s tr s' → step s' l = some (s'', e) → Exec s (tr ++ e.toList) s''

/-- Runs a given schedule. -/
def runLabels (s : St) : List Label → Option (St × List Event)
  | [] => some (s, [])
  | l :: ls =>
    match step s l with
    | none => none
    | some (s', e) => (runLabels s' ls).map (fun p => (p.1, e.toList ++ p.2))

end Maliput.ThreadPool
