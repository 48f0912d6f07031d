import Verif.Base
import Verif.Exec
/-!
# Worker thread and thread pool

Model of `src/common/thread/GenericWorker.{h,cpp}` and `src/common/thread/GenericThreadPool.{h,cpp}`.

A worker is a transition system: any number of client threads call its methods while its own thread runs
the event loop. A critical section of `lock_` is one step; the `notify()` at the end of a call is a later
step of its own (`owed` counts the calls that have not come to it yet). Tasks and timers are numbers;
calls made from inside tasks are calls like any other.
Not modelled: the values of futures, times (a timer may fire at any time once it is armed), failures of
`start`, eventfd overflow, two calls of `stop` at the same time.
-/
namespace Nebula

/-- `Timer` (GenericWorker.h:138-147) without its callback. -/
structure WTimer where
  id : Nat
  delay : Nat
  interval : Nat
deriving DecidableEq, Repr

/-- Where the worker thread is. -/
inductive WorkerPc
  /-- in `event_base_dispatch` (GenericWorker.cpp:88-90) -/
  | dispatch
  /-- the notification was read (GenericWorker.cpp:50-55), before line 103 -/
  | notified
  /-- before line 111 -/
  | checked
  /-- the loop of lines 113-115 with the tasks left -/
  | running (tasks : List Nat)
  /-- before line 121 -/
  | tasksDone
  /-- the loop of lines 132-143 with the timers left -/
  | adding (timers : List WTimer)
  /-- before line 149 -/
  | timersDone
  /-- the loop of lines 151-153 with the ids left -/
  | purging (ids : List Nat)
  /-- left the event loop -/
  | exited
deriving DecidableEq, Repr

/-- `GenericWorker` (GenericWorker.h:158-173) after a successful `start`. -/
structure WorkerSt where
  stopped : Bool
  /-- `event_base_loopexit` was called -/
  exiting : Bool
  evfd : Nat
  owed : Nat
  pendingTasks : List Nat
  pendingTimers : List WTimer
  purgingTimers : List Nat
  nextTimerId : Nat
  activeTimers : List WTimer
  pc : WorkerPc
deriving DecidableEq, Repr

/-- After `start` (GenericWorker.cpp:33-68). -/
def WorkerSt.start : WorkerSt := ⟨false, false, 0, 0, [], [], [], 0, [], .dispatch⟩

/-- What happens. -/
inductive WorkerEv
  /-- `addTask` of task `k` -/
  | addTask (k : Nat)
  /-- `addTimerTask` returned `id` (also called by `addRepeatTask` with `delay = interval` and by
  `addDelayTask` with `interval = 0`) -/
  | addTimer (id delay interval : Nat)
  /-- `purgeTimerTask id` -/
  | purge (id : Nat)
  /-- `stop()` -/
  | stop
  /-- task `k` runs -/
  | run (k : Nat)
  /-- timer `id` runs its callback -/
  | fire (id : Nat)
  /-- anything inside -/
  | tau
deriving DecidableEq, Repr

/-- `addDelayTask(ms, …)` (GenericWorker.h:224-260) and `addRepeatTask(ms, …)` (GenericWorker.h:263-269) as
calls of `addTimerTask`. -/
def WorkerEv.addDelay (id ms : Nat) : WorkerEv := .addTimer id ms 0
def WorkerEv.addRepeat (id ms : Nat) : WorkerEv := .addTimer id ms ms

/-- `nextTimerId` (GenericWorker.h:153-156): the counter is a `uint64_t`, the id its low 48 bits. -/
def timerId (counter : Nat) : Nat := counter % 2 ^ 48

/-- `activeTimers_.erase(id)`. -/
def eraseTimer (l : List WTimer) (id : Nat) : List WTimer := l.filter fun t => t.id ≠ id

inductive WorkerSt.Step : WorkerSt → WorkerEv → WorkerSt → Prop
  /-- GenericWorker.h:177-200, 203-221 up to `notify` -/
  | addTask {s k} : Step s (.addTask k) { s with pendingTasks := s.pendingTasks ++ [k], owed := s.owed + 1 }
  /-- GenericWorker.h:272-290 up to `notify` -/
  | addTimer {s delay interval} : Step s (.addTimer (timerId s.nextTimerId) delay interval)
      { s with pendingTimers := s.pendingTimers ++ [⟨timerId s.nextTimerId, delay, interval⟩], nextTimerId := (s.nextTimerId + 1) % 2 ^ 64, owed := s.owed + 1 }
  /-- GenericWorker.cpp:167-173 up to `notify` -/
  | purge {s id} : Step s (.purge id) { s with purgingTimers := s.purgingTimers ++ [id], owed := s.owed + 1 }
  /-- GenericWorker.cpp:70-77 up to `notify` -/
  | stop {s} : s.stopped = false → Step s .stop { s with stopped := true, owed := s.owed + 1 }
  /-- GenericWorker.cpp:92-100 -/
  | notify {s} : 0 < s.owed → Step s .tau { s with owed := s.owed - 1, evfd := s.evfd + 1 }
  /-- GenericWorker.cpp:50-55: reading an eventfd resets it -/
  | wake {s} : s.pc = .dispatch → 0 < s.evfd → Step s .tau { s with evfd := 0, pc := .notified }
  /-- GenericWorker.cpp:103-106 -/
  | check {s} : s.pc = .notified → Step s .tau { s with exiting := s.exiting || s.stopped, pc := .checked }
  /-- GenericWorker.cpp:107-112 -/
  | takeTasks {s} : s.pc = .checked → Step s .tau { s with pendingTasks := [], pc := .running s.pendingTasks }
  /-- GenericWorker.cpp:113-115 -/
  | run {s k r} : s.pc = .running (k :: r) → Step s (.run k) { s with pc := .running r }
  | ranAll {s} : s.pc = .running [] → Step s .tau { s with pc := .tasksDone }
  /-- GenericWorker.cpp:117-122 -/
  | takeTimers {s} : s.pc = .tasksDone → Step s .tau { s with pendingTimers := [], pc := .adding s.pendingTimers }
  /-- GenericWorker.cpp:132-143: `activeTimers_[id] = std::move(timer)` destroys a timer already there -/
  | arm {s t r} : s.pc = .adding (t :: r) → Step s .tau { s with activeTimers := t :: eraseTimer s.activeTimers t.id, pc := .adding r }
  | armedAll {s} : s.pc = .adding [] → Step s .tau { s with pc := .timersDone }
  /-- GenericWorker.cpp:145-150 -/
  | takePurges {s} : s.pc = .timersDone → Step s .tau { s with purgingTimers := [], pc := .purging s.purgingTimers }
  /-- GenericWorker.cpp:151-153, 175-181 -/
  | purgeOne {s id r} : s.pc = .purging (id :: r) → Step s .tau { s with activeTimers := eraseTimer s.activeTimers id, pc := .purging r }
  | purgedAll {s} : s.pc = .purging [] → Step s .tau { s with pc := .dispatch }
  /-- GenericWorker.cpp:123-131: the callback, then the timer is dropped if its interval is zero -/
  | fire {s t} : s.pc = .dispatch → t ∈ s.activeTimers →
      Step s (.fire t.id) { s with activeTimers := if t.interval = 0 then eraseTimer s.activeTimers t.id else s.activeTimers }
  /-- The event loop ends after the iteration in which `loopexit` was called. -/
  | exit {s} : s.pc = .dispatch → s.exiting = true → Step s .tau { s with pc := .exited }

/-- Histories of a started worker. -/
abbrev WorkerSt.Run (h : List WorkerEv) (s : WorkerSt) : Prop := Exec WorkerSt.Step WorkerSt.start h s

/-- Nothing is under way: all calls have returned and the worker has left its loop or sleeps in it. -/
def WorkerSt.Settled (s : WorkerSt) : Prop := s.owed = 0 ∧ (s.pc = .exited ∨ (s.pc = .dispatch ∧ s.evfd = 0))

/-! ## Thread pool -/

/-- `GenericThreadPool` (GenericThreadPool.h:124-126) after `start(nrThreads)`; of each worker only the
timer id counter. -/
structure PoolSt where
  nrThreads : Nat
  nextThread : Nat
  timerIds : Nat → Nat

/-- After `start` (GenericThreadPool.cpp:21-32). -/
def PoolSt.start (n : Nat) : PoolSt := ⟨n, 0, fun _ => 0⟩

/-- `nextThread_++ % nrThreads_` (GenericThreadPool.h:136, 148, 160, 173, 182); zero threads: division by
zero. -/
def PoolSt.pick (s : PoolSt) : Option (Nat × PoolSt) :=
  if s.nrThreads = 0 then none
  else some (s.nextThread % s.nrThreads, { s with nextThread := (s.nextThread + 1) % 2 ^ 64 })

/-- The id `addRepeatTask` returns (GenericThreadPool.h:186): a 64-bit `(idx << 48) | id`. -/
def poolTimerId (idx id : Nat) : Nat := (idx <<< 48) % 2 ^ 64 ||| id

/-- What `purgeTimerTask` makes of an id (GenericThreadPool.cpp:52-56): worker and worker-local id. -/
def poolPurge (id : Nat) : Nat × Nat := (id >>> 48, id &&& (2 ^ 48 - 1))

/-- Calls on a pool. -/
inductive PoolOp | addTask | addDelayTask | addRepeatTask
deriving DecidableEq, Repr

/-- One call: which worker got it and, for repeated tasks, the id returned and the worker-local id. Both
kinds of timers use up a timer id of the worker. -/
def PoolSt.call (s : PoolSt) (op : PoolOp) : Option (PoolSt × Nat × Option (Nat × Nat)) :=
  s.pick.map fun p =>
    match op with
    | .addTask => (p.2, p.1, none)
    | .addDelayTask => ({ p.2 with timerIds := fun i => if i = p.1 then (p.2.timerIds i + 1) % 2 ^ 64 else p.2.timerIds i }, p.1, none)
    | .addRepeatTask => ({ p.2 with timerIds := fun i => if i = p.1 then (p.2.timerIds i + 1) % 2 ^ 64 else p.2.timerIds i }, p.1,
        some (poolTimerId p.1 (timerId (p.2.timerIds p.1)), timerId (p.2.timerIds p.1)))

/-- A sequence of calls and their results. -/
def PoolSt.calls : PoolSt → List PoolOp → Option (PoolSt × List (Nat × Option (Nat × Nat)))
  | s, [] => some (s, [])
  | s, op :: ops => (s.call op).bind fun p => (calls p.1 ops).map fun q => (q.1, p.2 :: q.2)

end Nebula
