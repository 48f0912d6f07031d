import Verif.Base
/-!
# The life of a worker

Model of `GenericWorker::start`, `stop`, `wait` and the destructor
(`src/common/thread/GenericWorker.{h,cpp}`) with what they create and free: event bases, eventfds and
events. `Verif/Worker/Model.lean` has the event loop of one start in detail; here a turn of the loop
(`onNotify`) is one event, and a worker may be started any number of times.

One thread owns the worker: it starts, stops, waits for and destroys it. Other threads may add tasks and
timers at any time. Not modelled: `event_base_new`, `event_new` and the creation of a thread fail,
`wait` called from the worker's own thread, what the tasks do.

Of libevent (2.x): `event_base_free` takes the events left out of the base but does not free them, and
`event_free` looks into the base the event was made for.
-/
namespace Nebula.WLife

/-- A timer: its id and whether it has no interval. -/
structure Tm where
  id : Nat
  once : Bool
deriving DecidableEq, Repr

/-- A timer in `activeTimers_`: the base its event was made for (GenericWorker.cpp:133). The event itself
lives as long as the timer (GenericWorker.cpp:161-165). -/
structure Armed where
  t : Tm
  base : Nat
deriving DecidableEq, Repr

/-- What has become of the worker. -/
inductive Fate
  | alive
  | destroyed
  /-- `std::terminate` was called -/
  | terminated
  /-- memory that had been freed was used -/
  | usedFreed
deriving DecidableEq, Repr

/-- `thread_` (GenericWorker.h:173): the base its thread dispatches and whether it is still in its loop. -/
structure Th where
  base : Nat
  running : Bool
  /-- `event_base_loopexit` was called -/
  exiting : Bool
deriving DecidableEq, Repr

/-- `GenericWorker` (GenericWorker.h:158-173), and the bases, descriptors and notifiers that exist. -/
structure St where
  stopped : Bool := true
  evbase : Option Nat := none
  evfd : Option Nat := none
  notifier : Option Nat := none
  /-- a notification is waiting in `evfd_` -/
  signal : Bool := false
  tasks : List Nat := []
  timers : List Tm := []
  purging : List Nat := []
  active : List Armed := []
  thread : Option Th := none
  /-- the owner is in `start`, between lines 62 and 65 -/
  starting : Bool := false
  bases : List Nat := []
  fds : List Nat := []
  /-- the events made for `notifier_` -/
  events : List Nat := []
  /-- the next name for a base, descriptor or event -/
  next : Nat := 0
  /-- the tasks that ran -/
  ran : List Nat := []
  /-- the timers that fired -/
  fired : List Nat := []
  fate : Fate := .alive
deriving DecidableEq, Repr

/-- What happens. -/
inductive Ev
  /-- `start()` up to line 62; `fd`: whether `eventfd` succeeds -/
  | start (fd : Bool)
  /-- the rest of `start()` -/
  | started
  | stop
  | wait
  /-- the destructor after its calls of `stop` and `wait`, which are events of their own -/
  | destroy
  | addTask (k : Nat)
  | addTimer (t : Tm)
  | purge (id : Nat)
  /-- the worker's thread handles a notification -/
  | wake
  /-- a timer fires -/
  | fire (id : Nat)
  /-- the worker's thread leaves its loop -/
  | exit
deriving DecidableEq, Repr

/-- `notify` (GenericWorker.cpp:92-100); without a descriptor the `write` fails. -/
def St.notify (s : St) : St :=
  if s.notifier = none ∨ s.evfd = none then s else { s with signal := true }

/-- `start` (GenericWorker.cpp:33-62). Assigning `thread_` destroys the thread that was there, which
calls `std::terminate` if it has not been joined. -/
def St.start (s : St) (fd : Bool) : St :=
  if s.stopped = false then s
  else
    let s := { s with evbase := some s.next, bases := s.next :: s.bases, next := s.next + 1 }
    if fd = false then { s with evfd := none }
    else
      let s := { s with evfd := some s.next, fds := s.next :: s.fds, next := s.next + 1, signal := false }
      let s := { s with notifier := some s.next, events := s.next :: s.events, next := s.next + 1 }
      if s.thread.isSome then { s with fate := .terminated }
      else { s with thread := s.evbase.map fun b => ⟨b, true, false⟩, starting := true }

/-- What `start` returns. -/
def St.startReturns (s : St) (fd : Bool) : Bool := s.stopped && fd

/-- `stop` (GenericWorker.cpp:70-77). -/
def St.stop (s : St) : St := if s.stopped then s else { s with stopped := true }.notify

/-- `purgeTimerInternal` (GenericWorker.cpp:175-181). -/
def St.drop (s : St) (id : Nat) : St := { s with active := s.active.filter fun a => a.t.id ≠ id }

/-- The loop of lines 132-143 of GenericWorker.cpp for one timer: `activeTimers_[id] = …` destroys the
timer that had the id. -/
def St.arm (s : St) (t : Tm) : St :=
  { s with active := ⟨t, s.evbase.getD 0⟩ :: s.active.filter fun a => a.t.id ≠ t.id }

/-- `event_base_loopexit` if the worker is stopped (GenericWorker.cpp:103-106). -/
def Th.leave (stopped : Bool) (t : Th) : Th := { t with exiting := t.exiting || stopped }

/-- `onNotify` (GenericWorker.cpp:102-155), `exiting` set if the worker is stopped. -/
def St.onNotify (s : St) : St :=
  let s := { s with signal := false, thread := s.thread.map (Th.leave s.stopped) }
  let s := { s with ran := s.ran ++ s.tasks, tasks := [] }
  let s := s.timers.foldl St.arm { s with timers := [] }
  s.purging.foldl St.drop { s with purging := [] }

/-- The destructor (GenericWorker.cpp:20-31), then the members: the destructor of a timer
(GenericWorker.cpp:161-165) frees its event, which reads the base of the event. -/
def St.destroy (s : St) : St :=
  let s := { s with events := s.events.filter fun e => some e ≠ s.notifier }
  let s := { s with bases := s.bases.filter fun b => some b ≠ s.evbase }
  let s := { s with fds := s.fds.filter fun d => some d ≠ s.evfd }
  if s.active.all fun a => a.base ∈ s.bases then
    { s with active := [], fate := .destroyed }
  else { s with fate := .usedFreed }

/-- What an event does; `none` if it cannot happen. The owner does one thing at a time; `wait` joins the
thread (GenericWorker.cpp:79-86). -/
def St.act (s : St) : Ev → Option St
  | .start fd => if s.fate = .alive ∧ s.starting = false then some (s.start fd) else none
  | .started => if s.fate = .alive ∧ s.starting = true then some { s with starting := false, stopped := false } else none
  | .stop => if s.fate = .alive ∧ s.starting = false then some s.stop else none
  | .wait =>
    if s.fate = .alive ∧ s.starting = false then
      match s.thread with
      | none => some s
      | some t => if t.running then none else some { s with thread := none }
    else none
  | .destroy => if s.fate = .alive ∧ s.starting = false ∧ s.stopped = true ∧ s.thread = none then some s.destroy else none
  | .addTask k => if s.fate = .alive then some { s with tasks := s.tasks ++ [k] }.notify else none
  | .addTimer t => if s.fate = .alive then some { s with timers := s.timers ++ [t] }.notify else none
  | .purge id => if s.fate = .alive then some { s with purging := s.purging ++ [id] }.notify else none
  | .wake =>
    match s.thread with
    | some ⟨_, true, _⟩ => if s.fate = .alive ∧ s.signal = true then some s.onNotify else none
    | _ => none
  | .fire id =>
    match s.thread with
    | some ⟨b, true, _⟩ =>
      match s.active.find? fun a => a.t.id = id with
      | some a =>
        if s.fate = .alive ∧ a.base = b then
          some (if a.t.once then { s with fired := s.fired ++ [id] }.drop id else { s with fired := s.fired ++ [id] })
        else none
      | none => none
    | _ => none
  | .exit =>
    match s.thread with
    | some ⟨b, true, true⟩ => if s.fate = .alive then some { s with thread := some ⟨b, false, true⟩ } else none
    | _ => none

/-- A history of a worker. -/
def St.acts (s : St) : List Ev → Option St
  | [] => some s
  | e :: h => (s.act e).bind fun s => s.acts h

/-- A new worker after the history `h`. -/
abbrev run (h : List Ev) : Option St := ({} : St).acts h

end Nebula.WLife
