import Verif.Worker.Life
/-!
# The life of a session manager

Model of the constructor and the destructor of `SessionManager` (`src/common/session/SessionManager.h:25-66`), the base of the classes that keep sessions, with the worker (`scavenger_`)
that it owns.  The functions of the class are left to the classes derived from it; these put tasks and timers into the worker.  The worker is that of Verif.Worker.Life.  What the worker
runs it runs while the owner is somewhere in the life of the manager: `log` has where.  The destructor of a derived class comes first, then the body of this destructor, then the members.
-/
namespace Nebula.Session
open WLife (St)

/-- Where the owner is. -/
inductive Phase
  /-- nothing is constructed -/
  | before
  /-- in `scavenger_->start` (SessionManager.h:32), before it returns -/
  | starting
  /-- the manager is constructed -/
  | whole
  /-- the part of the derived class has been destroyed -/
  | derivedGone
  /-- after `scavenger_->stop()` (SessionManager.h:38) -/
  | stopping
  /-- after `scavenger_->wait()` (SessionManager.h:39) -/
  | waited
  /-- after `scavenger_.reset()` (SessionManager.h:40) -/
  | reset
  /-- `myAddr_`, `metaClient_`, `scavenger_` and `activeSessions_` (SessionManager.h:62-65) are destroyed -/
  | gone
deriving DecidableEq, Repr

structure Mgr where
  /-- `*scavenger_` -/
  w : St := {}
  phase : Phase := .before
  /-- when the worker ran tasks (`wake`) and timers (`fire`) -/
  log : List (Phase × WLife.Ev) := []

inductive Ev
  /-- the constructor up to the middle of `start`, or to its end if `eventfd` fails (`DCHECK(ok)` is for debug builds) -/
  | construct (fd : Bool)
  | constructed
  /-- the worker's thread does something, or the worker is used by the derived class -/
  | use (e : WLife.Ev)
  /-- the destructor of the derived class -/
  | derived
  | stop
  | wait
  | reset
  | members
deriving DecidableEq, Repr

/-- What the worker's own thread does. -/
def own : WLife.Ev → Bool
  | .wake | .fire _ | .exit => true
  | _ => false

/-- Putting tasks and timers in and taking timers out: by threads that use the manager, or by tasks. -/
def adding : WLife.Ev → Bool
  | .addTask _ | .addTimer _ | .purge _ => true
  | _ => false

/-- What can happen when, and where the owner is then.  `stop` and `wait` of the worker can also be called by a derived class before it is destroyed. -/
def next : Phase → Ev → Option Phase
  | .before, .construct fd => some (if fd then .starting else .whole)
  | .starting, .constructed => some .whole
  | .starting, .use e => if own e then some .starting else none
  | .whole, .use e => if own e || adding e || e == .stop || e == .wait then some .whole else none
  | .whole, .derived => some .derivedGone
  | .derivedGone, .use e => if own e || adding e then some .derivedGone else none
  | .derivedGone, .stop => some .stopping
  | .stopping, .use e => if own e || adding e then some .stopping else none
  | .stopping, .wait => some .waited
  | .waited, .use e => if own e then some .waited else none
  | .waited, .reset => some .reset
  | .reset, .use e => if own e then some .reset else none
  | .reset, .members => some .gone
  | .gone, .use e => if own e then some .gone else none
  | _, _ => none

/-- What it does to the worker; `reset` destroys it (GenericWorker.cpp:17-31). -/
def Ev.worker : Ev → List WLife.Ev
  | .construct fd => [.start fd]
  | .constructed => [.started]
  | .use e => [e]
  | .derived => []
  | .stop => [.stop]
  | .wait => [.wait]
  | .reset => [.stop, .wait, .destroy]
  | .members => []

/-- Steps in which the worker runs code that was put in: a wake-up (GenericWorker.cpp:102-117) and a timer (GenericWorker.cpp:124-128). -/
def runsCode : Ev → Option WLife.Ev
  | .use .wake => some .wake
  | .use (.fire id) => some (.fire id)
  | _ => none

/-- One step of the owner (SessionManager.h:28-41) or of a thread that uses the worker. -/
def Mgr.act (m : Mgr) (e : Ev) : Option Mgr :=
  (next m.phase e).bind fun p => (m.w.acts e.worker).map fun w => ⟨w, p, match runsCode e with | some x => m.log ++ [(m.phase, x)] | none => m.log⟩

/-- Steps one after another. -/
def Mgr.acts (m : Mgr) : List Ev → Option Mgr
  | [] => some m
  | e :: h => (m.act e).bind fun m => m.acts h

/-- A history of a manager. -/
abbrev run (h : List Ev) : Option Mgr := ({} : Mgr).acts h

end Nebula.Session
