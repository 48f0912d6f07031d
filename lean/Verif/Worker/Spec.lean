import Verif.Worker.Model
/-! # Specification of worker histories: read off the calls and effects alone -/
namespace Nebula

/-- The tasks added, in order. -/
def addedTasks (h : List WorkerEv) : List Nat := h.filterMap fun | .addTask k => some k | _ => none

/-- The tasks run, in order. -/
def ranTasks (h : List WorkerEv) : List Nat := h.filterMap fun | .run k => some k | _ => none

/-- The history before the first `stop`. -/
def beforeStop (h : List WorkerEv) : List WorkerEv := h.takeWhile (· ≠ .stop)

/-- The ids of the timers added, in order. -/
def addedTimers (h : List WorkerEv) : List Nat := h.filterMap fun | .addTimer id _ _ => some id | _ => none

/-- How often the timer `id` has fired. -/
def fired (id : Nat) (h : List WorkerEv) : Nat := h.count (.fire id)

end Nebula
