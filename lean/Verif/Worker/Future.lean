import Verif.Worker.LifeProps
/-!
# C136: the future of a task

Model of how a worker runs a task and settles its promise (`src/common/thread/GenericWorker.h`).
Of folly: `setWith(f)` stores what `f` returns or throws, whatever it is; `setException(e)` stores a copy of
`e` as the type it is written with; a promise destroyed unsettled settles its future with `BrokenPromise`.
-/
namespace Nebula.WLife

/-- What a task can throw: an exception derived from `std::exception`, of a class and with the text of
`what()`, or anything else. -/
inductive Thrown
  | std (cls : Nat) (what : Bytes)
  | other (n : Nat)
deriving DecidableEq, Repr

/-- The class `std::exception` itself is number 0; its `what()` is "std::exception" (libstdc++). -/
def stdWhat : Bytes := "std::exception".toUTF8.toList

/-- What a task does. -/
inductive Body (α : Type)
  | returns (a : α)
  | throws (e : Thrown)
deriving DecidableEq, Repr

/-- The state of a future. -/
inductive Fut (α : Type)
  | waiting
  | value (a : α)
  | failed (e : Thrown)
  /-- `folly::BrokenPromise` -/
  | broken
deriving DecidableEq, Repr

/-- A task with a result runs (GenericWorker.h:212-217, 254-259: `promise->setWith(*task)`). -/
def runValue {α : Type} : Body α → Option (Fut α)
  | .returns a => some (.value a)
  | .throws e => some (.failed e)

/-- A task without a result runs (GenericWorker.h:187-196, 233-241): only exceptions derived from
`std::exception` are caught, by reference to that class, and `setException` stores a copy as that class.
`none`: the exception leaves the thread and `std::terminate` is called. -/
def runVoid : Body Unit → Option (Fut Unit)
  | .returns _ => some (.value ())
  | .throws (.std _ _) => some (.failed (.std 0 stdWhat))
  | .throws (.other _) => none

/-- A repeated task runs (GenericWorker.h:263-290, GenericWorker.cpp:127): nothing is caught. `none`:
`std::terminate` (the exception leaves the thread through libevent). -/
def runRepeated : Body Unit → Option Unit
  | .returns _ => some ()
  | .throws _ => none

/-- The future of task `k` of a worker: `res` is what running it makes of it. The functions waiting in
`pendingTasks_` hold the promises, and are destroyed with the worker (GenericWorker.h:168). -/
def futureOf {α : Type} (res : Nat → Fut α) (s : St) (k : Nat) : Fut α :=
  if k ∈ s.ran then res k else if s.fate = .destroyed then .broken else .waiting

/-! ## Specification -/

/-- The future says what the task did. -/
def Tells {α : Type} (b : Body α) : Fut α → Prop
  | .value a => b = .returns a
  | .failed e => b = .throws e
  | _ => False

/-- C136: the future of a task with a result tells exactly what the task returned or threw. -/
theorem C136_value {α : Type} (b : Body α) : ∃ f, runValue b = some f ∧ Tells b f := by
  cases b <;> exact ⟨_, rfl, rfl⟩

/-- C136, for tasks without a result that throw nothing, or just a `std::exception`. -/
theorem C136_void_partial (b : Body Unit) (h : ∀ e, b = .throws e → e = .std 0 stdWhat) : ∃ f, runVoid b = some f ∧ Tells b f := by
  cases b with
  | returns a => exact ⟨_, rfl, rfl⟩
  | throws e => cases h e rfl; exact ⟨_, rfl, rfl⟩

example : ∃ f, runVoid (.returns ()) = some f ∧ Tells (.returns ()) f := ⟨_, rfl, rfl⟩

/-- C136 (violated): whatever else derived from `std::exception` a task without a result throws, its class
and its text are lost. -/
theorem C136_void_violated (c : Nat) (w : Bytes) (h : (c, w) ≠ (0, stdWhat)) :
    runVoid (.throws (.std c w)) = some (.failed (.std 0 stdWhat)) ∧ ¬ Tells (α := Unit) (.throws (.std c w)) (.failed (.std 0 stdWhat)) := by
  refine ⟨rfl, ?_⟩
  intro ht
  simp only [Tells, Body.throws.injEq, Thrown.std.injEq] at ht
  exact h (by rw [ht.1, ht.2])

/-- C136 (violated): anything else thrown by a task without a result, and anything at all thrown by a
repeated task, ends the process. -/
theorem C136_foreign_violated (n : Nat) (e : Thrown) : runVoid (.throws (.other n)) = none ∧ runRepeated (.throws e) = none := ⟨rfl, rfl⟩

/-- C136: once a worker has been destroyed no future of its tasks is left waiting: each tells what the task
did or that it never ran, and a future never tells the first unless the task ran. -/
theorem C136_settled {α : Type} {h : List Ev} {s : St} (r : run h = some s) (body : Nat → Body α) (res : Nat → Fut α)
    (hr : ∀ k, Tells (body k) (res k)) (hd : s.fate = .destroyed) (k : Nat) (hk : k ∈ added h) :
    (k ∈ s.ran ∧ Tells (body k) (futureOf res s k)) ∨ (k ∉ s.ran ∧ k ∈ s.tasks ∧ futureOf res s k = .broken) := by
  by_cases hm : k ∈ s.ran
  · exact .inl ⟨hm, by simp [futureOf, hm, hr k]⟩
  · refine .inr ⟨hm, ?_, by simp [futureOf, hm, hd]⟩
    rw [← C135_tasks r] at hk
    rcases List.mem_append.1 hk with h | h
    · exact absurd h hm
    · exact h

example : ∃ s, run [.start true, .started, .addTask 1, .stop, .wake, .exit, .wait, .addTask 2, .destroy] = some s ∧ s.fate = .destroyed ∧
    s.ran = [1] ∧ s.tasks = [2] := ⟨_, rfl, rfl, rfl, rfl⟩

/-- C136, for workers nobody uses while they are being started: when `wait` returns after a `stop`, the
futures of all tasks added before the `stop` tell what the tasks did. -/
theorem C136_before_stop_partial {α : Type} {a b : List Ev} {s0 s : St} (r0 : run a = some s0) (hp : s0.stopped = false) (q : QuietStarts a)
    (r : run (a ++ [.stop] ++ b ++ [.wait]) = some s) (hw : .wait ∉ b) (body : Nat → Body α) (res : Nat → Fut α)
    (hr : ∀ k, Tells (body k) (res k)) (k : Nat) (hk : k ∈ added a) : Tells (body k) (futureOf res s k) := by
  have := (C135_before_stop_partial r0 hp q r hw).subset hk
  simp [futureOf, this, hr k]

/-- C136: a future that is settled stays as it is, whatever happens to the worker afterwards. -/
theorem C136_stable {α : Type} (res : Nat → Fut α) {e : Ev} {s s' : St}
    (ha : s.act e = some s') (k : Nat) (hk : futureOf res s k ≠ .waiting) : futureOf res s' k = futureOf res s k := by
  obtain ⟨d, al⟩ := act_did ha
  have hm : k ∈ s.ran := by
    refine Classical.byContradiction fun hm => hk ?_
    simp [futureOf, hm, al]
  have hp : s.ran <+: s'.ran := by
    cases d with
    | wake b x ht hg =>
      obtain ⟨_, _, _, _, q4⟩ := onNotify_same s
      rw [q4]; exact List.prefix_append _ _
    | destroy hs h ht =>
      simp only [St.destroy]; split <;> exact List.prefix_refl _
    | _ => exact List.prefix_refl _
  simp [futureOf, hm, hp.subset hm]

end Nebula.WLife
