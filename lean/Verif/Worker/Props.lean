import Verif.Worker.Spec
/-! # Properties of the worker: tasks (C32) -/
namespace Nebula

/-! ## Tasks -/

theorem addedTasks_snoc (h : List WorkerEv) (e : WorkerEv) : addedTasks (h ++ [e]) = addedTasks h ++ addedTasks [e] := by
  unfold addedTasks; rw [List.filterMap_append]
theorem ranTasks_snoc (h : List WorkerEv) (e : WorkerEv) : ranTasks (h ++ [e]) = ranTasks h ++ ranTasks [e] := by
  unfold ranTasks; rw [List.filterMap_append]
theorem addedTimers_snoc (h : List WorkerEv) (e : WorkerEv) : addedTimers (h ++ [e]) = addedTimers h ++ addedTimers [e] := by
  unfold addedTimers; rw [List.filterMap_append]

/-- The tasks taken but not run. -/
def WorkerPc.rest : WorkerPc → List Nat
  | .running r => r
  | _ => []

/-- Where the tasks are. -/
structure TaskInv (h : List WorkerEv) (s : WorkerSt) : Prop where
  split : addedTasks h = ranTasks h ++ s.pc.rest ++ s.pendingTasks
  awake : s.pendingTasks ≠ [] → 0 < s.evfd ∨ 0 < s.owed ∨ s.pc = .notified ∨ s.pc = .checked ∨ s.pc = .exited
  stopped : s.stopped = true ↔ .stop ∈ h
  exiting : s.exiting = true → s.stopped = true
  exited : s.pc = .exited → s.exiting = true
  before : s.exiting = true → s.pc = .checked ∨ (addedTasks (beforeStop h)).length ≤ (ranTasks h ++ s.pc.rest).length

theorem beforeStop_snoc_of_mem {h : List WorkerEv} (hs : .stop ∈ h) (e : WorkerEv) : beforeStop (h ++ [e]) = beforeStop h := by
  unfold beforeStop
  rw [List.takeWhile_append]
  rw [if_neg]
  intro hl
  have : h.takeWhile (· ≠ .stop) = h := by
    have hp := List.takeWhile_prefix (l := h) (p := fun x => decide (x ≠ WorkerEv.stop))
    exact hp.eq_of_length hl
  rw [← this] at hs
  have hall := List.all_takeWhile (l := h) (p := fun x => decide (x ≠ WorkerEv.stop))
  rw [List.all_eq_true] at hall
  have := hall _ hs
  simp at this

theorem beforeStop_prefix (h : List WorkerEv) : addedTasks (beforeStop h) <+: addedTasks h := by
  obtain ⟨t, ht⟩ := List.takeWhile_prefix (l := h) (p := fun x => decide (x ≠ WorkerEv.stop))
  refine ⟨addedTasks t, ?_⟩
  conv => rhs; rw [← ht]
  unfold addedTasks beforeStop
  rw [List.filterMap_append]

theorem WorkerSt.Run.taskInv {h : List WorkerEv} {s : WorkerSt} (r : WorkerSt.Run h s) : TaskInv h s := by
  refine Exec.invariant (P := TaskInv) ?_ ?_ r
  · exact ⟨rfl, by simp [WorkerSt.start], by simp [WorkerSt.start], by simp [WorkerSt.start], by simp [WorkerSt.start], by simp [WorkerSt.start]⟩
  · intro h s e s' _ i st
    obtain ⟨split, awake, stopped, exiting, exited, before⟩ := i
    have hb : s.exiting = true → beforeStop (h ++ [e]) = beforeStop h := fun he => beforeStop_snoc_of_mem (stopped.1 (exiting he)) e
    cases st with
    | addTask =>
      refine ⟨?_, fun _ => .inr (.inl (Nat.succ_pos _)), ?_, exiting, exited, ?_⟩
      · rw [addedTasks_snoc, ranTasks_snoc, split]; simp [addedTasks, ranTasks]
      · simpa using stopped
      · intro he; rw [hb he, ranTasks_snoc]; simpa [ranTasks] using before he
    | addTimer =>
      refine ⟨?_, fun _ => .inr (.inl (Nat.succ_pos _)), ?_, exiting, exited, ?_⟩
      · rw [addedTasks_snoc, ranTasks_snoc, split]; simp [addedTasks, ranTasks]
      · simpa using stopped
      · intro he; rw [hb he, ranTasks_snoc]; simpa [ranTasks] using before he
    | purge =>
      refine ⟨?_, fun _ => .inr (.inl (Nat.succ_pos _)), ?_, exiting, exited, ?_⟩
      · rw [addedTasks_snoc, ranTasks_snoc, split]; simp [addedTasks, ranTasks]
      · simpa using stopped
      · intro he; rw [hb he, ranTasks_snoc]; simpa [ranTasks] using before he
    | stop h1 =>
      refine ⟨?_, fun _ => .inr (.inl (Nat.succ_pos _)), by simp, fun _ => rfl, exited, ?_⟩
      · rw [addedTasks_snoc, ranTasks_snoc, split]; simp [addedTasks, ranTasks]
      · intro he; rw [hb he, ranTasks_snoc]; simpa [ranTasks] using before he
    | notify h1 =>
      refine ⟨?_, fun _ => .inl (Nat.succ_pos _), ?_, exiting, exited, ?_⟩
      · rw [addedTasks_snoc, ranTasks_snoc, split]; simp [addedTasks, ranTasks]
      · simpa using stopped
      · intro he; rw [hb he, ranTasks_snoc]; simpa [ranTasks] using before he
    | wake h1 h2 =>
      refine ⟨?_, fun _ => .inr (.inr (.inl rfl)), ?_, exiting, by simp, ?_⟩
      · rw [addedTasks_snoc, ranTasks_snoc, split, h1]; simp [addedTasks, ranTasks, WorkerPc.rest]
      · simpa using stopped
      · intro he; rw [hb he, ranTasks_snoc]; have := before he; rw [h1] at this
        simpa [ranTasks, WorkerPc.rest] using this
    | check h1 =>
      refine ⟨?_, fun _ => .inr (.inr (.inr (.inl rfl))), ?_, ?_, by simp, fun _ => .inl rfl⟩
      · rw [addedTasks_snoc, ranTasks_snoc, split, h1]; simp [addedTasks, ranTasks, WorkerPc.rest]
      · simpa using stopped
      · intro he; simp at he; rcases he with he | he
        · exact exiting he
        · exact he
    | takeTasks h1 =>
      have hsp : addedTasks h = ranTasks h ++ s.pendingTasks := by rw [split, h1]; simp [WorkerPc.rest]
      refine ⟨?_, by simp, ?_, exiting, by simp, ?_⟩
      · rw [addedTasks_snoc, ranTasks_snoc, hsp]; simp [addedTasks, ranTasks, WorkerPc.rest]
      · simpa using stopped
      · intro he; right; rw [hb he, ranTasks_snoc]
        have := (beforeStop_prefix h).length_le
        rw [hsp] at this
        simpa [ranTasks, WorkerPc.rest] using this
    | @run k r h1 =>
      refine ⟨?_, ?_, ?_, exiting, by simp, ?_⟩
      · rw [addedTasks_snoc, ranTasks_snoc, split, h1]; simp [addedTasks, ranTasks, WorkerPc.rest]
      · intro hp; have := awake hp; rw [h1] at this; simpa using this
      · simpa using stopped
      · intro he; right; rw [hb he, ranTasks_snoc]
        have := before he; rw [h1] at this
        simp [WorkerPc.rest] at this
        simp [ranTasks, WorkerPc.rest]; simp [ranTasks] at this; omega
    | ranAll h1 =>
      refine ⟨?_, ?_, ?_, exiting, by simp, ?_⟩
      · rw [addedTasks_snoc, ranTasks_snoc, split, h1]; simp [addedTasks, ranTasks, WorkerPc.rest]
      · intro hp; have := awake hp; rw [h1] at this; simpa using this
      · simpa using stopped
      · intro he; right; rw [hb he, ranTasks_snoc]
        have := before he; rw [h1] at this
        simpa [ranTasks, WorkerPc.rest] using this
    | takeTimers h1 =>
      refine ⟨?_, ?_, ?_, exiting, by simp, ?_⟩
      · rw [addedTasks_snoc, ranTasks_snoc, split, h1]; simp [addedTasks, ranTasks, WorkerPc.rest]
      · intro hp; have := awake hp; rw [h1] at this; simpa using this
      · simpa using stopped
      · intro he; right; rw [hb he, ranTasks_snoc]
        have := before he; rw [h1] at this
        simpa [ranTasks, WorkerPc.rest] using this
    | arm h1 =>
      refine ⟨?_, ?_, ?_, exiting, by simp, ?_⟩
      · rw [addedTasks_snoc, ranTasks_snoc, split, h1]; simp [addedTasks, ranTasks, WorkerPc.rest]
      · intro hp; have := awake hp; rw [h1] at this; simpa using this
      · simpa using stopped
      · intro he; right; rw [hb he, ranTasks_snoc]
        have := before he; rw [h1] at this
        simpa [ranTasks, WorkerPc.rest] using this
    | armedAll h1 =>
      refine ⟨?_, ?_, ?_, exiting, by simp, ?_⟩
      · rw [addedTasks_snoc, ranTasks_snoc, split, h1]; simp [addedTasks, ranTasks, WorkerPc.rest]
      · intro hp; have := awake hp; rw [h1] at this; simpa using this
      · simpa using stopped
      · intro he; right; rw [hb he, ranTasks_snoc]
        have := before he; rw [h1] at this
        simpa [ranTasks, WorkerPc.rest] using this
    | takePurges h1 =>
      refine ⟨?_, ?_, ?_, exiting, by simp, ?_⟩
      · rw [addedTasks_snoc, ranTasks_snoc, split, h1]; simp [addedTasks, ranTasks, WorkerPc.rest]
      · intro hp; have := awake hp; rw [h1] at this; simpa using this
      · simpa using stopped
      · intro he; right; rw [hb he, ranTasks_snoc]
        have := before he; rw [h1] at this
        simpa [ranTasks, WorkerPc.rest] using this
    | purgeOne h1 =>
      refine ⟨?_, ?_, ?_, exiting, by simp, ?_⟩
      · rw [addedTasks_snoc, ranTasks_snoc, split, h1]; simp [addedTasks, ranTasks, WorkerPc.rest]
      · intro hp; have := awake hp; rw [h1] at this; simpa using this
      · simpa using stopped
      · intro he; right; rw [hb he, ranTasks_snoc]
        have := before he; rw [h1] at this
        simpa [ranTasks, WorkerPc.rest] using this
    | purgedAll h1 =>
      refine ⟨?_, ?_, ?_, exiting, by simp, ?_⟩
      · rw [addedTasks_snoc, ranTasks_snoc, split, h1]; simp [addedTasks, ranTasks, WorkerPc.rest]
      · intro hp; have := awake hp; rw [h1] at this; simpa using this
      · simpa using stopped
      · intro he; right; rw [hb he, ranTasks_snoc]
        have := before he; rw [h1] at this
        simpa [ranTasks, WorkerPc.rest] using this
    | fire h1 h2 =>
      refine ⟨?_, awake, ?_, exiting, exited, ?_⟩
      · rw [addedTasks_snoc, ranTasks_snoc, split]; simp [addedTasks, ranTasks]
      · simpa using stopped
      · intro he; rw [hb he, ranTasks_snoc]; simpa [ranTasks] using before he
    | exit h1 h2 =>
      refine ⟨?_, ?_, ?_, exiting, fun _ => h2, ?_⟩
      · rw [addedTasks_snoc, ranTasks_snoc, split, h1]; simp [addedTasks, ranTasks, WorkerPc.rest]
      · intro hp; exact .inr (.inr (.inr (.inr rfl)))
      · simpa using stopped
      · intro he; right; rw [hb he, ranTasks_snoc]
        have := before he; rw [h1] at this
        simpa [ranTasks, WorkerPc.rest] using this

/-- C32: in every history the tasks run are a beginning of the tasks added: in order, each once. -/
theorem C32_order {h : List WorkerEv} {s : WorkerSt} (r : WorkerSt.Run h s) : ranTasks h <+: addedTasks h := by
  have := r.taskInv.split
  exact ⟨_, by rw [this, List.append_assoc]⟩

/-- C32: when nothing is under way, everything added before `stop` has run; without `stop` that is
everything, and the worker is still there. -/
theorem C32_none_lost {h : List WorkerEv} {s : WorkerSt} (r : WorkerSt.Run h s) (hs : s.Settled) :
    addedTasks (beforeStop h) <+: ranTasks h ∧ (.stop ∉ h → ranTasks h = addedTasks h ∧ s.pc = .dispatch) := by
  have i := r.taskInv
  obtain ⟨ho, hp⟩ := hs
  have key : s.pc = .dispatch ∧ s.evfd = 0 → ranTasks h = addedTasks h := by
    rintro ⟨h1, h2⟩
    have hpend : s.pendingTasks = [] := by
      cases hl : s.pendingTasks with
      | nil => rfl
      | cons a l =>
        have := i.awake (by rw [hl]; simp)
        rw [h1, h2, ho] at this
        simp at this
    rw [i.split, h1, hpend]; simp [WorkerPc.rest]
  constructor
  · rcases hp with h1 | h1
    · have hb := i.before (i.exited h1)
      rw [h1] at hb
      simp [WorkerPc.rest] at hb
      have h2 : ranTasks h <+: addedTasks h := C32_order r
      exact List.prefix_of_prefix_length_le (beforeStop_prefix h) h2 hb
    · rw [key h1]; exact beforeStop_prefix h
  · intro hst
    rcases hp with h1 | h1
    · exact absurd (i.stopped.1 (i.exiting (i.exited h1))) hst
    · exact ⟨key h1, h1.1⟩

/-- Two tasks and a stop between them: only the first must run. -/
example : ∃ s, WorkerSt.Run [.addTask 7, .tau, .stop, .tau, .tau, .tau, .tau, .run 7, .tau, .tau, .tau, .tau, .tau, .tau, .addTask 8, .tau] s ∧ s.Settled := by
  refine ⟨_, .cons .addTask (.cons (.notify ?_) (.cons (.stop rfl) (.cons (.notify ?_) (.cons (.wake rfl ?_) (.cons (.check rfl)
    (.cons (.takeTasks rfl) (.cons (.run rfl) (.cons (.ranAll rfl) (.cons (.takeTimers rfl) (.cons (.armedAll rfl)
    (.cons (.takePurges rfl) (.cons (.purgedAll rfl) (.cons (.exit rfl rfl) (.cons .addTask (.cons (.notify ?_) .nil))))))))))))))), ?_⟩ <;>
    simp [WorkerSt.start, WorkerSt.Settled]

end Nebula
