import Verif.Worker.Life
/-!
# C135: the life of a worker and of a pool
-/
namespace Nebula.WLife

/-! ## Specification -/

/-- The tasks added, in order. -/
def added (h : List Ev) : List Nat := h.filterMap fun | .addTask k => some k | _ => none

/-- How often a start was completed. -/
def starts (h : List Ev) : Nat := h.count .started

/-- A call of another thread that wakes the worker. -/
def Ev.notifies : Ev → Bool
  | .addTask _ | .addTimer _ | .purge _ => true
  | _ => false

/-- No other thread uses the worker while `start` is under way. -/
def QuietStarts (h : List Ev) : Prop :=
  ∀ a e c s, h = a ++ [e] ++ c → run a = some s → s.starting = true → e.notifies = false

/-! ## Executions -/

theorem acts_append (s : St) (h k : List Ev) : s.acts (h ++ k) = (s.acts h).bind fun s => s.acts k := by
  induction h generalizing s with
  | nil => rfl
  | cons e h ih =>
    simp only [List.cons_append, St.acts]
    cases s.act e with
    | none => rfl
    | some s1 => exact ih s1

theorem acts_snoc {s s2 : St} {h : List Ev} {e : Ev} (r : s.acts (h ++ [e]) = some s2) :
    ∃ s1, s.acts h = some s1 ∧ s1.act e = some s2 := by
  rw [acts_append] at r
  cases h1 : s.acts h with
  | none => simp [h1] at r
  | some s1 =>
    refine ⟨s1, rfl, ?_⟩
    simp only [h1, Option.bind_some, St.acts] at r
    cases h2 : s1.act e with
    | none => simp [h2] at r
    | some s3 => simp [h2] at r; simp [r]

/-- A property of history and state that holds at first and survives every event holds always. -/
theorem run_inv {P : List Ev → St → Prop} (h0 : P [] {})
    (hs : ∀ h s e s', run h = some s → P h s → s.act e = some s' → P (h ++ [e]) s') {h : List Ev} {s : St} (r : run h = some s) : P h s := by
  suffices H : ∀ n (h : List Ev) s, h.length = n → run h = some s → P h s from H _ h s rfl r
  intro n
  induction n with
  | zero =>
    intro h s hl r
    rw [List.length_eq_zero_iff] at hl
    subst hl
    cases r
    exact h0
  | succ n ih =>
    intro h s hl r
    rcases List.eq_nil_or_concat h with rfl | ⟨k, e, rfl⟩
    · cases hl
    · rw [List.concat_eq_append] at r hl ⊢
      obtain ⟨s1, r1, r2⟩ := acts_snoc r
      exact hs k s1 e s r1 (ih k s1 (by simpa using hl) r1) r2

/-! ## Fields a turn of the loop leaves alone -/

/-- Everything but timers, tasks, signal, thread. -/
structure Same (s s' : St) : Prop where
  stopped : s'.stopped = s.stopped
  evbase : s'.evbase = s.evbase
  evfd : s'.evfd = s.evfd
  notifier : s'.notifier = s.notifier
  starting : s'.starting = s.starting
  bases : s'.bases = s.bases
  fds : s'.fds = s.fds
  events : s'.events = s.events
  next : s'.next = s.next
  fate : s'.fate = s.fate

theorem foldl_drop (l : List Nat) (s : St) : Same s (l.foldl St.drop s) ∧ (l.foldl St.drop s).signal = s.signal ∧
    (l.foldl St.drop s).thread = s.thread ∧ (l.foldl St.drop s).tasks = s.tasks ∧ (l.foldl St.drop s).ran = s.ran := by
  induction l generalizing s with
  | nil => exact ⟨⟨rfl, rfl, rfl, rfl, rfl, rfl, rfl, rfl, rfl, rfl⟩, rfl, rfl, rfl, rfl⟩
  | cons i l ih =>
    obtain ⟨⟨a, b, c, d, e, f, g, h, i', j⟩, k⟩ := ih (s.drop i)
    exact ⟨⟨a, b, c, d, e, f, g, h, i', j⟩, k⟩

theorem foldl_arm (l : List Tm) (s : St) : Same s (l.foldl St.arm s) ∧ (l.foldl St.arm s).signal = s.signal ∧
    (l.foldl St.arm s).thread = s.thread ∧ (l.foldl St.arm s).tasks = s.tasks ∧ (l.foldl St.arm s).ran = s.ran := by
  induction l generalizing s with
  | nil => exact ⟨⟨rfl, rfl, rfl, rfl, rfl, rfl, rfl, rfl, rfl, rfl⟩, rfl, rfl, rfl, rfl⟩
  | cons i l ih =>
    obtain ⟨⟨a, b, c, d, e, f, g, h, i', j⟩, k⟩ := ih (s.arm i)
    exact ⟨⟨a, b, c, d, e, f, g, h, i', j⟩, k⟩

theorem onNotify_same (s : St) : Same s s.onNotify ∧ s.onNotify.signal = false ∧
    s.onNotify.thread = s.thread.map (Th.leave s.stopped) ∧ s.onNotify.tasks = [] ∧ s.onNotify.ran = s.ran ++ s.tasks := by
  unfold St.onNotify
  simp only
  have h1 := foldl_arm s.timers { s with signal := false, thread := s.thread.map (Th.leave s.stopped), ran := s.ran ++ s.tasks, tasks := [], timers := [] }
  generalize hg : List.foldl St.arm { s with signal := false, thread := s.thread.map (Th.leave s.stopped), ran := s.ran ++ s.tasks, tasks := [], timers := [] } s.timers = g at h1 ⊢
  have h2 := foldl_drop g.purging { g with purging := [] }
  obtain ⟨⟨a, b, c, d, e, f, g', h, i', j⟩, k, l, m, n⟩ := h1
  obtain ⟨⟨a2, b2, c2, d2, e2, f2, g2, h2, i2, j2⟩, k2, l2, m2, n2⟩ := h2
  exact ⟨⟨a2.trans a, b2.trans b, c2.trans c, d2.trans d, e2.trans e, f2.trans f, g2.trans g', h2.trans h, i2.trans i', j2.trans j⟩,
    k2.trans k, l2.trans l, m2.trans m, n2.trans n⟩

/-- What `start` creates. -/
def St.made (s : St) : St :=
  { s with
    evbase := some s.next, bases := s.next :: s.bases
    evfd := some (s.next + 1), fds := (s.next + 1) :: s.fds, signal := false
    notifier := some (s.next + 2), events := (s.next + 2) :: s.events, next := s.next + 3 }

/-- What an event did, in the terms the proofs need. -/
inductive Did (s : St) : Ev → St → Prop
  | refused {fd} (h : s.stopped = false) (hs : s.starting = false) : Did s (.start fd) s
  | failed (h : s.stopped = true) (hs : s.starting = false) :
      Did s (.start false) { s with evbase := some s.next, bases := s.next :: s.bases, next := s.next + 1, evfd := none }
  | terminated (h : s.stopped = true) (hs : s.starting = false) (t : Th) (ht : s.thread = some t) :
      Did s (.start true) { s.made with fate := .terminated }
  | launched (h : s.stopped = true) (hs : s.starting = false) (ht : s.thread = none) :
      Did s (.start true) { s.made with thread := some ⟨s.next, true, false⟩, starting := true }
  | started (hs : s.starting = true) : Did s .started { s with starting := false, stopped := false }
  | stopAgain (h : s.stopped = true) (hs : s.starting = false) : Did s .stop s
  | stop (h : s.stopped = false) (hs : s.starting = false) : Did s .stop { s with stopped := true, signal := s.signal || (s.notifier.isSome && s.evfd.isSome) }
  | waitNone (hs : s.starting = false) (ht : s.thread = none) : Did s .wait s
  | wait (hs : s.starting = false) (b x) (ht : s.thread = some ⟨b, false, x⟩) : Did s .wait { s with thread := none }
  | destroy (hs : s.starting = false) (h : s.stopped = true) (ht : s.thread = none) : Did s .destroy s.destroy
  | addTask (k) : Did s (.addTask k) { s with tasks := s.tasks ++ [k], signal := s.signal || (s.notifier.isSome && s.evfd.isSome) }
  | addTimer (t) : Did s (.addTimer t) { s with timers := s.timers ++ [t], signal := s.signal || (s.notifier.isSome && s.evfd.isSome) }
  | purge (i) : Did s (.purge i) { s with purging := s.purging ++ [i], signal := s.signal || (s.notifier.isSome && s.evfd.isSome) }
  | wake (b x) (ht : s.thread = some ⟨b, true, x⟩) (hg : s.signal = true) : Did s .wake s.onNotify
  | fire (i b x l) (ht : s.thread = some ⟨b, true, x⟩) (a : Armed) (ha : a ∈ s.active) (hi : a.t.id = i) (hb : a.base = b)
      (hl : l = if a.t.once then s.active.filter (fun a => a.t.id ≠ i) else s.active) :
      Did s (.fire i) { s with fired := s.fired ++ [i], active := l }
  | exit (b) (ht : s.thread = some ⟨b, true, true⟩) : Did s .exit { s with thread := some ⟨b, false, true⟩ }

theorem notify_eq (s : St) : s.notify = { s with signal := s.signal || (s.notifier.isSome && s.evfd.isSome) } := by
  unfold St.notify
  rcases s with ⟨_, _, _ | _, _ | _, _⟩ <;> simp

theorem act_did {s s' : St} {e : Ev} (h : s.act e = some s') : Did s e s' ∧ s.fate = .alive := by
  cases e with
  | start fd =>
    simp only [St.act] at h
    split at h
    · rename_i hc
      cases h
      refine ⟨?_, hc.1⟩
      unfold St.start
      split
      · rename_i hst; exact .refused hst hc.2
      · rename_i hst
        simp only [Bool.not_eq_false] at hst
        cases fd with
        | false => exact .failed hst hc.2
        | true =>
          cases ht : s.thread with
          | none => simp only [Bool.true_eq_false, if_false, Option.isSome_none, Bool.false_eq_true]; exact .launched hst hc.2 ht
          | some t =>
            have := Did.terminated hst hc.2 t ht
            simpa [ht, St.made] using this
    · cases h
  | started =>
    simp only [St.act] at h
    split at h
    · rename_i hc; cases h; exact ⟨.started hc.2, hc.1⟩
    · cases h
  | stop =>
    simp only [St.act] at h
    split at h
    · rename_i hc
      cases h
      refine ⟨?_, hc.1⟩
      unfold St.stop
      split
      · rename_i hst; exact .stopAgain hst hc.2
      · rename_i hst
        simp only [Bool.not_eq_true] at hst
        rw [notify_eq]; exact .stop hst hc.2
    · cases h
  | wait =>
    simp only [St.act] at h
    split at h
    · rename_i hc
      cases ht : s.thread with
      | none => simp [ht] at h; subst h; exact ⟨.waitNone hc.2 ht, hc.1⟩
      | some t =>
        obtain ⟨b, r, x⟩ := t
        cases r with
        | true => simp [ht] at h
        | false => simp [ht] at h; subst h; exact ⟨.wait hc.2 b x ht, hc.1⟩
    · cases h
  | destroy =>
    simp only [St.act] at h
    split at h
    · rename_i hc; cases h; exact ⟨.destroy hc.2.1 hc.2.2.1 hc.2.2.2, hc.1⟩
    · cases h
  | addTask k =>
    simp only [St.act, notify_eq] at h
    split at h
    · rename_i hc; cases h; exact ⟨.addTask k, hc⟩
    · cases h
  | addTimer k =>
    simp only [St.act, notify_eq] at h
    split at h
    · rename_i hc; cases h; exact ⟨.addTimer k, hc⟩
    · cases h
  | purge k =>
    simp only [St.act, notify_eq] at h
    split at h
    · rename_i hc; cases h; exact ⟨.purge k, hc⟩
    · cases h
  | wake =>
    simp only [St.act] at h
    split at h
    · rename_i b x ht
      split at h
      · rename_i hc; cases h; exact ⟨.wake b x ht hc.2, hc.1⟩
      · cases h
    · cases h
  | fire i =>
    simp only [St.act] at h
    split at h
    · rename_i b x ht
      split at h
      · rename_i a ha
        split at h
        · rename_i hc
          have hm := List.mem_of_find?_eq_some ha
          have hp := List.find?_some ha
          simp at hp
          refine ⟨?_, hc.1⟩
          have := Did.fire (s := s) i b x _ ht a hm hp hc.2 rfl
          cases h
          cases ho : a.t.once <;> simpa [ho, St.drop] using this
        · cases h
      · cases h
    · cases h
  | exit =>
    simp only [St.act] at h
    split at h
    · rename_i b ht
      split at h
      · rename_i hc; cases h; exact ⟨.exit b ht, hc⟩
      · cases h
    · cases h

/-! ## Invariants -/

structure Inv (s : St) : Prop where
  starting : s.starting = true → s.thread.isSome = true ∧ s.stopped = true
  made : s.starting = true ∨ s.stopped = false → s.notifier.isSome = true ∧ s.evfd.isSome = true
  based : s.thread.isSome = true → s.evbase.isSome = true
  signal : s.stopped = true → s.starting = false → ∀ b, s.thread = some ⟨b, true, false⟩ → s.signal = true

theorem run_alive {h : List Ev} {s : St} (r : run h = some s) : s.fate = .alive → Inv s := by
  refine run_inv (P := fun _ s => s.fate = .alive → Inv s) ?_ ?_ r
  · intro _; exact ⟨by simp, by simp, by simp, by simp⟩
  · intro h s e s' _ ih a hf
    obtain ⟨d, al⟩ := act_did a
    obtain ⟨i1, i2, i3, i4⟩ := ih al
    cases d with
    | refused h hs => exact ⟨i1, i2, i3, i4⟩
    | failed h hs => exact ⟨i1, by simp [h, hs], by simp, i4⟩
    | terminated h hs t ht => cases hf
    | launched h hs ht => exact ⟨by simp [St.made, h], by simp [St.made], by simp [St.made], by simp [St.made]⟩
    | started hs => exact ⟨by simp, fun _ => i2 (.inl hs), i3, by simp⟩
    | stopAgain h hs => exact ⟨i1, i2, i3, i4⟩
    | stop h hs =>
      obtain ⟨n1, n2⟩ := i2 (.inr h)
      exact ⟨by simp [hs], by simp [hs], i3, by simp [n1, n2]⟩
    | waitNone hs ht => exact ⟨i1, i2, i3, i4⟩
    | wait hs b x ht => exact ⟨by simp [hs], i2, by simp, by simp⟩
    | destroy hs h ht =>
      exfalso
      revert hf
      simp only [St.destroy]
      split <;> simp
    | addTask k => exact ⟨i1, i2, i3, fun h hs b hb => by simp [i4 h hs b hb]⟩
    | addTimer k => exact ⟨i1, i2, i3, fun h hs b hb => by simp [i4 h hs b hb]⟩
    | purge k => exact ⟨i1, i2, i3, fun h hs b hb => by simp [i4 h hs b hb]⟩
    | wake b x ht hg =>
      obtain ⟨q, q1, q2, q3, q4⟩ := onNotify_same s
      refine ⟨?_, ?_, ?_, ?_⟩
      · rw [q.starting, q2, q.stopped, ht]; intro h; exact ⟨rfl, (i1 h).2⟩
      · rw [q.starting, q.stopped, q.notifier, q.evfd]; exact i2
      · rw [q.evbase]; intro _; exact i3 (by simp [ht])
      · rw [q.starting, q.stopped, q2, ht]
        intro h _ b' hb
        simp [Th.leave, h] at hb
    | fire i b x l ht a ha hi hb hl => exact ⟨i1, i2, i3, i4⟩
    | exit b ht =>
      exact ⟨fun h => ⟨rfl, (i1 h).2⟩, i2, fun _ => i3 (by simp [ht]), by simp⟩

/-! ## C135: starting again -/

theorem thread_history {h : List Ev} {s : St} (r : run h = some s) : (s.fate = .alive → s.thread.isSome = true → s.starting = false →
      ∃ a b, h = a ++ [.started] ++ b ∧ .wait ∉ b ∧ (s.stopped = true → .stop ∈ b)) ∧
    (s.fate = .terminated → ∃ a b, h = a ++ [.started] ++ b ++ [.start true] ∧ .stop ∈ b ∧ .wait ∉ b) := by
  refine run_inv (P := fun h s => (s.fate = .alive → s.thread.isSome = true → s.starting = false →
      ∃ a b, h = a ++ [.started] ++ b ∧ .wait ∉ b ∧ (s.stopped = true → .stop ∈ b)) ∧
    (s.fate = .terminated → ∃ a b, h = a ++ [.started] ++ b ++ [.start true] ∧ .stop ∈ b ∧ .wait ∉ b)) ?_ ?_ r
  · exact ⟨by simp, by simp⟩
  · intro h s e s' _ ih a
    obtain ⟨d, al⟩ := act_did a
    have ext : ∀ x, x ≠ .wait → s.thread.isSome = true → s.starting = false →
        ∃ a b, h ++ [x] = a ++ [.started] ++ b ∧ .wait ∉ b ∧ (s.stopped = true ∨ x = .stop → .stop ∈ b) := by
      intro x hx ht hs
      obtain ⟨a, b, rfl, hw, hp⟩ := ih.1 al ht hs
      refine ⟨a, b ++ [x], by simp, by simp [hw, Ne.symm hx], ?_⟩
      rintro (h | h)
      · simp [hp h]
      · simp [h]
    have ext' : ∀ x, x ≠ .wait → s.thread.isSome = true → s.starting = false →
        ∃ a b, h ++ [x] = a ++ [.started] ++ b ∧ .wait ∉ b ∧ (s.stopped = true → .stop ∈ b) := by
      intro x hx ht hs
      obtain ⟨a, b, h1, h2, h3⟩ := ext x hx ht hs
      exact ⟨a, b, h1, h2, fun h => h3 (.inl h)⟩
    cases d with
    | refused h hs => exact ⟨fun _ ht _ => ext' _ (by simp) ht hs, by simp [al]⟩
    | failed h hs => exact ⟨fun _ ht _ => ext' _ (by simp) ht hs, by simp [al]⟩
    | terminated h hs t ht =>
      refine ⟨by simp, fun _ => ?_⟩
      obtain ⟨a, b, rfl, hw, hp⟩ := ih.1 al (by simp [ht]) hs
      exact ⟨a, b, rfl, hp h, hw⟩
    | launched h hs ht => exact ⟨by simp, by simp [St.made, al]⟩
    | started hs => exact ⟨fun _ _ _ => ⟨h, [], by simp, by simp, by simp⟩, by simp [al]⟩
    | stopAgain h hs => exact ⟨fun _ ht _ => ext' _ (by simp) ht hs, by simp [al]⟩
    | stop h hs =>
      refine ⟨fun _ ht _ => ?_, by simp [al]⟩
      obtain ⟨a, b, h1, h2, h3⟩ := ext .stop (by simp) ht hs
      exact ⟨a, b, h1, h2, fun _ => h3 (.inr rfl)⟩
    | waitNone hs ht => exact ⟨by simp [ht], by simp [al]⟩
    | wait hs b x ht => exact ⟨by simp, by simp [al]⟩
    | destroy hs h ht =>
      have : s.destroy.fate ≠ .alive ∧ s.destroy.fate ≠ .terminated := by
        simp only [St.destroy]; split <;> simp
      exact ⟨fun h => absurd h this.1, fun h => absurd h this.2⟩
    | addTask k => exact ⟨fun _ ht hs => ext' _ (by simp) ht hs, by simp [al]⟩
    | addTimer k => exact ⟨fun _ ht hs => ext' _ (by simp) ht hs, by simp [al]⟩
    | purge k => exact ⟨fun _ ht hs => ext' _ (by simp) ht hs, by simp [al]⟩
    | wake b x ht hg =>
      obtain ⟨q, q1, q2, q3, q4⟩ := onNotify_same s
      refine ⟨fun _ _ hs => ?_, by simp [q.fate, al]⟩
      rw [q.starting] at hs
      rw [q.stopped]
      exact ext' _ (by simp) (by simp [ht]) hs
    | fire i b x l ht a ha hi hb hl => exact ⟨fun _ ht hs => ext' _ (by simp) ht hs, by simp [al]⟩
    | exit b ht => exact ⟨fun _ _ hs => ext' _ (by simp) (by simp [ht]) hs, by simp [al]⟩

theorem still_there {a : List Ev} : ∀ (n : Nat) {b : List Ev} {s : St}, b.length = n → run (a ++ [.started] ++ b) = some s → .wait ∉ b → s.fate = .alive →
    s.thread.isSome = true ∧ s.starting = false ∧ (.stop ∈ b → s.stopped = true) := by
  intro n
  induction n with
  | zero =>
    intro b s hl r _ _
    rw [List.length_eq_zero_iff] at hl
    subst hl
    rw [List.append_nil] at r
    obtain ⟨s1, r1, r2⟩ := acts_snoc r
    obtain ⟨d, al⟩ := act_did r2
    cases d with
    | started hs => exact ⟨((run_alive r1 al).starting hs).1, rfl, by simp⟩
  | succ n ih =>
    intro b s hl r hw hf
    rcases List.eq_nil_or_concat b with rfl | ⟨k, e, rfl⟩
    · cases hl
    · rw [List.concat_eq_append] at r hl hw ⊢
      rw [← List.append_assoc] at r
      obtain ⟨s1, r1, r2⟩ := acts_snoc r
      obtain ⟨d, al⟩ := act_did r2
      simp only [List.mem_append, List.mem_singleton, not_or] at hw ⊢
      obtain ⟨j1, j2, j3⟩ := ih (by simpa using hl) r1 hw.1 al
      cases d with
      | refused h hs => exact ⟨j1, j2, by simpa using j3⟩
      | failed h hs => exact ⟨j1, j2, by simp [h]⟩
      | terminated h hs t ht => cases hf
      | launched h hs ht => simp [ht] at j1
      | started hs => simp [j2] at hs
      | stopAgain h hs => exact ⟨j1, j2, by simp [h]⟩
      | stop h hs => exact ⟨j1, j2, by simp⟩
      | waitNone hs ht => simp at hw
      | wait hs b x ht => simp at hw
      | destroy hs h ht => simp [ht] at j1
      | addTask k => exact ⟨j1, j2, by simpa using j3⟩
      | addTimer k => exact ⟨j1, j2, by simpa using j3⟩
      | purge k => exact ⟨j1, j2, by simpa using j3⟩
      | wake b x ht hg =>
        obtain ⟨q, q1, q2, q3, q4⟩ := onNotify_same s1
        rw [q.starting, q.stopped, q2]
        exact ⟨by simp [ht], j2, by simpa using j3⟩
      | fire i b x l ht a ha hi hb hl => exact ⟨j1, j2, by simpa using j3⟩
      | exit b ht => exact ⟨rfl, j2, by simpa using j3⟩

/-- C135: the process is ended by the worker exactly when a worker that was started and stopped is started
again although it has not been waited for since. -/
theorem C135_terminates {h : List Ev} {s : St} (r : run h = some s) :
    s.fate = .terminated ↔ ∃ a b, h = a ++ [.started] ++ b ++ [.start true] ∧ .stop ∈ b ∧ .wait ∉ b := by
  constructor
  · exact (thread_history r).2
  · rintro ⟨a, b, rfl, hp, hw⟩
    obtain ⟨s1, r1, r2⟩ := acts_snoc r
    obtain ⟨d, al⟩ := act_did r2
    obtain ⟨j1, j2, j3⟩ := still_there _ rfl r1 hw al
    cases d with
    | refused h hs => simp [j3 hp] at h
    | terminated h hs t ht => rfl
    | launched h hs ht => simp [ht] at j1

/-- C135 (violated): starting a stopped worker that has not been waited for ends the process, even if
its thread has ended long ago. -/
theorem C135_start_again_violated : ∃ s, run [.start true, .started, .stop, .wake, .exit, .start true] = some s ∧ s.fate = .terminated :=
  ⟨_, rfl, rfl⟩

/-! ## C135: stopping -/

/-- C135: once a worker is stopped, its own thread needs at most two turns until `wait` returns. -/
theorem C135_stop_wait {h : List Ev} {s : St} (r : run h = some s) (ha : s.fate = .alive) (hs : s.starting = false) (hp : s.stopped = true) :
    ∃ k s', k.Sublist [.wake, .exit] ∧ s.acts (k ++ [.wait]) = some s' ∧ s'.thread = none := by
  have i := run_alive r ha
  cases ht : s.thread with
  | none => exact ⟨[], s, by simp, by simp [St.acts, St.act, ha, hs, ht], ht⟩
  | some t =>
    obtain ⟨b, rn, x⟩ := t
    cases rn with
    | false => exact ⟨[], { s with thread := none }, by simp, by simp [St.acts, St.act, ha, hs, ht], rfl⟩
    | true =>
      cases x with
      | true => exact ⟨[.exit], { s with thread := none }, by simp, by simp [St.acts, St.act, ha, hs, ht], rfl⟩
      | false =>
        have hg := i.signal hp hs b ht
        obtain ⟨q, q1, q2, q3, q4⟩ := onNotify_same s
        have ht2 : s.onNotify.thread = some ⟨b, true, true⟩ := by rw [q2, ht]; simp [Th.leave, hp]
        refine ⟨[.wake, .exit], { s.onNotify with thread := none }, by simp, ?_, rfl⟩
        simp [St.acts, St.act, ha, hs, ht, hg, ht2, q.fate, q.starting]

example : ∃ s, run [.start true, .started, .addTask 7, .stop] = some s ∧ s.fate = .alive ∧ s.starting = false ∧ s.stopped = true ∧ s.thread.isSome = true :=
  ⟨_, rfl, rfl, rfl, rfl, rfl⟩

theorem quiet_prefix {h k : List Ev} (q : QuietStarts (h ++ k)) : QuietStarts h := by
  intro a e c s hh
  exact q a e (c ++ k) s (by simp [hh])

theorem healthy {h : List Ev} {s : St} (r : run h = some s) (q : QuietStarts h) : s.fate = .alive → s.starting = true ∨ s.stopped = false →
    (∃ b, s.thread = some ⟨b, true, false⟩) ∧ (s.starting = true → s.signal = false) := by
  revert q
  refine run_inv (P := fun h s => QuietStarts h → s.fate = .alive → s.starting = true ∨ s.stopped = false →
    (∃ b, s.thread = some ⟨b, true, false⟩) ∧ (s.starting = true → s.signal = false)) ?_ ?_ r
  · simp
  · intro h s e s' r ih a q hf hc
    obtain ⟨d, al⟩ := act_did a
    have ih := ih (quiet_prefix q) al
    have qe : s.starting = true → e.notifies = false := q h e [] s (by simp) r
    cases d with
    | refused h hs => exact ih hc
    | failed h hs => simp [hs, h] at hc
    | terminated h hs t ht => cases hf
    | launched h hs ht => exact ⟨⟨_, rfl⟩, fun _ => rfl⟩
    | started hs => exact ⟨(ih (.inl hs)).1, by simp⟩
    | stopAgain h hs => exact ih hc
    | stop h hs => simp [hs] at hc
    | waitNone hs ht => exact ih hc
    | wait hs b x ht =>
      obtain ⟨⟨b', hb⟩, _⟩ := ih hc
      simp [ht] at hb
    | destroy hs h ht =>
      exfalso
      revert hf
      simp only [St.destroy]
      split <;> simp
    | addTask k => exact ⟨(ih hc).1, fun h => by simp [Ev.notifies] at qe; simp [qe] at h⟩
    | addTimer k => exact ⟨(ih hc).1, fun h => by simp [Ev.notifies] at qe; simp [qe] at h⟩
    | purge k => exact ⟨(ih hc).1, fun h => by simp [Ev.notifies] at qe; simp [qe] at h⟩
    | wake b x ht hg =>
      obtain ⟨p, q1, q2, q3, q4⟩ := onNotify_same s
      rw [p.starting, p.stopped] at hc
      obtain ⟨⟨b', hb⟩, h2⟩ := ih hc
      have hns : s.starting = false := by
        cases hst : s.starting with
        | false => rfl
        | true => simp [h2 hst] at hg
      have hsp : s.stopped = false := by simpa [hns] using hc
      rw [p.starting, q2, hb]
      exact ⟨⟨b', by simp [Th.leave, hsp]⟩, by simp [hns]⟩
    | fire i b x l ht a ha hi hb hl => exact ih hc
    | exit b ht =>
      obtain ⟨⟨b', hb⟩, _⟩ := ih hc
      simp [ht] at hb

/-- C135, for workers nobody uses while they are being started: from the end of `start` to `stop` the
thread of the worker is there and handles what is added. -/
theorem C135_running_partial {h : List Ev} {s : St} (r : run h = some s) (q : QuietStarts h) (ha : s.fate = .alive) (hp : s.stopped = false) :
    ∃ b, s.thread = some ⟨b, true, false⟩ := (healthy r q ha (.inr hp)).1

/-- C135 (violated): a task added while `start` is under way ends the thread of the worker: `start`
returns true, but no task ever runs until the worker is stopped, waited for and started again. -/
theorem C135_running_violated (j : Nat) : ∃ s, run [.start true, .addTask j, .wake, .exit, .started] = some s ∧ s.fate = .alive ∧ s.stopped = false ∧
    ∀ k s', .stop ∉ k → s.acts k = some s' → s'.ran = s.ran := by
  refine ⟨_, rfl, rfl, rfl, ?_⟩
  suffices H : ∀ (k : List Ev) (s s' : St), s.starting = false → s.stopped = false → (∀ b x, s.thread ≠ some ⟨b, true, x⟩) → .stop ∉ k →
      s.acts k = some s' → s'.ran = s.ran by
    intro k s' hk r
    exact H k _ s' rfl rfl (by simp) hk r
  intro k
  induction k with
  | nil => intro s s' _ _ _ _ r; cases r; rfl
  | cons e k ih =>
    intro s s' hs hp ht hk r
    simp only [St.acts] at r
    cases h1 : s.act e with
    | none => simp [h1] at r
    | some s1 =>
      simp only [h1, Option.bind_some] at r
      obtain ⟨d, al⟩ := act_did h1
      simp only [List.mem_cons, not_or] at hk
      cases d with
      | refused h _ => exact ih _ _ hs hp ht hk.2 r
      | failed h _ => simp [hp] at h
      | terminated h _ t _ => simp [hp] at h
      | launched h _ _ => simp [hp] at h
      | started h => simp [hs] at h
      | stopAgain h _ => simp [hp] at h
      | stop h _ => simp at hk
      | waitNone _ h => exact ih _ _ hs hp ht hk.2 r
      | wait _ b x h => exact ih { s with thread := none } _ hs hp (by simp) hk.2 r
      | destroy _ h _ => simp [hp] at h
      | addTask k => exact ih { s with tasks := s.tasks ++ [k], signal := _ } _ hs hp ht hk.2 r
      | addTimer t => exact ih { s with timers := s.timers ++ [t], signal := _ } _ hs hp ht hk.2 r
      | purge i => exact ih { s with purging := s.purging ++ [i], signal := _ } _ hs hp ht hk.2 r
      | wake b x h _ => exact absurd h (ht b x)
      | fire i b x l h a ha hi hb hl => exact absurd h (ht b x)
      | exit b h => exact absurd h (ht b true)

/-! ## C135: tasks -/

theorem added_snoc (h : List Ev) (e : Ev) : added (h ++ [e]) = added h ++ added [e] := by simp [added]

/-- C135: however often a worker is started and stopped, the tasks that ran and those still waiting are
the tasks added, each once and in order. -/
theorem C135_tasks {h : List Ev} {s : St} (r : run h = some s) : s.ran ++ s.tasks = added h := by
  refine run_inv (P := fun h s => s.ran ++ s.tasks = added h) rfl ?_ r
  intro h s e s' _ ih a
  obtain ⟨d, al⟩ := act_did a
  rw [added_snoc, ← ih]
  cases d with
  | destroy hs h ht =>
    simp only [St.destroy]
    split <;> simp [added]
  | wake b x ht hg =>
    obtain ⟨q, q1, q2, q3, q4⟩ := onNotify_same s
    rw [q3, q4]; simp [added]
  | _ => simp [added, St.made]

/-- C135, for workers nobody uses while they are being started: when `wait` returns after a `stop`, all
tasks added before the `stop` have run. -/
theorem C135_before_stop_partial {a b : List Ev} {s0 s : St} (r0 : run a = some s0) (hp : s0.stopped = false) (q : QuietStarts a)
    (r : run (a ++ [.stop] ++ b ++ [.wait]) = some s) (hw : .wait ∉ b) : added a <+: s.ran := by
  suffices H : ∀ n (b : List Ev) s, b.length = n → .wait ∉ b → run (a ++ [.stop] ++ b) = some s →
      (added a <+: s.ran) ∨ (s.signal = true ∧ ∃ b, s.thread = some ⟨b, true, false⟩) ∨ s.fate ≠ .alive by
    obtain ⟨s1, r1, r2⟩ := acts_snoc r
    obtain ⟨d, al⟩ := act_did r2
    rcases H _ b s1 rfl hw r1 with h | ⟨_, b', h⟩ | h
    · cases d with
      | waitNone _ _ => exact h
      | wait _ _ _ _ => exact h
    · cases d with
      | waitNone _ h2 => simp [h] at h2
      | wait _ _ _ h2 => simp [h] at h2
    · exact absurd al h
  intro n
  induction n with
  | zero =>
    intro b s hl _ r
    rw [List.length_eq_zero_iff] at hl
    subst hl
    rw [List.append_nil] at r
    obtain ⟨s1, r1, r2⟩ := acts_snoc r
    cases r0.symm.trans r1
    obtain ⟨d, al⟩ := act_did r2
    cases d with
    | stopAgain h hs => simp [hp] at h
    | stop h hs =>
      obtain ⟨n1, n2⟩ := (run_alive r0 al).made (.inr h)
      exact .inr (.inl ⟨by simp [n1, n2], (healthy r0 q al (.inr h)).1⟩)
  | succ n ih =>
    intro b s hl hw r
    rcases List.eq_nil_or_concat b with rfl | ⟨k, e, rfl⟩
    · cases hl
    · rw [List.concat_eq_append] at r hl hw
      rw [← List.append_assoc] at r
      obtain ⟨s1, r1, r2⟩ := acts_snoc r
      obtain ⟨d, al⟩ := act_did r2
      simp only [List.mem_append, List.mem_singleton, not_or] at hw
      have ih : (added a <+: s1.ran) ∨ (s1.signal = true ∧ ∃ b, s1.thread = some ⟨b, true, false⟩) := by
        rcases ih k s1 (by simpa using hl) hw.1 r1 with h | h | h
        · exact .inl h
        · exact .inr h
        · exact absurd al h
      cases d with
      | refused h hs => rw [← or_assoc]; exact .inl ih
      | failed h hs => rw [← or_assoc]; exact .inl ih
      | terminated h hs t ht => exact .inr (.inr (by simp))
      | launched h hs ht =>
        rcases ih with ih | ⟨_, b', ih⟩
        · exact .inl ih
        · simp [ht] at ih
      | started hs => rw [← or_assoc]; exact .inl ih
      | stopAgain h hs => rw [← or_assoc]; exact .inl ih
      | stop h hs =>
        rcases ih with ih | ⟨h1, ih⟩
        · exact .inl ih
        · exact .inr (.inl ⟨by simp [h1], ih⟩)
      | waitNone hs ht => simp at hw
      | wait hs b x ht => simp at hw
      | destroy hs h ht =>
        refine .inr (.inr ?_)
        simp only [St.destroy]
        split <;> simp
      | addTask k =>
        rcases ih with ih | ⟨h1, ih⟩
        · exact .inl ih
        · exact .inr (.inl ⟨by simp [h1], ih⟩)
      | addTimer k =>
        rcases ih with ih | ⟨h1, ih⟩
        · exact .inl ih
        · exact .inr (.inl ⟨by simp [h1], ih⟩)
      | purge k =>
        rcases ih with ih | ⟨h1, ih⟩
        · exact .inl ih
        · exact .inr (.inl ⟨by simp [h1], ih⟩)
      | wake b x ht hg =>
        refine .inl ?_
        obtain ⟨q, q1, q2, q3, q4⟩ := onNotify_same s1
        have h1 := C135_tasks r1
        rw [q4, h1]
        simp [added]
      | fire i b x l ht a ha hi hb hl => rw [← or_assoc]; exact .inl ih
      | exit b ht =>
        rcases ih with ih | ⟨_, b', ih⟩
        · exact .inl ih
        · simp [ht] at ih

example : ∃ s, run ([.start true, .started, .addTask 7, .addTask 8] ++ [.stop] ++ [.addTask 9, .wake, .exit] ++ [.wait]) = some s ∧ s.ran = [7, 8, 9] :=
  ⟨_, rfl, rfl⟩

/-! ## C135: what is left over -/

/-- Of `k` things made, the last one is `o`; the others are named before it. -/
def Top (o : Option Nat) (l : List Nat) (n k : Nat) : Prop :=
  (o = none ∧ l = [] ∧ k = 0) ∨ ∃ b old, o = some b ∧ l = b :: old ∧ old.length + 1 = k ∧ b < n ∧ ∀ x ∈ old, x < b

theorem Top.push {o : Option Nat} {l : List Nat} {n k m : Nat} (h : Top o l n k) (hm : n ≤ m) : Top (some m) (m :: l) (m + 1) (k + 1) := by
  refine .inr ⟨m, l, rfl, rfl, ?_, by omega, ?_⟩
  · rcases h with ⟨_, rfl, rfl⟩ | ⟨b, old, _, rfl, h, _⟩
    · rfl
    · simp [h]
  · rcases h with ⟨_, rfl, rfl⟩ | ⟨b, old, _, rfl, h, hb, ho⟩
    · simp
    · intro x hx
      rcases List.mem_cons.1 hx with rfl | hx
      · omega
      · have := ho x hx; omega

theorem Top.mono {o : Option Nat} {l : List Nat} {n k m : Nat} (h : Top o l n k) (hm : n ≤ m) : Top o l m k := by
  rcases h with h | ⟨b, old, h1, h2, h3, h4, h5⟩
  · exact .inl h
  · exact .inr ⟨b, old, h1, h2, h3, by omega, h5⟩

theorem Top.freed {o : Option Nat} {l : List Nat} {n k : Nat} (h : Top o l n k) : (l.filter fun x => some x ≠ o).length = k - 1 := by
  rcases h with ⟨rfl, rfl, rfl⟩ | ⟨b, old, rfl, rfl, rfl, hb, ho⟩
  · rfl
  · have : old.filter (fun x => decide (some x ≠ some b)) = old := by
      rw [List.filter_eq_self]
      intro x hx
      have := ho x hx
      simp; omega
    rw [List.filter_cons]
    simp only [ne_eq, not_true_eq_false, decide_false, Bool.false_eq_true, if_false] at this ⊢
    rw [this]; omega

theorem starts_snoc (h : List Ev) (e : Ev) : starts (h ++ [e]) = starts h + starts [e] := by simp [starts]

theorem held {h : List Ev} {s : St} (r : run h = some s) (hf : .start false ∉ h) :
    (s.fate = .alive → Top s.evbase s.bases s.next (starts h + s.starting.toNat) ∧ Top s.evfd s.fds s.next (starts h + s.starting.toNat) ∧
      Top s.notifier s.events s.next (starts h + s.starting.toNat)) ∧
    (s.fate = .destroyed ∨ s.fate = .usedFreed → s.bases.length = starts h - 1 ∧ s.fds.length = starts h - 1 ∧ s.events.length = starts h - 1) := by
  revert hf
  refine run_inv (P := fun h s => .start false ∉ h →
    (s.fate = .alive → Top s.evbase s.bases s.next (starts h + s.starting.toNat) ∧ Top s.evfd s.fds s.next (starts h + s.starting.toNat) ∧
      Top s.notifier s.events s.next (starts h + s.starting.toNat)) ∧
    (s.fate = .destroyed ∨ s.fate = .usedFreed → s.bases.length = starts h - 1 ∧ s.fds.length = starts h - 1 ∧ s.events.length = starts h - 1)) ?_ ?_ r
  · intro _
    exact ⟨fun _ => ⟨.inl ⟨rfl, rfl, rfl⟩, .inl ⟨rfl, rfl, rfl⟩, .inl ⟨rfl, rfl, rfl⟩⟩, by simp⟩
  · intro h s e s' _ ih a hf
    obtain ⟨d, al⟩ := act_did a
    simp only [List.mem_append, List.mem_singleton, not_or] at hf
    obtain ⟨t1, t2, t3⟩ := (ih hf.1).1 al
    have hn : s.fate ≠ .destroyed ∧ s.fate ≠ .usedFreed := by simp [al]
    rw [starts_snoc]
    cases d with
    | failed h hs => simp at hf
    | terminated h hs t ht => exact ⟨by simp, by simp⟩
    | launched h hs ht =>
      refine ⟨fun _ => ?_, by simp [St.made, al]⟩
      simp only [St.made, hs, Bool.toNat_false, Nat.add_zero, Bool.toNat_true, starts, List.count_singleton] at t1 t2 t3 ⊢
      exact ⟨(t1.push (Nat.le_refl _)).mono (by omega), (t2.push (by omega)).mono (by omega), t3.push (by omega)⟩
    | started hs =>
      simp only [hs, Bool.toNat_true, Bool.toNat_false, starts, List.count_singleton, beq_self_eq_true, if_true, Nat.add_zero] at t1 t2 t3 ⊢
      exact ⟨fun _ => ⟨t1, t2, t3⟩, by simp [al]⟩
    | destroy hs h ht =>
      have hna : s.destroy.fate ≠ .alive := by simp only [St.destroy]; split <;> simp
      refine ⟨fun h => absurd h hna, fun _ => ?_⟩
      simp only [hs, Bool.toNat_false, Nat.add_zero] at t1 t2 t3
      have e1 : s.destroy.bases = s.bases.filter fun x => some x ≠ s.evbase := by simp only [St.destroy]; split <;> rfl
      have e2 : s.destroy.fds = s.fds.filter fun x => some x ≠ s.evfd := by simp only [St.destroy]; split <;> rfl
      have e3 : s.destroy.events = s.events.filter fun x => some x ≠ s.notifier := by simp only [St.destroy]; split <;> rfl
      rw [e1, e2, e3]
      exact ⟨t1.freed, t2.freed, t3.freed⟩
    | wake b x ht hg =>
      obtain ⟨q, q1, q2, q3, q4⟩ := onNotify_same s
      rw [q.evbase, q.bases, q.next, q.starting, q.evfd, q.fds, q.notifier, q.events, q.fate]
      exact ⟨fun _ => ⟨t1, t2, t3⟩, fun h => by simp [al] at h⟩
    | _ => exact ⟨fun _ => ⟨t1, t2, t3⟩, fun h => by simp [al] at h⟩

/-- C135: a worker started at most once leaves nothing behind when it is destroyed. -/
theorem C135_freed_partial {h : List Ev} {s : St} (r : run h = some s) (hf : .start false ∉ h) (h1 : starts h ≤ 1) (hd : s.fate = .destroyed) :
    s.bases = [] ∧ s.fds = [] ∧ s.events = [] := by
  obtain ⟨a, b, c⟩ := (held r hf).2 (.inl hd)
  have h0 : starts h - 1 = 0 := by omega
  rw [h0] at a b c
  exact ⟨List.length_eq_zero_iff.1 a, List.length_eq_zero_iff.1 b, List.length_eq_zero_iff.1 c⟩

example : ∃ s, run [.start true, .started, .addTask 1, .wake, .stop, .wake, .exit, .wait, .destroy] = some s ∧ s.fate = .destroyed := ⟨_, rfl, rfl⟩

/-- C135 (violated): every further start leaves an event base, a descriptor and an event behind for good. -/
theorem C135_freed_violated {h : List Ev} {s : St} (r : run h = some s) (hf : .start false ∉ h) (hd : s.fate = .destroyed) :
    s.bases.length = starts h - 1 ∧ s.fds.length = starts h - 1 ∧ s.events.length = starts h - 1 := (held r hf).2 (.inl hd)

/-- Any number of cycles is possible, and the worker can be destroyed after them. -/
theorem C135_cycles (n : Nat) : ∃ h s, run h = some s ∧ starts h = n ∧ .start false ∉ h ∧ s.fate = .destroyed := by
  suffices H : ∃ h s, run h = some s ∧ starts h = n ∧ .start false ∉ h ∧ s.fate = .alive ∧ s.starting = false ∧ s.stopped = true ∧ s.thread = none ∧
      s.active = [] ∧ s.timers = [] ∧ s.purging = [] by
    obtain ⟨h, s, r, h1, h2, h3, h4, h5, h6, h7, _⟩ := H
    refine ⟨h ++ [.destroy], s.destroy, ?_, by simp [starts_snoc, h1]; rfl, by simp [h2], by simp [St.destroy, h7]⟩
    show ({} : St).acts _ = _
    rw [acts_append, show ({} : St).acts h = some s from r]
    simp [St.acts, St.act, h3, h4, h5, h6]
  induction n with
  | zero => exact ⟨[], {}, rfl, rfl, by simp, rfl, rfl, rfl, rfl, rfl, rfl, rfl⟩
  | succ n ih =>
    obtain ⟨h, s, r, h1, h2, h3, h4, h5, h6, h7, h8, h9⟩ := ih
    have hc : (s.acts [.start true, .started, .stop, .wake, .exit, .wait]).isSome = true := by
      simp [St.acts, St.act, St.start, St.stop, St.notify, St.onNotify, Th.leave, h3, h4, h5, h6, h8, h9]
    obtain ⟨s', hs'⟩ := Option.isSome_iff_exists.1 hc
    refine ⟨h ++ [.start true, .started, .stop, .wake, .exit, .wait], s', ?_, ?_, by simp [h2], ?_⟩
    · show ({} : St).acts _ = _
      rw [acts_append, show ({} : St).acts h = some s from r]
      exact hs'
    · simp only [starts, List.count_append] at h1 ⊢
      rw [h1]; rfl
    · simp [St.acts, St.act, St.start, St.stop, St.notify, St.onNotify, Th.leave, h3, h4, h5, h6, h8, h9] at hs'
      rw [← hs']
      simp [h7]

/-! ## C135: timers left when the worker is destroyed -/

theorem armed_bases {h : List Ev} {s : St} (r : run h = some s) : s.fate = .alive → (∀ b, s.evbase = some b → b ∈ s.bases) ∧ ∀ a ∈ s.active, a.base ∈ s.bases := by
  have arms : ∀ (l : List Tm) (s : St) (b : Nat), s.evbase = some b → b ∈ s.bases → (∀ a ∈ s.active, a.base ∈ s.bases) →
      ∀ a ∈ (l.foldl St.arm s).active, a.base ∈ s.bases := by
    intro l
    induction l with
    | nil => intro s b _ _ h; exact h
    | cons t l ih =>
      intro s b hb hm h
      refine ih (s.arm t) b hb hm ?_
      intro a ha
      simp only [St.arm, List.mem_cons, List.mem_filter] at ha
      rcases ha with rfl | ha
      · simp only [hb, Option.getD_some]; exact hm
      · exact h a ha.1
  have drops : ∀ (l : List Nat) (s : St), ∀ a ∈ (l.foldl St.drop s).active, a ∈ s.active := by
    intro l
    induction l with
    | nil => intro s a h; exact h
    | cons i l ih => intro s a ha; exact (List.mem_filter.1 (ih (s.drop i) a ha)).1
  refine run_inv (P := fun _ s => s.fate = .alive → (∀ b, s.evbase = some b → b ∈ s.bases) ∧ ∀ a ∈ s.active, a.base ∈ s.bases) ?_ ?_ r
  · intro _; exact ⟨by simp, by simp⟩
  · intro h s e s' r ih a hf
    obtain ⟨d, al⟩ := act_did a
    obtain ⟨i1, i2⟩ := ih al
    cases d with
    | failed h hs => exact ⟨by simp, fun a ha => List.mem_cons_of_mem _ (i2 a ha)⟩
    | terminated h hs t ht => cases hf
    | launched h hs ht => exact ⟨by simp [St.made], fun a ha => List.mem_cons_of_mem _ (i2 a ha)⟩
    | destroy hs h ht =>
      exfalso
      revert hf
      simp only [St.destroy]
      split <;> simp
    | wake b x ht hg =>
      obtain ⟨q, _⟩ := onNotify_same s
      rw [q.evbase, q.bases]
      refine ⟨i1, ?_⟩
      have hb := (run_alive r al).based (by simp [ht])
      obtain ⟨b', hb⟩ := Option.isSome_iff_exists.1 hb
      intro a ha
      unfold St.onNotify at ha
      simp only at ha
      have ha := drops _ _ a ha
      exact arms s.timers { s with signal := false, thread := s.thread.map (Th.leave s.stopped), ran := s.ran ++ s.tasks, tasks := [], timers := [] }
        b' hb (i1 b' hb) i2 a ha
    | fire i b x l ht a ha hi hb hl =>
      refine ⟨i1, ?_⟩
      subst hl
      intro c hc
      simp only at hc
      split at hc
      · exact i2 c (List.mem_filter.1 hc).1
      · exact i2 c hc
    | _ => exact ⟨i1, i2⟩

/-- C135: destroying a worker uses memory that was freed exactly when a timer is active that was armed
since the last start; otherwise it ends well. -/
theorem C135_destroy {h : List Ev} {s s' : St} (r : run h = some s) (hd : s.act .destroy = some s') :
    (s'.fate = .usedFreed ↔ ∃ a ∈ s.active, some a.base = s.evbase) ∧ (s'.fate = .destroyed ↔ ∀ a ∈ s.active, some a.base ≠ s.evbase) := by
  obtain ⟨d, al⟩ := act_did hd
  obtain ⟨_, hm⟩ := armed_bases r al
  cases d with
  | destroy hs h ht =>
    have key : (s.active.all fun a => decide (a.base ∈ s.bases.filter fun b => some b ≠ s.evbase)) = true ↔ ∀ a ∈ s.active, some a.base ≠ s.evbase := by
      rw [List.all_eq_true]
      constructor
      · intro h a ha; have := h a ha; simp at this; exact this.2
      · intro h a ha; simp; exact ⟨hm a ha, h a ha⟩
    simp only [St.destroy]
    split
    · rename_i hc
      have := key.1 hc
      constructor
      · constructor
        · intro h; cases h
        · rintro ⟨a, ha, he⟩; exact absurd he (this a ha)
      · exact ⟨fun _ => this, fun _ => rfl⟩
    · rename_i hc
      constructor
      · refine ⟨fun _ => ?_, fun _ => rfl⟩
        refine Classical.byContradiction fun hn => hc (key.2 fun a ha he => hn ⟨a, ha, he⟩)
      · constructor
        · intro h; cases h
        · intro h; exact absurd (key.2 h) hc

theorem no_timers {h : List Ev} {s : St} (r : run h = some s) : (∀ t, .addTimer t ∉ h) → s.timers = [] ∧ s.active = [] := by
  have drops : ∀ (l : List Nat) (s : St), s.timers = [] ∧ s.active = [] → (l.foldl St.drop s).timers = [] ∧ (l.foldl St.drop s).active = [] := by
    intro l
    induction l with
    | nil => intro s h; exact h
    | cons i l ih => intro s h; exact ih _ ⟨h.1, by simp [St.drop, h.2]⟩
  refine run_inv (P := fun h s => (∀ t, .addTimer t ∉ h) → s.timers = [] ∧ s.active = []) ?_ ?_ r
  · intro _; exact ⟨rfl, rfl⟩
  · intro h s e s' _ ih a hn
    obtain ⟨d, al⟩ := act_did a
    have ih := ih fun t ht => hn t (by simp [ht])
    have he : ∀ t, e ≠ .addTimer t := fun t ht => hn t (by simp [ht])
    cases d with
    | addTimer t => exact absurd rfl (he t)
    | destroy hs h ht =>
      simp only [St.destroy]
      split
      · exact ⟨ih.1, rfl⟩
      · exact ih
    | wake b x ht hg =>
      unfold St.onNotify
      simp only [ih.1, List.foldl_nil]
      exact drops _ _ ⟨rfl, ih.2⟩
    | fire i b x l ht a ha hi hb hl => simp [ih.2] at ha
    | _ => exact ih

/-- C135, for workers without timers: destroying them is safe. -/
theorem C135_destroy_partial {h : List Ev} {s s' : St} (r : run h = some s) (hn : ∀ t, .addTimer t ∉ h) (hd : s.act .destroy = some s') :
    s'.fate = .destroyed :=
  ((C135_destroy r hd).2).2 (by simp [(no_timers r hn).2])

/-- C135 (violated): a repeated timer that is active when the worker is destroyed has its event freed after
the event base it belongs to. -/
theorem C135_destroy_violated (id : Nat) :
    ∃ s, run [.start true, .started, .addTimer ⟨id, false⟩, .wake, .fire id, .stop, .wake, .exit, .wait, .destroy] = some s ∧ s.fate = .usedFreed := by
  have h : (run [.start true, .started, .addTimer ⟨id, false⟩, .wake, .fire id, .stop, .wake, .exit, .wait, .destroy]).map (·.fate) = some .usedFreed := by
    simp [run, St.acts, St.act, St.start, St.notify, St.onNotify, St.arm, St.stop, Th.leave, St.destroy]
  obtain ⟨s, hs, hf⟩ := Option.map_eq_some_iff.1 h
  exact ⟨s, hs, hf⟩

/-! ## The pool -/

/-- `GenericThreadPool` (GenericThreadPool.h:124-126): of the workers only how many there are. -/
structure Pool where
  nr : Nat := 0
  size : Nat := 0
  next : Nat := 0
deriving DecidableEq, Repr

/-- What happens to a call on the pool. -/
inductive Got (α : Type)
  | ok (a : α)
  /-- `% 0` -/
  | divided
  /-- `pool_[idx]` beyond its end -/
  | outOfRange
deriving DecidableEq, Repr

/-- Calls on a pool; `failAt`: the worker whose `start` fails, if any. -/
inductive PEv
  | start (n : Nat) (failAt : Option Nat)
  | stop
  | wait
  | add
  | purge (id : Nat)
deriving DecidableEq, Repr

/-- `start` (GenericThreadPool.cpp:21-32): the loop ends after the worker that failed, which stays in
`pool_`; `nrThreads_` stays what was asked for. -/
def Pool.start (p : Pool) (n : Nat) (failAt : Option Nat) : Pool × Bool :=
  if p.nr ≠ 0 then (p, false)
  else
    match failAt with
    | none => ({ p with nr := n, size := p.size + n }, true)
    | some k => if k < n then ({ p with nr := n, size := p.size + (k + 1) }, false) else ({ p with nr := n, size := p.size + n }, true)

/-- The calls: `start`, `stop` (GenericThreadPool.cpp:34-40), `wait` (GenericThreadPool.cpp:42-50),
`addTask` and the like (GenericThreadPool.h:136-137, 148-149, 160-161, 173-174, 182-183) and
`purgeTimerTask` (GenericThreadPool.cpp:52-56). -/
def Pool.call (p : Pool) : PEv → Got Pool
  | .start n f => .ok (p.start n f).1
  | .stop => .ok p
  | .wait => .ok { p with nr := 0, size := 0 }
  | .add =>
    if p.nr = 0 then .divided
    else if p.next % p.nr < p.size then .ok { p with next := (p.next + 1) % 2 ^ 64 } else .outOfRange
  | .purge id => if id / 2 ^ 48 < p.size then .ok p else .outOfRange

/-- A sequence of calls. -/
def Pool.calls (p : Pool) : List PEv → Got Pool
  | [] => .ok p
  | e :: h =>
    match p.call e with
    | .ok p => p.calls h
    | .divided => .divided
    | .outOfRange => .outOfRange

/-- C135: calls on a pool whose starts all succeeded: as long as the pool is not waited for, adding reaches
a worker that exists. -/
theorem C135_pool_partial {h : List PEv} {p : Pool} (r : ({} : Pool).calls h = .ok p) (hs : ∀ n k, .start n (some k) ∉ h) :
    p.size = p.nr ∧ (p.nr ≠ 0 → ∃ q, p.call .add = .ok q) := by
  suffices H : ∀ (h : List PEv) (p0 p : Pool), p0.size = p0.nr → p0.calls h = .ok p → (∀ n k, .start n (some k) ∉ h) → p.size = p.nr by
    have e := H h {} p rfl r hs
    refine ⟨e, fun hn => ?_⟩
    have : p.next % p.nr < p.size := by rw [e]; exact Nat.mod_lt _ (by omega)
    exact ⟨{ p with next := (p.next + 1) % 2 ^ 64 }, by simp [Pool.call, hn, this]⟩
  intro h
  induction h with
  | nil => intro p0 p h0 r _; cases r; exact h0
  | cons e h ih =>
    intro p0 p h0 r hs
    have hs' : ∀ n k, .start n (some k) ∉ h := fun n k hm => hs n k (by simp [hm])
    simp only [Pool.calls] at r
    cases e with
    | start n f =>
      cases f with
      | some k => exact absurd (by simp) (hs n k)
      | none =>
        refine ih _ p ?_ r hs'
        simp only [Pool.start]
        split
        · exact h0
        · rename_i hz; simp at hz; simp [h0, hz]
    | stop => exact ih _ p h0 r hs'
    | wait => exact ih _ p rfl r hs'
    | add =>
      simp only [Pool.call] at r
      split at r
      · rename_i hh
        split at hh
        · cases hh
        · split at hh
          · cases hh; exact ih { p0 with next := (p0.next + 1) % 2 ^ 64 } p h0 r hs'
          · cases hh
      · cases r
      · cases r
    | purge id =>
      simp only [Pool.call] at r
      split at r
      · rename_i hh
        split at hh
        · cases hh; exact ih _ p h0 r hs'
        · cases hh
      · cases r
      · cases r

example : ({} : Pool).calls [.start 2 none, .add, .add, .add, .stop, .wait, .start 3 none, .add] = .ok ⟨3, 3, 4⟩ := rfl

/-- C135 (violated): if a worker other than the last cannot be started, `start` returns false but leaves
the pool such that a later task goes to a worker that does not exist, and starting again is refused. -/
theorem C135_pool_failed_violated (n k : Nat) (hk : k + 1 < n) : ∃ p, ({} : Pool).call (.start n (some k)) = .ok p ∧
    (({} : Pool).start n (some k)).2 = false ∧ (∀ m f, p.start m f = (p, false)) ∧ (({ p with next := k + 1 } : Pool).call .add = .outOfRange) := by
  refine ⟨⟨n, k + 1, 0⟩, ?_, ?_, ?_, ?_⟩
  · have : k < n := by omega
    simp [Pool.call, Pool.start, this]
  · have : k < n := by omega
    simp [Pool.start, this]
  · intro m f; simp [Pool.start]; omega
  · have h1 : n ≠ 0 := by omega
    simp [Pool.call, h1, Nat.mod_eq_of_lt hk]

/-- C135 (violated): after `wait` adding divides by zero and purging looks beyond the workers. -/
theorem C135_pool_waited_violated (p : Pool) (id : Nat) : ∃ q, p.call .wait = .ok q ∧ q.call .add = .divided ∧ q.call (.purge id) = .outOfRange :=
  ⟨_, rfl, rfl, by simp [Pool.call]⟩

end Nebula.WLife
