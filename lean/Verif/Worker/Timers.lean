import Verif.Worker.Props
/-! # Properties of the worker: timers (C32) -/
namespace Nebula

/-- The timers taken but not armed. -/
def WorkerPc.toArm : WorkerPc → List WTimer
  | .adding r => r
  | _ => []

/-- The ids taken but not purged. -/
def WorkerPc.toPurge : WorkerPc → List Nat
  | .purging r => r
  | _ => []

/-- All timers there are. -/
def WorkerSt.timers (s : WorkerSt) : List WTimer := s.pendingTimers ++ s.pc.toArm ++ s.activeTimers

structure TimerInv (h : List WorkerEv) (s : WorkerSt) : Prop where
  next : s.nextTimerId = (addedTimers h).length
  ids : addedTimers h = List.range (addedTimers h).length
  known : ∀ t ∈ s.timers, .addTimer t.id t.delay t.interval ∈ h
  nodup : (s.timers.map (·.id)).Nodup

theorem mem_addedTimers {h : List WorkerEv} {id d i : Nat} (hm : .addTimer id d i ∈ h) : id ∈ addedTimers h := by
  unfold addedTimers; rw [List.mem_filterMap]; exact ⟨_, hm, rfl⟩

theorem eraseTimer_sublist (l : List WTimer) (id : Nat) : (eraseTimer l id).Sublist l := List.filter_sublist

theorem eraseTimer_of_not_mem {l : List WTimer} {id : Nat} (h : id ∉ l.map (·.id)) : eraseTimer l id = l := by
  unfold eraseTimer
  rw [List.filter_eq_self]
  intro t ht
  simp only [ne_eq, decide_not, Bool.not_eq_eq_eq_not, Bool.not_true, decide_eq_false_iff_not]
  intro e; exact h (e ▸ List.mem_map_of_mem ht)

theorem not_mem_eraseTimer (l : List WTimer) (id : Nat) : id ∉ (eraseTimer l id).map (·.id) := by
  intro h
  obtain ⟨t, ht, e⟩ := List.mem_map.1 h
  unfold eraseTimer at ht
  have := (List.mem_filter.1 ht).2
  simp [e] at this

/-- The same timers, in another order or fewer of them. -/
theorem TimerInv.mono {h h' : List WorkerEv} {s s' : WorkerSt} (i : TimerInv h s) (hn : s'.nextTimerId = s.nextTimerId)
    (ha : addedTimers h' = addedTimers h) (hh : ∀ e ∈ h, e ∈ h') {l : List WTimer} (hp : l.Perm s.timers) (hl : s'.timers.Sublist l) :
    TimerInv h' s' := by
  refine ⟨by rw [hn, ha]; exact i.next, by rw [ha]; exact i.ids, ?_, ?_⟩
  · intro t ht; exact hh _ (i.known t (hp.mem_iff.1 (hl.subset ht)))
  · have h1 : (l.map (·.id)).Nodup := (hp.map _).nodup_iff.2 i.nodup
    exact h1.sublist (hl.map _)

theorem WorkerSt.Run.timerInv {h : List WorkerEv} {s : WorkerSt} (r : WorkerSt.Run h s) :
    (addedTimers h).length ≤ 2 ^ 48 → TimerInv h s := by
  refine Exec.invariant (P := fun h s => (addedTimers h).length ≤ 2 ^ 48 → TimerInv h s) ?_ ?_ r
  · intro _; exact ⟨rfl, rfl, by intro t ht; simp [WorkerSt.start, WorkerSt.timers, WorkerPc.toArm] at ht, by simp [WorkerSt.start, WorkerSt.timers, WorkerPc.toArm]⟩
  · intro h s e s' _ ih st hle
    have hle0 : (addedTimers h).length ≤ 2 ^ 48 := by
      rw [addedTimers_snoc, List.length_append] at hle; omega
    have i := ih hle0
    have hsub : ∀ x ∈ h, x ∈ h ++ [e] := fun x hx => List.mem_append_left _ hx
    cases st with
    | @addTimer delay interval =>
      have hl : (addedTimers h).length < 2 ^ 48 := by
        rw [addedTimers_snoc] at hle; simp [addedTimers] at hle; simp [addedTimers]; omega
      have hid : timerId s.nextTimerId = (addedTimers h).length := by
        unfold timerId; rw [i.next, Nat.mod_eq_of_lt hl]
      have ha : addedTimers (h ++ [.addTimer (timerId s.nextTimerId) delay interval]) = addedTimers h ++ [(addedTimers h).length] := by
        rw [addedTimers_snoc, hid]; rfl
      have hnot : (addedTimers h).length ∉ s.timers.map (·.id) := by
        intro hm
        obtain ⟨t, ht, e⟩ := List.mem_map.1 hm
        have := mem_addedTimers (i.known t ht)
        rw [i.ids, List.mem_range] at this
        have e' : t.id = (addedTimers h).length := e
        omega
      refine ⟨?_, ?_, ?_, ?_⟩
      · rw [ha]; simp only [List.length_append, List.length_singleton, i.next]
        rw [Nat.mod_eq_of_lt (by omega)]
      · rw [ha]; simp only [List.length_append, List.length_singleton, List.range_succ]
        rw [← i.ids]
      · intro t ht
        unfold WorkerSt.timers at ht
        simp only [List.mem_append] at ht
        rcases ht with ((ht | ht) | ht) | ht
        · exact hsub _ (i.known t (by unfold WorkerSt.timers; simp [ht]))
        · simp at ht; subst ht; simp
        · exact hsub _ (i.known t (by unfold WorkerSt.timers; simp [ht]))
        · exact hsub _ (i.known t (by unfold WorkerSt.timers; simp [ht]))
      · have hp : (s.pendingTimers ++ [(⟨timerId s.nextTimerId, delay, interval⟩ : WTimer)] ++ s.pc.toArm ++ s.activeTimers).Perm
            ((⟨timerId s.nextTimerId, delay, interval⟩ : WTimer) :: s.timers) := by
          unfold WorkerSt.timers
          rw [List.append_assoc, List.append_assoc, List.append_assoc]
          exact List.perm_middle
        have := ((hp.map (·.id)).nodup_iff).2 (by
          rw [List.map_cons, List.nodup_cons]; exact ⟨by simpa [hid] using hnot, i.nodup⟩)
        simpa [WorkerSt.timers] using this
    | addTask => exact i.mono rfl (by rw [addedTimers_snoc]; simp [addedTimers]) hsub (List.Perm.refl _) (List.Sublist.refl _)
    | purge => exact i.mono rfl (by rw [addedTimers_snoc]; simp [addedTimers]) hsub (List.Perm.refl _) (List.Sublist.refl _)
    | stop h1 => exact i.mono rfl (by rw [addedTimers_snoc]; simp [addedTimers]) hsub (List.Perm.refl _) (List.Sublist.refl _)
    | notify h1 => exact i.mono rfl (by rw [addedTimers_snoc]; simp [addedTimers]) hsub (List.Perm.refl _) (List.Sublist.refl _)
    | wake h1 h2 => exact i.mono rfl (by rw [addedTimers_snoc]; simp [addedTimers]) hsub (List.Perm.refl _) (by simp [WorkerSt.timers, h1, WorkerPc.toArm])
    | check h1 => exact i.mono rfl (by rw [addedTimers_snoc]; simp [addedTimers]) hsub (List.Perm.refl _) (by simp [WorkerSt.timers, h1, WorkerPc.toArm])
    | takeTasks h1 => exact i.mono rfl (by rw [addedTimers_snoc]; simp [addedTimers]) hsub (List.Perm.refl _) (by simp [WorkerSt.timers, h1, WorkerPc.toArm])
    | run h1 => exact i.mono rfl (by rw [addedTimers_snoc]; simp [addedTimers]) hsub (List.Perm.refl _) (by simp [WorkerSt.timers, h1, WorkerPc.toArm])
    | ranAll h1 => exact i.mono rfl (by rw [addedTimers_snoc]; simp [addedTimers]) hsub (List.Perm.refl _) (by simp [WorkerSt.timers, h1, WorkerPc.toArm])
    | takeTimers h1 => exact i.mono rfl (by rw [addedTimers_snoc]; simp [addedTimers]) hsub (List.Perm.refl _) (by simp [WorkerSt.timers, h1, WorkerPc.toArm])
    | @arm t r h1 =>
      refine i.mono rfl (by rw [addedTimers_snoc]; simp [addedTimers]) hsub (l := s.pendingTimers ++ r ++ t :: s.activeTimers) ?_ ?_
      · simp only [WorkerSt.timers, h1, WorkerPc.toArm, List.append_assoc, List.cons_append]
        exact List.Perm.append_left _ List.perm_middle
      · simp only [WorkerSt.timers, WorkerPc.toArm]
        exact List.Sublist.append_left (List.Sublist.cons_cons _ (eraseTimer_sublist _ _)) _
    | armedAll h1 => exact i.mono rfl (by rw [addedTimers_snoc]; simp [addedTimers]) hsub (List.Perm.refl _) (by simp [WorkerSt.timers, h1, WorkerPc.toArm])
    | takePurges h1 => exact i.mono rfl (by rw [addedTimers_snoc]; simp [addedTimers]) hsub (List.Perm.refl _) (by simp [WorkerSt.timers, h1, WorkerPc.toArm])
    | purgeOne h1 =>
      exact i.mono rfl (by rw [addedTimers_snoc]; simp [addedTimers]) hsub (List.Perm.refl _) (by
        simp only [WorkerSt.timers, h1, WorkerPc.toArm]
        exact List.Sublist.append_left (eraseTimer_sublist _ _) _)
    | purgedAll h1 => exact i.mono rfl (by rw [addedTimers_snoc]; simp [addedTimers]) hsub (List.Perm.refl _) (by simp [WorkerSt.timers, h1, WorkerPc.toArm])
    | fire h1 h2 =>
      exact i.mono rfl (by rw [addedTimers_snoc]; simp [addedTimers]) hsub (List.Perm.refl _) (by
        simp only [WorkerSt.timers]
        split
        · exact List.Sublist.append_left (eraseTimer_sublist _ _) _
        · exact List.Sublist.refl _)
    | exit h1 h2 => exact i.mono rfl (by rw [addedTimers_snoc]; simp [addedTimers]) hsub (List.Perm.refl _) (by simp [WorkerSt.timers, h1, WorkerPc.toArm])

/-- C32 (partial: up to 2^48 timers): no two timers get the same id. -/
theorem C32_ids_partial {h : List WorkerEv} {s : WorkerSt} (r : WorkerSt.Run h s) (hl : (addedTimers h).length ≤ 2 ^ 48) :
    (addedTimers h).Nodup := by
  rw [(r.timerInv hl).ids]; exact List.nodup_range

/-- C32 violated: after 2^48 timers the first id is given out again, although its timer may still be live. -/
theorem C32_ids_violated (s : WorkerSt) (h : s.nextTimerId = 2 ^ 48) (d i : Nat) : WorkerSt.Step s (.addTimer 0 d i)
    { s with pendingTimers := s.pendingTimers ++ [⟨0, d, i⟩], nextTimerId := 2 ^ 48 + 1, owed := s.owed + 1 } := by
  have := WorkerSt.Step.addTimer (s := s) (delay := d) (interval := i)
  rw [h] at this
  simpa [timerId] using this

/-- That many timers can be added. -/
theorem C32_ids_reachable (n : Nat) (hn : n < 2 ^ 64) : ∃ h s, WorkerSt.Run h s ∧ s.nextTimerId = n := by
  induction n with
  | zero => exact ⟨[], _, .nil, rfl⟩
  | succ n ih =>
    obtain ⟨h, s, r, e⟩ := ih (by omega)
    refine ⟨_, _, r.append (.one (.addTimer (delay := 1) (interval := 1))), ?_⟩
    simp only [e]; exact Nat.mod_eq_of_lt hn

/-- No timer `id` is waiting to be armed. -/
def WorkerSt.NotWaiting (id : Nat) (s : WorkerSt) : Prop :=
  id ∉ s.pendingTimers.map (·.id) ∧ id ∉ s.pc.toArm.map (·.id)

/-- And a purge of it is on its way, or it is not armed. -/
def WorkerSt.Purging (id : Nat) (s : WorkerSt) : Prop :=
  s.NotWaiting id ∧ (id ∈ s.purgingTimers ∨ id ∈ s.pc.toPurge ∨ id ∉ s.activeTimers.map (·.id))

/-- There is no such timer any more. -/
def WorkerSt.Gone (id : Nat) (s : WorkerSt) : Prop := s.NotWaiting id ∧ id ∉ s.activeTimers.map (·.id)

/-- Not an addition of timer `id`. -/
def NotAdd (id : Nat) (e : WorkerEv) : Prop := ∀ d i, e ≠ .addTimer id d i

theorem WorkerSt.Step.notWaiting {id : Nat} {s s' : WorkerSt} {e : WorkerEv} (st : WorkerSt.Step s e s') (hn : NotAdd id e)
    (h : s.NotWaiting id) : s'.NotWaiting id := by
  obtain ⟨h1, h2⟩ := h
  cases st <;> simp_all [WorkerSt.NotWaiting, WorkerPc.toArm, NotAdd]
  rename_i d i
  rintro h
  exact hn h.symm

theorem not_mem_erase_of {l : List WTimer} {id : Nat} (id' : Nat) (h : id ∉ l.map (·.id)) : id ∉ (eraseTimer l id').map (·.id) :=
  fun hm => h (((eraseTimer_sublist l id').map _).subset hm)

theorem WorkerSt.Step.gone {id : Nat} {s s' : WorkerSt} {e : WorkerEv} (st : WorkerSt.Step s e s') (hn : NotAdd id e)
    (h : s.Gone id) : s'.Gone id ∧ e ≠ .fire id := by
  refine ⟨⟨st.notWaiting hn h.1, ?_⟩, ?_⟩
  · obtain ⟨⟨_, h1⟩, h2⟩ := h
    cases st with
    | @arm t r hp =>
      rw [hp] at h1
      simp only [WorkerPc.toArm, List.map_cons, List.mem_cons, not_or] at h1
      simp only [List.map_cons, List.mem_cons, not_or]
      exact ⟨h1.1, not_mem_erase_of _ h2⟩
    | purgeOne hp => exact not_mem_erase_of _ h2
    | fire hp ht =>
      simp only
      split
      · exact not_mem_erase_of _ h2
      · exact h2
    | addTask | addTimer | purge | stop | notify | wake | check | takeTasks | run | ranAll | takeTimers | armedAll | takePurges | purgedAll | exit => exact h2
  · rintro rfl
    cases st with
    | fire hp ht => exact h.2 (List.mem_map_of_mem ht)

theorem WorkerSt.Step.purging {id : Nat} {s s' : WorkerSt} {e : WorkerEv} (st : WorkerSt.Step s e s') (hn : NotAdd id e)
    (h : s.Purging id) : s'.Purging id := by
  refine ⟨st.notWaiting hn h.1, ?_⟩
  obtain ⟨⟨_, h1⟩, h2⟩ := h
  cases st with
  | @arm t r hp =>
    rw [hp] at h1 h2
    simp only [WorkerPc.toArm, List.map_cons, List.mem_cons, not_or] at h1
    simp only [List.map_cons, List.mem_cons, not_or]
    rcases h2 with h2 | h2 | h2
    · exact .inl h2
    · simp [WorkerPc.toPurge] at h2
    · exact .inr (.inr ⟨h1.1, not_mem_erase_of _ h2⟩)
  | @purgeOne id' r hp =>
    rw [hp] at h2
    rcases h2 with h2 | h2 | h2
    · exact .inl h2
    · simp only [WorkerPc.toPurge, List.mem_cons] at h2
      rcases h2 with rfl | h2
      · exact .inr (.inr (not_mem_eraseTimer _ _))
      · exact .inr (.inl h2)
    · exact .inr (.inr (not_mem_erase_of _ h2))
  | fire hp ht =>
    rcases h2 with h2 | h2 | h2
    · exact .inl h2
    · exact .inr (.inl h2)
    · right; right
      simp only
      split
      · exact not_mem_erase_of _ h2
      · exact h2
  | takePurges hp =>
    rw [hp] at h2
    rcases h2 with h2 | h2 | h2
    · exact .inr (.inl h2)
    · simp [WorkerPc.toPurge] at h2
    · exact .inr (.inr h2)
  | purge =>
    rcases h2 with h2 | h2 | h2
    · exact .inl (List.mem_append_left _ h2)
    · exact .inr (.inl h2)
    · exact .inr (.inr h2)
  | addTask | addTimer | stop | notify => exact h2
  | wake hp | check hp | takeTasks hp | run hp | ranAll hp | takeTimers hp | armedAll hp | purgedAll hp | exit hp =>
    rw [hp] at h2
    rcases h2 with h2 | h2 | h2
    · exact .inl h2
    · simp [WorkerPc.toPurge] at h2
    · exact .inr (.inr h2)

/-- Where the worker still comes to purge and to arm. -/
structure AwakeInv (s : WorkerSt) : Prop where
  purge : s.purgingTimers ≠ [] → 0 < s.evfd ∨ 0 < s.owed ∨ (s.pc ≠ .dispatch ∧ ∀ l, s.pc ≠ .purging l)
  arm : s.pendingTimers ≠ [] → 0 < s.evfd ∨ 0 < s.owed ∨ s.pc = .notified ∨ s.pc = .checked ∨ (∃ l, s.pc = .running l) ∨
    s.pc = .tasksDone ∨ s.pc = .exited

theorem WorkerSt.Run.awake {h : List WorkerEv} {s : WorkerSt} (r : WorkerSt.Run h s) : AwakeInv s := by
  refine Exec.invariant (P := fun _ s => AwakeInv s) ?_ ?_ r
  · exact ⟨by simp [WorkerSt.start], by simp [WorkerSt.start]⟩
  · intro h s e s' _ i st
    obtain ⟨hp, ha⟩ := i
    cases st <;> constructor <;> simp_all <;> first | omega | skip

/-- No timer is added twice in a history of up to 2^48 timers. -/
theorem notAdd_of_mem {h1 h2 : List WorkerEv} {s : WorkerSt} (r : WorkerSt.Run (h1 ++ h2) s)
    (hl : (addedTimers (h1 ++ h2)).length ≤ 2 ^ 48) {id d i : Nat} (hm : .addTimer id d i ∈ h1) : ∀ e ∈ h2, NotAdd id e := by
  intro e he d' i' heq
  subst heq
  have hn := C32_ids_partial r hl
  have e1 : addedTimers (h1 ++ h2) = addedTimers h1 ++ addedTimers h2 := by unfold addedTimers; rw [List.filterMap_append]
  rw [e1, List.nodup_append] at hn
  exact hn.2.2 _ (mem_addedTimers hm) _ (mem_addedTimers he) rfl

theorem Exec.gone {id : Nat} {s s' : WorkerSt} {h : List WorkerEv} (r : Exec WorkerSt.Step s h s') (hn : ∀ e ∈ h, NotAdd id e)
    (hg : s.Gone id) : s'.Gone id ∧ .fire id ∉ h := by
  induction r with
  | nil => exact ⟨hg, by simp⟩
  | cons st _ ih =>
    have h1 := WorkerSt.Step.gone st (hn _ List.mem_cons_self) hg
    have h2 := ih (fun e he => hn e (List.mem_cons_of_mem _ he)) h1.1
    refine ⟨h2.1, ?_⟩
    simp only [List.mem_cons, not_or]
    exact ⟨fun e => h1.2 e.symm, h2.2⟩

theorem WorkerSt.Step.exited {s s' : WorkerSt} {e : WorkerEv} (st : WorkerSt.Step s e s') (hx : s.pc = .exited) :
    (∀ id, e ≠ .fire id) ∧ s'.pc = .exited := by
  cases st <;> simp_all

theorem Exec.exited {s s' : WorkerSt} {h : List WorkerEv} (r : Exec WorkerSt.Step s h s') (hx : s.pc = .exited) :
    ∀ id, .fire id ∉ h := by
  induction r with
  | nil => simp
  | cons st _ ih =>
    intro id
    have h1 := WorkerSt.Step.exited st hx
    simp only [List.mem_cons, not_or]
    exact ⟨fun e => h1.1 id e.symm, ih h1.2 id⟩

theorem addedTimers_append_le {h k : List WorkerEv} {n : Nat} (hl : (addedTimers (h ++ k)).length ≤ n) : (addedTimers h).length ≤ n := by
  unfold addedTimers at *; rw [List.filterMap_append, List.length_append] at hl; omega

theorem List.inj_on_of_nodup_map' {l : List WTimer} (h : (l.map (·.id)).Nodup) {a b : WTimer} (ha : a ∈ l) (hb : b ∈ l) (he : a.id = b.id) :
    a = b := by
  induction l with
  | nil => simp at ha
  | cons c l ih =>
    rw [List.map_cons, List.nodup_cons] at h
    rcases List.mem_cons.1 ha with rfl | ha'
    · rcases List.mem_cons.1 hb with rfl | hb'
      · rfl
      · exact absurd (he ▸ List.mem_map_of_mem (f := (·.id)) hb') h.1
    · rcases List.mem_cons.1 hb with rfl | hb'
      · exact absurd (he ▸ List.mem_map_of_mem (f := (·.id)) ha' : b.id ∈ l.map (·.id)) h.1
      · exact ih h.2 ha' hb'

theorem TimerInv.active_known {h : List WorkerEv} {s : WorkerSt} (i : TimerInv h s) {t : WTimer} (ht : t ∈ s.activeTimers) :
    .addTimer t.id t.delay t.interval ∈ h := i.known t (by unfold WorkerSt.timers; simp [ht])

theorem WorkerSt.Step.fire_inv {s s' : WorkerSt} {id : Nat} (st : WorkerSt.Step s (.fire id) s') :
    ∃ t ∈ s.activeTimers, t.id = id ∧ s'.pendingTimers = s.pendingTimers ∧ s'.pc = s.pc ∧
      s'.activeTimers = if t.interval = 0 then eraseTimer s.activeTimers t.id else s.activeTimers := by
  cases st with
  | fire hd ht => exact ⟨_, ht, rfl, rfl, rfl, rfl⟩

/-- Ids in the parts of the state are apart. -/
theorem TimerInv.active_notWaiting {h : List WorkerEv} {s : WorkerSt} (i : TimerInv h s) {t : WTimer} (ht : t ∈ s.activeTimers) :
    s.NotWaiting t.id := by
  have hn := i.nodup
  unfold WorkerSt.timers at hn
  rw [List.map_append, List.nodup_append] at hn
  have h2 : t.id ∉ (s.pendingTimers ++ s.pc.toArm).map (·.id) := fun hm => hn.2.2 _ hm _ (List.mem_map_of_mem ht) rfl
  simp only [List.map_append, List.mem_append, not_or] at h2
  exact h2

/-- A purge of a timer that is not waiting to be armed takes effect by the time everything has settled. -/
theorem purge_effective {id d i : Nat} {h h3 more : List WorkerEv} {s0 s s' : WorkerSt} (r : WorkerSt.Run h s0) (hw : s0.NotWaiting id)
    (hm : .addTimer id d i ∈ h) (r3 : Exec WorkerSt.Step s0 (.purge id :: h3) s) (hs : s.Settled) (r' : Exec WorkerSt.Step s more s')
    (hl : (addedTimers (h ++ (.purge id :: h3 ++ more))).length ≤ 2 ^ 48) : .fire id ∉ more := by
  have hna := notAdd_of_mem (r.append (r3.append r')) hl hm
  have rs : WorkerSt.Run (h ++ .purge id :: h3) s := r.append r3
  have hp : s.Purging id := by
    cases r3 with
    | cons st r3 =>
      cases st
      refine Exec.preserved (P := WorkerSt.Purging id) (Q := NotAdd id) (fun s e s' p q st => st.purging q p) r3
        (fun e he => hna e (by simp [he])) ?_
      exact ⟨hw, .inl (by simp)⟩
  obtain ⟨ho, hx | ⟨hd, he⟩⟩ := hs
  · exact r'.exited hx id
  · have hpt : s.purgingTimers = [] := by
      cases hq : s.purgingTimers with
      | nil => rfl
      | cons a l =>
        have := rs.awake.purge (by rw [hq]; simp)
        rw [hd, ho, he] at this
        simp at this
    have hg : s.Gone id := by
      refine ⟨hp.1, ?_⟩
      have := hp.2
      rw [hpt, hd] at this
      simpa [WorkerPc.toPurge] using this
    exact (r'.gone (fun e he => hna e (by simp [he])) hg).2

/-- C32 (partial: the timer has fired before, so the worker had armed it): after `purgeTimerTask` returned
and everything under way has settled, the timer never fires again. -/
theorem C32_purge_fired_partial {id : Nat} {h1 h2 h3 more : List WorkerEv} {s s' : WorkerSt}
    (r : WorkerSt.Run (h1 ++ [.fire id] ++ h2 ++ [.purge id] ++ h3) s) (hs : s.Settled) (r' : Exec WorkerSt.Step s more s')
    (hl : (addedTimers (h1 ++ [.fire id] ++ h2 ++ [.purge id] ++ h3 ++ more)).length ≤ 2 ^ 48) : .fire id ∉ more := by
  rw [List.append_assoc] at r
  obtain ⟨s0, r0, r3⟩ := r.split
  rw [List.append_assoc] at r0
  obtain ⟨sa, ra, rb⟩ := r0.split
  obtain ⟨sb, rb, rc⟩ := rb.split
  have hla : (addedTimers h1).length ≤ 2 ^ 48 := by
    simp only [List.append_assoc] at hl; exact addedTimers_append_le hl
  have ia := WorkerSt.Run.timerInv ra hla
  have hf := rb.single
  obtain ⟨t, ht, rfl, -⟩ := hf.fire_inv
  · have hm := ia.active_known ht
    have hnw := ia.active_notWaiting ht
    have rall := (ra.append (rb.append (rc.append (r3.append r'))))
    have hna := notAdd_of_mem rall (by simpa only [List.append_assoc] using hl) hm
    have hw : s0.NotWaiting t.id := by
      refine Exec.preserved (P := WorkerSt.NotWaiting t.id) (Q := NotAdd t.id) (fun s e s' p q st => st.notWaiting q p) (rb.append rc) ?_ hnw
      intro e he
      apply hna
      simp only [List.mem_append] at *
      rcases he with he | he
      · exact .inl he
      · exact .inr (.inl he)
    exact purge_effective (ra.append (rb.append rc)) hw (List.mem_append_left _ hm) (by simpa using r3) hs r'
      (by simpa only [List.append_assoc, List.cons_append, List.nil_append] using hl)

/-- C32 (partial: everything had settled between adding the timer and purging it): after `purgeTimerTask`
returned and everything under way has settled, the timer never fires. -/
theorem C32_purge_settled_partial {id d i : Nat} {h1 h2 h3 more : List WorkerEv} {s0 s s' : WorkerSt}
    (r : WorkerSt.Run (h1 ++ [.addTimer id d i] ++ h2) s0) (h0 : s0.Settled) (r3 : Exec WorkerSt.Step s0 (.purge id :: h3) s)
    (hs : s.Settled) (r' : Exec WorkerSt.Step s more s')
    (hl : (addedTimers (h1 ++ [.addTimer id d i] ++ h2 ++ .purge id :: h3 ++ more)).length ≤ 2 ^ 48) : .fire id ∉ more := by
  obtain ⟨ho, hx | ⟨hd, he⟩⟩ := h0
  · exact fun hm => (r3.append r').exited hx id (List.mem_append_right _ hm)
  · have hpt : s0.pendingTimers = [] := by
      cases hq : s0.pendingTimers with
      | nil => rfl
      | cons a l =>
        have := r.awake.arm (by rw [hq]; simp)
        rw [hd, ho, he] at this
        simp at this
    refine purge_effective r ?_ (by simp : WorkerEv.addTimer id d i ∈ h1 ++ [.addTimer id d i] ++ h2) r3 hs r' (by simpa only [List.append_assoc] using hl)
    unfold WorkerSt.NotWaiting
    rw [hpt, hd]
    simp [WorkerPc.toArm]

/-- C32 violated: a timer added and purged, both calls having returned and everything having settled, that
still fires, again and again: the worker was between taking the new timers and taking the purges. -/
theorem C32_purge_violated : ∃ h1 h2 h3 s, WorkerSt.Run (h1 ++ [.addRepeat 0 5] ++ h2 ++ [.purge 0] ++ h3) s ∧ s.Settled ∧
    .stop ∉ h1 ++ h2 ++ h3 ∧ ∀ n, Exec WorkerSt.Step s (List.replicate n (.fire 0)) s := by
  refine ⟨[.addTask 1, .tau, .tau, .tau, .tau, .run 1, .tau, .tau, .tau], [.tau], [.tau, .tau, .tau, .tau, .tau, .tau, .tau, .tau, .tau, .tau, .tau, .tau, .tau],
    ⟨false, false, 0, 0, [], [], [], 1, [⟨0, 5, 5⟩], .dispatch⟩, ?_, ⟨rfl, .inr ⟨rfl, rfl⟩⟩, by simp, ?_⟩
  · show Exec WorkerSt.Step ⟨false, false, 0, 0, [], [], [], 0, [], .dispatch⟩ [.addTask 1, .tau, .tau, .tau, .tau, .run 1, .tau, .tau, .tau, .addTimer 0 5 5, .tau, .purge 0,
      .tau, .tau, .tau, .tau, .tau, .tau, .tau, .tau, .tau, .tau, .tau, .tau, .tau] _
    refine .cons (s1 := ⟨false, false, 0, 1, [1], [], [], 0, [], .dispatch⟩) .addTask ?_
    refine .cons (s1 := ⟨false, false, 1, 0, [1], [], [], 0, [], .dispatch⟩) (.notify (by decide)) ?_
    refine .cons (s1 := ⟨false, false, 0, 0, [1], [], [], 0, [], .notified⟩) (.wake rfl (by decide)) ?_
    refine .cons (s1 := ⟨false, false, 0, 0, [1], [], [], 0, [], .checked⟩) (.check rfl) ?_
    refine .cons (s1 := ⟨false, false, 0, 0, [], [], [], 0, [], .running [1]⟩) (.takeTasks rfl) ?_
    refine .cons (s1 := ⟨false, false, 0, 0, [], [], [], 0, [], .running []⟩) (.run rfl) ?_
    refine .cons (s1 := ⟨false, false, 0, 0, [], [], [], 0, [], .tasksDone⟩) (.ranAll rfl) ?_
    refine .cons (s1 := ⟨false, false, 0, 0, [], [], [], 0, [], .adding []⟩) (.takeTimers rfl) ?_
    refine .cons (s1 := ⟨false, false, 0, 0, [], [], [], 0, [], .timersDone⟩) (.armedAll rfl) ?_
    refine .cons (s1 := ⟨false, false, 0, 1, [], [⟨0, 5, 5⟩], [], 1, [], .timersDone⟩) .addTimer ?_
    refine .cons (s1 := ⟨false, false, 1, 0, [], [⟨0, 5, 5⟩], [], 1, [], .timersDone⟩) (.notify (by decide)) ?_
    refine .cons (s1 := ⟨false, false, 1, 1, [], [⟨0, 5, 5⟩], [0], 1, [], .timersDone⟩) .purge ?_
    refine .cons (s1 := ⟨false, false, 2, 0, [], [⟨0, 5, 5⟩], [0], 1, [], .timersDone⟩) (.notify (by decide)) ?_
    refine .cons (s1 := ⟨false, false, 2, 0, [], [⟨0, 5, 5⟩], [], 1, [], .purging [0]⟩) (.takePurges rfl) ?_
    refine .cons (s1 := ⟨false, false, 2, 0, [], [⟨0, 5, 5⟩], [], 1, [], .purging []⟩) (.purgeOne rfl) ?_
    refine .cons (s1 := ⟨false, false, 2, 0, [], [⟨0, 5, 5⟩], [], 1, [], .dispatch⟩) (.purgedAll rfl) ?_
    refine .cons (s1 := ⟨false, false, 0, 0, [], [⟨0, 5, 5⟩], [], 1, [], .notified⟩) (.wake rfl (by decide)) ?_
    refine .cons (s1 := ⟨false, false, 0, 0, [], [⟨0, 5, 5⟩], [], 1, [], .checked⟩) (.check rfl) ?_
    refine .cons (s1 := ⟨false, false, 0, 0, [], [⟨0, 5, 5⟩], [], 1, [], .running []⟩) (.takeTasks rfl) ?_
    refine .cons (s1 := ⟨false, false, 0, 0, [], [⟨0, 5, 5⟩], [], 1, [], .tasksDone⟩) (.ranAll rfl) ?_
    refine .cons (s1 := ⟨false, false, 0, 0, [], [], [], 1, [], .adding [⟨0, 5, 5⟩]⟩) (.takeTimers rfl) ?_
    refine .cons (s1 := ⟨false, false, 0, 0, [], [], [], 1, [⟨0, 5, 5⟩], .adding []⟩) (.arm rfl) ?_
    refine .cons (s1 := ⟨false, false, 0, 0, [], [], [], 1, [⟨0, 5, 5⟩], .timersDone⟩) (.armedAll rfl) ?_
    refine .cons (s1 := ⟨false, false, 0, 0, [], [], [], 1, [⟨0, 5, 5⟩], .purging []⟩) (.takePurges rfl) ?_
    refine .cons (s1 := ⟨false, false, 0, 0, [], [], [], 1, [⟨0, 5, 5⟩], .dispatch⟩) (.purgedAll rfl) ?_
    exact .nil
  · intro n
    induction n with
    | zero => exact .nil
    | succ n ih =>
      rw [List.replicate_succ]
      exact .cons (WorkerSt.Step.fire (t := ⟨0, 5, 5⟩) rfl (by simp)) ih

/-- C32 (up to 2^48 timers): a timer without interval fires at most once. -/
theorem C32_once {h : List WorkerEv} {s : WorkerSt} (r : WorkerSt.Run h s) (hl : (addedTimers h).length ≤ 2 ^ 48) {id d : Nat}
    (hm : .addTimer id d 0 ∈ h) : fired id h ≤ 1 := by
  suffices H : ∀ {h s}, WorkerSt.Run h s → (addedTimers h).length ≤ 2 ^ 48 → .addTimer id d 0 ∈ h →
      fired id h = 0 ∨ (fired id h = 1 ∧ s.Gone id) by
    rcases H r hl hm with h | h <;> omega
  clear hm hl r h s
  intro h s r
  have fires : ∀ h : List WorkerEv, ∀ e, fired id (h ++ [e]) = fired id h + if e = .fire id then 1 else 0 := by
    intro h e; unfold fired; rw [List.count_append, List.count_singleton]; simp
  refine Exec.invariant (P := fun h s => (addedTimers h).length ≤ 2 ^ 48 → .addTimer id d 0 ∈ h →
      fired id h = 0 ∨ (fired id h = 1 ∧ s.Gone id)) (by simp [fired]) ?_ r
  intro h s e s' r ih st hl hm
  have hl0 := addedTimers_append_le hl
  have inv := WorkerSt.Run.timerInv r hl0
  by_cases hm0 : .addTimer id d 0 ∈ h
  · have hna := notAdd_of_mem (r.append (.one st)) hl hm0 e (by simp)
    rw [fires]
    rcases ih hl0 hm0 with h0 | ⟨h1, hg⟩
    · by_cases he : e = .fire id
      · right
        refine ⟨by simp [h0, he], ?_⟩
        subst he
        obtain ⟨t, ht, rfl, hs1, hs2, hs3⟩ := st.fire_inv
        · have hw := inv.active_notWaiting ht
          refine ⟨by unfold WorkerSt.NotWaiting at *; rw [hs1, hs2]; exact hw, ?_⟩
          have hi : t.interval = 0 := by
            have hk := inv.active_known ht
            have hnd := C32_ids_partial r hl0
            -- the same id was added only once
            rcases List.append_of_mem hm0 with ⟨a, b, hab⟩
            rw [hab] at hk
            simp only [List.mem_append, List.mem_cons] at hk
            rw [hab] at hnd
            have e1 : addedTimers (a ++ .addTimer t.id d 0 :: b) = addedTimers a ++ t.id :: addedTimers b := by
              unfold addedTimers; simp
            rw [e1, List.nodup_append] at hnd
            rcases hk with hk | hk | hk
            · exact absurd rfl (hnd.2.2 _ (mem_addedTimers hk) _ List.mem_cons_self)
            · simp at hk; exact hk.2
            · exact absurd (mem_addedTimers hk) (List.nodup_cons.1 hnd.2.1).1
          rw [hs3]
          simp only [hi, if_true]
          exact not_mem_eraseTimer _ _
      · left; simp [h0, he]
    · have := st.gone hna hg
      right
      exact ⟨by simp [h1, this.2], this.1⟩
  · left
    -- it has not fired before it was added
    have he : e = .addTimer id d 0 := by
      simp only [List.mem_append, List.mem_singleton] at hm
      rcases hm with hm | hm
      · exact absurd hm hm0
      · exact hm.symm
    rw [fires, he]
    simp only [reduceCtorEq, if_false, Nat.add_zero]
    unfold fired
    rw [List.count_eq_zero]
    intro hf
    obtain ⟨a, b, hab⟩ := List.append_of_mem hf
    have hnd := C32_ids_partial (r.append (.one st)) hl
    rw [hab] at r
    obtain ⟨sa, ra, rb⟩ := r.split
    cases rb with
    | cons st0 _ =>
      obtain ⟨t, ht, rfl, -⟩ := st0.fire_inv
      have hla : (addedTimers a).length ≤ 2 ^ 48 := by rw [hab] at hl0; exact addedTimers_append_le hl0
      have hk := (WorkerSt.Run.timerInv ra hla).active_known ht
      rw [he, addedTimers_snoc, List.nodup_append] at hnd
      exact hnd.2.2 _ (mem_addedTimers (hab ▸ List.mem_append_left _ hk)) _ (by simp [addedTimers]) rfl

/-- C32 violated: a repeated task with a period of zero milliseconds runs only once. -/
theorem C32_repeat_zero_violated {h : List WorkerEv} {s : WorkerSt} (r : WorkerSt.Run h s) (hl : (addedTimers h).length ≤ 2 ^ 48) {id : Nat}
    (hm : .addRepeat id 0 ∈ h) : fired id h ≤ 1 := C32_once r hl hm

/-- The timers to be purged have been purged by someone. -/
theorem WorkerSt.Run.purges {h : List WorkerEv} {s : WorkerSt} (r : WorkerSt.Run h s) :
    ∀ id, id ∈ s.purgingTimers ∨ id ∈ s.pc.toPurge → .purge id ∈ h := by
  refine Exec.invariant (P := fun h s => ∀ id, id ∈ s.purgingTimers ∨ id ∈ s.pc.toPurge → .purge id ∈ h) ?_ ?_ r
  · simp [WorkerSt.start, WorkerPc.toPurge]
  · intro h s e s' _ ih st id hid
    cases st <;> simp_all [WorkerPc.toPurge] <;> grind

/-- C32 (up to 2^48 timers): a timer that was not purged, and that is repeated or has not fired, is armed
once everything has settled: it can fire. -/
theorem C32_armed {h : List WorkerEv} {s : WorkerSt} (r : WorkerSt.Run h s) (hl : (addedTimers h).length ≤ 2 ^ 48) {id d i : Nat}
    (hm : .addTimer id d i ∈ h) (hp : .purge id ∉ h) (hf : i ≠ 0 ∨ .fire id ∉ h) (hs : s.Settled) (hst : .stop ∉ h) :
    ∃ s', WorkerSt.Step s (.fire id) s' := by
  have key : ⟨id, d, i⟩ ∈ s.timers := by
    have inv := Exec.invariant (P := fun h s => (addedTimers h).length ≤ 2 ^ 48 → .addTimer id d i ∈ h → .purge id ∉ h → (i ≠ 0 ∨ .fire id ∉ h) →
      ⟨id, d, i⟩ ∈ WorkerSt.timers s) (by simp) ?_ r
    · exact inv hl hm hp hf
    intro h s e s' r ih st hl hm hp hf
    have hl0 := addedTimers_append_le hl
    have ti := WorkerSt.Run.timerInv r hl0
    have pu := WorkerSt.Run.purges r
    simp only [List.mem_append, List.mem_singleton, not_or] at hm hp hf
    by_cases hm0 : .addTimer id d i ∈ h
    · have h0 := ih hl0 hm0 hp.1 (hf.imp (fun x => x) (fun x => x.1))
      unfold WorkerSt.timers at h0 ⊢
      simp only [List.mem_append] at h0 ⊢
      cases st with
      | @arm t l hpc =>
        simp only [hpc, WorkerPc.toArm, List.mem_cons] at h0 ⊢
        rcases h0 with (h0 | h0 | h0) | h0
        · exact .inl (.inl h0)
        · exact .inr (.inl h0)
        · exact .inl (.inr h0)
        · right; right
          unfold eraseTimer
          rw [List.mem_filter]
          refine ⟨h0, ?_⟩
          have := (ti.active_notWaiting h0).2
          rw [hpc] at this
          simp only [WorkerPc.toArm, List.map_cons, List.mem_cons, not_or] at this
          simpa using this.1
      | @purgeOne id' l hpc =>
        have hne : id' ≠ id := by
          rintro rfl
          exact hp.1 (pu _ (.inr (by rw [hpc]; simp [WorkerPc.toPurge])))
        rw [hpc] at h0
        simp only [WorkerPc.toArm] at h0 ⊢
        rcases h0 with (h0 | h0) | h0
        · exact .inl (.inl h0)
        · simp at h0
        · right; unfold eraseTimer; rw [List.mem_filter]; exact ⟨h0, by simpa using Ne.symm hne⟩
      | @fire t hd ht =>
        rcases h0 with (h0 | h0) | h0
        · exact .inl (.inl h0)
        · exact .inl (.inr h0)
        · right
          by_cases hi : t.interval = 0
          · simp only [hi, if_true]
            unfold eraseTimer; rw [List.mem_filter]
            refine ⟨h0, ?_⟩
            have hne : t.id ≠ id := by
              intro hid
              have htt : t = ⟨id, d, i⟩ := by
                have hn := ti.nodup
                have h1 : t ∈ s.timers := by unfold WorkerSt.timers; simp [ht]
                have h2 : ⟨id, d, i⟩ ∈ s.timers := by unfold WorkerSt.timers; simp [h0]
                exact List.inj_on_of_nodup_map' hn h1 h2 hid
              rw [htt] at hi
              rcases hf with hf | hf
              · exact hf hi
              · exact hf.2 (by rw [hid])
            simpa using Ne.symm hne
          · simp only [hi, if_false]; exact h0
      | addTimer => simp only [List.mem_append]; rcases h0 with (h0 | h0) | h0 <;> simp [h0]
      | takeTimers hpc => rw [hpc] at h0; simpa [WorkerPc.toArm] using h0
      | addTask | purge | stop | notify => exact h0
      | wake hpc | check hpc | takeTasks hpc | run hpc | ranAll hpc | armedAll hpc | takePurges hpc | purgedAll hpc | exit hpc =>
        rw [hpc] at h0; simpa [WorkerPc.toArm] using h0
    · rcases hm with hm | hm
      · exact absurd hm hm0
      · subst hm
        generalize hx : WorkerEv.addTimer id d i = x at st
        cases st with
        | addTimer => cases hx; unfold WorkerSt.timers; simp
        | _ => cases hx
  obtain ⟨ho, hx | ⟨hd, he⟩⟩ := hs
  · have ti := r.taskInv
    exact absurd (ti.stopped.1 (ti.exiting (ti.exited hx))) hst
  · have hpt : s.pendingTimers = [] := by
      cases hq : s.pendingTimers with
      | nil => rfl
      | cons a l =>
        have := r.awake.arm (by rw [hq]; simp)
        rw [hd, ho, he] at this
        simp at this
    unfold WorkerSt.timers at key
    rw [hpt, hd] at key
    simp only [WorkerPc.toArm, List.nil_append] at key
    exact ⟨_, .fire hd key⟩

/-- A repeated timer that is armed, fires and is purged; everything settles before and after. -/
example : ∃ s, WorkerSt.Run ([.addTimer 0 5 5, .tau, .tau, .tau, .tau, .tau, .tau, .tau, .tau, .tau, .tau] ++ [.fire 0] ++ [] ++ [.purge 0] ++ [.tau, .tau, .tau, .tau, .tau, .tau, .tau, .tau, .tau, .tau]) s ∧ s.Settled := by
  refine ⟨⟨false, false, 0, 0, [], [], [], 1, [], .dispatch⟩, ?_, rfl, .inr ⟨rfl, rfl⟩⟩
  show Exec WorkerSt.Step ⟨false, false, 0, 0, [], [], [], 0, [], .dispatch⟩ [.addTimer 0 5 5, .tau, .tau, .tau, .tau, .tau, .tau, .tau, .tau, .tau, .tau, .fire 0, .purge 0, .tau, .tau, .tau, .tau, .tau, .tau, .tau, .tau, .tau, .tau] _
  refine .cons (s1 := ⟨false, false, 0, 1, [], [⟨0, 5, 5⟩], [], 1, [], .dispatch⟩) .addTimer ?_
  refine .cons (s1 := ⟨false, false, 1, 0, [], [⟨0, 5, 5⟩], [], 1, [], .dispatch⟩) (.notify (by decide)) ?_
  refine .cons (s1 := ⟨false, false, 0, 0, [], [⟨0, 5, 5⟩], [], 1, [], .notified⟩) (.wake rfl (by decide)) ?_
  refine .cons (s1 := ⟨false, false, 0, 0, [], [⟨0, 5, 5⟩], [], 1, [], .checked⟩) (.check rfl) ?_
  refine .cons (s1 := ⟨false, false, 0, 0, [], [⟨0, 5, 5⟩], [], 1, [], .running []⟩) (.takeTasks rfl) ?_
  refine .cons (s1 := ⟨false, false, 0, 0, [], [⟨0, 5, 5⟩], [], 1, [], .tasksDone⟩) (.ranAll rfl) ?_
  refine .cons (s1 := ⟨false, false, 0, 0, [], [], [], 1, [], .adding [⟨0, 5, 5⟩]⟩) (.takeTimers rfl) ?_
  refine .cons (s1 := ⟨false, false, 0, 0, [], [], [], 1, [⟨0, 5, 5⟩], .adding []⟩) (.arm rfl) ?_
  refine .cons (s1 := ⟨false, false, 0, 0, [], [], [], 1, [⟨0, 5, 5⟩], .timersDone⟩) (.armedAll rfl) ?_
  refine .cons (s1 := ⟨false, false, 0, 0, [], [], [], 1, [⟨0, 5, 5⟩], .purging []⟩) (.takePurges rfl) ?_
  refine .cons (s1 := ⟨false, false, 0, 0, [], [], [], 1, [⟨0, 5, 5⟩], .dispatch⟩) (.purgedAll rfl) ?_
  refine .cons (s1 := ⟨false, false, 0, 0, [], [], [], 1, [⟨0, 5, 5⟩], .dispatch⟩) (.fire (t := ⟨0, 5, 5⟩) rfl (by simp)) ?_
  refine .cons (s1 := ⟨false, false, 0, 1, [], [], [0], 1, [⟨0, 5, 5⟩], .dispatch⟩) .purge ?_
  refine .cons (s1 := ⟨false, false, 1, 0, [], [], [0], 1, [⟨0, 5, 5⟩], .dispatch⟩) (.notify (by decide)) ?_
  refine .cons (s1 := ⟨false, false, 0, 0, [], [], [0], 1, [⟨0, 5, 5⟩], .notified⟩) (.wake rfl (by decide)) ?_
  refine .cons (s1 := ⟨false, false, 0, 0, [], [], [0], 1, [⟨0, 5, 5⟩], .checked⟩) (.check rfl) ?_
  refine .cons (s1 := ⟨false, false, 0, 0, [], [], [0], 1, [⟨0, 5, 5⟩], .running []⟩) (.takeTasks rfl) ?_
  refine .cons (s1 := ⟨false, false, 0, 0, [], [], [0], 1, [⟨0, 5, 5⟩], .tasksDone⟩) (.ranAll rfl) ?_
  refine .cons (s1 := ⟨false, false, 0, 0, [], [], [0], 1, [⟨0, 5, 5⟩], .adding []⟩) (.takeTimers rfl) ?_
  refine .cons (s1 := ⟨false, false, 0, 0, [], [], [0], 1, [⟨0, 5, 5⟩], .timersDone⟩) (.armedAll rfl) ?_
  refine .cons (s1 := ⟨false, false, 0, 0, [], [], [], 1, [⟨0, 5, 5⟩], .purging [0]⟩) (.takePurges rfl) ?_
  refine .cons (s1 := ⟨false, false, 0, 0, [], [], [], 1, [], .purging []⟩) (.purgeOne (id := 0) (r := []) rfl) ?_
  refine .cons (s1 := ⟨false, false, 0, 0, [], [], [], 1, [], .dispatch⟩) (.purgedAll rfl) ?_
  exact .nil

end Nebula
