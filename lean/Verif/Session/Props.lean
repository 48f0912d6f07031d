import Verif.Session.Model
import Verif.Worker.LifeProps
import Mathlib.Tactic.Tauto
/-!
# C154: a session manager and its worker
-/
namespace Nebula.Session
open WLife (St)

/-- The history of the worker within a history of the manager. -/
def workers (h : List Ev) : List WLife.Ev := h.flatMap Ev.worker

/-- The tasks put into the worker. -/
def tasksOf (h : List Ev) : List Nat := h.filterMap fun | .use (.addTask k) => some k | _ => none

theorem acts_append (m : Mgr) (h k : List Ev) : m.acts (h ++ k) = (m.acts h).bind fun m => m.acts k := by
  induction h generalizing m with
  | nil => rfl
  | cons e h ih =>
    simp only [List.cons_append, Mgr.acts]
    cases m.act e with
    | none => rfl
    | some s1 => exact ih s1

/-- What is known of the worker where the owner is. -/
structure Inv (m : Mgr) : Prop where
  fresh : m.phase = .before → m.w = {}
  starting : m.w.starting = true ↔ m.phase = .starting
  stopped : m.phase = .stopping ∨ m.phase = .waited → m.w.stopped = true
  thread : m.phase = .waited ∨ m.phase = .reset ∨ m.phase = .gone → m.w.thread = none
  alive : m.phase ≠ .reset → m.phase ≠ .gone → m.w.fate = .alive

/-- What the worker's own thread and those who add to it leave as it is. -/
theorem keeps {s s' : St} {e : WLife.Ev} (he : own e = true ∨ adding e = true) (h : s.act e = some s') :
    s'.starting = s.starting ∧ s'.stopped = s.stopped ∧ (s.thread = none → s'.thread = none ∧ own e = false) ∧ s'.fate = s.fate := by
  obtain ⟨hd, ha⟩ := WLife.act_did h
  cases hd with
  | addTask k => exact ⟨rfl, rfl, fun h => ⟨h, rfl⟩, rfl⟩
  | addTimer t => exact ⟨rfl, rfl, fun h => ⟨h, rfl⟩, rfl⟩
  | purge i => exact ⟨rfl, rfl, fun h => ⟨h, rfl⟩, rfl⟩
  | wake b x ht hg =>
    obtain ⟨hs, -⟩ := WLife.onNotify_same s
    exact ⟨hs.starting, hs.stopped, fun h => by simp [h] at ht, hs.fate⟩
  | fire i b x l ht => exact ⟨rfl, rfl, fun h => by simp [h] at ht, rfl⟩
  | exit b ht => exact ⟨rfl, rfl, fun h => by simp [h] at ht, rfl⟩
  | _ => simp [own, adding] at he

theorem act_parts {m m' : Mgr} {e : Ev} (h : m.act e = some m') : next m.phase e = some m'.phase ∧ m.w.acts e.worker = some m'.w ∧
    m'.log = match runsCode e with | some x => m.log ++ [(m.phase, x)] | none => m.log := by
  unfold Mgr.act at h
  simp only [Option.bind_eq_some_iff, Option.map_eq_some_iff] at h
  obtain ⟨p, h1, w, h2, rfl⟩ := h
  exact ⟨h1, h2, rfl⟩

theorem acts_one {s s' : St} {e : WLife.Ev} (h : s.acts [e] = some s') : s.act e = some s' := by
  simp only [St.acts, Option.bind_eq_some_iff, Option.some.injEq] at h
  obtain ⟨_, h1, rfl⟩ := h
  exact h1

/-- A `use` that is neither a stop nor a wait. -/
theorem use_parts {p p' : Phase} {e : WLife.Ev} (h : next p (.use e) = some p') : p' = p ∧
    ((own e = true ∨ adding e = true) ∨ (p = .whole ∧ (e = .stop ∨ e = .wait))) ∧ (p = .starting ∨ p = .waited ∨ p = .reset ∨ p = .gone → own e = true) ∧ p ≠ .before := by
  cases p <;> simp only [next] at h <;> try (cases h)
  all_goals
    split at h
    · rename_i hc
      injection h with h
      refine ⟨h.symm, ?_, ?_, by simp⟩
      · simp at hc ⊢; tauto
      · simp <;> simpa using hc
    · cases h

theorem inv_act {m m' : Mgr} {e : Ev} (hi : Inv m) (h : m.act e = some m') : Inv m' := by
  obtain ⟨h1, h2, -⟩ := act_parts h
  obtain ⟨w', p', l'⟩ := m'
  simp only at h1 h2
  cases e with
  | construct fd =>
    have hp : m.phase = .before := by cases hp : m.phase <;> simp [hp, next] at h1 ⊢
    have hw := hi.fresh hp
    rw [hp] at h1
    simp only [next, Option.some.injEq] at h1
    have h3 := acts_one h2
    rw [hw] at h3
    obtain ⟨hd, -⟩ := WLife.act_did h3
    cases hd with
    | refused hs _ => cases hs
    | failed _ _ => simp at h1; exact ⟨by simp [← h1], by simp [← h1], by simp [← h1], by simp [← h1], fun _ _ => rfl⟩
    | terminated _ _ t ht => cases ht
    | launched _ _ _ => simp at h1; exact ⟨by simp [← h1], by simp [← h1], by simp [← h1], by simp [← h1], fun _ _ => rfl⟩
  | constructed =>
    have hp : m.phase = .starting := by cases hp : m.phase <;> simp [hp, next] at h1 ⊢
    rw [hp] at h1
    simp only [next, Option.some.injEq] at h1
    obtain ⟨hd, ha⟩ := WLife.act_did (acts_one h2)
    cases hd with
    | started hs => exact ⟨by simp [← h1], by simp [← h1], by simp [← h1], by simp [← h1], fun _ _ => ha⟩
  | use e =>
    obtain ⟨e1, e2, e3, e4⟩ := use_parts h1
    have h3 := acts_one h2
    rcases e2 with e2 | ⟨hw, e2⟩
    · obtain ⟨k1, k2, k3, k4⟩ := keeps e2 h3
      refine ⟨fun hb => absurd (e1 ▸ hb) e4, by rw [k1, e1]; exact hi.starting, by rw [k2, e1]; exact hi.stopped, fun hp => ?_, by rw [k4, e1]; exact hi.alive⟩
      rw [e1] at hp
      exact (k3 (hi.thread hp)).1
    · obtain ⟨hd, ha⟩ := WLife.act_did h3
      have hns : m.w.starting = false := by
        cases hs : m.w.starting with
        | false => rfl
        | true => have := hi.starting.1 hs; rw [hw] at this; cases this
      rw [hw] at e1
      have hst : w'.starting = false ∧ w'.fate = .alive := by
        rcases e2 with rfl | rfl
        · cases hd with
          | stopAgain _ _ => exact ⟨hns, ha⟩
          | stop _ _ => exact ⟨hns, ha⟩
        · cases hd with
          | waitNone _ _ => exact ⟨hns, ha⟩
          | wait _ _ _ _ => exact ⟨hns, ha⟩
      exact ⟨by simp [e1], by simp [e1, hst.1], by simp [e1], by simp [e1], fun _ _ => hst.2⟩
  | derived =>
    have hp : m.phase = .whole := by cases hp : m.phase <;> simp [hp, next] at h1 ⊢
    have hs := hi.starting
    have ha := hi.alive
    rw [hp] at h1 hs ha
    simp only [next, Option.some.injEq] at h1
    simp only [Ev.worker, St.acts, Option.some.injEq] at h2
    refine ⟨by simp [← h1], by rw [← h2, ← h1, hs]; simp, by simp [← h1], by simp [← h1], fun _ _ => by rw [← h2]; exact ha (by simp) (by simp)⟩
  | stop =>
    have hp : m.phase = .derivedGone := by cases hp : m.phase <;> simp [hp, next] at h1 ⊢
    rw [hp] at h1
    simp only [next, Option.some.injEq] at h1
    obtain ⟨hd, ha⟩ := WLife.act_did (acts_one h2)
    cases hd with
    | stopAgain hs hn => exact ⟨by simp [← h1], by simp [← h1, hn], fun _ => hs, by simp [← h1], fun _ _ => ha⟩
    | stop hs hn => exact ⟨by simp [← h1], by simp [← h1, hn], fun _ => rfl, by simp [← h1], fun _ _ => ha⟩
  | wait =>
    have hp : m.phase = .stopping := by cases hp : m.phase <;> simp [hp, next] at h1 ⊢
    have hst := hi.stopped (.inl hp)
    rw [hp] at h1
    simp only [next, Option.some.injEq] at h1
    obtain ⟨hd, ha⟩ := WLife.act_did (acts_one h2)
    cases hd with
    | waitNone hn ht => exact ⟨by simp [← h1], by simp [← h1, hn], fun _ => hst, fun _ => ht, fun _ _ => ha⟩
    | wait hn _ _ _ => exact ⟨by simp [← h1], by simp [← h1, hn], fun _ => hst, fun _ => rfl, fun _ _ => ha⟩
  | reset =>
    have hp : m.phase = .waited := by cases hp : m.phase <;> simp [hp, next] at h1 ⊢
    have hst := hi.stopped (.inr hp)
    have hth := hi.thread (.inl hp)
    have hs := hi.starting
    rw [hp] at h1 hs
    have hns : m.w.starting = false := by simpa using hs
    simp only [next, Option.some.injEq] at h1
    simp only [Ev.worker, St.acts, Option.bind_eq_some_iff, Option.some.injEq] at h2
    obtain ⟨w1, a1, w2, a2, w3, a3, rfl⟩ := h2
    have e1 : w1 = m.w := by
      obtain ⟨hd, -⟩ := WLife.act_did a1
      cases hd with
      | stopAgain _ _ => rfl
      | stop hx _ => rw [hst] at hx; cases hx
    subst e1
    have e2 : w2 = m.w := by
      obtain ⟨hd, -⟩ := WLife.act_did a2
      cases hd with
      | waitNone _ _ => rfl
      | wait _ _ _ hx => rw [hth] at hx; cases hx
    subst e2
    have e3 : w3 = m.w.destroy := by
      obtain ⟨hd, -⟩ := WLife.act_did a3
      cases hd with
      | destroy _ _ _ => rfl
    have e4 : m.w.destroy.thread = m.w.thread ∧ m.w.destroy.starting = m.w.starting := by
      unfold St.destroy; simp only; split <;> exact ⟨rfl, rfl⟩
    exact ⟨by simp [← h1], by rw [e3, e4.2, hns, ← h1]; simp, by simp [← h1], fun _ => by rw [e3, e4.1]; exact hth, fun hx => absurd h1.symm hx⟩
  | members =>
    have hp : m.phase = .reset := by cases hp : m.phase <;> simp [hp, next] at h1 ⊢
    have hth := hi.thread (.inr (.inl hp))
    have hs := hi.starting
    rw [hp] at h1 hs
    simp only [next, Option.some.injEq] at h1
    simp only [Ev.worker, St.acts, Option.some.injEq] at h2
    exact ⟨by simp [← h1], by rw [← h2, ← h1, hs]; simp, by simp [← h1], fun _ => by rw [← h2]; exact hth, fun _ hx => absurd h1.symm hx⟩

theorem inv_new : Inv {} := ⟨fun _ => rfl, by simp, by simp, by simp, fun _ _ => rfl⟩

theorem inv_acts {h : List Ev} : ∀ {m m' : Mgr}, Inv m → m.acts h = some m' → Inv m' := by
  induction h with
  | nil => intro m m' hi h; simp only [Mgr.acts, Option.some.injEq] at h; rw [← h]; exact hi
  | cons e h ih =>
    intro m m' hi h
    simp only [Mgr.acts, Option.bind_eq_some_iff] at h
    obtain ⟨m1, h1, h2⟩ := h
    exact ih (inv_act hi h1) h2

theorem worker_acts {h : List Ev} : ∀ {m m' : Mgr}, m.acts h = some m' → m.w.acts (workers h) = some m'.w := by
  induction h with
  | nil => intro m m' h; simp only [Mgr.acts, Option.some.injEq] at h; rw [← h]; rfl
  | cons e h ih =>
    intro m m' h
    simp only [Mgr.acts, Option.bind_eq_some_iff] at h
    obtain ⟨m1, h1, h2⟩ := h
    rw [workers, List.flatMap_cons, WLife.acts_append, (act_parts h1).2.1]
    exact ih h2

/-! ## C154 -/

/-- **C154 (own members).** Whatever the worker of a session manager runs, it runs before the destructor's wait returns: never while or after the members of the manager are destroyed. -/
theorem C154_members {h : List Ev} {m : Mgr} (r : run h = some m) : ∀ x ∈ m.log, x.1 = .starting ∨ x.1 = .whole ∨ x.1 = .derivedGone ∨ x.1 = .stopping := by
  suffices H : ∀ (h : List Ev) (m m' : Mgr), Inv m → (∀ x ∈ m.log, x.1 = .starting ∨ x.1 = .whole ∨ x.1 = .derivedGone ∨ x.1 = .stopping) → m.acts h = some m' →
      ∀ x ∈ m'.log, x.1 = .starting ∨ x.1 = .whole ∨ x.1 = .derivedGone ∨ x.1 = .stopping from H h {} m inv_new (by simp) r
  intro h
  induction h with
  | nil => intro m m' _ hl h; simp only [Mgr.acts, Option.some.injEq] at h; rw [← h]; exact hl
  | cons e h ih =>
    intro m m' hi hl h
    simp only [Mgr.acts, Option.bind_eq_some_iff] at h
    obtain ⟨m1, h1, h2⟩ := h
    refine ih m1 m' (inv_act hi h1) ?_ h2
    obtain ⟨p1, p2, p3⟩ := act_parts h1
    cases hc : runsCode e with
    | none => rw [p3, hc]; exact hl
    | some x =>
      rw [p3, hc]
      have hu : e = .use x ∧ own x = true := by
        cases e with
        | use y => cases y <;> simp [runsCode] at hc <;> (subst hc; exact ⟨rfl, rfl⟩)
        | _ => simp [runsCode] at hc
      obtain ⟨rfl, ho⟩ := hu
      have hthr : m.w.thread ≠ none := by
        intro ht
        have := (keeps (.inl ho) (acts_one p2)).2.2.1 ht
        rw [ho] at this; exact absurd this.2 (by simp)
      intro y hy
      rcases List.mem_append.1 hy with hy | hy
      · exact hl y hy
      · simp only [List.mem_singleton] at hy
        subst hy
        have hnb := (use_parts p1).2.2.2
        have ht := hi.thread
        cases hp : m.phase <;> simp [hp] at ht hnb ⊢ <;> exact absurd ht hthr

/-- Without a thread nothing runs, and none comes. -/
theorem quiet {h : List Ev} : ∀ {m m' : Mgr}, m.phase ≠ .before → m.phase ≠ .starting → m.w.thread = none → m.acts h = some m' → m'.log = m.log := by
  induction h with
  | nil => intro m m' _ _ _ h; simp only [Mgr.acts, Option.some.injEq] at h; rw [h]
  | cons e h ih =>
    intro m m' hb hs ht h
    simp only [Mgr.acts, Option.bind_eq_some_iff] at h
    obtain ⟨m1, h1, h2⟩ := h
    obtain ⟨p1, p2, p3⟩ := act_parts h1
    have key : m1.phase ≠ .before ∧ m1.phase ≠ .starting ∧ m1.w.thread = none ∧ m1.log = m.log := by
      cases e with
      | construct fd => cases hp : m.phase <;> simp [hp, next] at p1 hb
      | constructed => cases hp : m.phase <;> simp [hp, next] at p1 hs
      | use e =>
        obtain ⟨e1, e2, -, -⟩ := use_parts p1
        have h3 := acts_one p2
        rcases e2 with e2 | ⟨-, e2⟩
        · obtain ⟨k1, k2⟩ := (keeps e2 h3).2.2.1 ht
          refine ⟨by rw [e1]; exact hb, by rw [e1]; exact hs, k1, ?_⟩
          rw [p3]
          cases e <;> simp [own] at k2 <;> rfl
        · obtain ⟨hd, -⟩ := WLife.act_did h3
          refine ⟨by rw [e1]; exact hb, by rw [e1]; exact hs, ?_, ?_⟩
          · revert hd
            generalize m1.w = w1
            intro hd
            rcases e2 with rfl | rfl
            · cases hd with
              | stopAgain _ _ => exact ht
              | stop _ _ => exact ht
            · cases hd with
              | waitNone _ _ => exact ht
              | wait _ _ _ _ => rfl
          · rw [p3]; rcases e2 with rfl | rfl <;> rfl
      | derived =>
        simp only [Ev.worker, St.acts, Option.some.injEq] at p2
        refine ⟨?_, ?_, by rw [← p2]; exact ht, p3⟩ <;> (cases hp : m.phase <;> simp [hp, next] at p1 <;> simp [← p1])
      | members =>
        simp only [Ev.worker, St.acts, Option.some.injEq] at p2
        refine ⟨?_, ?_, by rw [← p2]; exact ht, p3⟩ <;> (cases hp : m.phase <;> simp [hp, next] at p1 <;> simp [← p1])
      | stop =>
        obtain ⟨hd, -⟩ := WLife.act_did (acts_one p2)
        refine ⟨?_, ?_, ?_, p3⟩
        · cases hp : m.phase <;> simp [hp, next] at p1 <;> simp [← p1]
        · cases hp : m.phase <;> simp [hp, next] at p1 <;> simp [← p1]
        · revert hd
          generalize m1.w = w1
          intro hd
          cases hd with
          | stopAgain _ _ => exact ht
          | stop _ _ => exact ht
      | wait =>
        obtain ⟨hd, -⟩ := WLife.act_did (acts_one p2)
        refine ⟨?_, ?_, ?_, p3⟩
        · cases hp : m.phase <;> simp [hp, next] at p1 <;> simp [← p1]
        · cases hp : m.phase <;> simp [hp, next] at p1 <;> simp [← p1]
        · revert hd
          generalize m1.w = w1
          intro hd
          cases hd with
          | waitNone _ _ => exact ht
          | wait _ _ _ _ => rfl
      | reset =>
        refine ⟨?_, ?_, ?_, p3⟩
        · cases hp : m.phase <;> simp [hp, next] at p1 <;> simp [← p1]
        · cases hp : m.phase <;> simp [hp, next] at p1 <;> simp [← p1]
        · simp only [Ev.worker, St.acts, Option.bind_eq_some_iff, Option.some.injEq] at p2
          obtain ⟨w1, a1, w2, a2, w3, a3, rfl⟩ := p2
          have t1 : w1.thread = none := by
            obtain ⟨hd, -⟩ := WLife.act_did a1
            cases hd with
            | stopAgain _ _ => exact ht
            | stop _ _ => exact ht
          have t2 : w2.thread = none := by
            obtain ⟨hd, -⟩ := WLife.act_did a2
            cases hd with
            | waitNone _ _ => exact t1
            | wait _ _ _ _ => rfl
          obtain ⟨hd, -⟩ := WLife.act_did a3
          revert hd
          generalize m1.w = w'
          intro hd
          cases hd with
          | destroy _ _ _ => unfold St.destroy; simp only; split <;> exact t2
    rw [ih key.1 key.2.1 key.2.2.1 h2, key.2.2.2]

/-- **C154 (derived classes that wait).** Once a derived class has waited for the worker, nothing of it runs any more: nothing runs while or after the part of the derived class is destroyed.
Partial: the manager itself waits only after that part is gone. -/
theorem C154_derived_partial {h k : List Ev} {m m' : Mgr} (r : run (h ++ [.use .wait]) = some m) (r' : m.acts k = some m') : m'.log = m.log := by
  rw [run, acts_append] at r
  simp only [Option.bind_eq_some_iff] at r
  obtain ⟨m0, r0, r1⟩ := r
  simp only [Mgr.acts, Option.bind_eq_some_iff, Option.some.injEq] at r1
  obtain ⟨_, r1, rfl⟩ := r1
  rename_i m
  obtain ⟨p1, p2, p3⟩ := act_parts r1
  obtain ⟨e1, e2, e3, e4⟩ := use_parts p1
  have hw : m0.phase = .whole := by
    rcases e2 with e2 | e2
    · simp [own, adding] at e2
    · exact e2.1
  refine quiet (by rw [e1]; exact e4) (by rw [e1, hw]; simp) ?_ r'
  obtain ⟨hd, -⟩ := WLife.act_did (acts_one p2)
  revert hd
  generalize m.w = w
  intro hd
  cases hd with
  | waitNone _ ht => exact ht
  | wait _ _ _ _ => rfl

/-- **C154 fails for derived classes that do not wait:** a timer can fire when the part of the derived class is destroyed already, and so can a task run. -/
theorem C154_derived_violated : (∃ m, run [.construct true, .constructed, .use (.addTimer ⟨1, false⟩), .use .wake, .derived, .use (.fire 1)] = some m ∧ (.derivedGone, .fire 1) ∈ m.log) ∧
    ∃ m, run [.construct true, .constructed, .use (.addTask 7), .derived, .stop, .use .wake] = some m ∧ (.stopping, .wake) ∈ m.log ∧ m.w.ran = [7] :=
  ⟨⟨_, rfl, by decide⟩, ⟨_, rfl, by decide, rfl⟩⟩

/-- **C154 (destruction).** When the destructor has waited, it comes to its end; it uses freed memory exactly if a timer is armed at that time. -/
theorem C154_destroy {h : List Ev} {m : Mgr} (r : run h = some m) (hp : m.phase = .waited) : ∃ m', m.acts [.reset, .members] = some m' ∧ m'.phase = .gone ∧
    (m'.w.fate = .usedFreed ↔ ∃ a ∈ m.w.active, some a.base = m.w.evbase) ∧ (m'.w.fate = .destroyed ↔ ∀ a ∈ m.w.active, some a.base ≠ m.w.evbase) := by
  have hi := inv_acts inv_new r
  have hst := hi.stopped (.inr hp)
  have hth := hi.thread (.inl hp)
  have hal := hi.alive (by rw [hp]; simp) (by rw [hp]; simp)
  have hns : m.w.starting = false := by have := hi.starting; rw [hp] at this; simpa using this
  have hd : m.w.act .destroy = some m.w.destroy := by simp [St.act, hal, hns, hst, hth]
  have hw : m.w.acts [.stop, .wait, .destroy] = some m.w.destroy := by
    simp only [St.acts, St.act, hal, hns, St.stop, hst, hth, and_self, if_true, Option.bind_some]
  have hc := WLife.C135_destroy (worker_acts r) hd
  refine ⟨⟨m.w.destroy, .gone, m.log⟩, ?_, rfl, hc.1, hc.2⟩
  simp only [Mgr.acts, Mgr.act, hp, next, Ev.worker, hw, Option.map_some, Option.bind_some, runsCode]
  rfl

/-- **C154 fails for timers that are armed:** a manager with a delayed task that has not come up yet uses freed memory when it is destroyed. -/
theorem C154_pending_violated : ∃ m, run [.construct true, .constructed, .use (.addTimer ⟨1, true⟩), .use .wake, .derived, .stop, .use .wake, .use .exit, .wait, .reset, .members] = some m ∧
    m.phase = .gone ∧ m.w.fate = .usedFreed :=
  ⟨_, rfl, rfl, rfl⟩

theorem quiet_snoc {k : List WLife.Ev} {e : WLife.Ev} (hq : WLife.QuietStarts k) (he : ∀ s, WLife.run k = some s → s.starting = true → e.notifies = false) : WLife.QuietStarts (k ++ [e]) := by
  intro a x c s hh hr hs
  rcases List.eq_nil_or_concat c with rfl | ⟨c', y, rfl⟩
  · rw [List.append_nil] at hh
    obtain ⟨rfl, hx⟩ := List.append_inj' hh rfl
    simp only [List.cons.injEq, and_true] at hx
    rw [← hx]
    exact he s hr hs
  · rw [List.concat_eq_append, ← List.append_assoc] at hh
    obtain ⟨hh', -⟩ := List.append_inj' hh rfl
    exact hq a x c' s hh' hr hs

/-- Nobody uses the worker while it is being started: the manager is not there yet. -/
theorem quiet_starts {h : List Ev} : ∀ {m : Mgr}, run h = some m → WLife.QuietStarts (workers h) := by
  suffices H : ∀ n (h : List Ev) m, h.length = n → run h = some m → WLife.QuietStarts (workers h) from fun {m} r => H _ h m rfl r
  intro n
  induction n with
  | zero =>
    intro h m hl r
    rw [List.length_eq_zero_iff] at hl
    subst hl
    intro a e c s hh
    simp [workers] at hh
  | succ n ih =>
    intro h m hl r
    rcases List.eq_nil_or_concat h with rfl | ⟨k, e, rfl⟩
    · cases hl
    · rw [List.concat_eq_append] at r hl ⊢
      rw [run, acts_append] at r
      simp only [Option.bind_eq_some_iff] at r
      obtain ⟨m1, r1, r2⟩ := r
      have hq := ih k m1 (by simpa using hl) r1
      have hi := inv_acts inv_new r1
      have hw := worker_acts r1
      simp only [Mgr.acts, Option.bind_eq_some_iff, Option.some.injEq] at r2
      obtain ⟨_, r2, rfl⟩ := r2
      obtain ⟨p1, p2, -⟩ := act_parts r2
      rw [workers, List.flatMap_append]
      have one : ∀ x : WLife.Ev, (m1.phase = .starting → x.notifies = false) → WLife.QuietStarts (workers k ++ [x]) := by
        intro x hx
        refine quiet_snoc hq fun s hs hst => ?_
        rw [show WLife.run (workers k) = some m1.w from hw] at hs
        injection hs with hs
        subst hs
        exact hx (hi.starting.1 hst)
      cases e with
      | construct fd => exact one _ fun _ => rfl
      | constructed => exact one _ fun _ => rfl
      | derived => simpa [Ev.worker, workers] using hq
      | members => simpa [Ev.worker, workers] using hq
      | stop => exact one _ fun _ => rfl
      | wait => exact one _ fun _ => rfl
      | reset =>
        have : WLife.QuietStarts (((workers k ++ [.stop]) ++ [.wait]) ++ [.destroy]) :=
          quiet_snoc (quiet_snoc (one _ fun _ => rfl) fun _ _ _ => rfl) fun _ _ _ => rfl
        simpa [Ev.worker, workers] using this
      | use x =>
        refine one x fun hp => ?_
        have := (use_parts p1).2.2.1 (.inl hp)
        cases x <;> simp [own] at this <;> rfl

theorem workers_added (h : List Ev) : WLife.added (workers h) = tasksOf h := by
  induction h with
  | nil => rfl
  | cons e h ih =>
    have : workers (e :: h) = e.worker ++ workers h := rfl
    rw [this]
    unfold WLife.added at ih ⊢
    rw [List.filterMap_append, ih]
    cases e with
    | use x => cases x <;> rfl
    | _ => rfl

theorem stopping_uses {b : List Ev} : ∀ {m m' : Mgr}, m.phase = .stopping → Ev.wait ∉ b → m.acts b = some m' → Ev.reset ∉ b := by
  induction b with
  | nil => intro _ _ _ _ _; simp
  | cons e b ih =>
    intro m m' hp hb h
    simp only [Mgr.acts, Option.bind_eq_some_iff] at h
    obtain ⟨m1, h1, h2⟩ := h
    have hn := (act_parts h1).1
    rw [hp] at hn
    cases e with
    | use x =>
      have := (use_parts hn).1
      have := ih this (fun hh => hb (by simp [hh])) h2
      simpa using this
    | wait => simp at hb
    | _ => simp [next] at hn

/-- **C154 (tasks).** If the worker was started and no derived class stops it before, all tasks put into it before the destructor stops it have run when the destructor's wait returns. -/
theorem C154_tasks {a b : List Ev} {m0 m : Mgr} (r0 : run a = some m0) (hs : m0.w.stopped = false) (r : run (a ++ [.stop] ++ b ++ [.wait]) = some m) (hb : Ev.wait ∉ b) (hb' : Ev.use .wait ∉ b) :
    tasksOf a <+: m.w.ran := by
  have h1 := worker_acts r0
  have h2 := worker_acts r
  rw [← workers_added]
  have e : workers (a ++ [.stop] ++ b ++ [.wait]) = workers a ++ [.stop] ++ workers b ++ [.wait] := by simp [workers, Ev.worker]
  rw [e] at h2
  refine WLife.C135_before_stop_partial h1 hs (quiet_starts r0) h2 ?_
  intro hw
  simp only [workers, List.mem_flatMap] at hw
  obtain ⟨x, hx, hxw⟩ := hw
  cases x with
  | use y => simp [Ev.worker] at hxw; subst hxw; exact hb' hx
  | wait => exact hb hx
  | reset =>
    rw [run, List.append_assoc, acts_append] at r
    simp only [Option.bind_eq_some_iff] at r
    obtain ⟨m1, r1, r2⟩ := r
    rw [acts_append] at r1 r2
    simp only [Option.bind_eq_some_iff] at r1 r2
    obtain ⟨m2, -, r4⟩ := r1
    obtain ⟨m3, r5, -⟩ := r2
    have hp : m1.phase = .stopping := by
      simp only [Mgr.acts, Option.bind_eq_some_iff, Option.some.injEq] at r4
      obtain ⟨_, r4, rfl⟩ := r4
      have hn := (act_parts r4).1
      cases hq : m2.phase <;> simp [hq, next] at hn
      exact hn.symm
    exact stopping_uses hp hb r5 hx
  | construct _ => simp [Ev.worker] at hxw
  | constructed => simp [Ev.worker] at hxw
  | derived => simp [Ev.worker] at hxw
  | stop => simp [Ev.worker] at hxw
  | members => simp [Ev.worker] at hxw

theorem lift_own {k : List WLife.Ev} : ∀ {m : Mgr} {s : St}, m.phase = .stopping → (∀ e ∈ k, own e = true) → m.w.acts (k ++ [.wait]) = some s →
    ∃ m', m.acts (k.map .use ++ [.wait]) = some m' ∧ m'.w = s ∧ m'.phase = .waited := by
  induction k with
  | nil =>
    intro m s hp _ h
    exact ⟨⟨s, .waited, m.log⟩, by simp only [List.map_nil, List.nil_append, Mgr.acts, Mgr.act, hp, next, Ev.worker] at h ⊢; simp [h, runsCode], rfl, rfl⟩
  | cons e k ih =>
    intro m s hp hk h
    simp only [List.cons_append, St.acts, Option.bind_eq_some_iff] at h
    obtain ⟨s1, h1, h2⟩ := h
    have ho := hk e (by simp)
    have hact : ∃ l, m.act (.use e) = some ⟨s1, .stopping, l⟩ := by
      refine ⟨match runsCode (.use e) with | some x => m.log ++ [(m.phase, x)] | none => m.log, ?_⟩
      simp only [Mgr.act, hp, next, ho, Bool.true_or, if_true, Option.bind_some, Ev.worker, St.acts, h1, Option.map_some]
      rfl
    obtain ⟨l, hl⟩ := hact
    obtain ⟨m', e1, e2⟩ := ih (m := ⟨s1, .stopping, l⟩) rfl (fun x hx => hk x (by simp [hx])) h2
    exact ⟨m', by simp only [List.map_cons, List.cons_append, Mgr.acts, hl, Option.bind_some]; exact e1, e2⟩

/-- **C154 (end).** The destructor always comes to its end: once it has begun, the worker's thread needs at most two turns until the wait returns. -/
theorem C154_ends {h : List Ev} {m : Mgr} (r : run h = some m) (hp : m.phase = .derivedGone) :
    ∃ (k : List WLife.Ev) (m' : Mgr), k.Sublist [.wake, .exit] ∧ m.acts ([.stop] ++ k.map .use ++ [.wait, .reset, .members]) = some m' ∧ m'.phase = .gone := by
  have hi := inv_acts inv_new r
  have hal := hi.alive (by rw [hp]; simp) (by rw [hp]; simp)
  have hns : m.w.starting = false := by have := hi.starting; rw [hp] at this; simpa using this
  have hst : m.act .stop = some ⟨m.w.stop, .stopping, m.log⟩ := by
    simp [Mgr.act, hp, next, Ev.worker, St.acts, St.act, hal, hns, runsCode]
  have r1 : run (h ++ [.stop]) = some ⟨m.w.stop, .stopping, m.log⟩ := by
    rw [run, acts_append, show ({} : Mgr).acts h = some m from r]
    simp [Mgr.acts, hst]
  have hi1 := inv_acts inv_new r1
  have hst1 := hi1.stopped (.inl rfl)
  have hal1 := hi1.alive (by simp) (by simp)
  have hns1 : m.w.stop.starting = false := by have := hi1.starting; simpa using this
  obtain ⟨k, s', hk, hs', -⟩ := WLife.C135_stop_wait (worker_acts r1) hal1 hns1 hst1
  have hown : ∀ e ∈ k, own e = true := by
    intro e he
    have := hk.subset he
    simp only [List.mem_cons, List.not_mem_nil, or_false] at this
    rcases this with rfl | rfl <;> rfl
  obtain ⟨m2, e1, e2, e3⟩ := lift_own (m := ⟨m.w.stop, .stopping, m.log⟩) rfl hown hs'
  have r2 : run (h ++ [.stop] ++ (k.map .use ++ [.wait])) = some m2 := by
    rw [run, acts_append, show ({} : Mgr).acts (h ++ [.stop]) = some _ from r1]
    exact e1
  obtain ⟨m3, f1, f2, -⟩ := C154_destroy r2 e3
  refine ⟨k, m3, hk, ?_, f2⟩
  have : [Ev.stop] ++ k.map Ev.use ++ [.wait, .reset, .members] = .stop :: ((k.map Ev.use ++ [.wait]) ++ [.reset, .members]) := by simp
  rw [this]
  simp only [Mgr.acts, hst, Option.bind_some]
  rw [acts_append, e1]
  exact f1

/-! ## A whole life -/

/-- A manager whose worker runs a task and a timer, and which is destroyed. -/
def sample : List Ev := [.construct true, .constructed, .use (.addTask 7), .use (.addTimer ⟨1, true⟩), .use .wake, .use (.fire 1), .use (.addTask 8), .derived]

example : (run sample).map (fun m => (m.phase, m.w.stopped, m.log)) = some (.derivedGone, false, [(.whole, .wake), (.whole, .fire 1)]) ∧
    (run (sample ++ [.stop] ++ [.use .wake, .use .exit] ++ [.wait])).map (fun m => (m.phase, m.w.ran)) = some (.waited, [7, 8]) ∧ tasksOf sample = [7, 8] ∧
    (run (sample ++ [.stop] ++ [.use .wake, .use .exit] ++ [.wait, .reset, .members])).map (fun m => (m.phase, m.w.fate)) = some (.gone, .destroyed) := by
  refine ⟨by decide +kernel, by decide +kernel, by decide +kernel, by decide +kernel⟩

/-- A derived class that stops its worker and waits for it, and then a manager that is destroyed. -/
example : (run [.construct true, .constructed, .use (.addTimer ⟨1, true⟩), .use .wake, .use (.purge 1), .use .stop, .use .wake, .use .exit, .use .wait]).map (fun m => m.phase) = some .whole ∧
    (run [.construct true, .constructed, .use (.addTimer ⟨1, true⟩), .use .wake, .use (.purge 1), .use .stop, .use .wake, .use .exit, .use .wait, .derived, .stop, .wait, .reset, .members]).map
      (fun m => (m.phase, m.w.fate, m.log.length)) = some (.gone, .destroyed, 2) := by
  refine ⟨by decide +kernel, by decide +kernel⟩

end Nebula.Session
