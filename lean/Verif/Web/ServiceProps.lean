import Verif.Web.Service
/-!
# C130: the life of a web service
-/
namespace Nebula
namespace Web

/-! ## Specification -/

/-- The event is a call of `start()`. -/
def Ev.isStart : Ev → Bool
  | .start _ _ => true
  | _ => false

/-- The routes of a service called `pre` that come from `start()`, in words: the flags under `/flags` (GET and PUT), the
statistics under `/stats`, the status under `/status` and under the root; everything below `/pre` if there is a name. -/
def ownAnswer (pre : Bytes) (m : Nat) (p : Bytes) : Answer :=
  let base := if pre = [] then [] else 47 :: pre
  let root := if pre = [] then [47] else 47 :: pre
  if m = mGet ∧ p = base ++ ascii "/flags" then .handler hGetFlags []
  else if m = mPut ∧ p = base ++ ascii "/flags" then .handler hSetFlags []
  else if m = mGet ∧ p = base ++ ascii "/stats" then .handler hStats []
  else if m = mGet ∧ (p = base ++ ascii "/status" ∨ p = root) then .handler hStatus []
  else .notFound

/-- The names stand for different methods and different handlers. -/
theorem C130_names : [mGet, mPut].Nodup ∧ [hGetFlags, hSetFlags, hStats, hStatus].Nodup := by decide

/-! ## Invariants -/

/-- The owner is inside the `start()` that made the listener. -/
def Owner.waits (o : Owner) : Bool := o = .testing || o = .asleep

/-- The owner is in the destructor or past it. -/
def Owner.leaves (o : Owner) : Bool := o = .joining || o = .gone

/-- Which places of the two threads go together. `fl`: the status is an error. -/
def ctl (started hasServer done stopped fl : Bool) (o : Owner) : Listener → Bool
  | .none => !hasServer && !done && !stopped && !fl && (o = .free || (started && (o = .throwing || o = .returning)))
  | .starting => started && hasServer && !done && !stopped && !fl && o.waits
  | .calling ok => started && hasServer && !done && !stopped && (fl == !ok) && o.waits
  | .notifying ok => started && hasServer && done && (fl == !ok) && (stopped == o.leaves) && o ≠ .gone && o ≠ .throwing
  | .serving => started && hasServer && done && !fl && (stopped == o.leaves) && o ≠ .asleep && o ≠ .gone && o ≠ .throwing
  | .ended => started && hasServer && done && (stopped == o.leaves) && (fl || stopped) && o ≠ .asleep && o ≠ .throwing

def Ctl (s : SvcState) : Prop := ctl s.started s.hasServer s.done s.stopped s.status.isSome s.owner s.listener = true

theorem ctl_step {s s' : SvcState} {e : Ev} (i : Ctl s) (st : Step s e s') : Ctl s' := by
  obtain ⟨pre, routes, started, hasServer, o, l, done, status, stopped, http, h2, dead⟩ := s
  cases st
  case notify ok h1 h2 h3 =>
    simp only at h1 h2 h3; subst h1
    cases ok <;> rcases h3 with h3 | h3 <;> subst h3 <;> cases started <;> cases hasServer <;> cases done <;> cases stopped <;> cases status <;>
      first | exact i | exact absurd i (by decide) | rfl
  all_goals
    simp_all only [Ctl]
    try subst_vars
    try (revert i; simp only [ctl])
    first
    | done
    | (simp [Owner.leaves]; done)
    | ((try cases status) <;> (try cases started) <;> (try cases hasServer) <;> (try cases done) <;> (try cases stopped) <;> (try cases o) <;>
        (try cases l) <;> simp_all [Owner.waits, Owner.leaves])

/-- The outcome of the server so far: nothing yet, listening, or an error. -/
def outcome (s : SvcState) : Option (Option Nat) :=
  if s.listener = .none ∨ s.listener = .starting then none else some s.status

/-- What the history tells about the outcome. -/
def Told (p q : Nat) (h : List Ev) (s : SvcState) : Prop :=
  match outcome s with
  | none => (∀ a b, Ev.listening a b ∉ h) ∧ (∀ e, Ev.failed e ∉ h) ∧ s.http = p ∧ s.h2 = q
  | some none => Ev.listening s.http s.h2 ∈ h ∧ (∀ a b, Ev.listening a b ∈ h → a = s.http ∧ b = s.h2) ∧ (∀ e, Ev.failed e ∉ h) ∧
      s.http ≠ 0 ∧ s.h2 ≠ 0 ∧ (p ≠ 0 → s.http = p) ∧ (q ≠ 0 → s.h2 = q)
  | some (some e) => (∀ a b, Ev.listening a b ∉ h) ∧ (∀ e', Ev.failed e' ∈ h ↔ e' = e)

theorem told_quiet {p q : Nat} {h : List Ev} {s s' : SvcState} {e : Ev} (t : Told p q h s) (ho : outcome s' = outcome s)
    (h1 : s'.http = s.http) (h2 : s'.h2 = s.h2) (e1 : ∀ a b, e ≠ .listening a b) (e2 : ∀ a, e ≠ .failed a) : Told p q (h ++ [e]) s' := by
  unfold Told at *
  rw [ho]
  have m1 : ∀ a b, Ev.listening a b ∈ h ++ [e] ↔ Ev.listening a b ∈ h := by
    intro a b; simp only [List.mem_append, List.mem_singleton]
    exact ⟨fun h => h.elim id (fun h => absurd h.symm (e1 a b)), .inl⟩
  have m2 : ∀ a, Ev.failed a ∈ h ++ [e] ↔ Ev.failed a ∈ h := by
    intro a; simp only [List.mem_append, List.mem_singleton]
    exact ⟨fun h => h.elim id (fun h => absurd h.symm (e2 a)), .inl⟩
  split at t <;> simp only [m1, m2, h1, h2] <;> exact t

theorem told_step {p q : Nat} {h : List Ev} {s s' : SvcState} {e : Ev} (c : Ctl s) (t : Told p q h s) (st : Step s e s') :
    Told p q (h ++ [e]) s' := by
  cases st
  case listening a b h1 h2 h3 h4 h5 h6 =>
    have ho : outcome s = none := by simp [outcome, h1]
    have hs : s.status = none := by
      unfold Ctl at c; rw [h1] at c
      cases hh : s.status with
      | none => rfl
      | some x => simp [ctl, hh] at c
    unfold Told at t ⊢
    rw [ho] at t
    simp only [outcome, reduceCtorEq, or_self, if_false, hs]
    obtain ⟨t1, t2, t3, t4⟩ := t
    subst t3 t4
    refine ⟨?_, ?_, ?_, ?_, ?_, ?_, ?_⟩
    · by_cases x : s.http = 0 <;> by_cases y : s.h2 = 0 <;> simp [x, y] <;> simp_all
    · intro a' b' hm
      rcases List.mem_append.1 hm with hm | hm
      · exact absurd hm (t1 _ _)
      · simp at hm
        by_cases x : s.http = 0 <;> by_cases y : s.h2 = 0 <;> simp_all
    · intro e hm; simp at hm; exact t2 _ hm
    · by_cases x : s.http = 0 <;> simp_all
    · by_cases x : s.h2 = 0 <;> simp_all
    · intro x; simp [x]
    · intro x; simp [x]
  case failed e h1 h2 =>
    have ho : outcome s = none := by simp [outcome, h1]
    unfold Told at t ⊢
    rw [ho] at t
    simp only [outcome, reduceCtorEq, or_self, if_false]
    obtain ⟨t1, t2, t3, t4⟩ := t
    refine ⟨?_, ?_⟩
    · intro a b hm; simp at hm; exact t1 _ _ hm
    · intro e'; simp [t2]
  case startGo t' rs h1 h2 h3 h4 h5 =>
    have hl : s.listener = .none := by
      unfold Ctl at c
      cases hh : s.listener <;> first | rfl | (exfalso; simp [ctl, hh, h3] at c)
    exact told_quiet t (by simp [outcome, hl]) rfl rfl (by simp) (by simp)
  case notify ok h1 h2 h3 =>
    refine told_quiet t ?_ rfl rfl (by simp) (by simp)
    cases ok <;> simp [outcome, h1]
  all_goals exact told_quiet t (by simp_all [outcome]) rfl rfl (by simp) (by simp)

/-- Whether `start()` was called. -/
def Called (h : List Ev) (s : SvcState) : Prop := s.dead = false → (s.started = true ↔ ∃ e ∈ h, e.isStart = true)

theorem called_step {h : List Ev} {s s' : SvcState} {e : Ev} (t : Called h s) (st : Step s e s') : Called (h ++ [e]) s' := by
  unfold Called at *
  cases st <;> simp_all [Ev.isStart]

theorem reach {pre : Bytes} {p q : Nat} {h : List Ev} {s : SvcState} (x : Exec Step (fresh pre p q) h s) :
    Ctl s ∧ Told p q h s ∧ Called h s := by
  refine Exec.invariant (P := fun h s => Ctl s ∧ Told p q h s ∧ Called h s) ?_ ?_ x
  · refine ⟨rfl, ?_, ?_⟩
    · simp [Told, outcome, fresh]
    · simp [Called, fresh]
  · intro h s e s' _ ⟨a, b, c⟩ st
    exact ⟨ctl_step a st, told_step a b st, called_step c st⟩

/-- Splits off the last step. -/
theorem last {s0 s : SvcState} {h : List Ev} {e : Ev} (x : Exec Step s0 (h ++ [e]) s) : ∃ s1, Exec Step s0 h s1 ∧ Step s1 e s := by
  obtain ⟨s1, a, b⟩ := x.split
  exact ⟨s1, a, b.single⟩

/-- A step is only taken by a living process. -/
theorem alive {s s' : SvcState} {e : Ev} (st : Step s e s') : s.dead = false := by
  cases st <;> assumption

/-- No call of `start()` but one was made. -/
def OneStart (h : List Ev) : Prop := (h.filter Ev.isStart).length = 1

/-- While only one `start()` was called, nobody is in a second one. -/
theorem no_second {pre : Bytes} {p q : Nat} {h : List Ev} {s : SvcState} (x : Exec Step (fresh pre p q) h s) :
    (s.owner = .returning → 2 ≤ (h.filter Ev.isStart).length) ∧ (s.dead = false → s.started = true → 1 ≤ (h.filter Ev.isStart).length) := by
  refine Exec.invariant (P := fun h s => (s.owner = .returning → 2 ≤ (h.filter Ev.isStart).length) ∧
    (s.dead = false → s.started = true → 1 ≤ (h.filter Ev.isStart).length)) (by simp [fresh]) ?_ x
  intro h s e s' _ i st
  simp only [List.filter_append, List.length_append]
  obtain ⟨i1, i2⟩ := i
  cases st <;> simp_all [Ev.isStart, List.filter] <;> omega

/-- The two ways to return from `start()`. -/
theorem ret_cases {s s' : SvcState} {r : Option Nat} (st : Step s (.ret r) s') :
    s' = { s with owner := .free } ∧ ((s.owner = .returning ∧ r = none) ∨ (s.owner = .testing ∧ s.done = true ∧ r = s.status)) := by
  generalize he : Ev.ret r = e at st
  cases st <;> cases he
  case retAgain h1 h2 => exact ⟨rfl, .inl ⟨h1, rfl⟩⟩
  case ret h1 h2 h3 => exact ⟨rfl, .inr ⟨h1, h3, rfl⟩⟩

/-! ## Theorems -/

/-- The first `start()` returns OK exactly if the server listens, and the error of the server otherwise, whatever the order of
the steps of the two threads. -/
theorem C130_result {pre : Bytes} {p q : Nat} {h : List Ev} {r : Option Nat} {s : SvcState}
    (x : Exec Step (fresh pre p q) (h ++ [.ret r]) s) (one : OneStart h) :
    (r = none ↔ ∃ a b, Ev.listening a b ∈ h) ∧ ∀ e, r = some e ↔ Ev.failed e ∈ h := by
  obtain ⟨s1, x1, st⟩ := last x
  obtain ⟨c, t, _⟩ := reach x1
  have ns := (no_second x1).1
  rcases (ret_cases st).2 with ⟨h1, _⟩ | ⟨h1, h3, h4⟩
  · have := ns h1
    unfold OneStart at one
    omega
  · have ho : outcome s1 = some s1.status := by
      unfold Ctl at c
      unfold outcome
      cases hl : s1.listener <;> simp [ctl, hl, h3] at c ⊢
    unfold Told at t
    rw [ho] at t
    rw [h4]
    cases hs : s1.status with
    | none =>
      rw [hs] at t
      obtain ⟨t1, t2, t3, _⟩ := t
      exact ⟨⟨fun _ => ⟨_, _, t1⟩, fun _ => rfl⟩, fun e => ⟨fun h => (by cases h), fun h => absurd h (t3 e)⟩⟩
    | some e =>
      rw [hs] at t
      obtain ⟨t1, t2⟩ := t
      refine ⟨⟨fun h => (by cases h), fun ⟨a, b, h⟩ => absurd h (t1 a b)⟩, fun e' => ?_⟩
      rw [t2]
      constructor
      · intro h; cases h; rfl
      · rintro rfl; rfl

/-- When `start()` has returned OK the port flags tell where the server listens: a port that was zero is the one that was
given, and any other port is unchanged. -/
theorem C130_ports {pre : Bytes} {p q : Nat} {h : List Ev} {s : SvcState}
    (x : Exec Step (fresh pre p q) (h ++ [.ret none]) s) (one : OneStart h) :
    Ev.listening s.http s.h2 ∈ h ∧ s.http ≠ 0 ∧ s.h2 ≠ 0 ∧ (p ≠ 0 → s.http = p) ∧ (q ≠ 0 → s.h2 = q) := by
  obtain ⟨a, b, hm⟩ := ((C130_result x one).1).1 rfl
  obtain ⟨c, t, _⟩ := reach x
  unfold Told at t
  have hm' : Ev.listening a b ∈ h ++ [.ret none] := by simp [hm]
  split at t
  · exact absurd hm' (t.1 a b)
  · obtain ⟨t1, _, _, t4, t5, t6, t7⟩ := t
    exact ⟨by simpa using t1, t4, t5, t6, t7⟩
  · exact absurd hm' (t.1 a b)

/-- No wake-up is lost: if the owner sleeps in `start()`, the listener has still to tell that it is done, or has told it and
has still to wake up the owner; that step makes the owner test again. -/
theorem C130_no_lost_wakeup {pre : Bytes} {p q : Nat} {h : List Ev} {s : SvcState} (x : Exec Step (fresh pre p q) h s)
    (ha : s.owner = .asleep) (hd : s.dead = false) :
    (s.done = false → s.listener = .starting ∨ ∃ ok, s.listener = .calling ok) ∧
    (s.done = true → (∃ ok, s.listener = .notifying ok) ∧ ∃ s', Step s .tau s' ∧ s'.owner = .testing ∧ s'.done = true ∧ s'.listener ≠ s.listener) := by
  obtain ⟨c, _, _⟩ := reach x
  unfold Ctl at c
  rw [ha] at c
  constructor
  · intro hn
    cases hl : s.listener with
    | starting => exact .inl rfl
    | calling ok => exact .inr ⟨ok, rfl⟩
    | none => simp [ctl, hl] at c
    | notifying ok => simp [ctl, hl, hn] at c
    | serving => simp [ctl, hl] at c
    | ended => simp [ctl, hl] at c
  · intro hn
    cases hl : s.listener with
    | notifying ok =>
      refine ⟨⟨ok, rfl⟩, _, .notify hl hd (.inr ha), rfl, hn, ?_⟩
      cases ok <;> simp
    | starting => simp [ctl, hl, hn] at c
    | calling ok => simp [ctl, hl, hn] at c
    | none => simp [ctl, hl] at c
    | serving => simp [ctl, hl] at c
    | ended => simp [ctl, hl] at c

/-- Once the server listens, every `start()` returns OK, and the server goes on until the service is destroyed. -/
theorem C130_again_partial {pre : Bytes} {p q : Nat} {h : List Ev} {r : Option Nat} {s : SvcState} {a b : Nat}
    (x : Exec Step (fresh pre p q) (h ++ [.ret r]) s) (hm : Ev.listening a b ∈ h) :
    r = none ∧ s.listener ≠ .ended ∧ s.listener ≠ .none ∧ s.started = true := by
  obtain ⟨s1, x1, st⟩ := last x
  obtain ⟨c, t, _⟩ := reach x1
  obtain ⟨c', t', _⟩ := reach x
  have hs : s1.status = none ∧ s1.listener ≠ .none := by
    unfold Told at t
    split at t
    · exact absurd hm (t.1 a b)
    · rename_i ho
      unfold outcome at ho
      split at ho
      · cases ho
      · rename_i hh; exact ⟨Option.some.inj ho, fun e => hh (.inl e)⟩
    · exact absurd hm (t.1 a b)
  have key : ∀ o : Owner, (o = .returning ∨ o = .testing) → s1.owner = o →
      s1.listener ≠ .ended ∧ s1.started = true := by
    intro o ho e
    unfold Ctl at c
    rw [hs.1, e] at c
    refine ⟨fun hl => ?_, ?_⟩
    · rw [hl] at c; rcases ho with rfl | rfl <;> simp [ctl, Owner.leaves] at c
      all_goals obtain ⟨c1, c2⟩ := c; simp_all
    · cases hl : s1.listener <;> rcases ho with rfl | rfl <;> simp_all [ctl]
  obtain ⟨e, hr⟩ := ret_cases st
  subst e
  rcases hr with ⟨h1, h2⟩ | ⟨h1, h2, h3⟩
  · exact ⟨h2, (key _ (.inl rfl) h1).1, hs.2, (key _ (.inl rfl) h1).2⟩
  · exact ⟨h3.trans hs.1, (key _ (.inr rfl) h1).1, hs.2, (key _ (.inr rfl) h1).2⟩

/-- FALSE of the code: "a service can be destroyed at any time". If `start()` was not called, or threw because the host is not
known, the destructor follows a null pointer. -/
theorem C130_destroy_violated {pre : Bytes} {p q : Nat} {h : List Ev} {s s' : SvcState} (x : Exec Step (fresh pre p q) h s)
    (hh : ∀ t, Ev.start t true ∉ h) (st : Step s .destroy s') : s'.dead = true := by
  have : s.hasServer = false := by
    suffices H : (∀ t, Ev.start t true ∉ h) → s.hasServer = false from H hh
    refine Exec.invariant (P := fun h s => (∀ t, Ev.start t true ∉ h) → s.hasServer = false) (fun _ => rfl) ?_ x
    intro h s e s' _ i st hn
    have hn1 : ∀ t, Ev.start t true ∉ h := fun t hm => hn t (by simp [hm])
    have := i hn1
    cases st <;> first | exact this | (exfalso; exact hn _ (List.mem_append_right _ (List.mem_singleton.2 rfl)))
  cases st with
  | destroyNull _ _ _ => rfl
  | destroy _ _ h3 => rw [this] at h3; cases h3

/-- All the ways in which a service ends the process: a route that is refused or comes after `start()`, a `start()` without threads or
with a name that makes its own routes be refused, the destructor before a server exists, and the listener that wakes up an owner
who has left. -/
theorem C130_dies_partial {pre : Bytes} {p q : Nat} {h : List Ev} {e : Ev} {s s' : SvcState} (x : Exec Step (fresh pre p q) h s)
    (st : Step s e s') (hd : s'.dead = true) :
    (∃ m path k, e = .route m path k ∧ ((∃ e' ∈ h, e'.isStart = true) ∨ addRoute s.pre s.routes m path k = none)) ∨
    (∃ t r, e = .start t r ∧ (t ≤ 0 ∨ addOwn s.pre s.routes = none)) ∨
    (e = .destroy ∧ s.hasServer = false) ∨
    (e = .tau ∧ s.owner ≠ .testing ∧ s.owner ≠ .asleep ∧ ∃ ok, s.listener = .notifying ok) := by
  obtain ⟨_, _, cl⟩ := reach x
  have al := alive st
  cases st
  case routeBad m p k h1 h2 h3 h4 => exact .inl ⟨m, p, k, rfl, .inr h4⟩
  case routeLate m p k h1 h2 h3 => exact .inl ⟨m, p, k, rfl, .inl ((cl al).1 h3)⟩
  case startNoThreads t rs h1 h2 h3 h4 h5 => exact .inr (.inl ⟨t, true, rfl, .inl h5⟩)
  case startBadRoutes t r h1 h2 h3 h4 => exact .inr (.inl ⟨t, r, rfl, .inr h4⟩)
  case destroyNull h1 h2 h3 => exact .inr (.inr (.inl ⟨rfl, h3⟩))
  case notifyLate ok h1 h2 h3 h4 => exact .inr (.inr (.inr ⟨rfl, h3, h4, ok, h1⟩))
  all_goals (simp only at hd; rw [al] at hd; cases hd)

/-- The destructor of a service whose `start()` made a server returns only when the listener has ended, and it can return: the
listener is at its end, or serves and ends when told, or has still to wake up an owner who has left (`C130_notify_violated`). -/
theorem C130_destroyed {pre : Bytes} {p q : Nat} {h : List Ev} {s : SvcState} (x : Exec Step (fresh pre p q) h s) (hd : s.dead = false) :
    (s.owner = .gone → s.listener = .ended) ∧
    (s.owner = .joining → (∃ ok, s.listener = .notifying ok) ∨ ∃ k s', Exec Step s (k ++ [.destroyed]) s' ∧ s'.dead = false) := by
  obtain ⟨c, _, _⟩ := reach x
  unfold Ctl at c
  constructor
  · intro ho
    rw [ho] at c
    cases hl : s.listener <;> simp [ctl, hl, Owner.waits, Owner.leaves] at c ⊢
  · intro ho
    rw [ho] at c
    cases hl : s.listener with
    | notifying ok => exact .inl ⟨ok, rfl⟩
    | serving =>
      rw [hl] at c
      have hs : s.stopped = true := by
        cases hh : s.stopped with
        | true => rfl
        | false => simp [ctl, hh, Owner.leaves] at c
      exact .inr ⟨[.tau], _, .cons (.stop hl hd hs) (.cons (.join ho hd rfl) .nil), hd⟩
    | ended => exact .inr ⟨[], _, .cons (.join ho hd hl) .nil, hd⟩
    | none => simp [ctl, hl] at c
    | starting => simp [ctl, hl, Owner.waits] at c
    | calling ok => simp [ctl, hl, Owner.waits] at c

/-! ## Routes -/

theorem compile_plain {path : Bytes} (h1 : path.head? = some 47) (h2 : (58 : UInt8) ∉ path) :
    compile path = some (.exact (if path.length > 1 ∧ path.getLast? = some 47 then path.dropLast else path)) := by
  unfold compile
  rw [if_neg (by simp [h1]), if_neg h2]
  split <;> rfl

theorem addRoute_plain (pre : Bytes) (rs : List Route) (m : Nat) (c : UInt8) (path : Bytes) (h : Nat) (hp : (58 : UInt8) ∉ pre)
    (hc : (58 : UInt8) ∉ 47 :: (path ++ [c])) (hl : c ≠ 47) :
    addRoute pre rs m (47 :: (path ++ [c])) h = some (rs ++ [⟨m, .exact ((if pre = [] then [] else 47 :: pre) ++ 47 :: (path ++ [c])), h⟩]) := by
  have gl : ∀ l : Bytes, (l ++ 47 :: (path ++ [c])).getLast? = some c := by
    intro l
    have : l ++ 47 :: (path ++ [c]) = (l ++ 47 :: path) ++ [c] := by simp
    rw [this, List.getLast?_append]; simp
  unfold addRoute
  simp only [reduceCtorEq, if_false]
  by_cases e : pre = []
  · simp only [e, ne_eq, not_true, if_false, if_true]
    rw [compile_plain rfl hc, if_neg (by have := gl []; rw [List.nil_append] at this; rw [this]; simp [hl])]
    rfl
  · simp only [ne_eq, e, not_false_eq_true, if_true, if_false]
    rw [compile_plain rfl (by simp_all), if_neg (by rw [gl (47 :: pre)]; simp [hl])]

theorem addRoute_root (pre : Bytes) (rs : List Route) (m : Nat) (h : Nat) (hp : (58 : UInt8) ∉ pre) :
    addRoute pre rs m [47] h = some (rs ++ [⟨m, .exact (if pre = [] then [47] else 47 :: pre), h⟩]) := by
  unfold addRoute
  simp only [reduceCtorEq, if_false]
  by_cases e : pre = []
  · simp only [e, ne_eq, not_true, if_false, if_true]
    rw [compile_plain rfl (by decide)]
    simp
  · simp only [ne_eq, e, not_false_eq_true, if_true, if_false]
    rw [compile_plain rfl (by simp_all), if_pos (by rw [List.getLast?_append]; simp), List.dropLast_concat]

/-- The routes that `start()` adds. -/
def ownRoutes (pre : Bytes) : List Route :=
  let base := if pre = [] then [] else 47 :: pre
  [⟨mGet, .exact (base ++ ascii "/flags"), hGetFlags⟩, ⟨mPut, .exact (base ++ ascii "/flags"), hSetFlags⟩,
   ⟨mGet, .exact (base ++ ascii "/stats"), hStats⟩, ⟨mGet, .exact (base ++ ascii "/status"), hStatus⟩,
   ⟨mGet, .exact (if pre = [] then [47] else 47 :: pre), hStatus⟩]

theorem addOwn_eq (pre : Bytes) (rs : List Route) (hp : (58 : UInt8) ∉ pre) : addOwn pre rs = some (rs ++ ownRoutes pre) := by
  have e1 : ascii "/flags" = 47 :: (ascii "flag" ++ [115]) := by decide +kernel
  have e2 : ascii "/stats" = 47 :: (ascii "stat" ++ [115]) := by decide +kernel
  have e3 : ascii "/status" = 47 :: (ascii "statu" ++ [115]) := by decide +kernel
  have e4 : ascii "/" = [47] := by decide +kernel
  unfold addOwn ownRoutes
  rw [e1, e2, e3, e4]
  have := fun rs m path h hc => addRoute_plain pre rs m 115 path h hp hc (by decide)
  rw [this _ _ _ _ (by decide +kernel)]
  simp only [Option.bind_eq_bind, Option.bind_some]
  rw [this _ _ _ _ (by decide +kernel)]
  simp only [Option.bind_some]
  rw [this _ _ _ _ (by decide +kernel)]
  simp only [Option.bind_some]
  rw [this _ _ _ _ (by decide +kernel)]
  simp only [Option.bind_some]
  rw [addRoute_root _ _ _ _ hp]
  simp

theorem dispatch_append (rs own : List Route) (m : Nat) (path : Bytes) :
    dispatch (rs ++ own) (some m) path =
      if rs.any (fun r => r.matches m path) then dispatch rs (some m) path else dispatch own (some m) path := by
  induction rs with
  | nil => simp
  | cons r rs ih =>
    rw [List.cons_append, dispatch, dispatch, List.any_cons]
    by_cases h : r.matches m path = true
    · simp [h]
    · simp only [h, Bool.false_eq_true, if_false, ih]
      simp

theorem dispatch_exact (m0 : Nat) (q : Bytes) (k : Nat) (rs : List Route) (m : Nat) (path : Bytes) :
    dispatch (⟨m0, .exact q, k⟩ :: rs) (some m) path = if m = m0 ∧ normPath path = q then some (.handler k []) else dispatch rs (some m) path := by
  rw [dispatch]
  simp only [Route.matches, Route.generate]
  by_cases a : m = m0
  · by_cases b : normPath path = q
    · simp [a, b]
    · have : ¬ q = normPath path := fun e => b e.symm
      simp [a, b, this]
  · have : ¬ m0 = m := fun e => a e.symm
    simp [a, this]

theorem dispatch_own (pre : Bytes) (m : Nat) (path : Bytes) : dispatch (ownRoutes pre) (some m) path = some (ownAnswer pre m (normPath path)) := by
  unfold ownRoutes ownAnswer
  simp only [dispatch_exact]
  rw [dispatch]
  generalize normPath path = p
  generalize (if pre = [] then [] else 47 :: pre) = base
  generalize (if pre = [] then [47] else 47 :: pre) = root
  generalize mGet = g, mPut = u
  generalize ascii "/flags" = f, ascii "/stats" = st, ascii "/status" = su
  by_cases a : m = g ∧ p = base ++ f
  · rw [if_pos a, if_pos a]
  rw [if_neg a, if_neg a]
  by_cases a : m = u ∧ p = base ++ f
  · rw [if_pos a, if_pos a]
  rw [if_neg a, if_neg a]
  by_cases a : m = g ∧ p = base ++ st
  · rw [if_pos a, if_pos a]
  rw [if_neg a, if_neg a]
  by_cases a : m = g ∧ p = base ++ su
  · rw [if_pos a, if_pos ⟨a.1, .inl a.2⟩]
  rw [if_neg a]
  by_cases b : m = g ∧ p = root
  · rw [if_pos b, if_pos ⟨b.1, .inr b.2⟩]
  rw [if_neg b, if_neg (fun h => h.2.elim (fun e => a ⟨h.1, e⟩) (fun e => b ⟨h.1, e⟩))]

/-- The routes added by the owner, oldest first. -/
def ownerRoutes (pre : Bytes) (h : List Ev) : List Route :=
  h.filterMap fun
    | .route m path k => (addRoute pre [] m path k).bind List.head?
    | _ => none

/-- While a started service lives: a request goes to the first route of the owner that matches it, in the order in which they were
added; if there is none, to the flags, statistics and status of the service; and otherwise it is not found. -/
theorem C130_routes {pre : Bytes} {p q : Nat} {h : List Ev} {s : SvcState} (x : Exec Step (fresh pre p q) h s) (hd : s.dead = false)
    (hs : ∃ e ∈ h, e.isStart = true) (hp : (58 : UInt8) ∉ pre) (m : Nat) (path : Bytes) :
    dispatch s.routes (some m) path =
      if (ownerRoutes pre h).any (fun r => r.matches m path) then dispatch (ownerRoutes pre h) (some m) path
      else some (ownAnswer pre m (normPath path)) := by
  have key : s.pre = pre ∧ (s.dead = false → s.routes = ownerRoutes pre h ++ if s.started then ownRoutes pre else []) := by
    refine Exec.invariant (P := fun h s => s.pre = pre ∧ (s.dead = false → s.routes = ownerRoutes pre h ++ if s.started then ownRoutes pre else []))
      ⟨rfl, fun _ => by simp [fresh, ownerRoutes]⟩ ?_ x
    intro h s e s' _ i st
    have al := alive st
    obtain ⟨i1, i2⟩ := i
    have i3 := i2 al
    have nr : ∀ e : Ev, (∀ m p k, e ≠ .route m p k) → ownerRoutes pre (h ++ [e]) = ownerRoutes pre h := by
      intro e he
      unfold ownerRoutes
      rw [List.filterMap_append]
      cases e <;> first | exact absurd rfl (he _ _ _) | simp
    cases st
    case route m path k rs h1 h2 h3 h4 =>
      refine ⟨i1, fun _ => ?_⟩
      simp only [h3] at i3 ⊢
      have : ∃ r, addRoute pre [] m path k = some [r] ∧ rs = s.routes ++ [r] := by
        rw [i1] at h4
        unfold addRoute at h4 ⊢
        simp only at h4 ⊢
        generalize compile _ = c at h4 ⊢
        cases c with
        | none => cases h4
        | some pat => cases h4; exact ⟨_, rfl, rfl⟩
      obtain ⟨r, e1, e2⟩ := this
      simp [ownerRoutes, List.filterMap_append, e1, e2, i3]
    case startThrow t rs h1 h2 h3 h4 =>
      refine ⟨i1, fun _ => ?_⟩
      rw [nr _ (by simp)]
      rw [i1, addOwn_eq _ _ hp] at h4
      cases h4
      simp [i3, h3]
    case startGo t rs h1 h2 h3 h4 h5 =>
      refine ⟨i1, fun _ => ?_⟩
      rw [nr _ (by simp)]
      rw [i1, addOwn_eq _ _ hp] at h4
      cases h4
      simp [i3, h3]
    all_goals first
      | exact ⟨i1, fun hd => by cases hd⟩
      | exact ⟨i1, fun _ => by rw [nr _ (by simp)]; exact i3⟩
  obtain ⟨_, _, cl⟩ := reach x
  rw [key.2 hd, (cl hd).2 hs, if_pos rfl, dispatch_append, dispatch_own]

/-- FALSE of the code: "`start()` returns OK only if the server listens". After a `start()` that failed, `started()` is true and
the next `start()` returns OK although nothing listens and nothing will. -/
theorem C130_again_violated : ∃ h s, Exec Step (fresh [] 11000 11002) (h ++ [.ret none]) s ∧ (∀ a b, Ev.listening a b ∉ h) ∧
    s.started = true ∧ s.listener = .ended ∧ s.dead = false := by
  exact ⟨[.start 4 true, .failed 7, .tau, .tau, .ret (some 7), .start 4 true], _,
    .cons (.startGo rfl rfl rfl (addOwn_eq _ _ (by decide)) (by decide)) (.cons (.failed rfl rfl) (.cons (.publish rfl rfl)
      (.cons (.notify rfl rfl (.inl rfl)) (.cons (.ret rfl rfl rfl) (.cons (.again rfl rfl rfl) (.cons (.retAgain rfl rfl) .nil)))))),
    by simp, rfl, rfl, rfl⟩

/-- FALSE of the code: "starting a service is safe". The owner may see that the listener is done and return from `start()` before
the listener wakes it up; the listener then uses a condition variable that no longer exists. -/
theorem C130_notify_violated : ∃ s, Exec Step (fresh [] 11000 11002) [.start 4 true, .listening 11000 11002, .tau, .ret none, .tau] s ∧
    s.dead = true := by
  exact ⟨_, .cons (.startGo rfl rfl rfl (addOwn_eq _ _ (by decide)) (by decide))
    (.cons (.listening rfl rfl (by decide) (by decide) (by decide) (by decide)) (.cons (.publish rfl rfl)
      (.cons (.ret rfl rfl rfl) (.cons (.notifyLate rfl rfl (by decide) (by decide)) .nil)))), rfl⟩

/-! ## Witnesses -/

/-- A service on ports of the system's choice: it starts while the owner sleeps, and is destroyed. -/
def wit : List Ev :=
  [.route 0 (47 :: ([] ++ [97])) 9, .start 4 true, .tau, .listening 40001 40002, .tau, .tau, .ret none, .destroy, .tau, .destroyed]

theorem wit_all : ∃ s1 s2, Exec Step (fresh (ascii "graph") 0 0) (wit.take 6 ++ [.ret none]) s1 ∧ s1.http = 40001 ∧ s1.dead = false ∧
    Exec Step s1 [.destroy, .tau, .destroyed] s2 ∧ s2.owner = .gone ∧ s2.listener = .ended :=
  ⟨_, _, .cons (.route rfl rfl rfl (addRoute_plain _ _ _ _ _ _ (by decide +kernel) (by decide) (by decide)))
    (.cons (.startGo rfl rfl rfl (addOwn_eq _ _ (by decide +kernel)) (by decide)) (.cons (.sleep rfl rfl rfl)
      (.cons (.listening rfl rfl (by decide) (by decide) (fun h => absurd rfl h) (fun h => absurd rfl h)) (.cons (.publish rfl rfl)
        (.cons (.notify rfl rfl (.inr rfl)) (.cons (.ret rfl rfl rfl) .nil)))))),
    rfl, rfl, .cons (.destroy rfl rfl rfl) (.cons (.stop rfl rfl rfl) (.cons (.join rfl rfl rfl) .nil)), rfl, rfl⟩

example : OneStart (wit.take 6) := by unfold OneStart; decide +kernel
example : Ev.listening 40001 40002 ∈ wit.take 6 := by decide +kernel

/-- The requests of the witness: the hypotheses of `C130_routes` are met. -/
example : ∃ s, Exec Step (fresh (ascii "graph") 0 0) (wit.take 6 ++ [.ret none]) s ∧
    dispatch s.routes (some 0) (ascii "/graph/flags") = some (.handler hGetFlags []) ∧
    dispatch s.routes (some 0) (ascii "/graph/a") = some (.handler 9 []) ∧
    dispatch s.routes (some 0) (ascii "/flags") = some .notFound := by
  obtain ⟨s, _, x, _, hd, _⟩ := wit_all
  have := fun m path => C130_routes x hd ⟨.start 4 true, by decide +kernel, rfl⟩ (by decide +kernel) m path
  exact ⟨s, x, by rw [this]; decide +kernel, by rw [this]; decide +kernel, by rw [this]; decide +kernel⟩

end Web
end Nebula
