import Verif.Latch.Spec
/-! # Properties of Latch (C30) and Barrier (C31) -/
namespace Nebula

/-! ## Latch -/

theorem latchDowns_snoc (h : List LatchEv) (e : LatchEv) : latchDowns (h ++ [e]) = latchDowns h + if e.counts then 1 else 0 := by
  unfold latchDowns; rw [List.countP_append, List.countP_singleton]

theorem latchInside_snoc (t : Nat) (h : List LatchEv) (e : LatchEv) :
    latchInside t (h ++ [e]).reverse = latchInside t (e :: h.reverse) := by rw [List.reverse_append]; rfl

/-- What every reachable state satisfies. -/
structure LatchInv (n : Nat) (h : List LatchEv) (s : LatchSt) : Prop where
  pos : 0 < n
  count : latchDowns h + s.counter = n
  inside : ∀ t, latchInside t h.reverse = true ↔ ∃ b, s.pc t = .blocked b ()
  notified : s.counter = 0 → ∀ t b, s.pc t = .blocked b () → b = true

theorem LatchSt.Run.inv {n : Nat} {h : List LatchEv} {s : LatchSt} (r : LatchSt.Run n h s) : LatchInv n h s := by
  induction r with
  | init hi =>
    unfold LatchSt.new at hi
    split at hi
    · cases hi
    · cases hi
      refine ⟨by omega, by simp [latchDowns], fun t => by simp [latchInside], fun h => ?_⟩
      intro t b hb; cases hb
  | @step h s e s' _ st ih =>
    obtain ⟨pos, count, inside, notified⟩ := ih
    have hnb : ∀ {t : Nat}, s.pc t = .idle → latchInside t h.reverse = false := by
      intro t ht
      cases hc : latchInside t h.reverse with
      | false => rfl
      | true => obtain ⟨b, hb⟩ := (inside t).1 hc; rw [ht] at hb; cases hb
    cases st with
    | throws ht hc =>
      exact ⟨pos, by rw [latchDowns_snoc]; simpa [LatchEv.counts] using count,
        fun t => by rw [latchInside_snoc]; simpa [latchInside] using inside t, notified⟩
    | ready ht =>
      exact ⟨pos, by rw [latchDowns_snoc]; simpa [LatchEv.counts] using count,
        fun t => by rw [latchInside_snoc]; simpa [latchInside] using inside t, notified⟩
    | waitReturn ht hc =>
      exact ⟨pos, by rw [latchDowns_snoc]; simpa [LatchEv.counts] using count,
        fun t => by rw [latchInside_snoc]; simpa [latchInside] using inside t, notified⟩
    | down ht hc hd =>
      refine ⟨pos, ?_, ?_, fun h0 => absurd h0 hd⟩
      · rw [latchDowns_snoc]; simp only [LatchEv.counts, if_true]; omega
      · intro t; rw [latchInside_snoc]; simpa [latchInside] using inside t
    | downZero ht hc hd =>
      refine ⟨pos, ?_, ?_, ?_⟩
      · rw [latchDowns_snoc]; simp only [LatchEv.counts, if_true]; omega
      · intro t; rw [latchInside_snoc]
        simp only [latchInside]
        rw [inside t]
        cases hp : s.pc t <;> simp [WaitPc.notify]
      · intro _ t b hb
        cases hp : s.pc t <;> simp [hp, WaitPc.notify] at hb
        exact hb
    | downLast ht hc hd =>
      refine ⟨pos, ?_, ?_, ?_⟩
      · rw [latchDowns_snoc]; simp only [LatchEv.counts, if_true]; omega
      · intro t; rw [latchInside_snoc]
        simp only [latchInside]
        rw [inside t]
        cases hp : s.pc t <;> simp [WaitPc.notify]
      · intro _ t b hb
        cases hp : s.pc t <;> simp [hp, WaitPc.notify] at hb
        exact hb
    | @downBlock t ht hc hd =>
      refine ⟨pos, ?_, ?_, fun h0 => absurd h0 hd⟩
      · rw [latchDowns_snoc]; simp only [LatchEv.counts, if_true]; omega
      · intro u; rw [latchInside_snoc]
        simp only [latchInside]
        by_cases hu : t = u
        · subst hu; simp
        · rw [if_neg hu, inside u]; simp [Ne.symm hu]
    | @waitBlock t ht hc =>
      refine ⟨pos, ?_, ?_, fun h0 => absurd h0 hc⟩
      · rw [latchDowns_snoc]; simpa [LatchEv.counts] using count
      · intro u; rw [latchInside_snoc]
        simp only [latchInside]
        by_cases hu : t = u
        · subst hu; simp
        · rw [if_neg hu, inside u]; simp [Ne.symm hu]
    | @wakeReturn t b ht hc =>
      refine ⟨pos, ?_, ?_, ?_⟩
      · rw [latchDowns_snoc]; simpa [LatchEv.counts] using count
      · intro u; rw [latchInside_snoc]
        simp only [latchInside]
        by_cases hu : t = u
        · subst hu; simp
        · rw [if_neg hu, inside u]; simp [Ne.symm hu]
      · intro h0 u b' hb
        by_cases hu : u = t
        · simp [hu] at hb
        · simp only [hu, if_false] at hb; exact notified h0 u b' hb
    | @wakeBlock t b ht hc =>
      refine ⟨pos, ?_, ?_, fun h0 => absurd h0 hc⟩
      · rw [latchDowns_snoc]; simpa [LatchEv.counts] using count
      · intro u; rw [latchInside_snoc]
        simp only [latchInside]
        rw [inside u]
        by_cases hu : u = t
        · subst hu; simp [ht]
        · simp [hu]

/-- C30: for every history, `wait` and `downWait` return only when the latch has been counted down `n`
times (counting a `downWait` that ends with this event). -/
theorem C30_returns_after {n : Nat} {h : List LatchEv} {s s' : LatchSt} {e : LatchEv} (r : LatchSt.Run n h s)
    (st : LatchSt.Step s e s') (he : e.endsWait = true) : latchDowns (h ++ [e]) = n := by
  have hc := (LatchSt.Run.step r st).inv.count
  cases st <;> simp [LatchEv.endsWait] at he <;> simp_all

/-- C30: the latch is never counted down more than `n` times; a call to `down` or `downWait` throws if it
already was counted down `n` times, and only then. -/
theorem C30_errors {n : Nat} {h : List LatchEv} {s s' : LatchSt} {e : LatchEv} (r : LatchSt.Run n h s)
    (st : LatchSt.Step s e s') : latchDowns h ≤ n ∧ (e.counts = true → latchDowns h < n) ∧
      (∀ t, e = .downThrow t → latchDowns h = n) := by
  have i := r.inv
  have hc := i.count
  refine ⟨by omega, ?_, ?_⟩
  · intro he
    cases st <;> simp [LatchEv.counts] at he <;> omega
  · intro t he
    cases st <;> cases he
    omega

/-- C30: `isReady` tells exactly whether the latch has been counted down `n` times, and stays true: any
later history has the same number of downs. -/
theorem C30_ready {n : Nat} {h : List LatchEv} {s s' : LatchSt} {t : Nat} {b : Bool} (r : LatchSt.Run n h s)
    (st : LatchSt.Step s (.ready t b) s') : b = true ↔ latchDowns h = n := by
  have hc := r.inv.count
  cases st
  simp; omega

/-- Histories only grow: a later history extends the earlier one, so it has at least as many downs. -/
theorem C30_monotone {n : Nat} {h more : List LatchEv} {s : LatchSt} (r : LatchSt.Run n (h ++ more) s)
    (hd : latchDowns h = n) : latchDowns (h ++ more) = n := by
  have := r.inv.count
  have h2 : latchDowns (h ++ more) = latchDowns h + latchDowns more := by unfold latchDowns; rw [List.countP_append]
  omega

/-- C30: once the latch has been counted down `n` times, every thread that is still inside `wait` or
`downWait` has been notified, and its wake-up returns: nobody sleeps on. And a new `wait` returns at once. -/
theorem C30_releases {n : Nat} {h : List LatchEv} {s : LatchSt} (r : LatchSt.Run n h s) (hd : latchDowns h = n) :
    (∀ t, latchInside t h.reverse = true → s.pc t = .blocked true () ∧ ∃ s', LatchSt.Step s (.wakeReturn t) s') ∧
    (∀ t, latchInside t h.reverse = false → LatchSt.Step s (.waitReturn t) s) := by
  have i := r.inv
  have h0 : s.counter = 0 := by have := i.count; omega
  constructor
  · intro t ht
    obtain ⟨b, hb⟩ := (i.inside t).1 ht
    have hn := i.notified h0 t b hb
    subst hn
    exact ⟨hb, _, .wakeReturn hb h0⟩
  · intro t ht
    refine .waitReturn ?_ h0
    cases hp : s.pc t with
    | idle => rfl
    | blocked b u =>
      have := (i.inside t).2 ⟨b, hp⟩
      rw [ht] at this; cases this

/-- Whatever happens, a thread outside can call `down`, `downWait` and `wait`: no call gets stuck except
inside `cond_.wait`. -/
theorem C30_calls {n : Nat} {h : List LatchEv} {s : LatchSt} (r : LatchSt.Run n h s) (t : Nat)
    (ht : latchInside t h.reverse = false) :
    (if latchDowns h < n then ∃ s', LatchSt.Step s (.down t) s' else ∃ s', LatchSt.Step s (.downThrow t) s') ∧
    (∃ s', LatchSt.Step s (.waitReturn t) s' ∨ LatchSt.Step s (.waitBlock t) s') := by
  have i := r.inv
  have hc := i.count
  have hp : s.pc t = .idle := by
    cases hp : s.pc t with
    | idle => rfl
    | blocked b u =>
      have := (i.inside t).2 ⟨b, hp⟩
      rw [ht] at this; cases this
  constructor
  · split
    · by_cases h1 : s.counter - 1 = 0
      · exact ⟨_, .downZero hp (by omega) h1⟩
      · exact ⟨_, .down hp (by omega) h1⟩
    · exact ⟨_, .throws hp (by omega)⟩
  · by_cases h0 : s.counter = 0
    · exact ⟨_, .inl (.waitReturn hp h0)⟩
    · exact ⟨_, .inr (.waitBlock hp h0)⟩

/-- A latch of two: one thread waits, two count down, the waiter returns. -/
example : ∃ s, LatchSt.Run 2 [.waitBlock 0, .down 1, .downLast 2, .wakeReturn 0] s := by
  refine ⟨_, .step (.step (.step (.step (.init rfl) (.waitBlock rfl ?_)) (.down ?_ ?_ ?_)) (.downLast ?_ ?_ ?_)) (.wakeReturn (n := true) ?_ ?_)⟩ <;> simp [WaitPc.notify]

/-! ## Barrier -/

theorem arrivals_snoc (h : List BarrierEv) (e : BarrierEv) : arrivals (h ++ [e]) = arrivals h + if e.arrives then 1 else 0 := by
  unfold arrivals; rw [List.countP_append, List.countP_singleton]

theorem completions_snoc (h : List BarrierEv) (e : BarrierEv) :
    completions (h ++ [e]) = completions h + if e.completes then 1 else 0 := by
  unfold completions; rw [List.countP_append, List.countP_singleton]

theorem arrivals_reverse (h : List BarrierEv) : arrivals h.reverse = arrivals h := by
  unfold arrivals; exact List.countP_reverse

theorem barrierInside_snoc (t : Nat) (h : List BarrierEv) (e : BarrierEv) :
    barrierInside t (h ++ [e]).reverse = barrierInside t (e :: h.reverse) := by rw [List.reverse_append]; rfl

/-- What every reachable state satisfies. -/
structure BarrierInv (n : Nat) (h : List BarrierEv) (s : BarrierSt) : Prop where
  pos : 0 < n
  counter : s.counter = n
  ages : 0 < s.ages ∧ s.ages ≤ n
  /-- the parties of the current generation that have arrived -/
  arrived : arrivals h + s.ages = n * (completions h + 1)
  gen : s.generation = completions h % 2 ^ 64
  outside : ∀ t, barrierInside t h.reverse = none ↔ s.pc t = .idle
  inside : ∀ t k, barrierInside t h.reverse = some k → k < arrivals h ∧ ∃ b, s.pc t = .blocked b (k / n % 2 ^ 64)
  notified : NoThrow h → completions h < 2 ^ 64 → ∀ t k b g, barrierInside t h.reverse = some k → k / n < completions h → s.pc t = .blocked b g → b = true

theorem BarrierInv.quotient {n : Nat} {h : List BarrierEv} {s : BarrierSt} (i : BarrierInv n h s) : arrivals h / n = completions h := by
  have h1 := i.arrived
  have h2 := i.ages
  apply Nat.div_eq_of_lt_le
  · rw [Nat.mul_comm]; rw [Nat.mul_add] at h1; omega
  · rw [Nat.mul_comm]; omega

theorem BarrierSt.Run.inv {n : Nat} {h : List BarrierEv} {s : BarrierSt} (r : BarrierSt.Run n h s) : BarrierInv n h s := by
  induction r with
  | init hi =>
    unfold BarrierSt.new at hi
    split at hi
    · cases hi
    · rename_i hn
      cases hi
      exact ⟨by omega, rfl, ⟨by simp; omega, by simp⟩, by simp [arrivals, completions], by simp [completions], fun t => by simp [barrierInside],
        fun t k hk => by simp [barrierInside] at hk, fun _ _ t k b g hk => by simp [barrierInside] at hk⟩
  | @step h s e s' _ st ih =>
    have hq := ih.quotient
    obtain ⟨pos, counter, ages, arrived, gen, outside, inside, notified⟩ := ih
    have hnt : NoThrow (h ++ [e]) → NoThrow h := fun hh t ht => hh t (List.mem_append_left _ ht)
    cases st with
    | @last t ht ha =>
      have ha1 : s.ages = 1 := by omega
      refine ⟨pos, counter, ⟨by simp; omega, by simp; omega⟩, ?_, ?_, ?_, ?_, ?_⟩
      · rw [arrivals_snoc, completions_snoc]; simp only [BarrierEv.arrives, BarrierEv.completes, if_true, counter]
        rw [Nat.mul_add]; omega
      · rw [completions_snoc]; simp only [BarrierEv.completes, if_true, gen]; omega
      · intro u; rw [barrierInside_snoc]
        simp only [barrierInside]
        rw [outside u]
        cases hp : s.pc u <;> simp [WaitPc.notify]
      · intro u k hk; rw [barrierInside_snoc] at hk
        simp only [barrierInside] at hk
        obtain ⟨h1, b, h2⟩ := inside u k hk
        refine ⟨by rw [arrivals_snoc]; omega, true, by simp [h2, WaitPc.notify]⟩
      · intro _ _ u k b g _ _ hb
        cases hp : s.pc u <;> simp [hp, WaitPc.notify] at hb
        exact hb.1
    | @lastThrow t ht ha =>
      have ha1 : s.ages = 1 := by omega
      refine ⟨pos, counter, ⟨by simp; omega, by simp; omega⟩, ?_, ?_, ?_, ?_, ?_⟩
      · rw [arrivals_snoc, completions_snoc]; simp only [BarrierEv.arrives, BarrierEv.completes, if_true, counter]
        rw [Nat.mul_add]; omega
      · rw [completions_snoc]; simp only [BarrierEv.completes, if_true, gen]; omega
      · intro u; rw [barrierInside_snoc]
        simp only [barrierInside]
        exact outside u
      · intro u k hk; rw [barrierInside_snoc] at hk
        simp only [barrierInside] at hk
        obtain ⟨h1, b, h2⟩ := inside u k hk
        exact ⟨by rw [arrivals_snoc]; omega, b, h2⟩
      · intro hh; exact absurd (by simp) (hh t)
    | @block t ht ha =>
      refine ⟨pos, counter, ⟨by simp; omega, by simp; omega⟩, ?_, ?_, ?_, ?_, ?_⟩
      · rw [arrivals_snoc, completions_snoc]; simp [BarrierEv.arrives, BarrierEv.completes]; omega
      · rw [completions_snoc]; simpa [BarrierEv.completes] using gen
      · intro u; rw [barrierInside_snoc]
        simp only [barrierInside]
        by_cases hu : t = u
        · subst hu; simp
        · rw [if_neg hu, outside u]; simp [Ne.symm hu]
      · intro u k hk; rw [barrierInside_snoc] at hk
        simp only [barrierInside] at hk
        rw [arrivals_snoc]
        simp only [BarrierEv.arrives, if_true]
        by_cases hu : t = u
        · subst hu
          simp [arrivals_reverse] at hk
          subst hk
          exact ⟨by omega, false, by simp [hq, gen]⟩
        · rw [if_neg hu] at hk
          obtain ⟨h1, b, h2⟩ := inside u k hk
          exact ⟨by omega, b, by simp [Ne.symm hu, h2]⟩
      · intro hh hw u k b g hk hlt hb
        rw [completions_snoc] at hw
        rw [barrierInside_snoc] at hk
        simp only [barrierInside] at hk
        rw [completions_snoc] at hlt
        simp only [BarrierEv.completes] at hlt
        by_cases hu : t = u
        · subst hu
          simp [arrivals_reverse] at hk
          subst hk
          simp at hlt; omega
        · rw [if_neg hu] at hk
          simp only [Ne.symm hu, if_false] at hb
          exact notified (hnt hh) (by omega) u k b g hk (by simpa using hlt) hb
    | @wakeReturn t b g ht hg =>
      refine ⟨pos, counter, ages, ?_, ?_, ?_, ?_, ?_⟩
      · rw [arrivals_snoc, completions_snoc]; simpa [BarrierEv.arrives, BarrierEv.completes] using arrived
      · rw [completions_snoc]; simpa [BarrierEv.completes] using gen
      · intro u; rw [barrierInside_snoc]
        simp only [barrierInside]
        by_cases hu : t = u
        · subst hu; simp
        · rw [if_neg hu, outside u]; simp [Ne.symm hu]
      · intro u k hk; rw [barrierInside_snoc] at hk
        simp only [barrierInside] at hk
        rw [arrivals_snoc]
        by_cases hu : t = u
        · subst hu; simp at hk
        · rw [if_neg hu] at hk
          obtain ⟨h1, b, h2⟩ := inside u k hk
          exact ⟨by omega, b, by simp [Ne.symm hu, h2]⟩
      · intro hh hw u k b g hk hlt hb
        rw [completions_snoc] at hw
        rw [barrierInside_snoc] at hk
        simp only [barrierInside] at hk
        rw [completions_snoc] at hlt
        by_cases hu : t = u
        · subst hu; simp at hk
        · rw [if_neg hu] at hk
          simp only [Ne.symm hu, if_false] at hb
          exact notified (hnt hh) (by omega) u k b g hk (by simpa [BarrierEv.completes] using hlt) hb
    | @wakeBlock t b g ht hg =>
      refine ⟨pos, counter, ages, ?_, ?_, ?_, ?_, ?_⟩
      · rw [arrivals_snoc, completions_snoc]; simpa [BarrierEv.arrives, BarrierEv.completes] using arrived
      · rw [completions_snoc]; simpa [BarrierEv.completes] using gen
      · intro u; rw [barrierInside_snoc]
        simp only [barrierInside]
        rw [outside u]
        by_cases hu : u = t
        · subst hu; simp [ht]
        · simp [hu]
      · intro u k hk; rw [barrierInside_snoc] at hk
        simp only [barrierInside] at hk
        rw [arrivals_snoc]
        obtain ⟨h1, b', h2⟩ := inside u k hk
        refine ⟨by omega, ?_⟩
        by_cases hu : u = t
        · subst hu; rw [ht] at h2; cases h2; exact ⟨false, by simp⟩
        · exact ⟨b', by simp [hu, h2]⟩
      · intro hh hw u k b' g' hk hlt hb
        rw [completions_snoc] at hw
        rw [barrierInside_snoc] at hk
        simp only [barrierInside] at hk
        rw [completions_snoc] at hlt
        have hlt' : k / n < completions h := by simpa [BarrierEv.completes] using hlt
        by_cases hu : u = t
        · exfalso
          subst hu
          obtain ⟨_, b1, h2⟩ := inside u k hk
          rw [ht] at h2
          injection h2 with _ h3
          rw [h3, gen, Nat.mod_eq_of_lt (by omega), Nat.mod_eq_of_lt (by omega)] at hg
          omega
        · simp only [hu, if_false] at hb
          exact notified (hnt hh) (by omega) u k b' g' hk hlt' hb

/-- C31: for every history, callback runs are exactly the completed generations: after `k` arrivals the
callback has been called `k / n` times. -/
theorem C31_completions {n : Nat} {h : List BarrierEv} {s : BarrierSt} (r : BarrierSt.Run n h s) :
    completions h = arrivals h / n := r.inv.quotient.symm

/-- C31: a blocked thread leaves only after all parties of its generation have arrived, and the callback
of its generation has been called. (The thread's arrival has number `k`; its generation is `k / n`.) -/
theorem C31_leaves_after {n : Nat} {h : List BarrierEv} {s s' : BarrierSt} {t k : Nat} (r : BarrierSt.Run n h s)
    (ht : barrierInside t h.reverse = some k) (st : BarrierSt.Step s (.wakeReturn t) s') :
    n * (k / n + 1) ≤ arrivals h ∧ k / n < completions h := by
  have i := r.inv
  obtain ⟨hk, b, hb⟩ := i.inside t k ht
  have hq := i.quotient
  have hle : k / n ≤ completions h := by rw [← hq]; exact Nat.div_le_div_right (Nat.le_of_lt hk)
  have hne : k / n ≠ completions h := by
    intro e
    cases st with
    | wakeReturn h1 h2 =>
      rw [hb] at h1
      injection h1 with _ h3
      apply h2
      rw [← h3, e, i.gen]
  have hlt : k / n < completions h := by omega
  refine ⟨?_, hlt⟩
  have h1 := i.arrived
  have h2 := i.ages
  have h3 : n * (k / n + 1) ≤ n * completions h := Nat.mul_le_mul_left _ hlt
  rw [Nat.mul_add] at h1
  omega

/-- C31: a call to `wait` returns at once exactly if it is the last arrival of its generation, and then the
callback runs in this call. -/
theorem C31_last {n : Nat} {h : List BarrierEv} {s s' : BarrierSt} {e : BarrierEv} (r : BarrierSt.Run n h s)
    (st : BarrierSt.Step s e s') (he : e.arrives = true) :
    (e.completes = true ↔ (arrivals h + 1) % n = 0) := by
  have i := r.inv
  have h1 := i.arrived
  have h2 := i.ages
  have h3 := (BarrierSt.Run.step r st).inv
  have h4 := h3.arrived
  have h5 := h3.ages
  have key : (arrivals h + 1) % n = 0 ↔ s.ages = 1 := by
    rw [Nat.mul_add] at h1
    have e1 : arrivals h + 1 = n * completions h + (n + 1 - s.ages) := by omega
    rw [e1, Nat.mul_add_mod]
    constructor
    · intro h
      rcases Nat.lt_or_ge 1 s.ages with hlt | hge
      · rw [Nat.mod_eq_of_lt (by omega)] at h; omega
      · omega
    · intro h; rw [h]; simp
  rw [key]
  cases st <;> simp [BarrierEv.arrives] at he <;> simp [BarrierEv.completes] <;> omega

/-- The full claim about waking up: whenever the generation of a blocked thread is complete, it has been
notified and its wake-up returns. -/
def BarrierReleases (n : Nat) (h : List BarrierEv) (s : BarrierSt) : Prop :=
  ∀ t k, barrierInside t h.reverse = some k → n * (k / n + 1) ≤ arrivals h →
    (∃ g, s.pc t = .blocked true g) ∧ ∃ s', BarrierSt.Step s (.wakeReturn t) s'

/-- C31 (partial: no callback throws, fewer than 2^64 generations): nobody sleeps on after its generation
is complete. -/
theorem C31_releases_partial {n : Nat} {h : List BarrierEv} {s : BarrierSt} (r : BarrierSt.Run n h s) (hn : NoThrow h)
    (hc : arrivals h < n * 2 ^ 64) : BarrierReleases n h s := by
  intro t k ht hk
  have i := r.inv
  have hq := i.quotient
  have hlt : completions h < 2 ^ 64 := by rw [← hq]; exact Nat.div_lt_of_lt_mul hc
  have hg : k / n < completions h := by
    rw [← hq]
    have : n * (k / n + 1) / n ≤ arrivals h / n := Nat.div_le_div_right hk
    rw [Nat.mul_div_cancel_left _ i.pos] at this
    exact this
  obtain ⟨_, b, hb⟩ := i.inside t k ht
  have := i.notified hn hlt t k b _ ht hg hb
  subst this
  refine ⟨⟨_, hb⟩, _, .wakeReturn hb ?_⟩
  rw [i.gen, Nat.mod_eq_of_lt hlt, Nat.mod_eq_of_lt (by omega)]
  omega

/-- C31 violated: if the callback throws, the blocked threads of that generation are not notified. -/
theorem C31_throw_violated : ∃ h s, BarrierSt.Run 2 h s ∧ ¬ BarrierReleases 2 h s := by
  refine ⟨[.block 0, .lastThrow 1], _, .step (.step (.init rfl) (.block rfl ?_)) (.lastThrow ?_ ?_), ?_⟩
  · simp
  · simp
  · simp
  · intro h
    obtain ⟨⟨g, hg⟩, _⟩ := h 0 0 (by decide) (by decide)
    simp at hg

/-- C31: the barrier is reusable: with the last arrival of a generation it waits for `n` parties again. -/
theorem C31_reusable {n : Nat} {h : List BarrierEv} {s s' : BarrierSt} {e : BarrierEv} (r : BarrierSt.Run n h s)
    (st : BarrierSt.Step s e s') (he : e.completes = true) : s'.ages = n ∧ arrivals (h ++ [e]) % n = 0 := by
  have hc := r.inv.counter
  have ha : e.arrives = true := by cases e <;> simp_all [BarrierEv.arrives, BarrierEv.completes]
  have := (C31_last r st ha).1 he
  rw [arrivals_snoc, if_pos ha]
  refine ⟨?_, this⟩
  cases st <;> simp [BarrierEv.completes] at he <;> exact hc

/-- Any thread outside can always call `wait`, and the call either blocks in the condition or returns. -/
theorem C31_calls {n : Nat} {h : List BarrierEv} {s : BarrierSt} (r : BarrierSt.Run n h s) (t : Nat)
    (ht : barrierInside t h.reverse = none) : ∃ s', BarrierSt.Step s (.last t) s' ∨ BarrierSt.Step s (.block t) s' := by
  have hp := (r.inv.outside t).1 ht
  by_cases h1 : s.ages - 1 = 0
  · exact ⟨_, .inl (.last hp h1)⟩
  · exact ⟨_, .inr (.block hp h1)⟩

/-- Two generations of a barrier for two, with three threads. -/
example : ∃ s, BarrierSt.Run 2 [.block 0, .last 1, .block 2, .last 1, .wakeReturn 0, .wakeReturn 2] s := by
  refine ⟨_, .step (.step (.step (.step (.step (.step (.init rfl) (.block rfl ?_)) (.last ?_ ?_)) (.block ?_ ?_)) (.last ?_ ?_))
    (.wakeReturn (n := true) (g := 0) ?_ ?_)) (.wakeReturn (n := true) (g := 1) ?_ ?_)⟩ <;> simp [WaitPc.notify]

end Nebula
