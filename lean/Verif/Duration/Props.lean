import Verif.Duration.Model
/-! # Properties of the stopwatch (C34) -/
namespace Nebula

/-! ## Specification -/

/-- Calls that change a stopwatch. -/
inductive WatchOp | reset (paused : Bool) | pause | resume
deriving DecidableEq, Repr

/-- A history: the calls after construction with their times, newest first. The constructor counts as a
`reset`. -/
abbrev WatchHist := List (WatchOp × Nat)

/-- How long the watch has run by `now`: up to the last call whatever it had run then, and since then the
time elapsed if that call left it running. -/
def ranFor : WatchHist → Nat → Nat
  | [], _ => 0
  | (.reset p, t) :: _, now => if p then 0 else now - t
  | (.pause, t) :: h, _ => ranFor h t
  | (.resume, t) :: h, now => ranFor h t + (now - t)

/-- Does the watch run? The last call says. -/
def runs : WatchHist → Bool
  | [] => false
  | (.reset p, _) :: _ => !p
  | (.pause, _) :: _ => false
  | (.resume, _) :: _ => true

/-- The clock never went back. -/
def Ordered : WatchHist → Nat → Prop
  | [], _ => True
  | (_, t) :: h, now => t ≤ now ∧ Ordered h t

/-! ## x86-64 -/

/-- One call, the counter (64 bits) having counted `t` ticks. -/
def Watch.apply (w : Watch) : WatchOp × Nat → Watch
  | (.reset p, t) => Watch.reset p (t % 2 ^ 64)
  | (.pause, t) => w.pause (t % 2 ^ 64)
  | (.resume, t) => w.resume (t % 2 ^ 64)

/-- The watch after construction at `t0` and a history. -/
def Watch.after (p0 : Bool) (t0 : Nat) : WatchHist → Watch
  | [] => Watch.reset p0 (t0 % 2 ^ 64)
  | c :: h => (Watch.after p0 t0 h).apply c

theorem toU64_lt (i : Int) : toU64 i < 2 ^ 64 := by unfold toU64; omega
theorem subU64_mod {a b : Nat} (h : b ≤ a) : subU64 (a % 2 ^ 64) (b % 2 ^ 64) = (a - b) % 2 ^ 64 := by
  unfold subU64 toU64; omega

structure WatchInv (w : Watch) (h : WatchHist) : Prop where
  runs : w.isPaused = !runs h
  paused : w.isPaused = true → ∀ now, w.accumulated = ranFor h now % 2 ^ 64
  running : w.isPaused = false → ∃ s a, w.startTick = s % 2 ^ 64 ∧ w.accumulated = a % 2 ^ 64 ∧ (∀ now, Ordered h now → s ≤ now) ∧
    ∀ now, Ordered h now → ranFor h now = a + (now - s)

theorem Watch.after_inv (p0 : Bool) (t0 : Nat) (h : WatchHist) (now0 : Nat) (ho : Ordered (h ++ [(.reset p0, t0)]) now0) :
    WatchInv (Watch.after p0 t0 h) (h ++ [(.reset p0, t0)]) := by
  induction h generalizing now0 with
  | nil =>
    refine ⟨?_, ?_, ?_⟩
    · cases p0 <;> rfl
    · intro hp; cases p0
      · simp [Watch.after, Watch.reset] at hp
      · intro now; simp [Watch.after, Watch.reset, ranFor]
    · intro hp; cases p0
      · exact ⟨t0, 0, rfl, rfl, fun now hn => hn.1, fun now hn => by simp [ranFor]⟩
      · simp [Watch.after, Watch.reset] at hp
  | cons c h ih =>
    obtain ⟨op, t⟩ := c
    have hod : Ordered (h ++ [(.reset p0, t0)]) t := ho.2
    have i := ih t hod
    simp only [Watch.after, List.cons_append]
    cases op with
    | reset p =>
      refine ⟨by cases p <;> rfl, ?_, ?_⟩
      · intro hp; cases p
        · simp [Watch.apply, Watch.reset] at hp
        · intro now; simp [Watch.apply, Watch.reset, ranFor]
      · intro hp; cases p
        · exact ⟨t, 0, rfl, rfl, fun now hn => hn.1, fun now hn => by simp [ranFor]⟩
        · simp [Watch.apply, Watch.reset] at hp
    | pause =>
      by_cases hp : (Watch.after p0 t0 h).isPaused = true
      · simp only [Watch.apply, Watch.pause, hp, if_true]
        refine ⟨by simp [runs, hp], fun _ now => ?_, fun hf => by simp [hp] at hf⟩
        exact i.paused hp t
      · have hp : (Watch.after p0 t0 h).isPaused = false := by simpa using hp
        obtain ⟨s, a, h1, h2, h3, h4⟩ := i.running hp
        simp only [Watch.apply, Watch.pause, hp]
        refine ⟨by simp [runs], fun _ now => ?_, fun hf => by simp at hf⟩
        simp only [ranFor]
        rw [h4 t hod]
        simp only [Bool.false_eq_true, if_false]
        rw [h1, h2, subU64_mod (h3 t hod)]
        omega
    | resume =>
      by_cases hp : (Watch.after p0 t0 h).isPaused = true
      · simp only [Watch.apply, Watch.resume, hp, if_true]
        refine ⟨by simp [runs], fun hf => by simp at hf, fun _ => ⟨t, ranFor (h ++ [(.reset p0, t0)]) t, rfl, ?_, fun now hn => hn.1, fun now hn => rfl⟩⟩
        exact i.paused hp t
      · have hp : (Watch.after p0 t0 h).isPaused = false := by simpa using hp
        obtain ⟨s, a, h1, h2, h3, h4⟩ := i.running hp
        simp only [Watch.apply, Watch.resume, hp, Bool.false_eq_true, if_false]
        refine ⟨by simp [runs, hp], fun hf => by simp [hp] at hf, fun _ => ⟨s, a, h1, h2, fun now hn => Nat.le_trans (h3 t hod) hn.1, fun now hn => ?_⟩⟩
        simp only [ranFor]
        rw [h4 t hod]
        have := h3 t hod
        have := hn.1
        omega

/-- C34: after every history, at every later time, the elapsed ticks are the time the watch has run — also
when the counter wraps around in between; and it says correctly whether it is paused. -/
theorem C34_elapsed (p0 : Bool) (t0 : Nat) (h : WatchHist) (now : Nat) (ho : Ordered (h ++ [(.reset p0, t0)]) now) :
    (Watch.after p0 t0 h).ticks (now % 2 ^ 64) = ranFor (h ++ [(.reset p0, t0)]) now % 2 ^ 64 ∧
      (Watch.after p0 t0 h).isPaused = !runs (h ++ [(.reset p0, t0)]) := by
  have i := Watch.after_inv p0 t0 h now ho
  refine ⟨?_, i.runs⟩
  unfold Watch.ticks
  by_cases hp : (Watch.after p0 t0 h).isPaused = true
  · rw [if_pos hp]; exact i.paused hp now
  · rw [if_neg hp]
    obtain ⟨s, a, h1, h2, h3, h4⟩ := i.running (by simpa using hp)
    rw [h1, h2, subU64_mod (h3 now ho), h4 now ho]
    omega

/-- C34: a paused watch stands still. -/
theorem C34_paused (p0 : Bool) (t0 : Nat) (h : WatchHist) (now now' : Nat) (hr : runs (h ++ [(.reset p0, t0)]) = false) :
    ranFor (h ++ [(.reset p0, t0)]) now = ranFor (h ++ [(.reset p0, t0)]) now' := by
  cases h with
  | nil => cases p0 <;> simp_all [ranFor, runs]
  | cons c h =>
    obtain ⟨op, t⟩ := c
    cases op with
    | reset p => cases p <;> simp_all [ranFor, runs]
    | pause => rfl
    | resume => simp [runs] at hr

/-- Run 10, pause 5 (pausing twice), run 7: 17. The counter wraps in between. -/
example : (Watch.after false (2 ^ 64 - 3) [(.resume, 2 ^ 64 + 12), (.pause, 2 ^ 64 + 9), (.pause, 2 ^ 64 + 7)]).ticks ((2 ^ 64 + 19) % 2 ^ 64) = 17 ∧
    Ordered ([(.resume, 2 ^ 64 + 12), (.pause, 2 ^ 64 + 9), (.pause, 2 ^ 64 + 7)] ++ [(.reset false, 2 ^ 64 - 3)]) (2 ^ 64 + 19) := by
  constructor
  · decide +kernel
  · simp [Ordered]

/-- C34: seconds and milliseconds are rounded to the nearest, microseconds down. -/
theorem C34_units (perUs ticks : Nat) (h : 0 < perUs) :
    (let s := ticksToSec perUs ticks; let u := perUs * 1000000; 2 * (s * u) ≤ 2 * ticks + u ∧ 2 * ticks < 2 * (s * u) + u) ∧
    (let s := ticksToMSec perUs ticks; let u := perUs * 1000; 2 * (s * u) ≤ 2 * ticks + u ∧ 2 * ticks < 2 * (s * u) + u) ∧
    (let s := ticksToUSec perUs ticks; s * perUs ≤ ticks ∧ ticks < s * perUs + perUs) := by
  have key : ∀ u, 0 < u → ∀ t, 2 * ((2 * t + u) / (2 * u) * u) ≤ 2 * t + u ∧ 2 * t < 2 * ((2 * t + u) / (2 * u) * u) + u := by
    intro u hu t
    have h1 := Nat.div_add_mod (2 * t + u) (2 * u)
    have h2 := Nat.mod_lt (2 * t + u) (show 0 < 2 * u by omega)
    generalize (2 * t + u) / (2 * u) = q at *
    have : 2 * u * q = 2 * (q * u) := by rw [Nat.mul_assoc, Nat.mul_comm u q]
    omega
  refine ⟨key _ (by omega) ticks, key _ (by omega) ticks, ?_⟩
  have h1 := Nat.div_add_mod ticks perUs
  have h2 := Nat.mod_lt ticks h
  simp only [ticksToUSec]
  rw [Nat.mul_comm (ticks / perUs) perUs]
  omega

/-- C34 violated: the factor is measured anew every two seconds, and a paused watch read before and after
that shows two different times, the later one smaller. -/
theorem C34_recalibration_violated : ∃ (w : Watch) (perUs perUs' t t' : Nat), w.isPaused = true ∧ t < t' ∧ 0 < perUs ∧ 0 < perUs' ∧
    ticksToUSec perUs' (w.ticks t') < ticksToUSec perUs (w.ticks t) :=
  ⟨⟨true, 6000, 0⟩, 2, 3, 0, 1, by decide⟩

/-! ## Other processors -/

/-- The time `n` nanoseconds after the epoch of the clock. -/
def timespecOf (n : Nat) : Timespec := ⟨(n / 1000000000 : Nat), (n % 1000000000 : Nat)⟩

theorem nanoDiff_eq {a b : Nat} (h : a ≤ b) : nanoDiff (timespecOf a) (timespecOf b) = ((b - a : Nat) : Int) := by
  unfold nanoDiff timespecOf
  simp only
  split <;> simp only <;> omega

def NWatch.apply (w : NWatch) : WatchOp × Nat → NWatch
  | (.reset p, t) => NWatch.reset p (timespecOf t)
  | (.pause, t) => w.pause (timespecOf t)
  | (.resume, t) => w.resume (timespecOf t)

def NWatch.after (p0 : Bool) (t0 : Nat) : WatchHist → NWatch
  | [] => NWatch.reset p0 (timespecOf t0)
  | c :: h => (NWatch.after p0 t0 h).apply c

structure NWatchInv (w : NWatch) (h : WatchHist) : Prop where
  runs : w.isPaused = !runs h
  paused : w.isPaused = true → ∀ now, w.accumulated = ranFor h now % 2 ^ 64
  running : w.isPaused = false → ∃ s a, w.startTick = timespecOf s ∧ w.accumulated = a % 2 ^ 64 ∧ (∀ now, Ordered h now → s ≤ now) ∧
    ∀ now, Ordered h now → ranFor h now = a + (now - s)

theorem toU64_nat (n : Nat) : toU64 (n : Int) = n % 2 ^ 64 := by unfold toU64; omega

theorem NWatch.after_inv (p0 : Bool) (t0 : Nat) (h : WatchHist) (now0 : Nat) (ho : Ordered (h ++ [(.reset p0, t0)]) now0) :
    NWatchInv (NWatch.after p0 t0 h) (h ++ [(.reset p0, t0)]) := by
  induction h generalizing now0 with
  | nil =>
    refine ⟨?_, ?_, ?_⟩
    · cases p0 <;> rfl
    · intro hp; cases p0
      · simp [NWatch.after, NWatch.reset] at hp
      · intro now; simp [NWatch.after, NWatch.reset, ranFor]
    · intro hp; cases p0
      · exact ⟨t0, 0, rfl, rfl, fun now hn => hn.1, fun now hn => by simp [ranFor]⟩
      · simp [NWatch.after, NWatch.reset] at hp
  | cons c h ih =>
    obtain ⟨op, t⟩ := c
    have hod : Ordered (h ++ [(.reset p0, t0)]) t := ho.2
    have i := ih t hod
    simp only [NWatch.after, List.cons_append]
    cases op with
    | reset p =>
      refine ⟨by cases p <;> rfl, ?_, ?_⟩
      · intro hp; cases p
        · simp [NWatch.apply, NWatch.reset] at hp
        · intro now; simp [NWatch.apply, NWatch.reset, ranFor]
      · intro hp; cases p
        · exact ⟨t, 0, rfl, rfl, fun now hn => hn.1, fun now hn => by simp [ranFor]⟩
        · simp [NWatch.apply, NWatch.reset] at hp
    | pause =>
      by_cases hp : (NWatch.after p0 t0 h).isPaused = true
      · simp only [NWatch.apply, NWatch.pause, hp, if_true]
        refine ⟨by simp [runs, hp], fun _ now => ?_, fun hf => by simp [hp] at hf⟩
        exact i.paused hp t
      · have hp : (NWatch.after p0 t0 h).isPaused = false := by simpa using hp
        obtain ⟨s, a, h1, h2, h3, h4⟩ := i.running hp
        simp only [NWatch.apply, NWatch.pause, hp]
        refine ⟨by simp [runs], fun _ now => ?_, fun hf => by simp at hf⟩
        simp only [ranFor]
        rw [h4 t hod]
        simp only [Bool.false_eq_true, if_false]
        rw [h1, h2, nanoDiff_eq (h3 t hod), toU64_nat]
        omega
    | resume =>
      by_cases hp : (NWatch.after p0 t0 h).isPaused = true
      · simp only [NWatch.apply, NWatch.resume, hp, if_true]
        refine ⟨by simp [runs], fun hf => by simp at hf, fun _ => ⟨t, ranFor (h ++ [(.reset p0, t0)]) t, rfl, ?_, fun now hn => hn.1, fun now hn => rfl⟩⟩
        exact i.paused hp t
      · have hp : (NWatch.after p0 t0 h).isPaused = false := by simpa using hp
        obtain ⟨s, a, h1, h2, h3, h4⟩ := i.running hp
        simp only [NWatch.apply, NWatch.resume, hp, Bool.false_eq_true, if_false]
        refine ⟨by simp [runs, hp], fun hf => by simp [hp] at hf, fun _ => ⟨s, a, h1, h2, fun now hn => Nat.le_trans (h3 t hod) hn.1, fun now hn => ?_⟩⟩
        simp only [ranFor]
        rw [h4 t hod]
        have := h3 t hod
        have := hn.1
        omega

/-- C34 on other processors: after every history the elapsed nanoseconds are the time the watch has run (modulo 2^64 ns, 584 years), and the three
units are that time rounded down. -/
theorem C34_elapsed_other (p0 : Bool) (t0 : Nat) (h : WatchHist) (now : Nat) (ho : Ordered (h ++ [(.reset p0, t0)]) now) :
    (NWatch.after p0 t0 h).inSec (timespecOf now) = ranFor (h ++ [(.reset p0, t0)]) now % 2 ^ 64 / 1000000000 ∧
    (NWatch.after p0 t0 h).inMSec (timespecOf now) = ranFor (h ++ [(.reset p0, t0)]) now % 2 ^ 64 / 1000000 ∧
    (NWatch.after p0 t0 h).inUSec (timespecOf now) = ranFor (h ++ [(.reset p0, t0)]) now % 2 ^ 64 / 1000 ∧
      (NWatch.after p0 t0 h).isPaused = !runs (h ++ [(.reset p0, t0)]) := by
  have i := NWatch.after_inv p0 t0 h now ho
  have e : (NWatch.after p0 t0 h).nsec (timespecOf now) = ranFor (h ++ [(.reset p0, t0)]) now % 2 ^ 64 := by
    unfold NWatch.nsec
    by_cases hp : (NWatch.after p0 t0 h).isPaused = true
    · rw [if_pos hp, i.paused hp now]
    · rw [if_neg hp]
      obtain ⟨s, a, h1, h2, h3, h4⟩ := i.running (by simpa using hp)
      rw [h1, h2, nanoDiff_eq (h3 now ho), toU64_nat, h4 now ho]
      omega
  refine ⟨?_, ?_, ?_, i.runs⟩
  · unfold NWatch.inSec; rw [e]
  · unfold NWatch.inMSec; rw [e]
  · unfold NWatch.inUSec; rw [e]

/-- A pause of one second and a half between 2.9 s and 4.4 s. -/
example : (NWatch.after false 1000000000 [(.resume, 4400000000), (.pause, 2900000000)]).inMSec (timespecOf 5000000000) = 2500 := by decide +kernel

end Nebula
