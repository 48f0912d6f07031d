import Verif.Base
/-!
# Latch and Barrier

Model of `src/common/concurrent/Latch.{h,cpp}` and `src/common/concurrent/Barrier.{h,cpp}` as transition
systems over any number of threads (numbered by `Nat`). A critical section of the mutex is one step; a
thread inside `cond_.wait` is `blocked` and remembers whether a notification has reached it. A blocked
thread may wake up at any time (spuriously) and re-checks the predicate.
-/
namespace Nebula

/-- Where a thread is: outside, or inside `cond_.wait(guard, pred)`. -/
inductive WaitPc (G : Type)
  | idle
  | blocked (notified : Bool) (arg : G)
deriving DecidableEq, Repr

/-- `notify_all`: every blocked thread is notified. -/
def WaitPc.notify {G : Type} : WaitPc G → WaitPc G
  | .idle => .idle
  | .blocked _ g => .blocked true g

/-! ## Latch -/

/-- The latch and its threads (Latch.h:53-55). -/
structure LatchSt where
  counter : Nat
  pc : Nat → WaitPc Unit

/-- What happens at a step, as a thread sees it. -/
inductive LatchEv
  /-- `down()` returned -/
  | down (t : Nat)
  /-- `down()` or `downWait()` threw -/
  | downThrow (t : Nat)
  /-- `downWait()` counted down to zero and returned -/
  | downLast (t : Nat)
  /-- `downWait()` counted down and blocked -/
  | downBlock (t : Nat)
  /-- `wait()` returned at once -/
  | waitReturn (t : Nat)
  /-- `wait()` blocked -/
  | waitBlock (t : Nat)
  /-- a blocked `wait()` or `downWait()` returned -/
  | wakeReturn (t : Nat)
  /-- a blocked thread woke up and blocked again -/
  | wakeBlock (t : Nat)
  /-- `isReady()` returned `b` -/
  | ready (t : Nat) (b : Bool)
deriving DecidableEq, Repr

/-- `Latch(counter)` (Latch.cpp:13-18); zero throws. -/
def LatchSt.new (counter : Nat) : Option LatchSt :=
  if counter = 0 then none else some ⟨counter, fun _ => .idle⟩

/-- Steps of the latch. -/
inductive LatchSt.Step : LatchSt → LatchEv → LatchSt → Prop
  /-- Latch.cpp:20-28 on zero, 30-34 on zero -/
  | throws {s t} : s.pc t = .idle → s.counter = 0 → Step s (.downThrow t) s
  /-- Latch.cpp:20-28, not the last -/
  | down {s t} : s.pc t = .idle → s.counter ≠ 0 → s.counter - 1 ≠ 0 → Step s (.down t) { s with counter := s.counter - 1 }
  /-- Latch.cpp:20-28, the last: notifies all -/
  | downZero {s t} : s.pc t = .idle → s.counter ≠ 0 → s.counter - 1 = 0 →
      Step s (.down t) { s with counter := s.counter - 1, pc := fun u => (s.pc u).notify }
  /-- Latch.cpp:30-40, the last: notifies all and returns -/
  | downLast {s t} : s.pc t = .idle → s.counter ≠ 0 → s.counter - 1 = 0 →
      Step s (.downLast t) { s with counter := s.counter - 1, pc := fun u => (s.pc u).notify }
  /-- Latch.cpp:30-40, not the last: blocks (the predicate is checked first and is false) -/
  | downBlock {s t} : s.pc t = .idle → s.counter ≠ 0 → s.counter - 1 ≠ 0 →
      Step s (.downBlock t) { s with counter := s.counter - 1, pc := fun u => if u = t then .blocked false () else s.pc u }
  /-- Latch.cpp:42-45, predicate true -/
  | waitReturn {s t} : s.pc t = .idle → s.counter = 0 → Step s (.waitReturn t) s
  /-- Latch.cpp:42-45, predicate false -/
  | waitBlock {s t} : s.pc t = .idle → s.counter ≠ 0 →
      Step s (.waitBlock t) { s with pc := fun u => if u = t then .blocked false () else s.pc u }
  /-- A wake-up of `cond_.wait` (Latch.cpp:39, 44) with the predicate true -/
  | wakeReturn {s t n} : s.pc t = .blocked n () → s.counter = 0 →
      Step s (.wakeReturn t) { s with pc := fun u => if u = t then .idle else s.pc u }
  /-- A wake-up with the predicate false -/
  | wakeBlock {s t n} : s.pc t = .blocked n () → s.counter ≠ 0 →
      Step s (.wakeBlock t) { s with pc := fun u => if u = t then .blocked false () else s.pc u }
  /-- Latch.cpp:47-49. The code reads the counter without the mutex; the read is taken to be atomic. -/
  | ready {s t} : s.pc t = .idle → Step s (.ready t (decide (s.counter = 0))) s

/-- `s` is reached from a latch of `n` by the history `h` (oldest first). -/
inductive LatchSt.Run (n : Nat) : List LatchEv → LatchSt → Prop
  | init {s} : LatchSt.new n = some s → Run n [] s
  | step {h s e s'} : Run n h s → LatchSt.Step s e s' → Run n (h ++ [e]) s'

/-! ## Barrier -/

/-- The barrier and its threads (Barrier.h:42-47). A blocked thread holds the generation it captured.
The generation is a `size_t`. -/
structure BarrierSt where
  counter : Nat
  ages : Nat
  generation : Nat
  pc : Nat → WaitPc Nat

/-- What happens at a step. -/
inductive BarrierEv
  /-- `wait()` called, blocked -/
  | block (t : Nat)
  /-- `wait()` called by the last party: the completion ran and returned, all are notified, returns -/
  | last (t : Nat)
  /-- `wait()` called by the last party: the completion ran and threw -/
  | lastThrow (t : Nat)
  /-- a blocked `wait()` returned -/
  | wakeReturn (t : Nat)
  /-- a blocked thread woke up and blocked again -/
  | wakeBlock (t : Nat)
deriving DecidableEq, Repr

/-- `Barrier(counter, completion)` (Barrier.cpp:14-21); zero throws. -/
def BarrierSt.new (counter : Nat) : Option BarrierSt :=
  if counter = 0 then none else some ⟨counter, counter, 0, fun _ => .idle⟩

/-- Steps of the barrier (Barrier.cpp:23-36). -/
inductive BarrierSt.Step : BarrierSt → BarrierEv → BarrierSt → Prop
  /-- Barrier.cpp:25-31 -/
  | last {s t} : s.pc t = .idle → s.ages - 1 = 0 →
      Step s (.last t) { s with ages := s.counter, generation := (s.generation + 1) % 2 ^ 64, pc := fun u => (s.pc u).notify }
  /-- Barrier.cpp:25-29: the exception leaves before `notify_all` -/
  | lastThrow {s t} : s.pc t = .idle → s.ages - 1 = 0 →
      Step s (.lastThrow t) { s with ages := s.counter, generation := (s.generation + 1) % 2 ^ 64 }
  /-- Barrier.cpp:32-35 (the predicate is checked first and is false) -/
  | block {s t} : s.pc t = .idle → s.ages - 1 ≠ 0 →
      Step s (.block t) { s with ages := s.ages - 1, pc := fun u => if u = t then .blocked false s.generation else s.pc u }
  /-- A wake-up with the predicate `current != generation_` true (Barrier.cpp:34) -/
  | wakeReturn {s t n g} : s.pc t = .blocked n g → g ≠ s.generation →
      Step s (.wakeReturn t) { s with pc := fun u => if u = t then .idle else s.pc u }
  /-- A wake-up with the predicate false -/
  | wakeBlock {s t n g} : s.pc t = .blocked n g → g = s.generation →
      Step s (.wakeBlock t) { s with pc := fun u => if u = t then .blocked false g else s.pc u }

/-- `s` is reached from a barrier for `n` parties by the history `h` (oldest first). -/
inductive BarrierSt.Run (n : Nat) : List BarrierEv → BarrierSt → Prop
  | init {s} : BarrierSt.new n = some s → Run n [] s
  | step {h s e s'} : Run n h s → BarrierSt.Step s e s' → Run n (h ++ [e]) s'

end Nebula
