import Verif.Base
/-!
# Stopwatch

Model of `src/common/time/Duration.cpp` (both builds) and of the conversions in
`src/common/time/detail/TscHelper.cpp`. The clock value read by a call is an argument of the call.
Not modelled: how the time stamp counter is calibrated (its result is a parameter), doubles (the factors
are exact rationals here).
-/
namespace Nebula

/-- A `uint64_t` made of any value. -/
def toU64 (i : Int) : Nat := (i % 2 ^ 64).toNat

/-- Difference of two `uint64_t`. -/
def subU64 (a b : Nat) : Nat := toU64 ((a : Int) - b)

/-- `Duration` on x86-64 (Duration.h:37-41); all `uint64_t`. -/
structure Watch where
  isPaused : Bool
  accumulated : Nat
  startTick : Nat
deriving DecidableEq, Repr

/-- `reset(paused)` and the constructor (Duration.cpp:15-23, Duration.h:17-19), the counter standing at `tsc`. -/
def Watch.reset (paused : Bool) (tsc : Nat) : Watch := ⟨paused, 0, if paused then 0 else tsc⟩

/-- `pause()` (Duration.cpp:26-34). -/
def Watch.pause (w : Watch) (tsc : Nat) : Watch :=
  if w.isPaused then w
  else ⟨true, (w.accumulated + subU64 tsc w.startTick) % 2 ^ 64, 0⟩

/-- `resume()` (Duration.cpp:37-44). -/
def Watch.resume (w : Watch) (tsc : Nat) : Watch :=
  if w.isPaused then ⟨false, w.accumulated, tsc⟩ else w

/-- The ticks computed by `elapsedInSec`, `elapsedInMSec` and `elapsedInUSec` (Duration.cpp:48, 55, 62). -/
def Watch.ticks (w : Watch) (tsc : Nat) : Nat :=
  if w.isPaused then w.accumulated else (subU64 tsc w.startTick + w.accumulated) % 2 ^ 64

/-- `ticksToDurationInSec`, `…MSec`, `…USec` (TscHelper.cpp:72-84) with `perUs` ticks per microsecond: a `double`
cut to `uint64_t`. Exact arithmetic in place of doubles: `⌊t/(perUs·10^6) + 1/2⌋` and so on. -/
def ticksToSec (perUs ticks : Nat) : Nat := (2 * ticks + perUs * 1000000) / (2 * (perUs * 1000000))
def ticksToMSec (perUs ticks : Nat) : Nat := (2 * ticks + perUs * 1000) / (2 * (perUs * 1000))
def ticksToUSec (perUs ticks : Nat) : Nat := ticks / perUs

/-! ## Other processors -/

/-- `struct timespec`. -/
structure Timespec where
  sec : Int
  nsec : Int
deriving DecidableEq, Repr

/-- `nanoDiff` (Duration.cpp:74-85); the `DCHECK` is not there in release builds. -/
def nanoDiff (start «end» : Timespec) : Int :=
  let e := if «end».nsec < start.nsec then ⟨«end».sec - 1, «end».nsec + 1000000000⟩ else «end»
  (e.sec - start.sec) * 1000000000 + (e.nsec - start.nsec)

/-- `Duration` elsewhere (Duration.h:38-43). -/
structure NWatch where
  isPaused : Bool
  accumulated : Nat
  startTick : Timespec

/-- Duration.cpp:88-96. -/
def NWatch.reset (paused : Bool) (now : Timespec) : NWatch := ⟨paused, 0, if paused then ⟨0, 0⟩ else now⟩
/-- Duration.cpp:99-107. -/
def NWatch.pause (w : NWatch) (now : Timespec) : NWatch :=
  if w.isPaused then w
  else ⟨true, (w.accumulated + toU64 (nanoDiff w.startTick now)) % 2 ^ 64, ⟨0, 0⟩⟩
/-- Duration.cpp:110-117. -/
def NWatch.resume (w : NWatch) (now : Timespec) : NWatch :=
  if w.isPaused then ⟨false, w.accumulated, now⟩ else w
/-- Duration.cpp:122, 129, 136. -/
def NWatch.nsec (w : NWatch) (now : Timespec) : Nat :=
  if w.isPaused then w.accumulated else (toU64 (nanoDiff w.startTick now) + w.accumulated) % 2 ^ 64
/-- Duration.cpp:121-139. -/
def NWatch.inSec (w : NWatch) (now : Timespec) : Nat := w.nsec now / 1000000000
def NWatch.inMSec (w : NWatch) (now : Timespec) : Nat := w.nsec now / 1000000
def NWatch.inUSec (w : NWatch) (now : Timespec) : Nat := w.nsec now / 1000

end Nebula
