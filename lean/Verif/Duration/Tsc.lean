import Verif.Duration.Model
import Verif.Value.F64
/-!
# The fast clock (C116)

src/common/time/detail/TscHelper.cpp with its `double` arithmetic, src/common/time/WallClock.cpp and src/common/base/SlowOpTracker.h.  The readings of the
counter and of the system clocks are arguments.
-/
namespace Nebula
namespace Tsc

/-- TscHelper.cpp:60-69 `calibrate`: `ticksPerUSec` for `tickDiff` ticks in `us` microseconds; `none`: division by zero. -/
def calibrate (tickDiff us : Nat) : Option Nat := if us = 0 then none else some (tickDiff / us)

/-- TscHelper.cpp:66-68: the three factors. -/
def secFactor (perUs : Nat) : F64 := F64.div (F64.div (.fin 1) (F64.ofInt perUs)) (.fin 1000000)
def msecFactor (perUs : Nat) : F64 := F64.div (F64.div (.fin 1) (F64.ofInt perUs)) (.fin 1000)
def usecFactor (perUs : Nat) : F64 := F64.div (.fin 1) (F64.ofInt perUs)

/-- A `double` made a `uint64_t`; `none` if it is out of range, which is undefined. -/
def castU64 : F64 → Option Nat
  | .fin q => let n := F64.trunc q; if 0 ≤ n ∧ n < 2 ^ 64 then some n.toNat else none
  | _ => none

/-- TscHelper.cpp:72-84 `ticksToDurationInSec`, `…MSec`, `…USec`. -/
def toSec (perUs ticks : Nat) : Option Nat := castU64 (F64.add (F64.mul (F64.ofInt ticks) (secFactor perUs)) (.fin (1 / 2)))
def toMSec (perUs ticks : Nat) : Option Nat := castU64 (F64.add (F64.mul (F64.ofInt ticks) (msecFactor perUs)) (.fin (1 / 2)))
def toUSec (perUs ticks : Nat) : Option Nat := castU64 (F64.mul (F64.ofInt ticks) (usecFactor perUs))

/-- WallClock.cpp:14-32 `slowNowInSec`, `…MilliSec`, `…MicroSec`. -/
def slowSec (t : Timespec) : Int := t.sec
def slowMSec (t : Timespec) : Int := t.sec * 1000 + t.nsec.tdiv 1000000
def slowUSec (t : Timespec) : Int := t.sec * 1000000 + t.nsec.tdiv 1000

/-- TscHelper.cpp:87-104 `tickToTimePointInSec`, `…MSec`, `…USec`, the clock having been started at time `t` and counter `first`. -/
def fastSec (t : Timespec) (first perUs tick : Nat) : Option Int := (toSec perUs (subU64 tick first)).map fun n => slowSec t + n
def fastMSec (t : Timespec) (first perUs tick : Nat) : Option Int := (toMSec perUs (subU64 tick first)).map fun n => slowMSec t + n
def fastUSec (t : Timespec) (first perUs tick : Nat) : Option Int := (toUSec perUs (subU64 tick first)).map fun n => slowUSec t + n

/-- SlowOpTracker.h:24-30 `slow`: begun at `start`, asked at `now`; `flag` is `slow_op_threshhold_ms`. -/
def slowOp (start now threshold flag : Int) : Bool :=
  let dur := if now - start < 0 then 0 else now - start
  if 0 < threshold then decide (threshold < dur) else decide (flag < dur)

end Tsc
end Nebula
