/-!
# Model of the logging macros (src/common/base/Logging.h)

What glog does with a message is an input of the model only in this form: a message that is made is sent if its severity is not below
`FLAGS_minloglevel`, a `LogMessageFatal` (`COMPACT_GOOGLE_LOG_FATAL`) always ends the process, and a message of severity FATAL that is sent ends it
too. `LOG_TO_STRING` and `LOG_STRING`, which expand like `PLOG`, are left out.
-/
namespace Nebula
namespace Logging

/-- The severities that can be written in the macros. -/
inductive Severity where
  | info | warning | error | fatal | dfatal
deriving DecidableEq, Repr

/-- `google::GLOG_INFO` … `GLOG_FATAL` are 0 to 3; DFATAL is FATAL if `NDEBUG` is not defined, and ERROR otherwise (Logging.h:24-32, and glog). -/
def Severity.num (debug : Bool) : Severity → Int
  | .info => 0
  | .warning => 1
  | .error => 2
  | .fatal => 3
  | .dfatal => if debug then 3 else 2

/-- Logging.h:12-32 `_MINLOGLEVEL_GT_INFO` and the others. -/
def minLevelGt (debug : Bool) (min : Int) (s : Severity) : Bool := min > s.num debug

/-- What the execution of a macro does, in order. -/
inductive Effect where
  /-- the condition is evaluated -/
  | condition
  /-- the number is evaluated -/
  | number
  /-- the operands of `<<` are evaluated -/
  | operands
  /-- the message is sent, with the count of glog's `COUNTER` -/
  | message (s : Severity) (count : Int)
  /-- the process ends -/
  | abort
deriving DecidableEq, Repr

/-- A `LogMessage` with its operands: it is sent unless glog filters it; a fatal one that is sent ends the process. -/
def emit (debug : Bool) (min : Int) (s : Severity) (count : Int) : List Effect :=
  .operands :: if s.num debug < min then [] else .message s count :: if s.num debug = 3 then [.abort] else []

/-- `COMPACT_GOOGLE_LOG_FATAL.stream()`: the destructor of `LogMessageFatal` ends the process whether or not the message is filtered. -/
def emitFatal (min : Int) : List Effect :=
  .operands :: ((if (3 : Int) < min then [] else [.message .fatal 0]) ++ [.abort])

/-- `COMPACT_GOOGLE_LOG_INFO.stream()` and so on; `COMPACT_GOOGLE_LOG_DFATAL` is that of FATAL if `NDEBUG` is not defined, and that of ERROR otherwise. -/
def compact (debug : Bool) (min : Int) : Severity → List Effect
  | .fatal => emitFatal min
  | .dfatal => if debug then emitFatal min else emit debug min .error 0
  | s => emit debug min s 0

/-- Logging.h:40-63 `LOG`. -/
def log (debug : Bool) (min : Int) : Severity → List Effect
  | .fatal => compact debug min .fatal
  | s => if minLevelGt debug min s then [] else compact debug min s

/-- Logging.h:65-75 `PLOG`, `SYSLOG`: messages that are not `LogMessageFatal`. -/
def plog (debug : Bool) (min : Int) (s : Severity) : List Effect := if minLevelGt debug min s then [] else emit debug min s 0

/-- Logging.h:97-101 `LOG_IF`. -/
def logIf (debug : Bool) (min : Int) (s : Severity) (cond : Bool) : List Effect :=
  .condition :: if !cond || minLevelGt debug min s then [] else compact debug min s

/-- Logging.h:103-113 `PLOG_IF`, `SYSLOG_IF`. -/
def plogIf (debug : Bool) (min : Int) (s : Severity) (cond : Bool) : List Effect :=
  .condition :: if !cond || minLevelGt debug min s then [] else emit debug min s 0

/-- The static variables of one place in the program: `LOG_OCCURRENCES` and `LOG_OCCURRENCES_MOD_N`. -/
structure Site where
  occ : Int
  mod : Int
deriving DecidableEq, Repr

/-- Before the first execution. -/
def Site.init : Site := ⟨0, 0⟩

/-- A result of `int` arithmetic; `none` is an overflow, which is undefined. -/
def int32 (i : Int) : Option Int := if -2147483648 ≤ i ∧ i ≤ 2147483647 then some i else none

/-- Logging.h:124-126 (and 133-135, 142-144): the counters are moved on. `n` is evaluated at the comparison, and again if it is subtracted. -/
def Site.count (s : Site) (n : Int) : Option (Site × List Effect) :=
  (int32 (s.occ + 1)).bind fun occ => (int32 (s.mod + 1)).bind fun m =>
    if m > n then (int32 (m - n)).map fun m' => (⟨occ, m'⟩, [.number, .number]) else some (⟨occ, m⟩, [.number])

/-- Logging.h:121-129 `SOME_KIND_OF_LOG_EVERY_N` and 139-147: `LOG_EVERY_N`, `PLOG_EVERY_N`, `SYSLOG_EVERY_N`. -/
def logEveryN (debug : Bool) (min : Int) (sev : Severity) (n : Int) (s : Site) : Option (Site × List Effect) :=
  (s.count n).map fun (s', es) => (s', es ++ if !minLevelGt debug min sev && s'.mod == 1 then emit debug min sev s'.occ else [])

/-- Logging.h:130-138 `SOME_KIND_OF_LOG_IF_EVERY_N`: `LOG_IF_EVERY_N`. The condition comes after the level. -/
def logIfEveryN (debug : Bool) (min : Int) (sev : Severity) (cond : Bool) (n : Int) (s : Site) : Option (Site × List Effect) :=
  (s.count n).map fun (s', es) => (s', es ++ if minLevelGt debug min sev then [] else
    .condition :: if cond && s'.mod == 1 then emit debug min sev s'.occ else [])

/-- Logging.h:148-155 `SOME_KIND_OF_LOG_FIRST_N`: `LOG_FIRST_N`. -/
def logFirstN (debug : Bool) (min : Int) (sev : Severity) (n : Int) (s : Site) : Option (Site × List Effect) :=
  (if s.occ ≤ n then int32 (s.occ + 1) else some s.occ).map fun occ =>
    (⟨occ, s.mod⟩, .number :: if minLevelGt debug min sev then [] else .number :: if occ ≤ n then emit debug min sev occ else [])

/-- Logging.h:185-215 `DLOG`, `DLOG_IF`. -/
def dlog (debug : Bool) (min : Int) (s : Severity) : List Effect := if debug then log debug min s else []
def dlogIf (debug : Bool) (min : Int) (s : Severity) (cond : Bool) : List Effect := if debug then logIf debug min s cond else []

/-- One execution of a macro in a history: the level at that time, the condition, and the number (constant expressions give the same each time). -/
structure Run where
  min : Int
  cond : Bool

/-- A history of executions of one place, and the effects of each. -/
def history (step : Run → Site → Option (Site × List Effect)) : Site → List Run → Option (Site × List (List Effect))
  | s, [] => some (s, [])
  | s, r :: rs => (step r s).bind fun (s', es) => (history step s' rs).map fun (s'', l) => (s'', es :: l)

/-! ## Threads

The variables are neither atomic nor locked. Here each of the four statements of Logging.h:124-129 is one step (the race itself is undefined
behaviour; this is the mildest reading). -/

/-- Where a thread is in Logging.h:124-129. -/
inductive Pc where
  | occ | mod | check
  | done (sent : Bool)
deriving DecidableEq, Repr

/-- One step of a thread in `LOG_EVERY_N` at a level that lets the message through. -/
def tstep (n : Int) (s : Site) : Pc → Site × Pc
  | .occ => (⟨s.occ + 1, s.mod⟩, .mod)
  | .mod => (⟨s.occ, if s.mod + 1 > n then s.mod + 1 - n else s.mod + 1⟩, .check)
  | .check => (s, .done (s.mod == 1))
  | .done b => (s, .done b)

/-- Two threads; `true` is a step of the second one. -/
def threads (n : Int) : List Bool → Site × Pc × Pc → Site × Pc × Pc
  | [], c => c
  | false :: l, (s, a, b) => let r := tstep n s a; threads n l (r.1, r.2, b)
  | true :: l, (s, a, b) => let r := tstep n s b; threads n l (r.1, a, r.2)

end Logging
end Nebula
