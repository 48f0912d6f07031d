import Verif.Map
import Verif.Net.Model
/-!
# Model of the statistics manager (src/common/stats/StatsManager.{h,cpp})

A time series or histogram is the list of the values added to it, oldest first; what folly computes from
it (`sum`, `avg`, `getPercentileEstimate`, …) is not modelled: reading gives the series, the method or
percentile, and the time range. `isDouble` says which texts `folly::to<double>` accepts. Operations are
atomic (registration is documented as not thread safe; `addValue` holds the mutex of its series).
Fewer than 2^31 counters (`int32_t index`). Builds without `DCHECK`.
-/
namespace Nebula
namespace Stats
open Net

/-- StatsManager.h:93-98 `StatsMethod`. -/
inductive Method where
  | sum | count | avg | rate
deriving DecidableEq, Repr

/-- StatsManager.h:101-106 `TimeRange`. -/
inductive Range where
  | s5 | s60 | s600 | s3600
deriving DecidableEq, Repr

/-- A percentile: the text after the `p`, as a number, divided by `div`. -/
structure Pct where
  digits : Bytes
  div : Nat
deriving DecidableEq, Repr

/-- StatsManager.h:176-184 `CounterInfo`. -/
structure Info where
  id : Int
  methods : List Method
  pcts : List (Bytes × Pct)
deriving DecidableEq, Repr

/-- StatsManager.h:182-203. -/
structure State where
  names : AMap Bytes Info
  stats : List (List Int)
  histos : List (List Int)
deriving DecidableEq, Repr

/-- `folly::toLowerAscii`. -/
def lower (s : Bytes) : Bytes := s.map fun c => if 65 ≤ c && c ≤ 90 then c + 32 else c

/-- StatsManager.cpp:187 `dividors`. -/
def dividors : List Nat := [1, 1, 10, 100, 1000, 10000]

section
variable (isDouble : Bytes → Bool)

/-- StatsManager.cpp:186-203 `strToPct`. -/
def strToPct (part : Bytes) : Option Pct :=
  let len := part.length - 1
  if 0 < len ∧ len ≤ 6 then
    if isDouble (part.drop 1) then (dividors[len - 1]?).map fun d => ⟨part.drop 1, d⟩ else none
  else none

/-- StatsManager.cpp:43-51 and 231-238: the names of the methods. -/
def methodOf (s : Bytes) : Option Method :=
  if s = ascii "sum" then some .sum
  else if s = ascii "count" then some .count
  else if s = ascii "avg" then some .avg
  else if s = ascii "rate" then some .rate
  else none

/-- StatsManager.cpp:40-63: one entry of the list. -/
def parsePart (acc : List Method × List (Bytes × Pct)) (part : Bytes) : List Method × List (Bytes × Pct) :=
  let t := lower (trim part)
  match methodOf t with
  | some m => (acc.1 ++ [m], acc.2)
  | none =>
    if t.head? = some 112 then
      match strToPct isDouble t with
      | some p => (acc.1, acc.2 ++ [(t, p)])
      | none => acc
    else acc

/-- StatsManager.cpp:35-66 `parseStats`. -/
def parseStats (s : Bytes) : List Method × List (Bytes × Pct) := (splitNonEmpty 44 s).foldl (parsePart isDouble) ([], [])

/-- StatsManager.cpp:70-109 `registerStats`. -/
def registerStats (st : State) (name stats : Bytes) : State × Int :=
  let methods := (parseStats isDouble stats).1
  match st.names.find name with
  | some i => ({ st with names := st.names.set name { i with methods := methods } }, i.id)
  | none =>
    let index : Int := st.stats.length + 1
    ({ st with names := st.names.set name ⟨index, methods, []⟩, stats := st.stats ++ [[]] }, index)

/-- StatsManager.cpp:113-158 `registerHisto` (bucket size and bounds left out). -/
def registerHisto (st : State) (name stats : Bytes) : State × Int :=
  let ps := parseStats isDouble stats
  match st.names.find name with
  | some i => ({ st with names := st.names.set name { i with methods := ps.1, pcts := ps.2 } }, i.id)
  | none =>
    let index : Int := -((st.histos.length : Int) + 1)
    ({ st with names := st.names.set name ⟨index, ps.1, ps.2⟩, histos := st.histos ++ [[]] }, index)

/-- A value added to one of the series; `none` if there is no such series (undefined behaviour). -/
def addTo (l : List (List Int)) (i : Nat) (v : Int) : Option (List (List Int)) :=
  match l[i]? with
  | none => none
  | some s => some (l.set i (s ++ [v]))

/-- StatsManager.cpp:162-182 `addValue`; `none` for the id 0 (the process aborts) and for ids that were
not handed out. -/
def addValue (st : State) (id v : Int) : Option State :=
  if id > 0 then (addTo st.stats (id - 1).toNat v).map fun s => { st with stats := s }
  else if id < 0 then (addTo st.histos (-(id + 1)).toNat v).map fun s => { st with histos := s }
  else none

/-- What is read from a series. -/
inductive What where
  | method (m : Method)
  | pct (p : Pct)
deriving DecidableEq, Repr

/-- The outcome of a read: an error status, a value computed from a series, or undefined behaviour. -/
inductive ReadOut where
  | error
  | value (what : What) (range : Range) (series : List Int)
  | undefined
deriving DecidableEq, Repr

/-- StatsManager.cpp:347-373 `readStats` by id. -/
def readStatsId (st : State) (id : Int) (r : Range) (m : Method) : ReadOut :=
  if id = 0 then .error
  else if id > 0 then
    match st.stats[(id - 1).toNat]? with
    | some s => .value (.method m) r s
    | none => .undefined
  else
    match st.histos[(-(id + 1)).toNat]? with
    | some s => .value (.method m) r s
    | none => .undefined

/-- StatsManager.cpp:377-396 `readStats` by name. -/
def readStats (st : State) (name : Bytes) (r : Range) (m : Method) : ReadOut :=
  match st.names.find name with
  | none => .error
  | some i => readStatsId st i.id r m

/-- StatsManager.cpp:400-419 `readHisto` by id. -/
def readHistoId (st : State) (id : Int) (r : Range) (p : Pct) : ReadOut :=
  if id ≥ 0 then .error
  else
    match st.histos[(-(id + 1)).toNat]? with
    | none => .error
    | some s => .value (.pct p) r s

/-- StatsManager.cpp:423-442 `readHisto` by name. -/
def readHisto (st : State) (name : Bytes) (r : Range) (p : Pct) : ReadOut :=
  match st.names.find name with
  | none => .error
  | some i => readHistoId st i.id r p

/-- StatsManager.cpp:215-228. -/
def rangeOf (s : Bytes) : Option Range :=
  if s = ascii "5" then some .s5
  else if s = ascii "60" then some .s60
  else if s = ascii "600" then some .s600
  else if s = ascii "3600" then some .s3600
  else none

/-- StatsManager.cpp:207-256 `readValue`. -/
def readValue (st : State) (metric : Bytes) : ReadOut :=
  match splitNonEmpty 46 metric with
  | [name, meth, range] =>
    match rangeOf range with
    | none => .error
    | some r =>
      match methodOf (lower meth) with
      | some m => readStats st name r m
      | none =>
        if (lower meth).head? = some 112 then
          match strToPct isDouble (lower meth) with
          | some p => readHisto st name r p
          | none => .error
        else .error
  | _ => .error
end

/-- StatsManager.cpp:267-280. -/
def methodText : Method → Bytes
  | .sum => ascii ".sum" | .count => ascii ".count" | .avg => ascii ".avg" | .rate => ascii ".rate"

/-- StatsManager.cpp:287-300. -/
def rangeText : Range → Bytes
  | .s5 => ascii ".5" | .s60 => ascii ".60" | .s600 => ascii ".600" | .s3600 => ascii ".3600"

/-- StatsManager.cpp:283-285. -/
def allRanges : List Range := [.s5, .s60, .s600, .s3600]

/-- StatsManager.cpp:263-340: the metrics of one counter. -/
def reportOf (st : State) (name : Bytes) (i : Info) : List (Bytes × ReadOut) :=
  (i.methods.flatMap fun m => allRanges.map fun r => (name ++ methodText m ++ rangeText r, readStatsId st i.id r m)) ++
  (i.pcts.flatMap fun p => allRanges.filterMap fun r =>
    if readHistoId st i.id r p.2 = .error then none else some (name ++ ascii "." ++ p.1 ++ rangeText r, readHistoId st i.id r p.2))

/-- StatsManager.cpp:260-343 `readAllValue`: names and values, in the order of the map. -/
def readAll (st : State) : List (Bytes × ReadOut) := st.names.flatMap fun e => reportOf st e.1 e.2

/-- The calls of the interface that change the state. -/
inductive Call where
  | stats (name cfg : Bytes)
  | histo (name cfg : Bytes)
  | add (id v : Int)
deriving DecidableEq, Repr

/-- One call: the state afterwards and the id returned, if any. -/
def step (isDouble : Bytes → Bool) (st : State) : Call → Option (State × Option Int)
  | .stats n c => some ((registerStats isDouble st n c).1, some (registerStats isDouble st n c).2)
  | .histo n c => some ((registerHisto isDouble st n c).1, some (registerHisto isDouble st n c).2)
  | .add id v => (addValue st id v).map fun s => (s, none)

/-- A history of calls: the state and the ids returned, call by call; `none` if the process aborted. -/
def run (isDouble : Bytes → Bool) : State → List Call → Option (State × List (Option Int))
  | st, [] => some (st, [])
  | st, c :: cs =>
    match step isDouble st c with
    | none => none
    | some (st', r) => (run isDouble st' cs).map fun x => (x.1, r :: x.2)

end Stats
end Nebula
