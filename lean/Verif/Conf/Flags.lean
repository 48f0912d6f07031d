import Verif.Conf.Model
import Verif.Map
/-!
# Which flags of a process are registered with the meta service (src/common/meta/GflagsManager.cpp)

`folly::to` on texts is `Texts`; an exception that leaves the function is `none`.  Every mode is MUTABLE, so that only the mark "nested" of a mode
entry is kept.
-/
namespace Nebula
namespace Conf
open Json

/-- `gflags::CommandLineFlagInfo`. -/
structure FlagInfo where
  name : Bytes
  type : Bytes
  current : Bytes
  default : Bytes
  description : Bytes
  file : Bytes
  isDefault : Bool
deriving DecidableEq, Repr

/-- `folly::to<int64_t>`, `folly::to<double>`, `folly::to<bool>` of a text; `none` is an exception. -/
structure Texts (F : Type) where
  toInt : Bytes → Option Int
  toDbl : Bytes → Option F
  toBool : Bytes → Option Bool

/-- The values (Value.h) that flags have. -/
inductive FlagVal (F : Type) where
  | int (n : Int) | dbl (d : F) | bool (b : Bool) | str (s : Bytes) | map (kvs : AMap Bytes Bytes) | null | empty

section
variable {F : Type} (D : Doubles F) (C : Conv F) (T : Texts F)

/-- GflagsManager.cpp:38-40: the function passed to `forEachItem`. -/
def addEntry (m : AMap Bytes Bytes) (key : Bytes) (v : Dyn F) : Option (AMap Bytes Bytes) := (asString C v).map fun s => m.emplace key s

/-- GflagsManager.cpp:16-46 `gflagsValueToValue`.  The status of `forEachItem` is not looked at. -/
def gflagsValueToValue (type text : Bytes) : Option (FlagVal F) :=
  if (ascii "int").isPrefixOf type ∨ (ascii "uint").isPrefixOf type then (T.toInt text).map .int
  else if type = ascii "double" then (T.toDbl text).map .dbl
  else if type = ascii "bool" then (T.toBool text).map .bool
  else if type = ascii "string" then some (.str text)
  else if type = ascii "map" then
    match parseFromString D (.obj []) text with
    | (.ok, c) => (forEachItem (addEntry C) c []).map fun r => .map r.2
    | _ => some .null
  else some .empty

/-- GflagsManager.cpp:51-66: the flags that are mutable unless a file says more; `true`: nested. -/
def defaultModes : AMap Bytes Bool :=
  [(ascii "max_edge_returned_per_vertex", false), (ascii "minloglevel", false), (ascii "v", false), (ascii "heartbeat_interval_secs", false),
   (ascii "meta_client_retry_times", false), (ascii "slow_op_threshhold_ms", false), (ascii "wal_ttl", false), (ascii "clean_wal_interval_secs", false),
   (ascii "custom_filter_interval_secs", false), (ascii "accept_partial_success", false), (ascii "rocksdb_db_options", true),
   (ascii "rocksdb_column_family_options", true), (ascii "rocksdb_block_based_table_options", true)]

/-- GflagsManager.cpp:80-82, 88-91: every listed name is entered. -/
def enter (nested : Bool) : AMap Bytes Bool → List Bytes → AMap Bytes Bool
  | m, [] => m
  | m, n :: ns => enter nested (m.set n nested) ns

/-- GflagsManager.cpp:49-95 `parseConfigJson`. -/
def parseConfigJson (file : File) : Option (AMap Bytes Bool) :=
  match parseFromFile D (.obj []) file with
  | (.ok, c) =>
    (fetchAsArray (asString C) c (ascii "MUTABLE") []).bind fun r =>
      let m := if r.1 = .ok then enter false defaultModes r.2 else defaultModes
      (fetchAsArray (asString C) c (ascii "NESTED") []).map fun r => if r.1 = .ok then enter true m r.2 else m
  | _ => some defaultModes

/-- meta.thrift `ConfigItem` (the mode is always MUTABLE). -/
structure Declared (F : Type) where
  name : Bytes
  module : Int
  value : FlagVal F

/-- GflagsManager.cpp:106-138: the loop over the flags. -/
def declareLoop (modes : AMap Bytes Bool) (module : Int) : List FlagInfo → Option (List (Declared F))
  | [] => some []
  | f :: fs =>
    match modes.find f.name with
    | none => declareLoop modes module fs
    | some nested =>
      (gflagsValueToValue D C T (if nested then ascii "map" else f.type) f.current).bind fun
        | .empty => declareLoop modes module fs
        | .null => declareLoop modes module fs
        | v => (declareLoop modes module fs).map fun ds => ⟨f.name, module, v⟩ :: ds

/-- GflagsManager.cpp:97-141 `declareGflags`; module 0 is UNKNOWN. -/
def declareGflags (file : File) (flags : List FlagInfo) (module : Int) : Option (List (Declared F)) :=
  if module = 0 then some []
  else (parseConfigJson D C file).bind fun modes => declareLoop D C T modes module flags
end

/-- `std::string::find(sub) != npos`. -/
def occurs (sub : Bytes) : Bytes → Bool
  | [] => sub.isPrefixOf []
  | c :: s => sub.isPrefixOf (c :: s) || occurs sub s

/-- GflagsManager.cpp:144-161 `getGflagsModule`: `pidFile` is the default of the flag `pid_file`, if there is such a flag; the modules are numbered
as in meta.thrift (`GRAPH` 2, `META` 3, `STORAGE` 4); `cur` is the variable of the caller. -/
def getGflagsModule (pidFile : Option Bytes) (cur : Int) : Int :=
  match pidFile with
  | none => cur
  | some p =>
    if occurs (ascii "nebula-graphd") p then 2
    else if occurs (ascii "nebula-storaged") p then 4
    else if occurs (ascii "nebula-metad") p then 3
    else cur

end Conf
end Nebula
