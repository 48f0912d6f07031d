import Verif.Text
import Verif.Map
/-!
# The configuration cache of the meta client (src/common/clients/meta/MetaClient.cpp:3107-3168, src/common/meta/GflagsManager.cpp)

The flags of the process are a map from names to texts.  `none` around a state stands for an exception that nobody catches
(`folly::to` on a text of the wrong form) or `LOG(FATAL)`: the process ends.
-/
namespace Nebula
namespace Meta

/-- The values of configuration items (common/datatypes/Value.h), as far as flags have them; `null` stands for every other kind.  Doubles
are kept as the text `folly::to<std::string>` gives; the entries of a map are in some fixed order. -/
inductive CfgVal where
  | bool (b : Bool) | int (n : Int) | float (text : Bytes) | str (s : Bytes) | map (kvs : List (Bytes × Bytes)) | null | empty
deriving DecidableEq, Repr

/-- meta.thrift `ConfigItem`. -/
structure CfgItem where
  module : Int
  name : Bytes
  mutable : Bool
  value : CfgVal
deriving DecidableEq, Repr

/-- What the libraries do with texts: `folly::to<int64_t>`, `folly::to<bool>` (`none` = exception), `folly::to<std::string>(int64_t)`, the
JSON parser, and `gflags::SetCommandLineOption` (the text a flag has after it was set, `none` = refused). -/
structure FlagLib where
  toInt : Bytes → Option Int
  toBool : Bytes → Option Bool
  showInt : Int → Bytes
  parseJson : Bytes → Option (List (Bytes × Bytes))
  store : Bytes → Bytes → Option Bytes

abbrev Flags := AMap Bytes Bytes
abbrev CfgCache := AMap (Int × Bytes) CfgItem

structure CfgState where
  cache : CfgCache
  flags : Flags

/-- GflagsManager.cpp:16-46 `gflagsValueToValue`, called with the type name of a value (Value.cpp `typeName`: "int", "bool", "float",
"string", "map", ...): the name of doubles is "float", not "double", so that they are of unknown type here. -/
def gflagsValueToValue (lib : FlagLib) : CfgVal → Bytes → Option CfgVal
  | .int _, t => (lib.toInt t).map .int
  | .bool _, t => (lib.toBool t).map .bool
  | .str _, t => some (.str t)
  | .map _, t => some (match lib.parseJson t with
    | some m => .map m
    | none => .null)
  | .float _, _ => some .empty
  | .null, _ => some .empty
  | .empty, _ => some .empty

/-- GflagsManager.cpp:178-185: one entry of a map; the value is a string and is printed by `Value::toString`, which puts quotes around it
(Value.cpp:1519-1521), in addition to those put here. -/
def showEntry (kv : Bytes × Bytes) : Bytes :=
  ascii "\"" ++ kv.1 ++ ascii "\"" ++ ascii ":" ++ ascii "\"" ++ (ascii "\"" ++ kv.2 ++ ascii "\"") ++ ascii "\""

/-- `folly::join(",", values)`. -/
def joinComma : List Bytes → Bytes
  | [] => []
  | [a] => a
  | a :: as => a ++ ascii "," ++ joinComma as

/-- GflagsManager.cpp:163-195 `ValueToGflagString`; `none` is `LOG(FATAL)`. -/
def valueToGflagString (lib : FlagLib) : CfgVal → Option Bytes
  | .bool b => some (if b then ascii "true" else ascii "false")
  | .int n => some (lib.showInt n)
  | .float t => some t
  | .str s => some s
  | .map kvs => some (ascii "{" ++ joinComma (kvs.map showEntry) ++ ascii "}")
  | .null => none
  | .empty => none

/-- MetaClient.cpp:3142-3168 `updateGflagsValue`.  The listener's notification (3161-3163) is not modelled. -/
def updateGflags (lib : FlagLib) (flags : Flags) (item : CfgItem) : Option Flags :=
  if item.mutable = false then some flags
  else match flags.find item.name with
    | none => some flags
    | some cur => (gflagsValueToValue lib item.value cur).bind fun v =>
      if v ≠ item.value then (valueToGflagString lib item.value).map fun t =>
        let t := if item.value = .map [] then ascii "{}" else t
        match lib.store item.name t with
        | some t' => flags.set item.name t'
        | none => flags
      else some flags

/-- MetaClient.cpp:3117-3120: the items by key; the first of several items with the same key is kept. -/
def itemMap : CfgCache → List CfgItem → CfgCache
  | m, [] => m
  | m, i :: is => itemMap (m.emplace (i.module, i.name) i) is

/-- MetaClient.cpp:3125-3131: one entry of the loop. -/
def cfgEntry (lib : FlagLib) (st : CfgState) (e : (Int × Bytes) × CfgItem) : Option CfgState :=
  let changed := match st.cache.find e.1 with
    | none => true
    | some old => decide (e.2.value ≠ old.value)
  if changed then (updateGflags lib st.flags e.2).map fun fl => ⟨st.cache.set e.1 e.2, fl⟩
  else some st

def cfgEntries (lib : FlagLib) : CfgState → List ((Int × Bytes) × CfgItem) → Option CfgState
  | st, [] => some st
  | st, e :: es => (cfgEntry lib st e).bind fun st' => cfgEntries lib st' es

/-- MetaClient.cpp:3107-3139 `loadCfg` after the items were received; `order` is the order in which the hash map is walked. -/
def LoadCfg (lib : FlagLib) (items : List CfgItem) (st st' : CfgState) : Prop :=
  ∃ order, order.Perm (itemMap [] items) ∧ cfgEntries lib st order = some st'

end Meta
end Nebula
