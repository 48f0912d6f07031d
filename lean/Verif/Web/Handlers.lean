import Verif.Conf.Flags
import Verif.Net.Model
/-!
# Model of the handlers of the web service (src/common/webservice/{Get,Set}FlagsHandler.cpp, GetStatsHandler.cpp, StatusHandler.cpp)

The handlers' functions are `noexcept`: an exception in them ends the process, and so does the use of a null pointer; both are `none`.  A request
is its method (`get`/`put` says whether it is the one the handler serves), its query parameters and its body.  The flags of the process are a list
(`gflags::GetAllFlags`); `accept f text` is what `gflags::SetCommandLineOption` makes of a text for a flag: the text the flag has afterwards, `none` if
it refuses.  (gflags also finds a flag whose name has `_` where the request has `-`; not modelled.)
-/
namespace Nebula
namespace Web
open Json Conf Net

/-- An answer: the status code and the body. -/
structure Reply where
  code : Nat
  body : Bytes
deriving DecidableEq, Repr

section
variable {F : Type} (D : Doubles F) (C : Conv F) (T : Texts F) (ord : List Bytes → List Bytes)

/-! ## PUT /flags -/

/-- `dynamic::empty`; `none` if it throws. -/
def isEmpty : Dyn F → Option Bool
  | .null => some true
  | .str s => some (s == [])
  | .arr l => some l.isEmpty
  | .obj l => some l.isEmpty
  | _ => none

/-- `gflags::SetCommandLineOption(name, value)`; `none` if the option is unknown or the value is refused. -/
def setOption (accept : FlagInfo → Bytes → Option Bytes) (name value : Bytes) : List FlagInfo → Option (List FlagInfo)
  | [] => none
  | f :: fs =>
    if f.name = name then (accept f value).map fun t => { f with current := t, isDefault := false } :: fs
    else (setOption accept name value fs).map fun fs' => f :: fs'

/-- SetFlagsHandler.cpp:64-72: the loop over the items; the names refused so far and the flags. -/
def setLoop (accept : FlagInfo → Bytes → Option Bytes) : List (Bytes × Dyn F) → List Bytes → List FlagInfo → Option (List Bytes × List FlagInfo)
  | [], failed, fs => some (failed, fs)
  | (k, v) :: l, failed, fs =>
    match asString C v with
    | none => none
    | some t =>
      match setOption accept (cstr k) (cstr t) fs with
      | some fs' => setLoop accept l failed fs'
      | none => setLoop accept l (failed ++ [k]) fs

/-- SetFlagsHandler.cpp:22-81 `onRequest`, `onBody`, `onEOM`; `body` is `none` if no body came; `it` is the order in which `items()` visits an object. -/
def setFlags (it : List (Bytes × Dyn F) → List (Bytes × Dyn F)) (accept : FlagInfo → Bytes → Option Bytes) (put : Bool) (body : Option Bytes) (fs : List FlagInfo) : Option (Reply × List FlagInfo) :=
  match body with
  | none => none
  | some b =>
    let parsed := (parse D b).bind fun j => (isEmpty j).bind fun e => if e then none else some j
    match parsed with
    | none => some (⟨400, []⟩, fs)
    | some j =>
      if put = false then some (⟨405, []⟩, fs)
      else
        match j with
        | .obj l =>
          (setLoop C accept (it l) [] fs).bind fun (failed, fs') =>
            let answer : Dyn F := if failed = [] then .obj [(ascii "errCode", .int 0)] else .obj [(ascii "failedOptions", .arr (failed.map .str))]
            (dump D ord (some 0) answer).map fun t => (⟨200, t⟩, fs')
        | _ => none

/-! ## GET /flags -/

/-- The query of `GET /flags` (GetFlagsHandler.cpp:23-42). -/
structure FlagQuery where
  verbose : Bool
  json : Bool
  names : List Bytes

/-- GetFlagsHandler.cpp:23-42 `onRequest`: the parameters `verbose`, `format`, `flags`, if they are there. -/
def flagQuery (verbose format flags : Option Bytes) : FlagQuery :=
  ⟨verbose == some (ascii "true"), format == some (ascii "json"), match flags with | some s => splitNonEmpty 44 s | none => []⟩

/-- An integer between bounds, kept as a signed 64-bit integer (`folly::to<…>` and the constructor of `dynamic`). -/
def intFlag (lo hi : Int) (text : Bytes) (toInt : Bytes → Option Int) : Option (Dyn F) :=
  (toInt text).bind fun n => if lo ≤ n ∧ n ≤ hi then some (.int (if n < 2 ^ 63 then n else n - 2 ^ 64)) else none

/-- GetFlagsHandler.cpp:102-146: a text of a flag as a value: `none` if the conversion throws, `some none` for an unknown type.  `bigInt` reads an
integer of any size. -/
def flagDyn (bigInt : Bytes → Option Int) (type text : Bytes) : Option (Option (Dyn F)) :=
  if type = ascii "int32" then (intFlag (-2 ^ 31) (2 ^ 31 - 1) text bigInt).map some
  else if type = ascii "uint32" then (intFlag 0 (2 ^ 32 - 1) text bigInt).map some
  else if type = ascii "int64" then (intFlag (-2 ^ 63) (2 ^ 63 - 1) text bigInt).map some
  else if type = ascii "uint64" then (intFlag 0 (2 ^ 64 - 1) text bigInt).map some
  else if type = ascii "bool" then (T.toBool text).map fun b => some (.bool b)
  else if type = ascii "double" then (T.toDbl text).map fun d => some (.dbl d)
  else if type = ascii "string" then some (some (.str text))
  else some none

/-- GetFlagsHandler.cpp:97-154 `addOneFlag`: the object that is added. -/
def oneFlag (bigInt : Bytes → Option Int) (verbose : Bool) (name : Bytes) : Option FlagInfo → Option (Dyn F)
  | none => some (.obj [(ascii "name", .str name), (ascii "value", .null)])
  | some f =>
    (flagDyn T bigInt f.type f.current).bind fun cur =>
      let more := [(ascii "type", .str f.type), (ascii "description", .str f.description), (ascii "file", .str f.file), (ascii "is_default", .bool f.isDefault)]
      match cur with
      | none => some (.obj ([(ascii "name", .str name), (ascii "value", .null)] ++ if verbose then more else []))
      | some v =>
        if verbose then (flagDyn T bigInt f.type f.default).bind fun d =>
          match d with
          | some dv => some (.obj ([(ascii "name", .str name), (ascii "value", v), (ascii "default", dv)] ++ more))
          | none => none
        else some (.obj [(ascii "name", .str name), (ascii "value", v)])

/-- `gflags::GetCommandLineFlagInfo`. -/
def flagInfo (fs : List FlagInfo) (name : Bytes) : Option FlagInfo := fs.find? fun f => f.name == name

/-- The list of objects; `none` if an exception is thrown. -/
def collect {α : Type} : List (Option α) → Option (List α)
  | [] => some []
  | x :: xs => x.bind fun a => (collect xs).map fun l => a :: l

/-- GetFlagsHandler.cpp:157-180 `getFlags`. -/
def getFlags (bigInt : Bytes → Option Int) (q : FlagQuery) (fs : List FlagInfo) : Option (List (Dyn F)) :=
  if q.names = [] then collect (fs.map fun f => oneFlag T bigInt q.verbose f.name (some f))
  else collect (q.names.map fun n => oneFlag T bigInt q.verbose n (flagInfo fs (cstr n)))

/-- `dynamic::operator[]` of a constant object; throws (`none`) if the key is missing. -/
def at' (j : Dyn F) (key : String) : Option (Dyn F) := (find j (ascii key)).bind id

/-- GetFlagsHandler.cpp:183-191 `valToString`. -/
def valToString (v : Dyn F) : Option Bytes :=
  match v with
  | .null => some (ascii "nullptr")
  | .str s => some (ascii "\"" ++ s ++ ascii "\"")
  | v => asString C v

/-- GetFlagsHandler.cpp:193-207 `toStr`: the text for one flag. -/
def flagText (verbose : Bool) (fi : Dyn F) : Option Bytes :=
  if verbose then
    (at' fi "name").bind fun n => (asString C n).bind fun n =>
    (at' fi "description").bind fun d => (asString C d).bind fun d =>
    (at' fi "file").bind fun f => (asString C f).bind fun f =>
    (at' fi "type").bind fun t => (asString C t).bind fun t =>
    (at' fi "default").bind fun df => (valToString C df).bind fun df =>
    (at' fi "value").bind fun v => (valToString C v).bind fun v =>
    (at' fi "is_default").bind fun i => (asBool C i).map fun i =>
      ascii "--" ++ n ++ ascii ": " ++ d ++ ascii "\n" ++ ascii "  file: " ++ f ++ ascii ", type: " ++ t ++ ascii ", default: " ++ df ++ ascii ", current: " ++ v ++
        (if i then ascii "(default)" else []) ++ ascii "\n"
  else
    (at' fi "name").bind fun n => (asString C n).bind fun n => (at' fi "value").bind fun v => (valToString C v).map fun v => n ++ ascii "=" ++ v ++ ascii "\n"

/-- GetFlagsHandler.cpp:50-77 `onEOM`. -/
def replyFlags (bigInt : Bytes → Option Int) (get : Bool) (q : FlagQuery) (fs : List FlagInfo) : Option Reply :=
  if get = false then some ⟨405, []⟩
  else (getFlags T bigInt q fs).bind fun vals =>
    if q.json then (dump D ord (some 0) (.obj [(ascii "flags", .arr vals)])).map fun t => ⟨200, t⟩
    else (collect (vals.map (flagText C q.verbose))).map fun ts => ⟨200, ts.flatten⟩

/-! ## GET /stats, GET /status -/

/-- GetStatsHandler.cpp:97-114 `getStats`, 72-82 `addOneStat`: `read` is `StatsManager::readValue` (the text of the status on failure), `all` what
`StatsManager::readAllValue` lists. -/
def getStats (read : Bytes → Except Bytes Int) (all : List (Bytes × Int)) (names : List Bytes) : List (Bytes × Dyn F) :=
  if names = [] then all.map fun e => (e.1, .int e.2)
  else names.map fun n => (n, match read n with | .ok v => .int v | .error t => .str t)

/-- GetStatsHandler.cpp:116-124 `toStr`. -/
def statText (e : Bytes × Dyn F) : Option Bytes := (asString C e.2).map fun v => e.1 ++ ascii "=" ++ v ++ ascii "\n"

/-- GetStatsHandler.cpp:25-40 `onRequest`, 48-69 `onEOM`: the parameters `format` and `stats`, if they are there. -/
def replyStats (read : Bytes → Except Bytes Int) (all : List (Bytes × Int)) (get : Bool) (format names : Option Bytes) : Option Reply :=
  if get = false then some ⟨405, []⟩
  else
    let stats := getStats read all (match names with | some s => splitNonEmpty 44 s | none => [])
    if format == some (ascii "json") then (dump D ord (some 0) (.arr (stats.map fun e => .obj [e]))).map fun t => ⟨200, t⟩
    else (collect (stats.map (statText C))).map fun ts => ⟨200, ts.flatten⟩

/-- StatusHandler.cpp:33-76 `onEOM`, `getStatus`; `sha` is `gitInfoSha()`. -/
def replyStatus (get : Bool) (sha : Bytes) : Option Reply :=
  if get = false then some ⟨405, []⟩
  else (dump D ord none (.obj [(ascii "status", .str (ascii "running")), (ascii "git_info_sha", .str sha)])).map fun t => ⟨200, t⟩
end

end Web
end Nebula
