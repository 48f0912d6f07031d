import Verif.Json.Model
/-!
# Model of src/common/conf/Configuration.{h,cpp}

A configuration holds one JSON value (`content_`).  An exception that leaves a function is `none`; statuses are reduced to `Res`, their texts are
not modelled.  Keys are C strings.  The order of the entries of an object is the order in which folly's hash map is walked.
-/
namespace Nebula
namespace Conf
open Json

/-- The statuses the functions return (Status.h). -/
inductive Res where
  | ok | error | noSuchFile
deriving DecidableEq, Repr

/-- `dynamic::as…`: conversions of doubles and texts (`folly::to`), which can throw (`none`). -/
structure Conv (F : Type) where
  intOfDbl : F → Option Int
  intOfStr : Bytes → Option Int
  dblOfInt : Int → Option F
  dblOfBool : Bool → F
  dblOfStr : Bytes → Option F
  boolOfInt : Int → Option Bool
  boolOfDbl : F → Option Bool
  boolOfStr : Bytes → Option Bool
  strOfDbl : F → Bytes

section
variable {F : Type}

/-- `dynamic::asInt`. -/
def asInt (C : Conv F) : Dyn F → Option Int
  | .int i => some i
  | .dbl d => C.intOfDbl d
  | .bool b => some (if b then 1 else 0)
  | .str s => C.intOfStr s
  | _ => none

/-- `dynamic::asDouble`. -/
def asDouble (C : Conv F) : Dyn F → Option F
  | .dbl d => some d
  | .int i => C.dblOfInt i
  | .bool b => some (C.dblOfBool b)
  | .str s => C.dblOfStr s
  | _ => none

/-- `dynamic::asBool`. -/
def asBool (C : Conv F) : Dyn F → Option Bool
  | .bool b => some b
  | .int i => C.boolOfInt i
  | .dbl d => C.boolOfDbl d
  | .str s => C.boolOfStr s
  | _ => none

/-- `dynamic::asString`. -/
def asString (C : Conv F) : Dyn F → Option Bytes
  | .str s => some s
  | .int i => some (intDec i)
  | .bool b => some (if b then [49] else [48])
  | .dbl d => some (C.strOfDbl d)
  | _ => none

/-- `dynamic::find` on the content: throws (`none`) unless it is an object. -/
def find (c : Dyn F) (key : Bytes) : Option (Option (Dyn F)) :=
  match c with
  | .obj l => some ((l.find? fun e => e.1 == key).map (·.2))
  | _ => none

/-- Configuration.cpp:54: `std::regex_replace(buffer, "//.*|#.*", "")`; `.` does not match line ends.  `inside`: within a comment. -/
def strip : Bool → Bytes → Bytes
  | _, [] => []
  | true, c :: s => if c = 10 ∨ c = 13 then c :: strip false s else strip true s
  | false, c :: s => if c = 35 then strip true s else if c = 47 ∧ s.head? = some 47 then strip true s else c :: strip false s

/-- What `open` and `read` give. -/
inductive File where
  | missing | denied | otherError
  | data (b : Bytes)

/-- Configuration.cpp:70-79 `parseFromString`: the status and the content afterwards. -/
def parseFromString (D : Doubles F) (c : Dyn F) (text : Bytes) : Res × Dyn F :=
  match parse D text with
  | some j => (.ok, j)
  | none => (.error, c)

/-- Configuration.cpp:22-63 `parseFromFile`.  The buffer is passed on as a C string.  (A file whose size changes while it is read and a read that
is interrupted are not modelled.) -/
def parseFromFile (D : Doubles F) (c : Dyn F) : File → Res × Dyn F
  | .missing => (.noSuchFile, c)
  | .denied => (.error, c)
  | .otherError => (.error, c)
  | .data b => if b.length = 0 then (.error, c) else parseFromString D c (strip false (cstr b))

/-- Configuration.cpp:81-95 `dumpToString` (`pretty = false`), `dumpToPrettyString`. -/
def dumpTo (D : Doubles F) (ord : List Bytes → List Bytes) (pretty : Bool) (c : Dyn F) : Option Bytes :=
  dump D ord (if pretty then some 0 else none) c

/-- Configuration.cpp:98-109 `fetchAsInt`: the status and the variable afterwards. -/
def fetchAsInt (c : Dyn F) (key : Bytes) (val : Int) : Option (Res × Int) :=
  (find c key).map fun
    | none => (.error, val)
    | some (.int i) => (.ok, i)
    | some _ => (.error, val)

/-- Configuration.cpp:112-123 `fetchAsDouble`. -/
def fetchAsDouble (c : Dyn F) (key : Bytes) (val : F) : Option (Res × F) :=
  (find c key).map fun
    | none => (.error, val)
    | some (.dbl d) => (.ok, d)
    | some _ => (.error, val)

/-- Configuration.cpp:126-137 `fetchAsBool`. -/
def fetchAsBool (c : Dyn F) (key : Bytes) (val : Bool) : Option (Res × Bool) :=
  (find c key).map fun
    | none => (.error, val)
    | some (.bool b) => (.ok, b)
    | some _ => (.error, val)

/-- Configuration.cpp:140-151 `fetchAsString`. -/
def fetchAsString (c : Dyn F) (key : Bytes) (val : Bytes) : Option (Res × Bytes) :=
  (find c key).map fun
    | none => (.error, val)
    | some (.str s) => (.ok, s)
    | some _ => (.error, val)

/-- Configuration.cpp:154-165 `fetchAsSubConf`. -/
def fetchAsSubConf (c : Dyn F) (key : Bytes) (sub : Dyn F) : Option (Res × Dyn F) :=
  (find c key).map fun
    | none => (.error, sub)
    | some (.obj l) => (.ok, .obj l)
    | some _ => (.error, sub)

/-- `(*content_)[key] = val`. -/
def setKey (key : Bytes) (v : Dyn F) : List (Bytes × Dyn F) → List (Bytes × Dyn F)
  | [] => [(key, v)]
  | e :: l => if e.1 = key then (key, v) :: l else e :: setKey key v l

/-- Configuration.cpp:168-176 `upsertStringField`: the status and the content afterwards. -/
def upsertStringField (c : Dyn F) (key val : Bytes) : Option (Res × Dyn F) :=
  match c, find c key with
  | .obj l, some none => some (.ok, .obj (setKey key (.str val) l))
  | .obj l, some (some (.str _)) => some (.ok, .obj (setKey key (.str val) l))
  | .obj l, some (some _) => some (.error, .obj l)
  | _, _ => none

/-- The loops of Configuration.cpp:191-198, 215-222, 239-246, 263-270: entries are converted and appended until a conversion throws. -/
def appendAll {T : Type} (conv : Dyn F → Option T) : List (Dyn F) → List T → Res × List T
  | [], val => (.ok, val)
  | e :: l, val =>
    match conv e with
    | some x => appendAll conv l (val ++ [x])
    | none => (.error, val)

/-- Configuration.cpp:179-272 `fetchAsIntArray`, `fetchAsDoubleArray`, `fetchAsBoolArray`, `fetchAsStringArray`, which differ in the conversion
only. -/
def fetchAsArray {T : Type} (conv : Dyn F → Option T) (c : Dyn F) (key : Bytes) (val : List T) : Option (Res × List T) :=
  (find c key).map fun
    | none => (.error, val)
    | some (.arr l) => appendAll conv l val
    | some _ => (.error, val)

/-- Configuration.cpp:289-301 `forEachItem` (and `forEachKey`, 269-280): `processor` is a function on a state, `none` if it throws; the state
afterwards is that of the items before.  Throws (`none`) unless the content is an object. -/
def forEachItem {S : Type} (processor : S → Bytes → Dyn F → Option S) (c : Dyn F) (s : S) : Option (Res × S) :=
  match c with
  | .obj l => some (go l s)
  | _ => none
where
  go : List (Bytes × Dyn F) → S → Res × S
    | [], s => (.ok, s)
    | (k, v) :: l, s =>
      match processor s k v with
      | some s' => go l s'
      | none => (.error, s)
end

end Conf
end Nebula
