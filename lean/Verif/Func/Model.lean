import Verif.Func.Text
import Verif.Value.Graph
import Verif.Time.Parse
/-!
# Model of the built-in functions (src/common/function/FunctionManager.{h,cpp})

The singleton's map of functions is the enumeration `Fn` with `Fn.name`; `Fn.minArity`, `Fn.maxArity`,
`Fn.isPure`, `Fn.sigs` and `body` are the attributes.  Simplifications: the mathematical functions of
the C library (except `floor`, `ceil`, `round`, `abs`), the printing and reading of floats, the hash
functions of libraries and the reading of numbers by `std::get_time` are arbitrary functions (`FLib`); the clock
and the random source are arbitrary (`World`); memory is unbounded; `tolower`/`toupper` are those of
the C locale.
-/
namespace Nebula
namespace Func

/-- Value.h:63-80 `enum class Type`. -/
inductive VType where
  | empty | bool | int | float | string | date | time | datetime | vertex | edge | path | list | map
  | set | dataset | null
deriving DecidableEq, Repr

/-- `Value::type()`. -/
def typeOf : Value → VType
  | .empty => .empty
  | .null _ => .null
  | .bool _ => .bool
  | .int _ => .int
  | .float _ => .float
  | .str _ => .string
  | .date _ => .date
  | .time _ => .time
  | .datetime _ => .datetime
  | .vertex _ => .vertex
  | .edge _ => .edge
  | .path _ => .path
  | .list _ => .list
  | .map _ => .map
  | .set _ => .set
  | .dataset _ _ => .dataset

/-- What happens when a function body runs. -/
inductive Res where
  /-- it returns a value -/
  | val (v : Value)
  /-- it reads an argument that was not passed -/
  | noArg
  /-- other undefined behaviour, or the process is aborted -/
  | undef
  /-- it never returns -/
  | loops

/-- The parts of the libraries that are not modelled: arbitrary functions. -/
structure FLib where
  /-- `std::sqrt`, `cbrt`, `exp`, `exp2`, `log`, `log2`, `log10`, `sin`, ... by name -/
  math : String → F64 → F64
  hypot : F64 → F64 → F64
  pow : F64 → F64 → F64
  /-- `folly::to<std::string>(double)` -/
  fmt : F64 → Bytes
  strtod : Value.StrToD
  hash : HashFns
  /-- how `std::get_time` reads a number -/
  num : NumReader
  /-- the configured offset of the time zone, seconds -/
  utcOffset : Int

/-- The clock and the random source at the moment of a call. -/
structure World where
  /-- `folly::Random::randDouble01()` -/
  double01 : F64
  /-- `folly::Random::rand32()`, `rand64()` -/
  u32 : Nat
  u64 : Nat
  /-- `folly::Random::rand32(max)`, `rand64(max)`: a number below `max`, or 0 -/
  below : Nat → Nat
  /-- `WallClock::fastNowInSec()` -/
  nowSec : Int
  utcDate : Option Date
  utcTime : Time
  utcDateTime : DateTime

/-- The functions registered by the constructor, FunctionManager.cpp:271-2108. -/
inductive Fn where
  | abs | bit_and | bit_or | bit_xor | floor | ceil | round | sqrt | cbrt | hypot | pow | e | exp | exp2
  | log | log2 | log10 | pi | radians | sin | asin | cos | acos | tan | atan | sign | rand | rand32
  | rand64 | now | strcasecmp | lower | tolower | upper | toupper | length | trim | ltrim | rtrim | left
  | right | replace | reverse | split | tostring | toboolean | tofloat | tointeger | lpad | rpad | substr
  | substring | hash | udf_is_in | near | cos_similarity | size | date | time | datetime | timestamp
  | range | id | tags | labels | properties | type | typeid | src | dst | rank | startnode | endnode
  | head | last | coalesce | keys | nodes | tail | relationships | hassameedgeinpath
  | hassamevertexinpath | reversepath | datasetrowcol
deriving DecidableEq, Repr

namespace Fn

/-- All registered functions. -/
def all : List Fn :=
  [abs, bit_and, bit_or, bit_xor, floor, ceil, round, sqrt, cbrt, hypot, pow, e, exp, exp2,
   log, log2, log10, pi, radians, sin, asin, cos, acos, tan, atan, sign, rand, rand32,
   rand64, now, strcasecmp, lower, tolower, upper, toupper, length, trim, ltrim, rtrim, left,
   right, replace, reverse, split, tostring, toboolean, tofloat, tointeger, lpad, rpad, substr,
   substring, hash, udf_is_in, near, cos_similarity, size, date, time, datetime, timestamp,
   range, id, tags, labels, properties, type, typeid, src, dst, rank, startnode, endnode,
   head, last, coalesce, keys, nodes, tail, relationships, hassameedgeinpath,
   hassamevertexinpath, reversepath, datasetrowcol]

/-- The key in `functions_`, e.g. FunctionManager.cpp:274 `functions_["abs"]`. -/
def name : Fn → String
  | abs => "abs" | bit_and => "bit_and" | bit_or => "bit_or" | bit_xor => "bit_xor"
  | floor => "floor" | ceil => "ceil" | round => "round" | sqrt => "sqrt" | cbrt => "cbrt"
  | hypot => "hypot" | pow => "pow" | e => "e" | exp => "exp" | exp2 => "exp2" | log => "log"
  | log2 => "log2" | log10 => "log10" | pi => "pi" | radians => "radians" | sin => "sin"
  | asin => "asin" | cos => "cos" | acos => "acos" | tan => "tan" | atan => "atan" | sign => "sign"
  | rand => "rand" | rand32 => "rand32" | rand64 => "rand64" | now => "now"
  | strcasecmp => "strcasecmp" | lower => "lower" | tolower => "tolower" | upper => "upper"
  | toupper => "toupper" | length => "length" | trim => "trim" | ltrim => "ltrim" | rtrim => "rtrim"
  | left => "left" | right => "right" | replace => "replace" | reverse => "reverse" | split => "split"
  | tostring => "tostring" | toboolean => "toboolean" | tofloat => "tofloat"
  | tointeger => "tointeger" | lpad => "lpad" | rpad => "rpad" | substr => "substr"
  | substring => "substring" | hash => "hash" | udf_is_in => "udf_is_in" | near => "near"
  | cos_similarity => "cos_similarity" | size => "size" | date => "date" | time => "time"
  | datetime => "datetime" | timestamp => "timestamp" | range => "range" | id => "id" | tags => "tags"
  | labels => "labels" | properties => "properties" | type => "type" | typeid => "typeid"
  | src => "src" | dst => "dst" | rank => "rank" | startnode => "startnode" | endnode => "endnode"
  | head => "head" | last => "last" | coalesce => "coalesce" | keys => "keys" | nodes => "nodes"
  | tail => "tail" | relationships => "relationships" | hassameedgeinpath => "hassameedgeinpath"
  | hassamevertexinpath => "hassamevertexinpath" | reversepath => "reversepath"
  | datasetrowcol => "datasetrowcol"

/-- `attr.minArity_`, FunctionManager.cpp:271-2108. -/
def minArity : Fn → Nat
  | e | pi | rand | rand32 | rand64 | now | date | time | datetime | timestamp => 0
  | bit_and | bit_or | bit_xor | hypot | pow | strcasecmp | left | right | split | substr | substring
  | udf_is_in | near | cos_similarity | range => 2
  | replace | lpad | rpad | datasetrowcol => 3
  | _ => 1

/-- `attr.maxArity_`, FunctionManager.cpp:271-2108. -/
def maxArity : Fn → Nat
  | e | pi | rand | now => 0
  | rand32 | rand64 | bit_and | bit_or | bit_xor | hypot | pow | strcasecmp | left | right | split
  | near => 2
  | replace | lpad | rpad | substr | substring | range | datasetrowcol => 3
  | udf_is_in | cos_similarity => 9223372036854775807
  | _ => 1

/-- `attr.isPure_`, FunctionManager.cpp:271-2108 (false at 836, 873, 904, 1485, 1523, 1557, 1589; line
825 says true for `rand`). -/
def isPure : Fn → Bool
  | rand32 | rand64 | now | date | time | datetime | timestamp => false
  | _ => true

/-- One `TypeSignature`, FunctionManager.h:22-28: types of the arguments and of the result. -/
abbrev Sig := List VType × VType

/-- A function of one number with a FLOAT result, e.g. FunctionManager.cpp:42-44. -/
def floatSigs : List Sig := [([.int], .float), ([.float], .float)]
/-- A function of two numbers with a FLOAT result, FunctionManager.cpp:57-61. -/
def float2Sigs : List Sig :=
  [([.int, .int], .float), ([.int, .float], .float), ([.float, .int], .float), ([.float, .float], .float)]

/-- FunctionManager.cpp:32-239 `typeSignature_`; `none`: the name is not in the table. -/
def sigs : Fn → Option (List Sig)
  | abs => some [([.int], .int), ([.float], .float)]
  | bit_and | bit_or | bit_xor => some [([.int, .int], .int)]
  | floor | ceil | round | sqrt | cbrt | exp | exp2 | log | log2 | log10 | radians | sin | cos | asin
  | acos | tan | atan => some floatSigs
  | hypot => some float2Sigs
  | pow => some [([.int, .int], .int), ([.int, .float], .float), ([.float, .int], .float),
      ([.float, .float], .float)]
  | e | pi | rand => some [([], .float)]
  | sign => some [([.int], .int), ([.float], .int)]
  | rand32 | rand64 => some [([], .int), ([.int], .int), ([.int, .int], .int)]
  | now => some [([], .int)]
  | strcasecmp => some [([.string, .string], .string)]
  | lower | tolower | upper | toupper | trim | ltrim | rtrim => some [([.string], .string)]
  | length => some [([.string], .int), ([.path], .int)]
  | left | right => some [([.string, .int], .string)]
  | replace => some [([.string, .string, .string], .string)]
  | reverse => some [([.string], .string), ([.list], .list)]
  | split => some [([.string, .string], .list)]
  | lpad | rpad => some [([.string, .int, .string], .string)]
  | substr | substring => some [([.string, .int, .int], .string), ([.string, .int], .string)]
  | tostring => some [([.int], .string), ([.float], .string), ([.string], .string), ([.bool], .string),
      ([.date], .string), ([.time], .string), ([.datetime], .string)]
  | toboolean => some [([.string], .bool), ([.string], .null), ([.bool], .bool)]
  | tofloat => some [([.string], .float), ([.string], .null), ([.float], .float), ([.int], .float)]
  | tointeger => some [([.string], .int), ([.string], .null), ([.float], .int), ([.int], .int)]
  | hash => some [([.int], .int), ([.float], .int), ([.string], .int), ([.null], .int), ([.empty], .int),
      ([.bool], .int), ([.date], .int), ([.datetime], .int), ([.path], .int), ([.vertex], .int),
      ([.edge], .int), ([.list], .int)]
  | size => some [([.string], .int), ([.null], .null), ([.empty], .empty), ([.list], .int), ([.map], .int),
      ([.set], .int), ([.dataset], .int)]
  | time => some [([], .time), ([.string], .time), ([.map], .time)]
  | date => some [([], .date), ([.string], .date), ([.map], .date)]
  | datetime => some [([], .datetime), ([.string], .datetime), ([.map], .datetime)]
  | timestamp => some [([], .int), ([.string], .int), ([.int], .int)]
  | tags | labels => some [([.vertex], .list)]
  | properties => some [([.vertex], .map), ([.edge], .map), ([.map], .map)]
  | type => some [([.edge], .string)]
  | typeid | rank => some [([.edge], .int)]
  | startnode | endnode => some [([.edge], .vertex), ([.path], .vertex)]
  | keys => some [([.vertex], .list), ([.edge], .list), ([.map], .list)]
  | nodes | relationships => some [([.path], .list)]
  | tail => some [([.list], .list)]
  | head | last | coalesce => some [([.list], .empty)]
  | range => some [([.int, .int], .list), ([.int, .int, .int], .list)]
  | hassameedgeinpath | hassamevertexinpath => some [([.path], .bool)]
  | reversepath => some [([.path], .path)]
  | datasetrowcol => some [([.dataset, .int, .int], .empty), ([.dataset, .int, .string], .empty)]
  | udf_is_in | near | cos_similarity | id | src | dst => none

end Fn

/-- `std::transform(..., ::tolower)` and `find` (FunctionManager.cpp:245-246, 2134-2135). -/
def lookup (name : Bytes) : Option Fn := Fn.all.find? fun f => ascii f.name == name.map Value.toLower

/-- FunctionManager.cpp:2130-2159 `getInternal`: the function, if it exists and takes that many
arguments. -/
def getInternal (name : Bytes) (arity : Nat) : Option Fn :=
  match lookup name with
  | none => none
  | some f => if arity < f.minArity ∨ arity > f.maxArity then none else some f

/-- FunctionManager.cpp:2124-2128 `getIsPure`. -/
def getIsPure (n : Bytes) (k : Nat) : Option Bool := (getInternal n k).map Fn.isPure

/-- The first loop of `getReturnType`, FunctionManager.cpp:252-256. -/
def matchSigs (types : List VType) : List Fn.Sig → Option VType
  | [] => none
  | s :: ss => if types = s.1 then some s.2 else matchSigs types ss

/-- The second loop of `getReturnType`, FunctionManager.cpp:258-265. -/
def nullOrEmpty : List VType → Option VType
  | [] => none
  | t :: ts => if t = .empty ∨ t = .null then some t else nullOrEmpty ts

/-- FunctionManager.cpp:242-268 `getReturnType`; `none` is an error status. -/
def getReturnType (name : Bytes) (types : List VType) : Option VType :=
  match (lookup name).bind Fn.sigs with
  | none => none
  | some ss => (matchSigs types ss).or (nullOrEmpty types)

/-! ## The bodies -/

/-- `args[i].get()`: reading past the arguments is `noArg`. -/
def arg (args : List Value) (i : Nat) (k : Value → Res) : Res :=
  match args[i]? with
  | none => .noArg
  | some v => k v

/-- Value.cpp:89 `kNullBadData`. -/
def kNullBadData : Value := .null .badData
def badType : Res := .val Value.kNullBadType
def badData : Res := .val kNullBadData
def nullRes : Res := .val Value.kNull

/-- An operation whose undefined behaviour is `none`. -/
def ofOpt : Option Value → Res
  | none => .undef
  | some v => .val v

/-- The common shape of the functions of one number, e.g. FunctionManager.cpp:328-341. -/
def math1 (args : List Value) (g : F64 → F64) : Res :=
  arg args 0 fun v => match v with
    | .null _ => nullRes
    | .int i => .val (.float (g (F64.ofInt i)))
    | .float x => .val (.float (g x))
    | _ => badType

/-- FunctionManager.cpp:546-567, 577-598, 608-629: the logarithms. -/
def mathLog (args : List Value) (g : F64 → F64) : Res :=
  arg args 0 fun v => match v with
    | .null _ => nullRes
    | .int i => if i = 0 then nullRes else .val (.float (g (F64.ofInt i)))
    | .float x =>
      if F64.le (F64.neg F64.eps) x && F64.le x F64.eps then nullRes else .val (.float (g x))
    | _ => badType

/-- `std::floor`, `std::ceil` and `std::round` (half away from zero) on `double`. -/
def floorF : F64 → F64
  | .fin q => .fin (q.floor : Rat)
  | x => x
def ceilF : F64 → F64
  | .fin q => .fin (-((-q).floor) : Rat)
  | x => x
def roundF : F64 → F64
  | .fin q => .fin (if 0 ≤ q then ((q + 1/2).floor : Rat) else -(((-q) + 1/2).floor : Rat))
  | x => x

/-- `isInt() ? getInt() : getFloat()`: the common type is `double` (FunctionManager.cpp:452). -/
def asDouble : Value → Option F64
  | .int i => some (F64.ofInt i)
  | .float x => some x
  | _ => none

/-- `M_PI`, `M_E`. -/
def mPi : F64 := .fin (884279719003555 / 281474976710656)
def mE : F64 := .fin (6121026514868073 / 2251799813685248)

/-- A function of one string, e.g. FunctionManager.cpp:999-1010. -/
def str1 (args : List Value) (g : Bytes → Value) : Res :=
  arg args 0 fun v => match v with
    | .null _ => nullRes
    | .str s => .val (g s)
    | _ => badType

/-- A key of a map as text (TimeUtils.cpp compares it with literals). -/
def keyText (k : Bytes) : String := String.ofList (k.map fun b => Char.ofNat b.toNat)

/-- The entries of a map as the functions of TimeUtils.cpp see them: `isInt()`, `getInt()`. -/
def mapEntries (kvs : List (Bytes × Value)) : List (String × Option Int) :=
  kvs.map fun kv => (keyText kv.1, match kv.2 with | .int i => some i | _ => none)

/-- The use of a `StatusOr` result: `kNullBadData` for an error (e.g. FunctionManager.cpp:1504-1507). -/
def ofR {α : Type} (r : R α) (k : α → Option Value) : Res :=
  match r with
  | .ok a => ofOpt (k a)
  | .error => badData
  | .ub => .undef

/-- TimeUtils.cpp:17 `kMaxTimestamp`. -/
def kMaxTimestamp : Int := 9223372036

/-- TimeUtils.cpp:152-155: the range check of `toTimestamp`. -/
def checkTimestamp (t : Int) : Res :=
  if t < 0 ∨ t > kMaxTimestamp then badData else .val (.int t)

/-- TimeUtils.cpp:139-161 `toTimestamp` and FunctionManager.cpp:1594-1598. -/
def toTimestamp (L : FLib) : Value → Res
  | .str s => match parseDateTime L.num s with
    | .error => badData
    | .ub => .undef
    | .ok dt =>
      if dt.microsec ≠ 0 then badData
      else match dateTimeToUnixSeconds dt with
        | none => .undef
        | some t => checkTimestamp t
  | .int t => checkTimestamp t
  | _ => badData

/-- FunctionManager.cpp:1422-1436: the loop of `cos_similarity` over the pairs. -/
def cosLoop : F64 → F64 → F64 → List (Value × Value) → Option (F64 × F64 × F64)
  | s1, s2, s3, [] => some (s1, s2, s3)
  | s1, s2, s3, (a, b) :: rest => match asDouble a, asDouble b with
    | some x, some y => cosLoop (F64.add s1 (F64.mul x y)) (F64.add s2 (F64.mul x x))
        (F64.add s3 (F64.mul y y)) rest
    | _, _ => none

/-- FunctionManager.cpp:1412-1442 `cos_similarity`. -/
def cosSimilarity (L : FLib) (args : List Value) : Value :=
  if args.length % 2 ≠ 0 then .float (.fin (-2))
  else match cosLoop (.fin 0) (.fin 0) (.fin 0)
      ((args.take (args.length / 2)).zip (args.drop (args.length / 2))) with
    | none => Value.kNullBadType
    | some (s1, s2, s3) =>
      if F64.le (F64.abs s2) F64.eps || F64.le (F64.abs s3) F64.eps then .float (.fin (-2))
      else .float (F64.div s1 (F64.mul (L.math "sqrt" s2) (L.math "sqrt" s3)))

/-- FunctionManager.cpp:2017-2029: the loop of `relationships`. -/
def relLoop : Value → List (Step Value) → List Value
  | _, [] => []
  | src, s :: ss => .edge ⟨src, s.dst.vid, s.type, s.name, s.ranking, s.props⟩ :: relLoop s.dst.vid ss

/-- FunctionManager.cpp:1903-1908: the loop of `coalesce`; `!=` is the negation of `==`. -/
def coalesceLoop : List Value → Value
  | [] => Value.kNull
  | v :: vs => if !Value.beq v Value.kNull then v else coalesceLoop vs

/-- `std::distance(begin, std::find(begin, end, name))`, FunctionManager.cpp:2095-2097. -/
def findIndex (name : Bytes) : List Bytes → Nat
  | [] => 0
  | c :: cs => if c == name then 0 else findIndex name cs + 1

/-- FunctionManager.cpp:2088-2105: `datasetrowcol`; a row may be shorter than the list of columns, and
then the read is undefined. -/
def rowCol (cols : List Bytes) (rows : List (List Value)) (r c : Int) : Res :=
  if rows.length < 1 ∨ cols.length < 1 then badData
  else if r < 0 ∨ c < 0 then badData
  else if r.toNat ≥ rows.length ∨ c.toNat ≥ cols.length then badData
  else match rows[r.toNat]? with
    | none => .undef
    | some row => ofOpt row[c.toNat]?

/-- FunctionManager.cpp:1264-1317 `lpad` and `rpad`: `join` puts the padding and the text together. -/
def pad (join : Bytes → Bytes → Bytes) (v : Bytes) (size : Int) (extra : Bytes) : Res :=
  if size < 0 then .val (.str [])
  else if size < v.length then .val (.str (takeI32 v size))
  else match padGo extra (size.toNat - v.length) with
    | none => .loops
    | some p => .val (.str (join p v))

/-- FunctionManager.cpp:1264-1286 `lpad`. -/
def lpad (v : Bytes) (size : Int) (extra : Bytes) : Res := pad (fun p v => p ++ v) v size extra
/-- FunctionManager.cpp:1293-1316 `rpad`. -/
def rpad (v : Bytes) (size : Int) (extra : Bytes) : Res := pad (fun p v => v ++ p) v size extra

/-- FunctionManager.cpp:1197-1229 `tostring`. -/
def toStr (L : FLib) : Value → Value
  | .null _ => Value.kNull
  | .int i => .str (intDec i)
  | .float x => .str (if (L.fmt x).contains 46 then L.fmt x else L.fmt x ++ [46, 48])
  | .bool b => .str (Value.boolText b)
  | .str s => .str s
  | .date d => .str d.toText
  | .time t => .str t.toText
  | .datetime d => .str d.toText
  | _ => Value.kNullBadType

/-- `static_cast<int64_t>(size_t)`. -/
def i64OfU64 (h : UInt64) : Int := wrapI64 h.toNat

/-- FunctionManager.cpp:1360-1378 `hash`; an abort of `hash<Value>` is `undef`. -/
def hashFn (L : FLib) : Value → Res
  | .time _ => badType
  | .map _ => badType
  | .set _ => badType
  | .dataset _ _ => badType
  | v => ofOpt ((v.hash L.hash).map fun h => .int (i64OfU64 h))

/-- FunctionManager.cpp:1450-1476 `size`. -/
def sizeFn : Value → Value
  | .null _ => Value.kNull
  | .empty => .empty
  | .str s => .int s.length
  | .list vs => .int vs.length
  | .map kvs => .int kvs.length
  | .set vs => .int vs.length
  | .dataset _ rows => .int rows.length
  | _ => Value.kNullBadType

/-- FunctionManager.cpp:1921-1954 `keys`. -/
def keysFn : Value → Value
  | .null _ => Value.kNull
  | .vertex v => names (v.tags.flatMap fun t => t.props.map Prod.fst)
  | .edge e => names (e.props.map Prod.fst)
  | .map kvs => names (kvs.map Prod.fst)
  | _ => Value.kNullBadType
where
  /-- the `std::set` filled in order and copied to a list -/
  names (ks : List Bytes) : Value := .list ((ks.foldl (fun s k => setInsert k s) []).map .str)

/-- FunctionManager.cpp:1679-1703 `properties`. -/
def propertiesFn : Value → Value
  | .null _ => Value.kNull
  | .vertex v => .map ((v.tags.flatMap fun t => t.props).foldl insertNew [])
  | .edge e => .map e.props
  | .map kvs => .map kvs
  | _ => Value.kNullBadType

/-- FunctionManager.cpp:1606-1629 `range`. -/
def rangeFn (a b : Value) (step : Option Value) : Res :=
  match a, b with
  | .int s, .int e =>
    match step with
    | none => go s e 1
    | some (.int st) => go s e st
    | some _ => badType
  | _, _ => badType
where
  /-- lines 1620-1628 -/
  go (s e st : Int) : Res := match range s e st with
    | none => badData
    | some none => .undef
    | some (some l) => .val (.list (l.map .int))

/-- FunctionManager.cpp:1323-1350 `substr`; `len` is the third argument if there is one. -/
def substrFn (a : Value) (b : Unit → (Value → Res) → Res) (len : Option Value) : Res :=
  match a with
  | .null _ => nullRes
  | .str s => b () fun st => match st, len with
    | .int i, none => (match substr s i none with | none => badData | some r => .val (.str r))
    | .int i, some (.int l) => (match substr s i (some l) with | none => badData | some r => .val (.str r))
    | _, _ => badType
  | _ => badType

/-- The attribute `body_` of every function. -/
def body (L : FLib) (w : World) (f : Fn) (args : List Value) : Res :=
  match f with
  -- FunctionManager.cpp:273-293; `std::abs` of the smallest integer is undefined
  | .abs => arg args 0 fun v => match v with
    | .null _ => nullRes
    | .int i => if i = -9223372036854775808 then .undef else .val (.int (if i < 0 then -i else i))
    | .float x => .val (.float (F64.abs x))
    | _ => badType
  -- FunctionManager.cpp:294-320
  | .bit_and => arg args 0 fun a => arg args 1 fun b => .val (Value.bitAnd a b)
  | .bit_or => arg args 0 fun a => arg args 1 fun b => .val (Value.bitOr a b)
  | .bit_xor => arg args 0 fun a => arg args 1 fun b => .val (Value.bitXor a b)
  -- FunctionManager.cpp:321-389
  | .floor => math1 args floorF
  | .ceil => math1 args ceilF
  | .round => math1 args roundF
  -- FunctionManager.cpp:390-420
  | .sqrt => arg args 0 fun v => match v with
    | .null _ => nullRes
    | .int i => if i < 0 then nullRes else .val (.float (L.math "sqrt" (F64.ofInt i)))
    | .float x => if F64.lt x (.fin 0) then nullRes else .val (.float (L.math "sqrt" x))
    | _ => badType
  -- FunctionManager.cpp:421-443
  | .cbrt => math1 args (L.math "cbrt")
  -- FunctionManager.cpp:444-458
  | .hypot => arg args 0 fun a => arg args 1 fun b => match asDouble a, asDouble b with
    | some x, some y => .val (.float (L.hypot x y))
    | _, _ => badType
  -- FunctionManager.cpp:459-481
  | .pow => arg args 0 fun a => arg args 1 fun b => match asDouble a, asDouble b with
    | some x, some y =>
      (match a, b with
       | .int _, .int _ => ofOpt ((Value.castI64 (L.pow x y)).map .int)
       | _, _ => .val (.float (L.pow x y)))
    | _, _ => badType
  -- FunctionManager.cpp:482-492, 632-642
  | .e => .val (.float mE)
  | .pi => .val (.float mPi)
  -- FunctionManager.cpp:493-538
  | .exp => math1 args (L.math "exp")
  | .exp2 => math1 args (L.math "exp2")
  -- FunctionManager.cpp:539-631
  | .log => mathLog args (L.math "log")
  | .log2 => mathLog args (L.math "log2")
  | .log10 => mathLog args (L.math "log10")
  -- FunctionManager.cpp:644-663
  | .radians => arg args 0 fun v => match v with
    | .null _ => nullRes
    | .int i => ofOpt ((Value.mul (.int i) (.float mPi)).bind fun r => Value.div r (.int 180))
    | .float x => ofOpt ((Value.mul (.float x) (.float mPi)).bind fun r => Value.div r (.int 180))
    | _ => badType
  -- FunctionManager.cpp:665-796
  | .sin => math1 args (L.math "sin")
  | .asin => math1 args (L.math "asin")
  | .cos => math1 args (L.math "cos")
  | .acos => math1 args (L.math "acos")
  | .tan => math1 args (L.math "tan")
  | .atan => math1 args (L.math "atan")
  -- FunctionManager.cpp:797-820
  | .sign => arg args 0 fun v => match v with
    | .null _ => nullRes
    | .int i => .val (.int (if i > 0 then 1 else if i < 0 then -1 else 0))
    | .float x => .val (.int (if F64.lt (.fin 0) x then 1 else if F64.lt x (.fin 0) then -1 else 0))
    | _ => badType
  -- FunctionManager.cpp:821-830
  | .rand => .val (.float w.double01)
  -- FunctionManager.cpp:831-867
  | .rand32 =>
    if args.length = 0 then .val (.int (wrapI32 w.u32))
    else if args.length = 1 then arg args 0 fun v => match v with
      | .int m => if m < 0 ∨ m > 4294967295 then badData else .val (.int (wrapI32 (w.below m.toNat)))
      | _ => badType
    else arg args 0 fun a => arg args 1 fun b => match a, b with
      | .int lo, .int hi =>
        if hi < 0 ∨ lo < 0 ∨ hi > 4294967295 ∨ lo > 4294967295 then badData
        else if lo ≥ hi then badData
        else .val (.int (lo + w.below (hi - lo).toNat))
      | _, _ => badType
  -- FunctionManager.cpp:868-898
  | .rand64 =>
    if args.length = 0 then .val (.int (wrapI64 w.u64))
    else if args.length = 1 then arg args 0 fun v => match v with
      | .int m => if m < 0 then badData else .val (.int (w.below m.toNat))
      | _ => badType
    else arg args 0 fun a => arg args 1 fun b => match a, b with
      | .int lo, .int hi =>
        if hi < 0 ∨ lo < 0 ∨ lo ≥ hi then badData
        else .val (.int (lo + w.below (hi - lo).toNat))
      | _, _ => badType
  -- FunctionManager.cpp:899-909
  | .now => .val (.int w.nowSec)
  -- FunctionManager.cpp:910-922
  | .strcasecmp => arg args 0 fun a => arg args 1 fun b => match a, b with
    | .str x, .str y => .val (.int (Func.strcasecmp x y))
    | _, _ => badType
  -- FunctionManager.cpp:923-968
  | .lower | .tolower => str1 args fun s => .str (s.map Value.toLower)
  | .upper | .toupper => str1 args fun s => .str (s.map toUpper)
  -- FunctionManager.cpp:969-992
  | .length => arg args 0 fun v => match v with
    | .null _ => nullRes
    | .str s => .val (.int s.length)
    | .path p => .val (.int p.steps.length)
    | _ => badType
  -- FunctionManager.cpp:993-1052
  | .trim => str1 args fun s => .str (Func.trim s)
  | .ltrim => str1 args fun s => .str (Func.ltrim s)
  | .rtrim => str1 args fun s => .str (Func.rtrim s)
  -- FunctionManager.cpp:1053-1080
  | .left => arg args 0 fun v => match v with
    | .null _ => nullRes
    | .str s => arg args 1 fun n => (match n with
      | .int n => if n < 0 then badType else .val (.str (s.take n.toNat))
      | _ => badType)
    | _ => badType
  -- FunctionManager.cpp:1081-1112
  | .right => arg args 0 fun v => match v with
    | .null _ => nullRes
    | .str s => arg args 1 fun n => (match n with
      | .int n =>
        if n < 0 then badType
        else
          let len := if n > s.length then s.length else n.toNat
          .val (.str (s.drop (s.length - len)))
      | _ => badType)
    | _ => badType
  -- FunctionManager.cpp:1113-1130
  | .replace => arg args 0 fun a => arg args 1 fun b => arg args 2 fun c =>
    if a.isNull || b.isNull || c.isNull then nullRes
    else match a, b, c with
      | .str s, .str d, .str n => .val (.str (replaceAll s d n))
      | _, _, _ => badType
  -- FunctionManager.cpp:1131-1157
  | .reverse => arg args 0 fun v => match v with
    | .null _ => nullRes
    | .str s => .val (.str s.reverse)
    | .list vs => .val (.list vs.reverse)
    | _ => badType
  -- FunctionManager.cpp:1158-1190
  | .split => arg args 0 fun v => match v with
    | .null _ => nullRes
    | .str s => arg args 1 fun d => (match d with
      | .null _ => nullRes
      | .str d => .val (.list ((Func.split d s).map .str))
      | _ => badType)
    | _ => badType
  -- FunctionManager.cpp:1191-1258
  | .tostring => arg args 0 fun v => .val (toStr L v)
  | .toboolean => arg args 0 fun v => .val v.toBool
  | .tofloat => arg args 0 fun v => .val (v.toFloat L.strtod)
  | .tointeger => arg args 0 fun v => ofOpt (v.toInt L.strtod)
  -- FunctionManager.cpp:1259-1317
  | .lpad => arg args 0 fun a => arg args 1 fun b => arg args 2 fun c => match a, b, c with
    | .str v, .int n, .str x => Func.lpad v n x
    | _, _, _ => badType
  | .rpad => arg args 0 fun a => arg args 1 fun b => arg args 2 fun c => match a, b, c with
    | .str v, .int n, .str x => Func.rpad v n x
    | _, _, _ => badType
  -- FunctionManager.cpp:1318-1352
  | .substr | .substring => arg args 0 fun a =>
    substrFn a (fun _ k => arg args 1 k) (if args.length = 3 then args[2]? else none)
  -- FunctionManager.cpp:1353-1380
  | .hash => arg args 0 (hashFn L)
  -- FunctionManager.cpp:1381-1389
  | .udf_is_in => arg args 0 fun a => .val (.bool ((args.drop 1).any fun x => Value.beq x a))
  -- FunctionManager.cpp:1390-1406
  | .near => .val (.str [])
  -- FunctionManager.cpp:1407-1443
  | .cos_similarity => .val (cosSimilarity L args)
  -- FunctionManager.cpp:1444-1478
  | .size => arg args 0 fun v => .val (sizeFn v)
  -- FunctionManager.cpp:1479-1516 (another number of arguments: LOG(FATAL))
  | .date => match args with
    | [] => (match w.utcDate with | none => badData | some d => .val (.date d))
    | [.str s] => ofR (parseDate L.num s) fun d => some (.date d)
    | [.map kvs] => ofR (dateFromMap (mapEntries kvs)) fun d => some (.date d)
    | [_] => badType
    | _ => .undef
  -- FunctionManager.cpp:1517-1550
  | .time => match args with
    | [] => .val (.time w.utcTime)
    | [.str s] => ofR (parseTime L.num s) fun t => (timeShift t (-L.utcOffset)).map .time
    | [.map kvs] => ofR (timeFromMap (mapEntries kvs)) fun t => (timeShift t (-L.utcOffset)).map .time
    | [_] => badType
    | _ => .undef
  -- FunctionManager.cpp:1551-1584
  | .datetime => match args with
    | [] => .val (.datetime w.utcDateTime)
    | [.str s] => ofR (parseDateTime L.num s) fun t => (dateTimeShift t (-L.utcOffset)).map .datetime
    | [.map kvs] =>
      ofR (dateTimeFromMap (mapEntries kvs)) fun t => (dateTimeShift t (-L.utcOffset)).map .datetime
    | [_] => badData
    | _ => .undef
  -- FunctionManager.cpp:1585-1600
  | .timestamp => if args.length = 0 then .val (.int w.nowSec) else arg args 0 (toTimestamp L)
  -- FunctionManager.cpp:1601-1630
  | .range => arg args 0 fun a => arg args 1 fun b =>
    rangeFn a b (if args.length = 3 then args[2]? else none)
  -- FunctionManager.cpp:1631-1649
  | .id => arg args 0 fun v => match v with
    | .null _ => nullRes
    | .vertex x => .val x.vid
    | _ => badType
  -- FunctionManager.cpp:1650-1673
  | .tags | .labels => arg args 0 fun v => match v with
    | .null _ => nullRes
    | .vertex x => .val (.list (x.tags.map fun t => .str t.name))
    | _ => badType
  -- FunctionManager.cpp:1674-1704
  | .properties => arg args 0 fun v => .val (propertiesFn v)
  -- FunctionManager.cpp:1705-1801
  | .type => arg args 0 fun v => match v with
    | .null _ => nullRes
    | .edge x => .val (.str x.name)
    | _ => badType
  | .typeid => arg args 0 fun v => match v with
    | .null _ => nullRes
    | .edge x => .val (.int x.type)
    | _ => badType
  | .src => arg args 0 fun v => match v with
    | .null _ => nullRes
    | .edge x => .val (if x.type > 0 then x.src else x.dst)
    | _ => badType
  | .dst => arg args 0 fun v => match v with
    | .null _ => nullRes
    | .edge x => .val (if x.type > 0 then x.dst else x.src)
    | _ => badType
  | .rank => arg args 0 fun v => match v with
    | .null _ => nullRes
    | .edge x => .val (.int x.ranking)
    | _ => badType
  -- FunctionManager.cpp:1802-1849
  | .startnode => arg args 0 fun v => match v with
    | .null _ => nullRes
    | .edge x => .val (.vertex ⟨x.src, []⟩)
    | .path p => .val (.vertex p.src)
    | _ => badType
  | .endnode => arg args 0 fun v => match v with
    | .null _ => nullRes
    | .edge x => .val (.vertex ⟨x.dst, []⟩)
    | .path p => (match p.steps.getLast? with
      | none => .val (.vertex p.src)
      | some s => .val (.vertex s.dst))
    | _ => badType
  -- FunctionManager.cpp:1850-1887; `front()` and `back()` of an empty vector are undefined
  | .head => arg args 0 fun v => match v with
    | .null _ => nullRes
    | .list vs => ofOpt vs.head?
    | _ => badType
  | .last => arg args 0 fun v => match v with
    | .null _ => nullRes
    | .list vs => ofOpt vs.getLast?
    | _ => badType
  -- FunctionManager.cpp:1888-1915
  | .coalesce => arg args 0 fun v => match v with
    | .null _ => nullRes
    | .list vs => .val (coalesceLoop vs)
    | _ => badType
  -- FunctionManager.cpp:1916-1955
  | .keys => arg args 0 fun v => .val (keysFn v)
  -- FunctionManager.cpp:1956-1980
  | .nodes => arg args 0 fun v => match v with
    | .null _ => nullRes
    | .path p => .val (.list (.vertex p.src :: p.steps.map fun s => .vertex s.dst))
    | _ => badType
  -- FunctionManager.cpp:1981-2003
  | .tail => arg args 0 fun v => match v with
    | .null _ => nullRes
    | .list vs => .val (.list (vs.drop 1))
    | _ => badType
  -- FunctionManager.cpp:2004-2037
  | .relationships => arg args 0 fun v => match v with
    | .null _ => nullRes
    | .path p => .val (.list (relLoop p.src.vid p.steps))
    | _ => badType
  -- FunctionManager.cpp:2038-2077
  | .hassameedgeinpath => arg args 0 fun v => match v with
    | .path p => .val (.bool p.hasDuplicateEdges)
    | _ => badType
  | .hassamevertexinpath => arg args 0 fun v => match v with
    | .path p => .val (.bool p.hasDuplicateVertices)
    | _ => badType
  | .reversepath => arg args 0 fun v => match v with
    | .path p => .val (.path p.reverse)
    | _ => badType
  -- FunctionManager.cpp:2078-2107
  | .datasetrowcol => arg args 0 fun a => arg args 1 fun b => arg args 2 fun c => match a, b, c with
    | .dataset cols rows, .int r, .int c => rowCol cols rows r c
    | .dataset cols rows, .int r, .str n => rowCol cols rows r (findIndex n cols)
    | _, _, _ => badType

/-- A call by name with evaluated arguments: `get` (FunctionManager.cpp:2111-2115) and the body;
`none`: the status of `get` is an error. -/
def call (L : FLib) (w : World) (name : Bytes) (args : List Value) : Option Res :=
  (getInternal name args.length).map fun f => body L w f args

end Func
end Nebula
