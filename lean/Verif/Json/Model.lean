import Verif.Text
/-!
# JSON as the services write and read it (`folly::dynamic`, `folly::toJson`, `folly::toPrettyJson`, `folly::parseJson`)

The folly library is a dependency, not part of the repository; this file states what it does with the default options, because
src/common/conf/Configuration.cpp, src/common/meta/GflagsManager.cpp, src/common/webservice/*Handler.cpp and
src/common/plugin/fulltext/elasticsearch/*.cpp are written in terms of it.

Simplifications: the type `F` of doubles and their texts are arbitrary (`Doubles`); an exception is `none`, its text is not modelled; the
order in which `toJson` writes the entries of an object is not specified, it is an arbitrary function `ord` on the written entries; keys of
objects are strings; a repeated key of a text keeps its place and gets the later value.
-/
namespace Nebula
namespace Json

/-- `folly::dynamic`. -/
inductive Dyn (F : Type) where
  | null
  | bool (b : Bool)
  | int (i : Int)
  | dbl (d : F)
  | str (s : Bytes)
  | arr (l : List (Dyn F))
  | obj (l : List (Bytes × Dyn F))

/-- Doubles and their texts: `folly::to<std::string>(double)`, `folly::to<double>(StringPiece)`, `std::isfinite`, the special values. -/
structure Doubles (F : Type) where
  text : F → Bytes
  read : Bytes → Option F
  finite : F → Bool
  inf : F
  negInf : F
  nan : F

/-! ## Writing -/

/-- Hexadecimal digit, lower case. -/
def hexDigit (n : Nat) : UInt8 := if n < 10 then UInt8.ofNat (48 + n) else UInt8.ofNat (87 + n)

/-- folly/json.cpp `escapeString` with the default options: one byte of a string. -/
def esc (c : UInt8) : Bytes :=
  if c = 34 then [92, 34]
  else if c = 92 then [92, 92]
  else if c = 8 then [92, 98]
  else if c = 12 then [92, 102]
  else if c = 10 then [92, 110]
  else if c = 13 then [92, 114]
  else if c = 9 then [92, 116]
  else if c < 32 then [92, 117, 48, 48, hexDigit (c.toNat / 16), hexDigit (c.toNat % 16)]
  else [c]

/-- A string in JSON. -/
def quote (s : Bytes) : Bytes := 34 :: (s.flatMap esc ++ [34])

/-- The line break and indentation of `toPrettyJson` at a level; nothing for `toJson`. -/
def newline : Option Nat → Bytes
  | none => []
  | some n => 10 :: List.replicate (2 * n) 32

/-- One level deeper. -/
def deeper (p : Option Nat) : Option Nat := p.map (· + 1)

/-- What is written between a key and its value. -/
def colon : Option Nat → Bytes
  | none => [58]
  | some _ => [58, 32]

/-- Pieces separated by commas (and line breaks). -/
def commas (nl : Bytes) : List Bytes → Bytes
  | [] => []
  | [e] => e
  | e :: es => e ++ 44 :: (nl ++ commas nl es)

/-- The bracketed pieces; nothing between the brackets if there are no pieces. -/
def bracket (o c : UInt8) (p : Option Nat) (es : List Bytes) : Bytes :=
  if es = [] then [o, c] else o :: (newline (deeper p) ++ (commas (newline (deeper p)) es ++ (newline p ++ [c])))

mutual
/-- folly/json.cpp `Printer`: `toJson` (`p = none`) and `toPrettyJson` (`p = some level`); an infinite number or NaN is refused with an
exception. -/
def dump {F : Type} (D : Doubles F) (ord : List Bytes → List Bytes) : Option Nat → Dyn F → Option Bytes
  | _, .null => some (ascii "null")
  | _, .bool b => some (if b then ascii "true" else ascii "false")
  | _, .int i => some (intDec i)
  | _, .dbl d => if D.finite d then some (D.text d) else none
  | _, .str s => some (quote s)
  | p, .arr l => (dumpList D ord (deeper p) l).map fun es => bracket 91 93 p es
  | p, .obj l => (dumpEntries D ord (deeper p) l).map fun es => bracket 123 125 p (ord es)
/-- The elements of an array. -/
def dumpList {F : Type} (D : Doubles F) (ord : List Bytes → List Bytes) : Option Nat → List (Dyn F) → Option (List Bytes)
  | _, [] => some []
  | p, j :: l => (dump D ord p j).bind fun e => (dumpList D ord p l).map fun es => e :: es
/-- The entries of an object. -/
def dumpEntries {F : Type} (D : Doubles F) (ord : List Bytes → List Bytes) : Option Nat → List (Bytes × Dyn F) → Option (List Bytes)
  | _, [] => some []
  | p, (k, j) :: l => (dump D ord p j).bind fun e => (dumpEntries D ord p l).map fun es => (quote k ++ (colon p ++ e)) :: es
end

/-! ## Reading -/

/-- The white space of JSON. -/
def isWs (c : UInt8) : Bool := c == 32 || c == 9 || c == 10 || c == 13

/-- folly/json.cpp `Input::skipWhitespace`. -/
def skipWs (s : Bytes) : Bytes := s.dropWhile isWs

/-- `Input::consume`. -/
def consume (w s : Bytes) : Option Bytes := if w.isPrefixOf s then some (s.drop w.length) else none

/-- The value of a hexadecimal digit of either case. -/
def hexVal (c : UInt8) : Option Nat :=
  if 48 ≤ c ∧ c ≤ 57 then some (c.toNat - 48)
  else if 97 ≤ c ∧ c ≤ 102 then some (c.toNat - 87)
  else if 65 ≤ c ∧ c ≤ 70 then some (c.toNat - 55)
  else none

/-- Four hexadecimal digits. -/
def hex4 : Bytes → Option (Nat × Bytes)
  | a :: b :: c :: d :: s =>
    (hexVal a).bind fun x => (hexVal b).bind fun y => (hexVal c).bind fun z => (hexVal d).map fun w => (((x * 16 + y) * 16 + z) * 16 + w, s)
  | _ => none

/-- `folly::appendCodePointToUtf8`, for code points below 0x110000. -/
def utf8 (cp : Nat) : Bytes :=
  if cp < 0x80 then [UInt8.ofNat cp]
  else if cp < 0x800 then [UInt8.ofNat (0xC0 + cp / 64), UInt8.ofNat (0x80 + cp % 64)]
  else if cp < 0x10000 then [UInt8.ofNat (0xE0 + cp / 4096), UInt8.ofNat (0x80 + cp / 64 % 64), UInt8.ofNat (0x80 + cp % 64)]
  else [UInt8.ofNat (0xF0 + cp / 262144), UInt8.ofNat (0x80 + cp / 4096 % 64), UInt8.ofNat (0x80 + cp / 64 % 64), UInt8.ofNat (0x80 + cp % 64)]

/-- folly/json.cpp `decodeUnicodeEscape`, after `\u`. -/
def unicodeEscape (s : Bytes) : Option (Bytes × Bytes) :=
  (hex4 s).bind fun (cp, s) =>
    if 0xD800 ≤ cp ∧ cp < 0xDC00 then
      (consume [92, 117] s).bind fun s => (hex4 s).bind fun (lo, s) =>
        if 0xDC00 ≤ lo ∧ lo < 0xE000 then some (utf8 (0x10000 + (cp - 0xD800) * 1024 + (lo - 0xDC00)), s) else none
    else if 0xDC00 ≤ cp ∧ cp < 0xE000 then none
    else some (utf8 cp, s)

/-- folly/json.cpp `parseString`: one escape, after the backslash. -/
def unescape : Bytes → Option (Bytes × Bytes)
  | [] => none
  | c :: s =>
    if c = 34 then some ([34], s)
    else if c = 92 then some ([92], s)
    else if c = 47 then some ([47], s)
    else if c = 98 then some ([8], s)
    else if c = 102 then some ([12], s)
    else if c = 110 then some ([10], s)
    else if c = 114 then some ([13], s)
    else if c = 116 then some ([9], s)
    else if c = 117 then unicodeEscape s
    else none

/-- folly/json.cpp `parseString`, after the opening quote; the first argument bounds the number of rounds (the length of the text is
enough). -/
def stringBody : Nat → Bytes → Option (Bytes × Bytes)
  | 0, _ => none
  | _, [] => none
  | n + 1, c :: s =>
    if c = 34 then some ([], s)
    else if c = 92 then (unescape s).bind fun (x, s) => (stringBody n s).map fun (y, s) => (x ++ y, s)
    else (stringBody n s).map fun (y, s) => (c :: y, s)

/-- `parseString`. -/
def string (s : Bytes) : Option (Bytes × Bytes) := stringBody (s.length + 1) s

/-- `folly::to<int64_t>` of a text without white space. -/
def toI64 (s : Bytes) : Option Int :=
  let neg := s.head? = some 45
  let ds := if s.head? = some 45 ∨ s.head? = some 43 then s.drop 1 else s
  if ds ≠ [] ∧ ds.all isDigit then
    let n : Int := if neg then - (digitsVal 0 ds : Int) else digitsVal 0 ds
    if InI64 n then some n else none
  else none

/-- folly/json.cpp `parseNumber`: the exponent, if there is one, after the text `num`; then the double. -/
def exponent {F : Type} (D : Doubles F) (num r : Bytes) : Option (Dyn F × Bytes) :=
  match r with
  | [] => (D.read num).map fun d => (.dbl d, [])
  | e :: r' =>
    if e = 101 ∨ e = 69 then
      let sign := if r'.head? = some 43 ∨ r'.head? = some 45 then r'.take 1 else []
      let r' := if r'.head? = some 43 ∨ r'.head? = some 45 then r'.drop 1 else r'
      (D.read (num ++ (e :: (sign ++ r'.takeWhile isDigit)))).map fun d => (.dbl d, r'.dropWhile isDigit)
    else (D.read num).map fun d => (.dbl d, r)

/-- folly/json.cpp `parseNumber`.  (`skipMinusAndDigits` takes minus signs anywhere; `to<int64_t>` refuses them.) -/
def number {F : Type} (D : Doubles F) (s : Bytes) : Option (Dyn F × Bytes) :=
  match consume (ascii "-Infinity") s with
  | some r => some (.dbl D.negInf, r)
  | none =>
    let integral := s.takeWhile fun c => isDigit c || c == 45
    let r := s.dropWhile fun c => isDigit c || c == 45
    if s.head? = some 45 ∧ integral.length < 2 then none
    else if r.head? = some 46 then exponent D (integral ++ 46 :: (r.drop 1).takeWhile isDigit) ((r.drop 1).dropWhile isDigit)
    else if r.head? = some 101 ∨ r.head? = some 69 then exponent D integral r
    else (toI64 integral).map fun n => (.int n, r)

/-- folly/json.cpp `parseArray`, after the bracket, for an array that is not empty; `pv` reads one value. -/
def elems {F : Type} (pv : Bytes → Option (Dyn F × Bytes)) : Nat → Bytes → Option (List (Dyn F) × Bytes)
  | 0, _ => none
  | n + 1, s => (pv s).bind fun (v, s) =>
    match skipWs s with
    | [] => none
    | c :: s =>
      if c = 44 then (elems pv n (skipWs s)).map fun (vs, s) => (v :: vs, s)
      else if c = 93 then some ([v], s)
      else none

/-- `dynamic::insert`: the later value of a repeated key replaces the earlier. -/
def insert {F : Type} (k : Bytes) (v : Dyn F) : List (Bytes × Dyn F) → List (Bytes × Dyn F)
  | [] => [(k, v)]
  | (k', v') :: l => if k' = k then (k, v) :: l else (k', v') :: insert k v l

/-- folly/json.cpp `parseObject`, after the brace, for an object that is not empty; `acc` are the entries read so far. -/
def members {F : Type} (pv : Bytes → Option (Dyn F × Bytes)) : Nat → List (Bytes × Dyn F) → Bytes → Option (List (Bytes × Dyn F) × Bytes)
  | 0, _, _ => none
  | _, _, [] => none
  | n + 1, acc, q :: s =>
    if q ≠ 34 then none
    else (string s).bind fun (k, s) =>
      match skipWs s with
      | [] => none
      | c :: s =>
        if c ≠ 58 then none
        else (pv (skipWs s)).bind fun (v, s) =>
          match skipWs s with
          | [] => none
          | c :: s =>
            if c = 44 then members pv n (insert k v acc) (skipWs s)
            else if c = 125 then some (insert k v acc, s)
            else none

/-- folly/json.cpp `parseArray`. -/
def array {F : Type} (pv : Bytes → Option (Dyn F × Bytes)) (s : Bytes) : Option (Dyn F × Bytes) :=
  match skipWs s with
  | [] => none
  | c :: r => if c = 93 then some (.arr [], r) else (elems pv (s.length + 1) (c :: r)).map fun (vs, s) => (.arr vs, s)

/-- folly/json.cpp `parseObject`. -/
def object {F : Type} (pv : Bytes → Option (Dyn F × Bytes)) (s : Bytes) : Option (Dyn F × Bytes) :=
  match skipWs s with
  | [] => none
  | c :: r => if c = 125 then some (.obj [], r) else (members pv (s.length + 1) [] (c :: r)).map fun (kvs, s) => (.obj kvs, s)

/-- folly/json.cpp `parseValue`: the words. -/
def word {F : Type} (D : Doubles F) (s : Bytes) : Option (Dyn F × Bytes) :=
  match consume (ascii "true") s with
  | some r => some (.bool true, r)
  | none =>
    match consume (ascii "false") s with
    | some r => some (.bool false, r)
    | none =>
      match consume (ascii "null") s with
      | some r => some (.null, r)
      | none =>
        match consume (ascii "Infinity") s with
        | some r => some (.dbl D.inf, r)
        | none =>
          match consume (ascii "NaN") s with
          | some r => some (.dbl D.nan, r)
          | none => none

/-- folly/json.cpp `parseValue`; the first argument is the nesting that is still allowed. -/
def value {F : Type} (D : Doubles F) : Nat → Bytes → Option (Dyn F × Bytes)
  | 0, _ => none
  | d + 1, s =>
    match skipWs s with
    | [] => none
    | c :: r =>
      if c = 91 then array (value D d) r
      else if c = 123 then object (value D d) r
      else if c = 34 then (string r).map fun (x, s) => (.str x, s)
      else if c = 45 ∨ isDigit c then number D (c :: r)
      else word D (c :: r)

/-- `serialization_opts::recursion_limit`. -/
def maxDepth : Nat := 100

/-- `folly::parseJson`: one value; a NUL ends the text. -/
def parse {F : Type} (D : Doubles F) (s : Bytes) : Option (Dyn F) :=
  (value D maxDepth s).bind fun (v, r) =>
    match skipWs r with
    | [] => some v
    | c :: _ => if c = 0 then some v else none

end Json
end Nebula
