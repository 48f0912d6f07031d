import Verif.Value.Arith
/-!
# Model of the text and list algorithms behind the built-in functions

src/common/function/FunctionManager.cpp, and the library algorithms it calls (`folly::split`,
`boost::replace_all_copy`, `folly::trimWhitespace`, `std::string::substr`, `std::set`).
-/
namespace Nebula
namespace Func

/-! ## Searching for a separator -/

/-- The loop of `folly::split` (FunctionManager.cpp:1179): the separator is looked for at every
position; where it is found the token so far is emitted and the search goes on behind it.  `tok` is
the token so far, `skip` the number of bytes of a found separator still to be passed over. -/
def splitGo (d : Bytes) (tok : Bytes) : Nat → Bytes → List Bytes
  | _, [] => [tok]
  | k + 1, _ :: cs => splitGo d tok k cs
  | 0, c :: cs =>
    if d.isPrefixOf (c :: cs) then tok :: splitGo d [] (d.length - 1) cs
    else splitGo d (tok ++ [c]) 0 cs

/-- `folly::split(delim, str, out)` with empty pieces kept: an empty separator separates nothing. -/
def split (d s : Bytes) : List Bytes := if d = [] then [s] else splitGo d [] 0 s

/-- The loop of `boost::replace_all_copy` (FunctionManager.cpp:1126). -/
def replaceGo (d n : Bytes) : Nat → Bytes → Bytes
  | _, [] => []
  | k + 1, _ :: cs => replaceGo d n k cs
  | 0, c :: cs =>
    if d.isPrefixOf (c :: cs) then n ++ replaceGo d n (d.length - 1) cs
    else c :: replaceGo d n 0 cs

/-- `boost::replace_all_copy(str, search, new)`: boost's `first_finder` finds nothing when the search
text is empty. -/
def replaceAll (s d n : Bytes) : Bytes := if d = [] then s else replaceGo d n 0 s

/-! ## Padding and pieces -/

/-- FunctionManager.cpp:1276-1280 and 1307-1311: the padding of length `n`; `none`: the loop never
ends. -/
def padGo (extra : Bytes) (n : Nat) : Option Bytes :=
  if n > extra.length then
    if h : extra = [] then none
    else (padGo extra (n - extra.length)).map (extra ++ ·)
  else some (extra.take n)
termination_by n
decreasing_by
  have : 0 < extra.length := List.length_pos_iff.2 h
  omega

/-- `value.substr(0, static_cast<int32_t>(size))` (FunctionManager.cpp:1271, 1301): a negative
`int32_t` becomes a huge `size_t`. -/
def takeI32 (v : Bytes) (size : Int) : Bytes :=
  if wrapI32 size < 0 then v else v.take (wrapI32 size).toNat

/-- folly's whitespace: space, newline, tab, carriage return. -/
def isWs (c : UInt8) : Bool := c == 32 || c == 10 || c == 9 || c == 13

/-- `folly::ltrimWhitespace` (FunctionManager.cpp:1025). -/
def ltrim (s : Bytes) : Bytes := s.dropWhile isWs
/-- `folly::rtrimWhitespace` (FunctionManager.cpp:1045). -/
def rtrim (s : Bytes) : Bytes := (s.reverse.dropWhile isWs).reverse
/-- `folly::trimWhitespace` (FunctionManager.cpp:1005). -/
def trim (s : Bytes) : Bytes := ltrim (rtrim s)

/-- `std::toupper` on ASCII (FunctionManager.cpp:957-959). -/
def toUpper (c : UInt8) : UInt8 := if 97 ≤ c && c ≤ 122 then c - 32 else c

/-- `::strcasecmp` on C strings (FunctionManager.cpp:917-918): the difference of the first lower-cased
bytes that differ. -/
def strcasecmpGo : Bytes → Bytes → Int
  | [], [] => 0
  | a :: _, [] => (Value.toLower a).toNat
  | [], b :: _ => -((Value.toLower b).toNat : Int)
  | a :: as, b :: bs =>
    if Value.toLower a = Value.toLower b then strcasecmpGo as bs
    else (Value.toLower a).toNat - ((Value.toLower b).toNat : Int)
def strcasecmp (a b : Bytes) : Int := strcasecmpGo (cstr a) (cstr b)

/-- FunctionManager.cpp:1333-1349 `substr`, `substring`: `len` is the third argument.  `length` is an
`int` (`auto length = 0`), so what is assigned to it is reduced to 32 bits; the conversion of a
negative `start` to `size_t` gives a number above every size. `none` is `kNullBadData`. -/
def substr (v : Bytes) (start : Int) (len : Option Int) : Option Bytes :=
  let length := match len with
    | some l => wrapI32 l
    | none => if start < 0 ∨ (v.length : Int) ≤ start then 0 else wrapI32 (v.length - start)
  if start < 0 ∨ length < 0 then none
  else if (v.length : Int) ≤ start ∨ length = 0 then some []
  else some ((v.drop start.toNat).take length.toNat)

/-! ## Lists -/

/-- FunctionManager.cpp:1625-1627, the loop of `range` for a positive step: `none` is the undefined
behaviour of the overflowing addition `i + step`. -/
def rangeUp (step : Int) (hs : 0 < step) (e i : Int) : Option (List Int) :=
  if i ≤ e then
    if InI64 (i + step) then (rangeUp step hs e (i + step)).map (i :: ·) else none
  else some []
termination_by (e + 1 - i).toNat

/-- The same for a negative step. -/
def rangeDown (step : Int) (hs : step < 0) (e i : Int) : Option (List Int) :=
  if i ≥ e then
    if InI64 (i + step) then (rangeDown step hs e (i + step)).map (i :: ·) else none
  else some []
termination_by (i + 1 - e).toNat

/-- FunctionManager.cpp:1620-1628; the outer `none` is `kNullBadData`. -/
def range (s e step : Int) : Option (Option (List Int)) :=
  if h : 0 < step then some (rangeUp step h e s)
  else if h : step < 0 then some (rangeDown step h e s)
  else none

/-- `std::set<std::string>::emplace` on the sorted list of the elements. -/
def setInsert (k : Bytes) : List Bytes → List Bytes
  | [] => [k]
  | x :: xs => if bytesLt k x then k :: x :: xs else if bytesLt x k then x :: setInsert k xs else x :: xs

/-- `unordered_map::insert(first, last)` (FunctionManager.cpp:1687): an entry whose key is present is
not inserted. -/
def insertNew {V : Type} (m : List (Bytes × V)) (kv : Bytes × V) : List (Bytes × V) :=
  if (m.lookup kv.1).isSome then m else m ++ [kv]

end Func
end Nebula
