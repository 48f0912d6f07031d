import Verif.Text
import Verif.Host.Model
/-!
# Model of the text forms of addresses

src/common/network/NetworkUtils.cpp 241-327, with `folly::split`, `folly::trimWhitespace` and `folly::to<int32_t>` as documented by folly.
-/
namespace Nebula
namespace Net

/-- `folly::split(c, s, out, false)`: all pieces between the delimiters. -/
def splitAll (c : UInt8) : Bytes → List Bytes
  | [] => [[]]
  | b :: s => if b = c then [] :: splitAll c s else match splitAll c s with
    | [] => [[b]]
    | t :: ts => (b :: t) :: ts

/-- `folly::split(c, s, out, true)`: the empty pieces are left out. -/
def splitNonEmpty (c : UInt8) (s : Bytes) : List Bytes := (splitAll c s).filter (· ≠ [])

/-- The characters `folly::trimWhitespace` removes: blank, newline, tab, carriage return. -/
def isTrim (c : UInt8) : Bool := c == 32 || c == 10 || c == 9 || c == 13

def ltrim (s : Bytes) : Bytes := s.dropWhile isTrim

def rtrim (s : Bytes) : Bytes := (s.reverse.dropWhile isTrim).reverse

/-- `folly::trimWhitespace`. -/
def trim (s : Bytes) : Bytes := rtrim (ltrim s)

/-- The digits and what follows them. -/
def toI32Digits (neg : Bool) (u : Bytes) : Option Int :=
  let ds := u.takeWhile isDigit
  let v : Int := if neg then -(digitsVal 0 ds : Int) else digitsVal 0 ds
  if ds = [] ∨ v < -2 ^ 31 ∨ 2 ^ 31 ≤ v ∨ (u.dropWhile isDigit).all isSpace = false then none else some v

/-- `folly::to<int32_t>(StringPiece)`: leading blanks, a sign (as for `strtoll`), digits, trailing blanks; `none` stands for the exception. -/
def toI32 (s : Bytes) : Option Int := toI32Digits (strtollSign (s.dropWhile isSpace)).1 (strtollSign (s.dropWhile isSpace)).2

/-- NetworkUtils.cpp:298-312: one entry of the list. -/
def parsePeer (e : Bytes) : Option HostAddr :=
  let t := trim e
  if (58 : UInt8) ∈ t then
    match toI32 (t.dropWhile (· ≠ 58)).tail with
    | some p => some ⟨t.takeWhile (· ≠ 58), p⟩
    | none => none
  else none

def parsePeers : List Bytes → Option (List HostAddr)
  | [] => some []
  | e :: es => match parsePeer e with
    | none => none
    | some h => match parsePeers es with
      | none => none
      | some hs => some (h :: hs)

/-- NetworkUtils.cpp:292-315 `toHosts`; `none` is an error status. -/
def toHosts (s : Bytes) : Option (List HostAddr) := parsePeers (splitNonEmpty 44 s)

/-- NetworkUtils.cpp:318-327 `toHostsStr`. -/
def toHostsStr (hosts : List HostAddr) : Bytes :=
  hosts.foldl (fun s h => (if s.isEmpty then s else s ++ [44, 32]) ++ (cstr h.host ++ 58 :: intDec h.port)) []

/-- NetworkUtils.cpp:241-289 `intToIPv4`.  `kDict[i]` is the decimal text of `i`.  The text is written to a buffer of 16 bytes; `none` if it
(with its terminating zero) is too long for that. -/
def intToIPv4 (ip : UInt32) : Option Bytes :=
  let dict (x : UInt32) : Bytes := natDec x.toNat
  let f1 := dict (ip &&& 0xFF)
  let f2 := dict ((ip >>> 8) &&& 0xFF)
  let f3 := dict ((ip >>> 16) &&& 0xFF)
  let f4 := dict ((ip >>> 24) &&& 0xFF)
  let s := f4 ++ 46 :: (f3 ++ 46 :: (f2 ++ 46 :: f1))
  if s.length + 1 ≤ 16 then some s else none

end Net
end Nebula
