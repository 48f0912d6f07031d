import Verif.Net.Model
import Verif.Fs.Lines
/-!
# Interfaces, name resolution and ports (C113, C114)

src/common/network/NetworkUtils.cpp 34-240.  The answers of `getifaddrs`, `getaddrinfo`, `popen`, the files under /proc/net and the random draws are inputs.
-/
namespace Nebula
namespace Net

/-! ## Addresses -/

/-- An entry of `getifaddrs`: the name, and the address if there is one: IPv4 (as its four bytes) or another family. -/
inductive IfAddr | ipv4 (a b c d : UInt8) | other | missing
deriving DecidableEq, Repr

/-- `inet_ntoa` -/
def ntoa (a b c d : UInt8) : Bytes := natDec a.toNat ++ 46 :: (natDec b.toNat ++ 46 :: (natDec c.toNat ++ 46 :: natDec d.toNat))

/-- `dev2ipv4s[name] = text` -/
def assign (m : List (Bytes × Bytes)) (n t : Bytes) : List (Bytes × Bytes) :=
  if m.any (·.1 == n) then m.map fun e => if e.1 = n then (n, t) else e else m ++ [(n, t)]

/-- NetworkUtils.cpp:68-81: the loop of `listDeviceAndIPv4s`.  `none`: the address of an entry without address is read. -/
def devices : List (Bytes × IfAddr) → List (Bytes × Bytes) → Option (List (Bytes × Bytes))
  | [], m => some m
  | (n, .ipv4 a b c d) :: l, m => devices l (assign m n (ntoa a b c d))
  | (_, .other) :: l, m => devices l m
  | (_, .missing) :: _, _ => none

/-- NetworkUtils.cpp:65-86 `listDeviceAndIPv4s`: the inner `none` is an error status; `list` is `none` if `getifaddrs` fails. -/
def listDeviceAndIPv4s (list : Option (List (Bytes × IfAddr))) : Option (Option (List (Bytes × Bytes))) :=
  match list with
  | none => some none
  | some l => (devices l []).map fun m => if m.isEmpty then none else some m

/-- NetworkUtils.cpp:34-46 `getIPv4FromDevice`. -/
def getIPv4FromDevice (list : Option (List (Bytes × IfAddr))) (device : Bytes) : Option (Option Bytes) :=
  if device = ascii "any" then some (some (ascii "0.0.0.0"))
  else (listDeviceAndIPv4s list).map fun r => r.bind fun m => (m.find? (·.1 == device)).map (·.2)

/-- NetworkUtils.cpp:50-62 `listIPv4s` (in the order of the table, which is arbitrary). -/
def listIPv4s (list : Option (List (Bytes × IfAddr))) : Option (Option (List Bytes)) := (listDeviceAndIPv4s list).map fun r => r.map fun m => m.map (·.2)

/-- The four bytes of an address in memory, read as an integer on a little-endian machine. -/
def sAddr (a b c d : UInt8) : UInt32 := a.toUInt32 ||| (b.toUInt32 <<< 8) ||| (c.toUInt32 <<< 16) ||| (d.toUInt32 <<< 24)

/-- `htonl` on a little-endian machine. -/
def htonl (x : UInt32) : UInt32 := ((x &&& 0xFF) <<< 24) ||| (((x >>> 8) &&& 0xFF) <<< 16) ||| (((x >>> 16) &&& 0xFF) <<< 8) ||| ((x >>> 24) &&& 0xFF)

/-- NetworkUtils.cpp:216-231: the loop of `resolveHost`. -/
def resolved (port : Int) : List IfAddr → Option (List HostAddr)
  | [] => some []
  | .ipv4 a b c d :: l => (intToIPv4 (htonl (sAddr a b c d))).bind fun t => (resolved port l).map fun r => ⟨t, port⟩ :: r
  | _ :: l => resolved port l

/-- NetworkUtils.cpp:200-238 `resolveHost`: `answer` is that of `getaddrinfo`. -/
def resolveHost (answer : Option (List IfAddr)) (port : Int) : Option (Option (List HostAddr)) :=
  match answer with
  | none => some none
  | some l => (resolved port l).map fun r => if r.isEmpty then none else some r

/-! ## Ports -/

/-- `[0-9A-F]` -/
def isHex (c : UInt8) : Bool := (48 ≤ c && c ≤ 57) || (65 ≤ c && c ≤ 70)

/-- `([0-9A-F]+).+`: the group.  The group is as long as possible as long as a character (other than an end of line) follows. -/
def hexGroup (s : Bytes) : Option Bytes :=
  let h := s.takeWhile isHex
  match s.dropWhile isHex with
  | c :: _ => if c ≠ 10 ∧ c ≠ 13 then (if h = [] then none else some h) else if 2 ≤ h.length then some h.dropLast else none
  | [] => if 2 ≤ h.length then some h.dropLast else none

/-- `[^:]+:[^:]+:([0-9A-F]+).+` from the first character on: the group. -/
def matchHere (s : Bytes) : Option Bytes :=
  if s.takeWhile (· ≠ 58) = [] then none
  else match s.dropWhile (· ≠ 58) with
    | [] => none
    | _ :: s1 =>
      if s1.takeWhile (· ≠ 58) = [] then none
      else match s1.dropWhile (· ≠ 58) with
        | [] => none
        | _ :: s2 => hexGroup s2

/-- `std::regex_search`: the leftmost match. -/
def search : Bytes → Option Bytes
  | [] => none
  | c :: s => match matchHere (c :: s) with
    | some g => some g
    | none => search s

def hexVal (c : UInt8) : Nat := if c ≤ 57 then c.toNat - 48 else c.toNat - 55

def hexVals (g : Bytes) : Nat := g.foldl (fun v c => 16 * v + hexVal c) 0

/-- NetworkUtils.cpp:122-125: `std::stoul` in base 16 (`none`: out of range, an exception), then a `uint16_t`. -/
def portOf (g : Bytes) : Option Nat := if hexVals g < 2 ^ 64 then some (hexVals g % 65536) else none

def collectPorts : List Bytes → Option (List Nat)
  | [] => some []
  | l :: ls => match (search l).bind portOf with
    | none => none
    | some p => (collectPorts ls).map (p :: ·)

/-- One block of NetworkUtils.cpp:118-167: the ports of a file; no ports if it cannot be opened. -/
def filePorts : Option Bytes → Option (List Nat)
  | none => some []
  | some s =>
    let m := fun l => (search l).isSome
    collectPorts (Fs.walkIter m (s.length + 1) (Fs.open_ m (.file s)))

/-- NetworkUtils.cpp:117-170 `getPortsInUse`; `files` are tcp, tcp6, udp, udp6, raw and raw6. -/
def getPortsInUse : List (Option Bytes) → Option (List Nat)
  | [] => some []
  | f :: fs => match filePorts f, getPortsInUse fs with
    | some a, some b => some (a ++ b)
    | _, _ => none

/-- `fscanf("%hu")`: blanks, a sign, digits; the value is cut to 16 bits (after `strtoul`, which stops at 2^64 - 1). -/
def scanHu (s : Bytes) : Option (Nat × Bytes) :=
  let (neg, u) := strtollSign (s.dropWhile isSpace)
  let ds := u.takeWhile isDigit
  if ds = [] then none
  else
    let v := digitsVal 0 ds
    let w := if 2 ^ 64 ≤ v then 2 ^ 64 - 1 else if neg then (2 ^ 64 - v) % 2 ^ 64 else v
    some (w % 65536, u.dropWhile isDigit)

/-- NetworkUtils.cpp:89-114 `getDynamicPortRange`; `text` is `none` if the pipe cannot be opened or closed. -/
def getDynamicPortRange (text : Option Bytes) : Option (Nat × Nat) :=
  text.map fun t => match scanHu t with
    | none => (49152, 65535)
    | some (lo, r) => match scanHu r with
      | none => (49152, 65535)
      | some (hi, _) => (lo, hi)

/-- `folly::Random::rand32(min, max)` for a raw draw `r`; `none`: a distribution over an empty range, which is undefined. -/
def rand32 (min max r : Nat) : Option Nat := if min = max then some 0 else if max < min then none else some (min + r % (max - min))

/-- NetworkUtils.cpp:182-194: the loop over the raw draws; the inner `none`: no port found with these draws, the loop goes on. -/
def pickPort (low : Nat) (used : List Nat) : List Nat → Option (Option Nat)
  | [] => some none
  | r :: rs => match rand32 1025 low r with
    | none => none
    | some p =>
      let p := p % 65536
      if p ∈ used then pickPort low used rs
      else if (p + 1) % 65536 ∈ used then pickPort low used rs
      else some (some p)

/-- NetworkUtils.cpp:173-197 `getAvailablePort`; the outer `none`: the process ends or the behaviour is undefined. -/
def getAvailablePort (range : Option Bytes) (files : List (Option Bytes)) (draws : List Nat) : Option (Option Nat) :=
  match getDynamicPortRange range with
  | none => none
  | some (low, _) => match getPortsInUse files with
    | none => none
    | some used => pickPort low used draws

end Net
end Nebula
