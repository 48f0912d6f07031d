import Verif.FullText.Model
/-!
# Specification vocabulary for C60, C75 and C76
-/
namespace Nebula
namespace FullText

/-! ## How `sh` reads a command (POSIX shell command language, 2.2 Quoting, 2.3 Token recognition) -/

/-- Quoting context: outside quotes, between single quotes, between double quotes, and after a
backslash outside quotes or between double quotes. -/
inductive Quote where
  | plain | single | double | escape | descape

/-- Bytes with a meaning of their own outside quotes (operators, expansions, globs, comments, …):
the reader below gives up on them. -/
def shellSpecial (c : UInt8) : Bool := (0 :: 10 :: ascii "|&;<>()$`*?[]#~=%!{}").contains c

/-- Bytes with a meaning of their own between double quotes. -/
def dquoteSpecial (c : UInt8) : Bool := (0 :: ascii "$`").contains c

/-- The words of a simple command, after quote removal. `cur` is the word being read. `none` if
anything in the text means more to the shell than itself (an expansion, a second command, a
redirection, …), or a quote is not closed. -/
def sh : Quote → Option Bytes → Bytes → Option (List Bytes)
  | .plain, cur, [] => some cur.toList
  | _, _, [] => none
  | .plain, cur, c :: r =>
    if c = 32 ∨ c = 9 then (sh .plain none r).map (cur.toList ++ ·)
    else if c = 39 then sh .single (some (cur.getD [])) r
    else if c = 34 then sh .double (some (cur.getD [])) r
    else if c = 92 then sh .escape cur r
    else if shellSpecial c then none
    else sh .plain (some (cur.getD [] ++ [c])) r
  | .escape, cur, c :: r =>
    if c = 10 then sh .plain cur r
    else if c = 0 then none
    else sh .plain (some (cur.getD [] ++ [c])) r
  | .single, cur, c :: r =>
    if c = 39 then sh .plain cur r
    else if c = 0 then none
    else sh .single (some (cur.getD [] ++ [c])) r
  | .double, cur, c :: r =>
    if c = 34 then sh .plain cur r
    else if dquoteSpecial c then none
    else if c = 92 then sh .descape cur r
    else sh .double (some (cur.getD [] ++ [c])) r
  | .descape, cur, c :: r =>
    if c = 10 then sh .double cur r
    else if c = 36 ∨ c = 96 ∨ c = 34 ∨ c = 92 then sh .double (some (cur.getD [] ++ [c])) r
    else if c = 0 then none
    else sh .double (some (cur.getD [] ++ [92, c])) r

/-- The arguments (program first) `popen(text.c_str())` runs. -/
def shellArgs (text : Bytes) : Option (List Bytes) := sh .plain none (cstr text)

/-! ## What the settings of a client and the name of an index must not contain -/

/-- A byte that means itself outside quotes. -/
def PlainByte (c : UInt8) : Prop := c ≠ 32 ∧ c ≠ 9 ∧ c ≠ 39 ∧ c ≠ 34 ∧ c ≠ 92 ∧ shellSpecial c = false

/-- A byte that means itself between double quotes. -/
def QuotableByte (c : UInt8) : Prop := c ≠ 34 ∧ c ≠ 92 ∧ dquoteSpecial c = false

/-- A client whose user and password need no quotes and whose host fits between double quotes. -/
def SafeClient (c : Client) : Prop :=
  (∀ b ∈ c.user, PlainByte b) ∧ (∀ b ∈ c.password, PlainByte b) ∧ ∀ b ∈ c.host.host, QuotableByte b

/-- The output of `md5`: 32 hexadecimal digits. -/
def HexDigest (s : Bytes) : Prop := s.length = 32 ∧ ∀ c ∈ s, (48 ≤ c ∧ c ≤ 57) ∨ (97 ≤ c ∧ c ≤ 102)

/-- The arguments that carry the credentials of a client. -/
def credentials (c : Client) : List Bytes :=
  if c.user = [] then [] else [ascii "-u", if c.password = [] then c.user else c.user ++ ascii ":" ++ c.password]

/-- `http://host:port/path`. -/
def url (c : Client) (path : Bytes) : Bytes :=
  ascii "http://" ++ c.host.host ++ ascii ":" ++ intDec c.host.port ++ ascii "/" ++ path

/-- The arguments of a curl call. -/
def curlArgs (contentType method : String) (c : Client) (path : Bytes) (data : List Bytes) : List Bytes :=
  [ascii "/usr/bin/curl", ascii "-H", ascii "Content-Type: " ++ ascii contentType ++ ascii "; charset=utf-8", ascii "-X" ++ ascii method] ++
    credentials c ++ [url c path] ++ data

/-! ## Answers -/

/-- The value of a key of an object. -/
def J.Has (j : J) (k : String) (v : J) : Prop := ∃ l, j = .obj l ∧ (l.find? fun e => e.1 == ascii k).map (·.2) = some v

/-- An object without the key. -/
def J.Lacks (j : J) (k : String) : Prop := ∃ l, j = .obj l ∧ (l.find? fun e => e.1 == ascii k) = none

/-- The hit carries the value `v`. -/
def HitValue (h : J) (v : Bytes) : Prop := ∃ s, h.Has "_source" s ∧ s.Has "value" (.str v)

/-- The hit carries no value. -/
def HitNone (h : J) : Prop := h.Lacks "_source" ∨ ∃ s, h.Has "_source" s ∧ s.Lacks "value"

/-- The values of the hits, in order. -/
inductive HitValues : List J → List Bytes → Prop
  | nil : HitValues [] []
  | value {h hs v vs} : HitValue h v → HitValues hs vs → HitValues (h :: hs) (v :: vs)
  | none {h hs vs} : HitNone h → HitValues hs vs → HitValues (h :: hs) vs

end FullText
end Nebula
