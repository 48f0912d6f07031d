import Verif.Text
/-!
# Paths as text: src/common/fs/FileUtils.cpp

A `const char*` is modelled by its bytes before the terminating zero, a `folly::StringPiece` by its bytes.
-/
namespace Nebula
namespace Fs

/-- `strncpy(dst, s, s.size())` as `joinPath` uses it: the bytes before the first zero, then zeros. -/
def strncpy (s : Bytes) : Bytes := cstr s ++ List.replicate (s.length - (cstr s).length) 0

/-- FileUtils.cpp:235-259 `joinPath`. -/
def joinPath (dir name : Bytes) : Bytes :=
  if dir = [] then ascii "./" ++ strncpy name
  else if dir.getLast? = some 47 then strncpy dir ++ strncpy name
  else strncpy dir ++ 47 :: strncpy name

/-- `StringPiece::rfind(c)`; `none` for `npos`. -/
def rfind (c : UInt8) : Bytes → Option Nat
  | [] => none
  | b :: s => match rfind c s with
    | some i => some (i + 1)
    | none => if b = c then some 0 else none

/-- FileUtils.cpp:273-275: the path without its last character if that is a slash. -/
def toLook (path : Bytes) : Bytes := if path.getLast? = some 47 then path.dropLast else path

/-- FileUtils.cpp:262-292 `dividePath`: parent and child. -/
def dividePath (path : Bytes) : Bytes × Bytes :=
  if path = [] ∨ path = [47] then ([], path)
  else match rfind 47 (toLook path) with
    | none => ([], toLook path)
    | some pos => (if pos = 0 then (toLook path).take 1 else (toLook path).take pos, (toLook path).drop (pos + 1))

/-- The regular expression `([^/]+)/?` matched against a whole text: the group.  `[^/]+` is greedy, and taking less of
it never helps. -/
def lastPiece (s : Bytes) : Option Bytes :=
  let b := s.takeWhile (· ≠ 47)
  if b = [] then none
  else if s.drop b.length = [] ∨ s.drop b.length = [47] then some b else none

/-- `.` of an ECMAScript regular expression: no line terminator. -/
def anyChar (c : UInt8) : Bool := c ≠ 10 && c ≠ 13

/-- The whole text against `(.*)/([^/]+)/?` if `.*` takes `k` characters: the groups. -/
def dirAt (s : Bytes) (k : Nat) : Option (Bytes × Bytes) :=
  if s[k]? = some 47 ∧ (s.take k).all anyChar then (lastPiece (s.drop (k + 1))).map fun b => (s.take k, b) else none

/-- FileUtils.cpp:115-117: the whole text against `(.*)/([^/]+)/?`, trying the longest `.*` first. -/
def dirMatch (s : Bytes) : Nat → Option (Bytes × Bytes)
  | 0 => dirAt s 0
  | k + 1 => (dirAt s (k + 1)).or (dirMatch s k)

/-- FileUtils.cpp:110-124 `dirname`. -/
def dirname (path : Bytes) : Bytes :=
  if path = [47] then [47]
  else match dirMatch path path.length with
    | some (d, _) => if d = [] then [47] else d
    | none => [46]

/-- The whole text against `(/*([^/]+/+)*)([^/]+)/?` if the first group takes `k` characters: it matches exactly the
prefixes that are empty or end in a slash. -/
def baseAt (s : Bytes) (k : Nat) : Option Bytes :=
  if k = 0 ∨ s[k - 1]? = some 47 then lastPiece (s.drop k) else none

/-- FileUtils.cpp:132-134: the whole text against `(/*([^/]+/+)*)([^/]+)/?`, trying the longest first group first. -/
def baseMatch (s : Bytes) : Nat → Option Bytes
  | 0 => baseAt s 0
  | k + 1 => (baseAt s (k + 1)).or (baseMatch s k)

/-- FileUtils.cpp:127-136 `basename`; an unmatched group reads as the empty text. -/
def basename (path : Bytes) : Bytes :=
  if path = [47] then []
  else (baseMatch path path.length).getD []

end Fs
end Nebula
