import Verif.Text
/-!
# Model of regular expressions (`std::regex` with its default grammar)

The code uses `std::regex_match`, `std::regex_search`, `std::sregex_iterator` and `std::regex_replace` with patterns
written in the source (FileUtils.cpp:115, 132, NetworkUtils.cpp:118, ProcessUtils.cpp:44, 137, Common.h:67,
Configuration.cpp:54, Router.cpp:40), built from routes (Router.cpp:42-60) or given by a query
(RelationalExpression.cpp:44-45).  Here are the part of the grammar of ECMAScript that these patterns use, and its
meaning: all matches in the order in which backtracking finds them, greedy quantifiers first.

Simplifications: the library is modelled as documented, and its recursion does not exhaust the stack; lazy quantifiers,
counted repetition, look-ahead, back references, escapes of letters and digits, and named classes are not modelled
(`parse` gives `none`, like for the patterns that are refused); a group inside a repetition keeps the text of its last
iteration.
-/
namespace Nebula
namespace Regex

/-- A class: `[…]` with the ranges, `[^…]` if `neg`. -/
structure Cls where
  neg : Bool
  ranges : List (UInt8 × UInt8)
deriving DecidableEq, Repr

def Cls.has (c : Cls) (x : UInt8) : Bool := (c.ranges.any fun r => r.1 ≤ x && x ≤ r.2) != c.neg

inductive Re where
  | empty
  | chr (c : UInt8)
  /-- `.` -/
  | dot
  | cls (c : Cls)
  | seq (a b : Re)
  | alt (a b : Re)
  /-- `*`, greedy -/
  | star (a : Re)
  /-- `?`, greedy -/
  | opt (a : Re)
  | group (n : Nat) (a : Re)
  /-- `^` -/
  | bol
  /-- `$` -/
  | eol
deriving DecidableEq, Repr

/-- `+`, greedy -/
def Re.plus (a : Re) : Re := .seq a (.star a)

/-! ## The grammar -/

/-- The characters with a meaning of their own. -/
def special (c : UInt8) : Bool := (ascii "^$\\.*+?()[]{}|").contains c

/-- The characters of a class up to `]`. -/
def ranges : Nat → Bytes → Option (List (UInt8 × UInt8) × Bytes)
  | 0, _ => none
  | _, [] => none
  | f + 1, c :: s =>
    if c = 93 then some ([], s)
    else if c = 92 ∨ c = 91 then none
    else
      match s with
      | 45 :: d :: s' =>
        if d = 93 then (ranges f s).map fun r => ((c, c) :: r.1, r.2)
        else if d = 92 ∨ d = 91 ∨ d < c then none
        else (ranges f s').map fun r => ((c, d) :: r.1, r.2)
      | _ => (ranges f s).map fun r => ((c, c) :: r.1, r.2)

/-- A quantifier after an atom. -/
def quant (a : Re) : Bytes → Option (Re × Bytes)
  | 42 :: s => if s.head? = some 63 then none else some (.star a, s)
  | 43 :: s => if s.head? = some 63 then none else some (a.plus, s)
  | 63 :: s => if s.head? = some 63 then none else some (.opt a, s)
  | 123 :: _ => none
  | s => some (a, s)

/-- An atom that is not a group. -/
def simple : Bytes → Option (Re × Bytes)
  | [] => none
  | 46 :: s => some (.dot, s)
  | 94 :: s => some (.bol, s)
  | 36 :: s => some (.eol, s)
  | 92 :: c :: s => if special c || c == 47 then some (.chr c, s) else none
  | 91 :: 94 :: s => (ranges (s.length + 1) s).map fun r => (.cls ⟨true, r.1⟩, r.2)
  | 91 :: s => (ranges (s.length + 1) s).map fun r => (.cls ⟨false, r.1⟩, r.2)
  | c :: s => if special c then none else some (.chr c, s)

mutual
/-- Alternatives, up to the end or a closing parenthesis; `k` is the number of the next group. -/
def disj : Nat → Nat → Bytes → Option (Re × Nat × Bytes)
  | 0, _, _ => none
  | f + 1, k, s =>
    match terms f k s with
    | none => none
    | some (a, k', s') =>
      match s' with
      | 124 :: s'' => match disj f k' s'' with
        | none => none
        | some (b, k'', r) => some (.alt a b, k'', r)
      | _ => some (a, k', s')
def terms : Nat → Nat → Bytes → Option (Re × Nat × Bytes)
  | 0, _, _ => none
  | _ + 1, k, [] => some (.empty, k, [])
  | f + 1, k, c :: s =>
    if c = 124 ∨ c = 41 then some (.empty, k, c :: s)
    else
      match atom f k (c :: s) with
      | none => none
      | some (a, k', s') => match quant a s' with
        | none => none
        | some (a', s'') => match terms f k' s'' with
          | none => none
          | some (b, k'', r) => some (.seq a' b, k'', r)
def atom : Nat → Nat → Bytes → Option (Re × Nat × Bytes)
  | 0, _, _ => none
  | f + 1, k, s =>
    match s with
    | 40 :: s' =>
      if s'.head? = some 63 then none
      else match disj f (k + 1) s' with
        | some (a, k', r) => match r with
          | 41 :: r' => some (.group k a, k', r')
          | _ => none
        | none => none
    | _ => (simple s).map fun r => (r.1, k, r.2)
end

/-- `std::regex(pattern)`; `none`: an exception, or not modelled. -/
def parse (s : Bytes) : Option Re :=
  match disj (2 * s.length + 2) 1 s with
  | some (r, _, []) => some r
  | _ => none

/-! ## The meaning -/

/-- Where a match is: the number of characters before, the text to come, the groups (the latest first). -/
structure St where
  pos : Nat
  rest : Bytes
  caps : List (Nat × Bytes)
deriving DecidableEq, Repr

/-- One character. -/
def St.one (s : St) (p : UInt8 → Bool) : List St :=
  match s.rest with
  | [] => []
  | c :: r => if p c then [⟨s.pos + 1, r, s.caps⟩] else []

/-- As many iterations as possible first; an iteration that takes nothing is not tried. -/
def iterate (f : St → List St) : Nat → St → List St
  | 0, s => [s]
  | n + 1, s => ((f s).filter fun t => t.rest.length < s.rest.length).flatMap (iterate f n) ++ [s]

/-- `.` does not match the ends of lines. -/
def notEol (c : UInt8) : Bool := c ≠ 10 && c ≠ 13

/-- All matches from here on, in the order in which they are found. -/
def run : Re → St → List St
  | .empty, s => [s]
  | .chr c, s => s.one (· == c)
  | .dot, s => s.one notEol
  | .cls c, s => s.one c.has
  | .seq a b, s => (run a s).flatMap (run b)
  | .alt a b, s => run a s ++ run b s
  | .star a, s => iterate (run a) s.rest.length s
  | .opt a, s => run a s ++ [s]
  | .group n a, s => (run a s).map fun t => ⟨t.pos, t.rest, (n, s.rest.take (s.rest.length - t.rest.length)) :: t.caps⟩
  | .bol, s => if s.pos = 0 then [s] else []
  | .eol, s => if s.rest = [] then [s] else []

/-- What was matched: the text before, the text matched, the text after, the groups. -/
structure Match where
  prefix_ : Bytes
  text : Bytes
  suffix : Bytes
  caps : List (Nat × Bytes)
deriving DecidableEq, Repr

/-- `m[n].str()`: the empty text for a group that took no part. -/
def Match.group (m : Match) (n : Nat) : Bytes := (m.caps.lookup n).getD []

/-- `std::regex_match`: the first match that takes the whole text. -/
def fullMatch (r : Re) (s : Bytes) : Option Match :=
  ((run r ⟨0, s, []⟩).find? fun t => t.rest.isEmpty).map fun t => ⟨[], s, [], t.caps⟩

/-- A match at the beginning of `s`, with `pos` characters before it. -/
def matchAt (r : Re) (pos : Nat) (s : Bytes) : Option Match :=
  (run r ⟨pos, s, []⟩).head?.map fun t => ⟨[], s.take (s.length - t.rest.length), t.rest, t.caps⟩

/-- The match at the first place that has one. -/
def searchFrom (r : Re) : Nat → Bytes → Option Match
  | pos, [] => matchAt r pos []
  | pos, c :: s =>
    match matchAt r pos (c :: s) with
    | some m => some m
    | none => (searchFrom r (pos + 1) s).map fun m => { m with prefix_ := c :: m.prefix_ }

/-- `std::regex_search`. -/
def search (r : Re) (s : Bytes) : Option Match := searchFrom r 0 s

/-- `std::sregex_iterator`: the matches one after the other, each with the text since the one before, and the text after the last.
(What follows an empty match is not modelled: the iteration ends there.) -/
def matches_ (r : Re) : Nat → Nat → Bytes → List Match × Bytes
  | 0, _, s => ([], s)
  | f + 1, pos, s =>
    match searchFrom r pos s with
    | none => ([], s)
    | some m =>
      if m.text = [] then ([], s)
      else
        let n := matches_ r f (pos + m.prefix_.length + m.text.length) m.suffix
        (m :: n.1, n.2)

def allMatches (r : Re) (s : Bytes) : List Match × Bytes := matches_ r s.length 0 s

/-- `std::regex_replace(s, r, "")`. -/
def removeAll (r : Re) (s : Bytes) : Bytes := (allMatches r s).1.flatMap (·.prefix_) ++ (allMatches r s).2

end Regex
end Nebula
