import Verif.Text
/-!
# Model of the web router (src/common/webservice/Router.{h,cpp})

The regular expressions: `reToken_` is matched by a scan; the expression built from a route is a list of
items (a byte, `.`, or the group `([^/]+)`) with the backtracking search of ECMAScript expressions,
longest run of a group first, leftmost start first. Routes whose literal text contains other
metacharacters (`^$*+?()[]{}|\`) are not modelled here (`compile` gives `none`; see Regex/Routes). The handler generator of a
route is a name `h`. A `CHECK` that fails and an exception are `none`.
-/
namespace Nebula
namespace Web

/-- An item of a compiled pattern. -/
inductive Item where
  | lit (c : UInt8)
  | any
  | group
deriving DecidableEq, Repr

/-- `[A-Za-z]` -/
def isAlpha (c : UInt8) : Bool := (65 ≤ c && c ≤ 90) || (97 ≤ c && c ≤ 122)
/-- `[A-Za-z_0-9]` -/
def isWord (c : UInt8) : Bool := isAlpha c || isDigit c || c == 95
/-- Metacharacters of an expression other than `.`. -/
def isMeta (c : UInt8) : Bool := (ascii "^$*+?()[]{}|\\").contains c

/-- Router.cpp:38-60 `createPattenRegex`: the items of the expression and the names of the groups.
`skip` is the number of bytes that belong to the token just read. -/
def scan : Nat → Bytes → Option (List Item × List Bytes)
  | _, [] => some ([], [])
  | k + 1, _ :: s => scan k s
  | 0, c :: s =>
    if c = 58 ∧ (s.head?.map isAlpha).getD false then
      (scan (s.takeWhile isWord).length s).map fun r => (.group :: r.1, s.takeWhile isWord :: r.2)
    else if isMeta c then none
    else (scan 0 s).map fun r => ((if c = 46 then .any else .lit c) :: r.1, r.2)

/-- No name twice (the `CHECK_NE` of Router.cpp:48-51). -/
def distinct : List Bytes → Bool
  | [] => true
  | n :: ns => !ns.contains n && distinct ns

/-- What a route matches (Router.h:66-72). -/
inductive Pattern where
  | exact (path : Bytes)
  | regex (items : List Item) (groups : List Bytes)
deriving DecidableEq, Repr

/-- Router.cpp:19-36 `checkPath`, `setPath`. -/
def compile (path : Bytes) : Option Pattern :=
  if path.head? ≠ some 47 then none
  else if (58 : UInt8) ∈ path then
    match scan 0 path with
    | none => none
    | some (items, groups) => if distinct groups then some (.regex items groups) else none
  else if path.length > 1 ∧ path.getLast? = some 47 then some (.exact path.dropLast)
  else some (.exact path)

/-- A group: the longest run first. `f` matches the rest of the expression. -/
def tryLens (f : Bytes → Option (List Bytes × Bytes)) (s : Bytes) : Nat → Option (List Bytes × Bytes)
  | 0 => none
  | k + 1 =>
    match f (s.drop (k + 1)) with
    | some (gs, r) => some (s.take (k + 1) :: gs, r)
    | none => tryLens f s k

/-- The expression matched at the beginning of a text: the groups and the text that follows. -/
def matchAt : List Item → Bytes → Option (List Bytes × Bytes)
  | [], s => some ([], s)
  | .lit _ :: _, [] => none
  | .lit c :: is, d :: s => if c = d then matchAt is s else none
  | .any :: _, [] => none
  | .any :: is, d :: s => if d = 10 ∨ d = 13 then none else matchAt is s
  | .group :: is, s => tryLens (matchAt is) s (s.takeWhile (· ≠ 47)).length

/-- `std::regex_search`: the groups of the leftmost match. -/
def search (is : List Item) : Bytes → Option (List Bytes)
  | [] => (matchAt is []).map (·.1)
  | c :: s =>
    match matchAt is (c :: s) with
    | some r => some r.1
    | none => search is s

/-- Router.h:31-72 `Route`. -/
structure Route where
  method : Nat
  pattern : Pattern
  h : Nat
deriving DecidableEq, Repr

/-- Router.cpp:66-71. -/
def normPath (path : Bytes) : Bytes :=
  if path = [] then [47]
  else if path.length > 1 ∧ path.getLast? = some 47 then path.dropLast
  else path

/-- Router.cpp:62-77 `Route::matches`. -/
def Route.matches (r : Route) (method : Nat) (path : Bytes) : Bool :=
  if r.method ≠ method then false
  else
    match r.pattern with
    | .regex items _ => (search items (normPath path)).isSome
    | .exact p => p == normPath path

/-- The answer of the router: the handler `h` with its parameters, or the handler of unknown paths. -/
inductive Answer where
  | handler (h : Nat) (params : List (Bytes × Bytes))
  | notFound
deriving DecidableEq, Repr

/-- Router.cpp:92-104 `Route::generateHandler`, on the path as it came. -/
def Route.generate (r : Route) (path : Bytes) : Option Answer :=
  match r.pattern with
  | .exact _ => some (.handler r.h [])
  | .regex items groups =>
    match search items path with
    | none => none
    | some gs => if gs.length = groups.length then some (.handler r.h (groups.zip gs)) else none

/-- Router.cpp:106-113 `Router::dispatch`. `method` is `none` if proxygen does not know it
(`getMethod().value()` throws). -/
def dispatch : List Route → Option Nat → Bytes → Option Answer
  | [], _, _ => some .notFound
  | r :: rs, method, path =>
    match method with
    | none => none
    | some m => if r.matches m path then r.generate path else dispatch rs method path

/-- Router.cpp:115-127 `Router::route`: the route added at the end of the list; `none` if a `CHECK` fails. -/
def addRoute (pre : Bytes) (rs : List Route) (method : Nat) (path : Bytes) (h : Nat) : Option (List Route) :=
  let path := if path = [] then [47] else path
  match compile (if pre ≠ [] then 47 :: pre ++ path else path) with
  | none => none
  | some p => some (rs ++ [⟨method, p, h⟩])

end Web
end Nebula
