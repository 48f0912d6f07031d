import Verif.Regex.UsesWeb
/-!
# Model of the web router for routes of any text (src/common/webservice/Router.{h,cpp})

Web/Router models routes whose text has no metacharacter but the dot.  Here the text between the parameters is what it is for the code: a piece of a regular expression.  What the model
of regular expressions does not read (Regex/Model) is refused.  A failed `CHECK` and an exception are `none`.
-/
namespace Nebula
namespace Regex

/-- `std::regex::mark_count`: groups are numbered from 1. -/
def Re.marks : Re → Nat
  | .group n a => max n a.marks
  | .seq a b | .alt a b => max a.marks b.marks
  | .star a | .opt a => a.marks
  | _ => 0

/-- Router.h:66-72: `path_`, or `pattern_` and `groups_`. -/
inductive RoutePattern where
  | exact (path : Bytes)
  | expr (r : Re) (names : List Bytes)
deriving DecidableEq

/-- Router.cpp:19-60 `checkPath`, `setPath`, `createPattenRegex`. -/
def compileRoute (path : Bytes) : Option RoutePattern :=
  if path.head? ≠ some 47 then none
  else if (58 : UInt8) ∈ path then
    match routeText path with
    | none => none
    | some (text, names) => if Web.distinct names then (parse text).map fun r => .expr r names else none
  else if path.length > 1 ∧ path.getLast? = some 47 then some (.exact path.dropLast)
  else some (.exact path)

/-- Router.h:31-72 `Route`. -/
structure AnyRoute where
  method : Nat
  pattern : RoutePattern
  h : Nat
deriving DecidableEq

/-- Router.cpp:62-77 `Route::matches`: with the path without a slash at its end. -/
def AnyRoute.matches (x : AnyRoute) (method : Nat) (path : Bytes) : Bool :=
  if x.method ≠ method then false
  else
    match x.pattern with
    | .expr r _ => (search r (Web.normPath path)).isSome
    | .exact p => p == Web.normPath path

/-- Router.cpp:92-104 `Route::generateHandler`: with the path as it came.  Without a match `m.size() - 1UL` is 2^64 - 1, which no number of names is. -/
def AnyRoute.generate (x : AnyRoute) (path : Bytes) : Option Web.Answer :=
  match x.pattern with
  | .exact _ => some (.handler x.h [])
  | .expr r names =>
    match search r path with
    | none => none
    | some m => if names.length = r.marks then some (.handler x.h (names.zip (m.groups names.length))) else none

/-- Router.cpp:106-113 `Router::dispatch`. -/
def dispatchAny : List AnyRoute → Option Nat → Bytes → Option Web.Answer
  | [], _, _ => some .notFound
  | x :: xs, method, path =>
    match method with
    | none => none
    | some m => if x.matches m path then x.generate path else dispatchAny xs method path

/-- Router.cpp:115-127 `Router::route`. -/
def addAny (pre : Bytes) (xs : List AnyRoute) (method : Nat) (path : Bytes) (h : Nat) : Option (List AnyRoute) :=
  let path := if path = [] then [47] else path
  match compileRoute (if pre ≠ [] then 47 :: pre ++ path else path) with
  | none => none
  | some p => some (xs ++ [⟨method, p, h⟩])

end Regex
end Nebula
