import Verif.Web.Router
/-! # Specification vocabulary for C61 -/
namespace Nebula
namespace Web

/-- A segment of a route: a literal text or a parameter. -/
inductive Seg where
  | lit (t : Bytes)
  | param (name : Bytes)

/-- A letter, and a byte of an identifier. -/
def Letter (c : UInt8) : Prop := (65 ≤ c ∧ c ≤ 90) ∨ (97 ≤ c ∧ c ≤ 122)
def IdentByte (c : UInt8) : Prop := Letter c ∨ (48 ≤ c ∧ c ≤ 57) ∨ c = 95

/-- Literals are nonempty and have none of `/`, `:`, `.` and the metacharacters; names are identifiers. -/
def Seg.Ok : Seg → Prop
  | .lit t => t ≠ [] ∧ ∀ c ∈ t, c ≠ 47 ∧ c ≠ 58 ∧ c ≠ 46 ∧ c ∉ ascii "^$*+?()[]{}|\\"
  | .param n => (∃ c m, n = c :: m ∧ Letter c) ∧ ∀ c ∈ n, IdentByte c

/-- The text of a route: `/lit/:name…`. -/
def routeText : List Seg → Bytes
  | [] => []
  | .lit t :: ss => 47 :: t ++ routeText ss
  | .param n :: ss => 47 :: 58 :: n ++ routeText ss

/-- The names of the parameters. -/
def names : List Seg → List Bytes
  | [] => []
  | .lit _ :: ss => names ss
  | .param n :: ss => n :: names ss

/-- The path that gives the parameters the values `vs`, in order. -/
def fill : List Seg → List Bytes → Bytes
  | [], _ => []
  | .lit t :: ss, vs => 47 :: t ++ fill ss vs
  | .param _ :: ss, v :: vs => 47 :: v ++ fill ss vs
  | .param _ :: _, [] => []

/-- A value of a parameter: nonempty and without a slash. -/
def ValueOk (v : Bytes) : Prop := v ≠ [] ∧ (47 : UInt8) ∉ v

/-- `t` is an instance of the items: each group replaced by its text. -/
inductive Inst : List Item → List Bytes → Bytes → Prop
  | nil : Inst [] [] []
  | lit {c is gs t} : Inst is gs t → Inst (.lit c :: is) gs (c :: t)
  | any {c is gs t} : c ≠ 10 → c ≠ 13 → Inst is gs t → Inst (.any :: is) gs (c :: t)
  | group {v is gs t} : ValueOk v → Inst is gs t → Inst (.group :: is) (v :: gs) (v ++ t)

/-- The text of a route that is a pattern, read from the left: a colon and an identifier (as long as it goes) are a parameter; `.` stands for any byte but a line break;
other bytes, and colons without a letter behind them, stand for themselves. Texts with other metacharacters are not read. -/
inductive Reads : Bytes → List Item → List Bytes → Prop
  | nil : Reads [] [] []
  | byte {c s is ns} : c ≠ 46 → c ∉ ascii "^$*+?()[]{}|\\" → (c = 58 → ∀ d r, s = d :: r → ¬ Letter d) → Reads s is ns → Reads (c :: s) (.lit c :: is) ns
  | dot {s is ns} : Reads s is ns → Reads (46 :: s) (.any :: is) ns
  | param {c n s is ns} : Letter c → (∀ d ∈ n, IdentByte d) → (∀ d r, s = d :: r → ¬ IdentByte d) → Reads s is ns →
      Reads (58 :: c :: n ++ s) (.group :: is) ((c :: n) :: ns)

/-- What it means for a route to answer a request. -/
def Answers (r : Route) (m : Nat) (path : Bytes) : Prop := r.matches m path = true

end Web
end Nebula
