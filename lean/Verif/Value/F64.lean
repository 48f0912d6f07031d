import Verif.Base
/-!
# Model of `double`

The C++ type `double` used by `Value` (src/common/datatypes/Value.h:67, FLOAT) is IEEE-754
binary64.  A number is its exact rational value; the operations compute the exact result and round
it to nearest, ties to even.  Simplification: negative zero is identified with zero.
-/
namespace Nebula

/-- A `double`: not-a-number, an infinity (`neg` tells the sign), or a finite number. -/
inductive F64 where
  | nan
  | inf (neg : Bool)
  | fin (q : Rat)
deriving DecidableEq, Repr

namespace F64

/-- `2^e` for an integer exponent. -/
def pow2 (e : Int) : Rat := if 0 ≤ e then (2 ^ e.toNat : Nat) else 1 / ((2 ^ (-e).toNat : Nat) : Rat)

/-- The exponent `e` with `2^e ≤ q < 2^(e+1)`, for `q > 0`. -/
def ilog2 (q : Rat) : Int :=
  let e : Int := (q.num.natAbs.log2 : Int) - (q.den.log2 : Int)
  if pow2 e ≤ q then e else e - 1

/-- Round to an integer, ties to even. -/
def roundEven (q : Rat) : Int :=
  let f := q.floor
  let r := q - f
  if r < 1 / 2 then f else if 1 / 2 < r then f + 1 else if f % 2 = 0 then f else f + 1

/-- IEEE-754 binary64 rounding of an exact result (round to nearest, ties to even, gradual
underflow, overflow to infinity). -/
def round (q : Rat) : F64 :=
  if q = 0 then .fin 0
  else
    let a := if q < 0 then -q else q
    let u := max (ilog2 a - 52) (-1074)
    let r := (roundEven (a / pow2 u) : Rat) * pow2 u
    if pow2 1024 ≤ r then .inf (decide (q < 0)) else .fin (if q < 0 then -r else r)

/-- A rational that a `double` can hold. -/
def Representable (q : Rat) : Prop := round q = .fin q

instance (q : Rat) : Decidable (Representable q) := by unfold Representable; infer_instance

/-- Conversion from `int64_t`. -/
def ofInt (i : Int) : F64 := round (i : Rat)

def neg : F64 → F64
  | .nan => .nan
  | .inf s => .inf (!s)
  | .fin q => .fin (-q)

def abs : F64 → F64
  | .nan => .nan
  | .inf _ => .inf false
  | .fin q => .fin (if q < 0 then -q else q)

def add : F64 → F64 → F64
  | .nan, _ => .nan
  | _, .nan => .nan
  | .inf s, .inf t => if s = t then .inf s else .nan
  | .inf s, .fin _ => .inf s
  | .fin _, .inf t => .inf t
  | .fin a, .fin b => round (a + b)

def sub (a b : F64) : F64 := add a (neg b)

def mul : F64 → F64 → F64
  | .nan, _ => .nan
  | _, .nan => .nan
  | .inf s, .inf t => .inf (s != t)
  | .inf s, .fin b => if b = 0 then .nan else .inf (s != decide (b < 0))
  | .fin a, .inf t => if a = 0 then .nan else .inf (t != decide (a < 0))
  | .fin a, .fin b => round (a * b)

/-- Division; a zero divisor gives nan for 0/0 and otherwise an infinity (whose sign, for the
positive zero of this model, is that of the dividend). -/
def div : F64 → F64 → F64
  | .nan, _ => .nan
  | _, .nan => .nan
  | .inf _, .inf _ => .nan
  | .inf s, .fin b => .inf (s != decide (b < 0))
  | .fin _, .inf _ => .fin 0
  | .fin a, .fin b => if b = 0 then (if a = 0 then .nan else .inf (decide (a < 0))) else round (a / b)

/-- Truncation towards zero of a rational. -/
def trunc (q : Rat) : Int := if 0 ≤ q then q.floor else -((-q).floor)

/-- `std::fmod`: the exact remainder with the sign of the dividend. -/
def fmod : F64 → F64 → F64
  | .nan, _ => .nan
  | _, .nan => .nan
  | .inf _, _ => .nan
  | .fin a, .inf _ => .fin a
  | .fin a, .fin b => if b = 0 then .nan else .fin (a - b * (trunc (a / b) : Rat))

/-- `<`: false if an operand is not-a-number. -/
def lt : F64 → F64 → Bool
  | .nan, _ => false
  | _, .nan => false
  | .inf s, .inf t => s && !t
  | .inf s, .fin _ => s
  | .fin _, .inf t => !t
  | .fin a, .fin b => decide (a < b)

/-- `<=`: false if an operand is not-a-number. -/
def le : F64 → F64 → Bool
  | .nan, _ => false
  | _, .nan => false
  | .inf s, .inf t => s || !t
  | .inf s, .fin _ => s
  | .fin _, .inf t => !t
  | .fin a, .fin b => decide (a ≤ b)

/-- Value.h:422 `kEpsilon = 1e-8`: the `double` nearest to 10^-8. -/
def eps : F64 := round (1 / 100000000)

example : ofInt 9007199254740993 = .fin 9007199254740992 := by decide +kernel
example : ofInt 9223372036854775807 = .fin 9223372036854775808 := by decide +kernel
example : round (1/3) = .fin (6004799503160661 / 18014398509481984) := by decide +kernel
example : Representable (1/2^28) := by decide +kernel

end F64
end Nebula
