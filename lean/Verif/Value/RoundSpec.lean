import Verif.Value.Arith
import Mathlib.Algebra.Order.Field.Rat
import Mathlib.Algebra.Order.AbsoluteValue.Basic
/-! # Specification of floating-point results (C117) -/
namespace Nebula
namespace Spec

/-- The finite numbers of IEEE-754 binary64: 53 binary digits, exponents from -1074 to 971. -/
def IsDouble (p : Rat) : Prop := ∃ m e : Int, |m| < 2 ^ 53 ∧ -1074 ≤ e ∧ e ≤ 971 ∧ p = (m : Rat) * (2 : Rat) ^ e

/-- The largest of them. -/
def maxDouble : Rat := (2 ^ 53 - 1) * 2 ^ 971

/-- `f` is the right `double` for the exact result `q`: a number that no other `double` is nearer to, or, beyond the largest number, an infinity with the right sign. -/
def Correct (f : F64) (q : Rat) : Prop :=
  (∃ r, f = .fin r ∧ IsDouble r ∧ ∀ p, IsDouble p → |r - q| ≤ |p - q|) ∨ (f = .inf false ∧ maxDouble < q) ∨ (f = .inf true ∧ q < -maxDouble)

/-- The exact number that a numeric value stands for; integers up to 2^53 (beyond it they are rounded before the operation). -/
def numberOf : Value → Option Rat
  | .int i => if -9007199254740992 ≤ i ∧ i ≤ 9007199254740992 then some i else none
  | .float (.fin q) => some q
  | _ => none

end Spec
end Nebula
