import Verif.Net.Model
/-! # Specification vocabulary for C58 and C59 -/
namespace Nebula
namespace Net

/-- Pieces joined by a separator. -/
def join (sep : Bytes) : List Bytes → Bytes
  | [] => []
  | [e] => e
  | e :: es => e ++ sep ++ join sep es

/-- `s` is a decimal numeral of `v` (32 bits), possibly signed and surrounded by blanks. -/
def Numeral (s : Bytes) (v : Int) : Prop :=
  ∃ sp sg ds sp', s = sp ++ sg ++ ds ++ sp' ∧ (∀ c ∈ sp, isSpace c = true) ∧ (∀ c ∈ sp', isSpace c = true) ∧
    ds ≠ [] ∧ (∀ c ∈ ds, isDigit c = true) ∧ -2 ^ 31 ≤ v ∧ v < 2 ^ 31 ∧
    ((sg = [45] ∧ v = -(digitsVal 0 ds : Int)) ∨ ((sg = [] ∨ sg = [43]) ∧ v = digitsVal 0 ds))

/-- The entry `e` denotes the address `h`: after blanks its name, a colon and its port. -/
def Denotes (e : Bytes) (h : HostAddr) : Prop :=
  ∃ sp n, e = sp ++ h.host ++ 58 :: n ∧ (∀ c ∈ sp, isTrim c = true) ∧ (58 : UInt8) ∉ h.host ∧ (∀ c, h.host.head? = some c → isTrim c = false) ∧ Numeral n h.port

/-- Entry by entry. -/
def Each {α β : Type} (R : α → β → Prop) : List α → List β → Prop
  | [], [] => True
  | a :: l, b :: m => R a b ∧ Each R l m
  | _, _ => False

/-- A host name that can be written in a host list: no NUL, comma or colon, and no blank in front. -/
def PlainHost (h : Bytes) : Prop := (0 : UInt8) ∉ h ∧ (44 : UInt8) ∉ h ∧ (58 : UInt8) ∉ h ∧ ∀ c, h.head? = some c → isTrim c = false

/-- Dotted decimal text of four numbers. -/
def dotted (a b c d : Nat) : Bytes := join [46] [natDec a, natDec b, natDec c, natDec d]

end Net
end Nebula
