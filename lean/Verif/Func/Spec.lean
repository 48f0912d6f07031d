import Verif.Func.Model
/-!
# Specification of the built-in functions (independent of the algorithms)
-/
namespace Nebula
namespace Func

/-- Two names that differ only in the case of ASCII letters. -/
def SameName (a b : Bytes) : Prop := a.map Value.toLower = b.map Value.toLower

/-- The value has the type, or is a NULL. -/
def HasType (v : Value) (t : VType) : Prop := typeOf v = t ∨ typeOf v = .null

/-- `d` occurs in `s` at position `i`. -/
def OccursAt (d s : Bytes) (i : Nat) : Prop := ∃ r, s.drop i = d ++ r ∧ i ≤ s.length

/-- Cutting a text at the occurrences of a separator, the leftmost first. -/
inductive Cut (d : Bytes) : Bytes → List Bytes → Prop
  | last (s : Bytes) : (∀ i, ¬ OccursAt d s i) → Cut d s [s]
  | more (p r : Bytes) (ps : List Bytes) : (∀ i, i < p.length → ¬ OccursAt d (p ++ d ++ r) i) →
      Cut d r ps → Cut d (p ++ d ++ r) (p :: ps)

/-- The pieces written one after the other with a separator in between. -/
def joinWith (d : Bytes) : List Bytes → Bytes
  | [] => []
  | [p] => p
  | p :: ps => p ++ d ++ joinWith d ps

/-- A padding of length `n`: copies of the text, cut to the length. -/
def IsPadding (x : Bytes) (n : Nat) (p : Bytes) : Prop :=
  p.length = n ∧ ∀ i, i < n → p[i]? = x[i % x.length]?

/-- Sorted strictly by byte order (so without repetitions). -/
def SortedNames : List Bytes → Prop
  | [] => True
  | [_] => True
  | a :: b :: r => bytesLt a b = true ∧ SortedNames (b :: r)

end Func
end Nebula
