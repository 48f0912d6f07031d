import Verif.Expr.Eval
/-!
# Specification vocabulary for the evaluation of expressions (C38–C46, C71)
-/
namespace Nebula
namespace EvalSpec

/-- The expressions `es`, at the positions `i`, `i+1`, … below `p`, evaluate one after the other to the
values `vs`; the evaluation starts in `s` and ends in `s'`. -/
inductive Evaluates (env : Env) (p : List Nat) : Nat → List Expr → EState → List Value → EState → Prop
  | nil (i : Nat) (s : EState) : Evaluates env p i [] s [] s
  | cons {i : Nat} {e : Expr} {es : List Expr} {s s1 s2 : EState} {v : Value} {vs : List Value}
      (head : e.eval env (i :: p) s = some (v, s1)) (tail : Evaluates env p (i + 1) es s1 vs s2) :
      Evaluates env p i (e :: es) s (v :: vs) s2

/-- NULL (the plain one). -/
abbrev NULL : Value := .null .null
/-- The error value of a wrong type. -/
abbrev BAD_TYPE : Value := .null .badType

/-- A NULL that stands for an error. -/
def IsBadNull (v : Value) : Prop := ∃ n, v = .null n ∧ n ≠ .null

/-- Neither a boolean nor NULL nor EMPTY. -/
def NotLogical (v : Value) : Prop := (∀ b, v ≠ .bool b) ∧ (∀ n, v ≠ .null n) ∧ v ≠ .empty

/-- The three-valued negation. -/
inductive Negation : Value → Value → Prop
  | bool (b : Bool) : Negation (.bool b) (.bool (!b))
  | null (n : NullType) : Negation (.null n) (.null n)

/-- The elements `xs` a membership test looks at: the elements of a list or set, the keys of a map. -/
inductive Elements : Value → List Value → Prop
  | list (xs : List Value) : Elements (.list xs) xs
  | set (xs : List Value) : Elements (.set xs) xs
  | map (m : List (Bytes × Value)) : Elements (.map m) (m.map fun kv => .str kv.1)

/-- Neither NULL nor EMPTY, and of the same type or both numbers. -/
def Comparable (a b : Value) : Prop :=
  (∀ n, a ≠ .null n) ∧ (∀ n, b ≠ .null n) ∧ a ≠ .empty ∧ b ≠ .empty ∧
  (a.typeFlag = b.typeFlag ∨ (a.isNumeric = true ∧ b.isNumeric = true))

/-- The position a bound denotes in a list of `n` elements: negative bounds count from the end. -/
def fromEnd (n : Nat) (i : Int) : Int := if i < 0 then n + i else i

/-- The elements of `xs` at the positions `lo ≤ j < hi`, in order. -/
def between {α : Type} (xs : List α) (lo hi : Int) : List α :=
  (xs.zipIdx.filter fun x => decide (lo ≤ x.2 ∧ (x.2 : Int) < hi)).map Prod.fst

/-- The two states give the same values to variables and hold the same aggregates. -/
def SameContext (s t : EState) : Prop := s.vars = t.vars ∧ s.agg = t.agg

/-! ## C38: AND and OR -/

/-- The values that end an AND (`dom = false`) or OR (`dom = true`), and the result they give. -/
inductive Decides (dom : Bool) : Value → Value → Prop
  | dominates : Decides dom (.bool dom) (.bool dom)
  | bad {v : Value} : IsBadNull v → Decides dom v v
  | type {v : Value} : NotLogical v → Decides dom v BAD_TYPE

/-- The values that do not. -/
def Neutral (dom : Bool) (v : Value) : Prop := v = .bool (!dom) ∨ v = NULL ∨ v = .empty

/-- The result of an AND or OR that no operand ends: NULL before EMPTY before the boolean. -/
def Combined (dom : Bool) (vs : List Value) (r : Value) : Prop :=
  (NULL ∈ vs → r = NULL) ∧ (NULL ∉ vs → Value.empty ∈ vs → r = .empty) ∧
  (NULL ∉ vs → Value.empty ∉ vs → r = .bool (!dom))

/-- No EMPTY comes after a NULL. -/
def NoEmptyAfterNull (vs : List Value) : Prop := ∀ a b, vs = a ++ b → NULL ∈ a → Value.empty ∉ b

/-- The number of operands that are true. -/
def trues (vs : List Value) : Nat := vs.countP fun v => match v with | .bool true => true | _ => false

/-! ## C43: CASE -/

/-- The branches `cs`, the first at position `i`, are passed over: their conditions evaluate and do not
hold.  With `c = some v` a branch holds if its value equals `v`, with `none` if its value is true. -/
inductive Passed (env : Env) (p : List Nat) (c : Option Value) : Nat → List (Expr × Expr) → EState → EState → Prop
  | nil (i : Nat) (s : EState) : Passed env p c i [] s s
  | cons {i : Nat} {w t : Expr} {cs : List (Expr × Expr)} {s s1 s2 : EState} {v : Value}
      (head : w.eval env (i :: p) s = some (v, s1))
      (fails : match c with | some x => Value.beq x v = false | none => v = .bool false)
      (tail : Passed env p c (i + 2) cs s1 s2) : Passed env p c i ((w, t) :: cs) s s2

/-! ## C44: predicates, list comprehension, reduce -/

/-- The elements are bound to `inner` one after the other and the condition `f` evaluated; `bs` tells
for each element whether the condition is true (NULL and EMPTY are not true). -/
inductive Tested (env : Env) (inner : Bytes) (f : Expr) (p : List Nat) : List Value → EState → List Bool → EState → Prop
  | nil (s : EState) : Tested env inner f p [] s [] s
  | bool {x : Value} {xs : List Value} {s s1 s2 : EState} {b : Bool} {bs : List Bool}
      (head : f.eval env p (s.setVar inner x) = some (.bool b, s1)) (tail : Tested env inner f p xs s1 bs s2) :
      Tested env inner f p (x :: xs) s (b :: bs) s2
  | null {x : Value} {xs : List Value} {s s1 s2 : EState} {n : NullType} {bs : List Bool}
      (head : f.eval env p (s.setVar inner x) = some (.null n, s1)) (tail : Tested env inner f p xs s1 bs s2) :
      Tested env inner f p (x :: xs) s (false :: bs) s2
  | empty {x : Value} {xs : List Value} {s s1 s2 : EState} {bs : List Bool}
      (head : f.eval env p (s.setVar inner x) = some (.empty, s1)) (tail : Tested env inner f p xs s1 bs s2) :
      Tested env inner f p (x :: xs) s (false :: bs) s2

/-- The predicates by name and what they say about the verdicts. -/
def Verdict (name : String) (bs : List Bool) : Option Prop :=
  if name = "all" then some (∀ b ∈ bs, b = true)
  else if name = "any" then some (true ∈ bs)
  else if name = "single" then some (bs.count true = 1)
  else if name = "none" then some (true ∉ bs)
  else none

/-- `e` is a function of the variables `ns`: in every state that agrees with `s` on the other variables
and on the aggregates it evaluates to `F` of the values of `ns`, and changes no variable but those and
no aggregate. -/
def FunctionOf (env : Env) (e : Expr) (p : List Nat) (ns : List Bytes) (s : EState) (F : (Bytes → Value) → Value) : Prop :=
  ∀ t : EState, (∀ n, n ∉ ns → t.vars n = s.vars n) → t.agg = s.agg →
    ∃ t', e.eval env p t = some (F t.vars, t') ∧ (∀ n, n ∉ ns → t'.vars n = s.vars n) ∧ t'.agg = s.agg

end EvalSpec
end Nebula
