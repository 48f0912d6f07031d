import Verif.Expr.EvalSpec
/-!
# Specification vocabulary for what an evaluation reads and writes (C45, C71)
-/
namespace Nebula
namespace EvalSpec

mutual
/-- The expression and all expressions inside it. -/
def subs : Expr → List Expr
  | .unary o e => .unary o e :: subs e
  | .binary o l r => .binary o l r :: (subs l ++ subs r)
  | .logical o es => .logical o es :: subsL es
  | .cast t e => .cast t e :: subs e
  | .call n es => .call n es :: subsL es
  | .versionedVar n v => .versionedVar n v :: subsO v
  | .coll k es => .coll k es :: subsL es
  | .map kvs => .map kvs :: subsKv kvs
  | .case g c d cs => .case g c d cs :: (subsO c ++ subsO d ++ subsC cs)
  | .predicate n i c f o => .predicate n i c f o :: (subs c ++ subsO f)
  | .listComp i c f m o => .listComp i c f m o :: (subs c ++ subsO f ++ subsO m)
  | .reduce a i v c m o => .reduce a i v c m o :: (subs i ++ subs c ++ subs m)
  | .aggregate n d a => .aggregate n d a :: subsO a
  | .range l lo hi => .range l lo hi :: (subs l ++ subsO lo ++ subsO hi)
  | .const v => [.const v]
  | .labelAttribute l r => [.labelAttribute l r]
  | .column i => [.column i]
  | .prop k r s p => [.prop k r s p]
  | .vertex => [.vertex]
  | .edge => [.edge]
  | .uuid f => [.uuid f]
  | .var n i => [.var n i]
  | .label n => [.label n]
  | .text k a => [.text k a]
def subsL : List Expr → List Expr
  | [] => []
  | e :: es => subs e ++ subsL es
def subsO : Option Expr → List Expr
  | none => []
  | some e => subs e
def subsKv : List (Bytes × Expr) → List Expr
  | [] => []
  | (_, e) :: es => subs e ++ subsKv es
def subsC : List (Expr × Expr) → List Expr
  | [] => []
  | (w, t) :: es => subs w ++ subs t ++ subsC es
end

/-- The node gives the variable `n` a value: an inner variable, an accumulator, `++`, `--`. -/
inductive Assigns (n : Bytes) : Expr → Prop
  | incrVar (i : Bool) : Assigns n (.unary .incr (.var n i))
  | decrVar (i : Bool) : Assigns n (.unary .decr (.var n i))
  | predicate (m : Bytes) (c : Expr) (f : Option Expr) (o : Bytes) : Assigns n (.predicate m n c f o)
  | listComp (c : Expr) (f m : Option Expr) (o : Bytes) : Assigns n (.listComp n c f m o)
  | accumulator (i : Expr) (v : Bytes) (c m : Expr) (o : Bytes) : Assigns n (.reduce n i v c m o)
  | reduce (a : Bytes) (i c m : Expr) (o : Bytes) : Assigns n (.reduce a i n c m o)

/-- The node reads the variable `n`. -/
inductive ReadsVar (n : Bytes) : Expr → Prop
  | var (i : Bool) : ReadsVar n (.var n i)
  | versioned (v : Option Expr) : ReadsVar n (.versionedVar n v)
  | accumulator (i : Expr) (v : Bytes) (c m : Expr) (o : Bytes) : ReadsVar n (.reduce n i v c m o)

/-- The name of an attribute that is written in the expression and known: it does not begin with an
underscore or is one of `_src`, `_dst`, `_rank`, `_type`. -/
def KnownName (r : Expr) : Prop :=
  ∃ k : Bytes, (r = .const (.str k) ∨ r = .label k) ∧
    (k.head? ≠ some 95 ∨ k ∈ ["_src", "_dst", "_rank", "_type"].map ascii)

/-- The node does not return what an earlier evaluation left behind: no attribute with an unknown
name, no XOR of nothing. -/
def NoLeftover (e : Expr) : Prop :=
  (∀ l r, e = .binary .attribute l r → KnownName r) ∧ e ≠ .logical .xor []

/-- The node leaves no result behind. -/
def LeavesNothing (e : Expr) : Prop := (∀ l r, e ≠ .binary .attribute l r) ∧ ∀ es, e ≠ .logical .xor es

end EvalSpec
end Nebula
