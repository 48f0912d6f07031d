import Verif.Expr.FrameSpec
import Verif.Func.Spec
/-!
# Specification vocabulary for constant expressions (C122)
-/
namespace Nebula
namespace EvalSpec

/-- A call whose result is the same at all times: the name is not that of a function marked impure, and not `rand`. -/
def Steady (n : Bytes) (k : Nat) : Prop := Func.getIsPure n k ≠ some false ∧ ¬ Func.SameName n (ascii "rand")

mutual
/-- The expression is about nothing outside itself: every variable it reads is one of `B` or bound by a comprehension, predicate or reduction around it; no
properties, columns, vertices, edges, older versions of variables or aggregates; calls of steady functions only; no attribute of unknown name, no XOR of nothing (C45). -/
def Closed (B : List Bytes) : Expr → Prop
  | .const _ => True
  | .label _ => True
  | .uuid _ => True
  | .labelAttribute _ _ => True
  | .text _ _ => True
  | .unary _ e => Closed B e
  | .binary o l r => Closed B l ∧ Closed B r ∧ (o = .attribute → KnownName r)
  | .logical o es => ClosedL B es ∧ (o = .xor → es ≠ [])
  | .cast _ e => Closed B e
  | .call n es => Steady n es.length ∧ ClosedL B es
  | .var n _ => n ∈ B
  | .versionedVar n none => n ∈ B
  | .coll _ es => ClosedL B es
  | .map kvs => ClosedKv B kvs
  | .case _ c d cs => ClosedO B c ∧ ClosedO B d ∧ ClosedC B cs
  | .predicate _ i c f _ => Closed B c ∧ ClosedO (i :: B) f
  | .listComp i c f m _ => Closed B c ∧ ClosedO (i :: B) f ∧ ClosedO (i :: B) m
  | .reduce a i v c m _ => Closed B i ∧ Closed B c ∧ Closed (v :: a :: B) m
  | .range l lo hi => Closed B l ∧ ClosedO B lo ∧ ClosedO B hi
  | .versionedVar _ (some _) => False
  | .column _ => False
  | .prop _ _ _ _ => False
  | .vertex => False
  | .edge => False
  | .aggregate _ _ _ => False
def ClosedL (B : List Bytes) : List Expr → Prop
  | [] => True
  | e :: es => Closed B e ∧ ClosedL B es
def ClosedO (B : List Bytes) : Option Expr → Prop
  | none => True
  | some e => Closed B e
def ClosedKv (B : List Bytes) : List (Bytes × Expr) → Prop
  | [] => True
  | (_, e) :: es => Closed B e ∧ ClosedKv B es
def ClosedC (B : List Bytes) : List (Expr × Expr) → Prop
  | [] => True
  | (w, t) :: es => Closed B w ∧ Closed B t ∧ ClosedC B es
end

/-- The built-in functions with a clock and a random source, in any context. -/
def withFunctions (env : Env) (L : Func.FLib) (w : Func.World) : Env :=
  { env with fn := fun n k => (Func.getInternal n k).map fun f args => match Func.body L w f args with
      | .val v => some v
      | _ => none }

/-- Evaluating the expression changes nothing: it sets no variable (`++`, `--`, inner variables) and has no node that leaves its result behind for the next evaluation (attribute, XOR). -/
def Quiet (e : Expr) : Prop := ∀ x ∈ subs e, (∀ n, ¬ Assigns n x) ∧ LeavesNothing x

/-- Contexts that may differ in every value they hold. -/
def SameLibrary (env env' : Env) : Prop := env.regex = env'.regex ∧ env.lib = env'.lib ∧ env.strtod = env'.strtod ∧ env.text = env'.text

/-! ### Replacing sub-expressions by their values -/

/-- The value chosen for the expression, if any. -/
def pick : Option Value → Expr → Expr
  | some v, _ => .const v
  | none, e => e

mutual
/-- The expression with sub-expressions replaced by constants, outermost first, as `f` says; the node itself is kept.  What is asked of `exists` is not replaced itself: `exists`
looks at its operands. -/
def foldIn (f : Expr → Option Value) : Expr → Expr
  | .unary o e => .unary o (pick (f e) (foldIn f e))
  | .binary o l r => .binary o (pick (f l) (foldIn f l)) (pick (f r) (foldIn f r))
  | .logical o es => .logical o (foldL f es)
  | .cast t e => .cast t (pick (f e) (foldIn f e))
  | .call n es => .call n (foldL f es)
  | .versionedVar n e => .versionedVar n (foldO f e)
  | .coll k es => .coll k (foldL f es)
  | .map kvs => .map (foldKv f kvs)
  | .case g c d cs => .case g (foldO f c) (foldO f d) (foldC f cs)
  | .predicate n i c g o => .predicate n i (if n = ascii "exists" then foldIn f c else pick (f c) (foldIn f c)) (foldO f g) o
  | .listComp i c g m o => .listComp i (pick (f c) (foldIn f c)) (foldO f g) (foldO f m) o
  | .reduce a i v c m o => .reduce a (pick (f i) (foldIn f i)) v (pick (f c) (foldIn f c)) (pick (f m) (foldIn f m)) o
  | .aggregate n d a => .aggregate n d (foldO f a)
  | .range l lo hi => .range (pick (f l) (foldIn f l)) (foldO f lo) (foldO f hi)
  | .const v => .const v
  | .labelAttribute l r => .labelAttribute l r
  | .column i => .column i
  | .prop k a b c => .prop k a b c
  | .vertex => .vertex
  | .edge => .edge
  | .uuid x => .uuid x
  | .var n i => .var n i
  | .label n => .label n
  | .text a b => .text a b
def foldL (f : Expr → Option Value) : List Expr → List Expr
  | [] => []
  | e :: es => pick (f e) (foldIn f e) :: foldL f es
def foldO (f : Expr → Option Value) : Option Expr → Option Expr
  | none => none
  | some e => some (pick (f e) (foldIn f e))
def foldKv (f : Expr → Option Value) : List (Bytes × Expr) → List (Bytes × Expr)
  | [] => []
  | (k, e) :: es => (k, pick (f e) (foldIn f e)) :: foldKv f es
def foldC (f : Expr → Option Value) : List (Expr × Expr) → List (Expr × Expr)
  | [] => []
  | (w, t) :: es => (pick (f w) (foldIn f w), pick (f t) (foldIn f t)) :: foldC f es
end

/-- The expression with sub-expressions (or itself) replaced by constants. -/
def fold (f : Expr → Option Value) (e : Expr) : Expr := pick (f e) (foldIn f e)

end EvalSpec
end Nebula
