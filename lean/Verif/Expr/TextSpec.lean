import Verif.Expr.Text
import Verif.Value.TextProps
/-!
# Specification for C120: the expressions whose text identifies them
-/
namespace Nebula
namespace Expr

/-- Words that stand for something else than a label. -/
def reserved : List Bytes :=
  [ascii "VERTEX", ascii "EDGE", ascii "CASE", ascii "WHEN", ascii "ELSE", ascii "END", ascii "COLUMN", ascii "PathBuild", ascii "distinct", ascii "true", ascii "false", ascii "__EMPTY__",
   ascii "NULL", ascii "__NULL_BAD_DATA__", ascii "__NULL_BAD_TYPE__", ascii "__NULL_DIV_BY_ZERO__", ascii "__NULL_OVERFLOW__", ascii "__NULL_NaN__", ascii "__NULL_UNKNOWN_PROP__",
   ascii "__NULL_OUT_OF_RANGE__"]

/-- The four predicates with a condition. -/
def predicates : List Bytes := [ascii "all", ascii "any", ascii "single", ascii "none"]

/-- Names before a parenthesis that are not functions. -/
def reservedCalls : List Bytes := [ascii "uuid", ascii "reduce", ascii "exists"] ++ predicates

/-- A name that can be a label. -/
def IsLabel (l : Bytes) : Prop := IsName l ∧ l ∉ reserved

instance (l : Bytes) : Decidable (IsLabel l) := inferInstanceAs (Decidable (_ ∧ _))

/-- The types a value can be cast to (Value.h:63-80). -/
def castTypes : List Nat := [1, 2, 4, 8, 16, 32, 64, 128, 256, 512, 1024, 2048, 4096, 8192, 16384, 9223372036854775808]

/-- The operators written between their operands. -/
def Infix (o : BinOp) : Prop := o ≠ .subscript ∧ o ≠ .attribute

/-- Expressions behind which `[…]` and ` IS NULL` can be written: casts are not in parentheses, so that what follows would belong to their operand. -/
def IsBase : Expr → Prop
  | .cast _ _ => False
  | _ => True

/-- Expressions whose text changes its meaning if a dot and a name follow: a label becomes a property of a label, a variable a property of a variable. -/
def Bare : Expr → Prop
  | .label _ | .var _ _ => True
  | _ => False

/-- Constants whose texts are not ambiguous. -/
inductive PlainC : Value → Prop
  | empty : PlainC .empty
  | null (n) : PlainC (.null n)
  | bool (b) : PlainC (.bool b)
  | int (i) : PlainC (.int i)
  | str (s) : 34 ∉ s → PlainC (.str s)

/-- The expressions this property is about; `agg` tells which names are aggregate functions. -/
inductive Plain (agg : Bytes → Bool) : Expr → Prop
  | const (v) : PlainC v → Plain agg (.const v)
  | front (o f e) : UnOp.front o = some f → Plain agg e → Plain agg (.unary o e)
  | behind (o e) : UnOp.front o = none → IsBase e → Plain agg e → Plain agg (.unary o e)
  | binary (o l r) : Infix o → Plain agg l → Plain agg r → Plain agg (.binary o l r)
  | subscript (l r) : IsBase l → Plain agg l → Plain agg r → Plain agg (.binary .subscript l r)
  | attribute (l p) : IsBase l → ¬ Bare l → IsName p → Plain agg l → Plain agg (.binary .attribute l (.const (.str p)))
  | labelAttribute (l p) : IsLabel l → IsName p → Plain agg (.labelAttribute l (.str p))
  | column (i) : Plain agg (.column i)
  | logical (o e es) : es ≠ [] → Plain agg e → (∀ x ∈ es, Plain agg x) → Plain agg (.logical o (e :: es))
  | cast (t e) : t ∈ castTypes → Plain agg e → Plain agg (.cast t e)
  | call (n es) : IsLabel n → n ∉ reservedCalls → agg n = false → (∀ x ∈ es, Plain agg x) → Plain agg (.call n es)
  | input (p) : IsName p → Plain agg (.prop .input (ascii "$-") [] p)
  | varProp (v p) : IsName v → IsName p → Plain agg (.prop .var (ascii "$") v p)
  | src (t p) : IsName t → IsName p → Plain agg (.prop .src (ascii "$^") t p)
  | dst (t p) : IsName t → IsName p → Plain agg (.prop .dst (ascii "$$") t p)
  | vertex : Plain agg .vertex
  | edge : Plain agg .edge
  | uuid (f) : 0 ∉ f → 34 ∉ f → Plain agg (.uuid f)
  | var (n) : IsName n → Plain agg (.var n false)
  | versionedVar (n e) : IsName n → Plain agg e → Plain agg (.versionedVar n (some e))
  | coll (k es) : es ≠ [] → (∀ x ∈ es, Plain agg x) → Plain agg (.coll k es)
  | map (kvs) : kvs ≠ [] → (∀ kv ∈ kvs, IsName kv.1) → (∀ kv ∈ kvs, Plain agg kv.2) → Plain agg (.map kvs)
  | label (n) : IsLabel n → Plain agg (.label n)
  | case (c d cs) : (∀ e, c = some e → Plain agg e) → (∀ e, d = some e → Plain agg e) → (∀ wt ∈ cs, Plain agg wt.1) → (∀ wt ∈ cs, Plain agg wt.2) → Plain agg (.case true c d cs)
  | choice (w t d) : Plain agg w → Plain agg t → Plain agg d → Plain agg (.case false none (some d) [(w, t)])
  | predicate (n i c f) : n ∈ predicates → IsName i → Plain agg c → Plain agg f → Plain agg (.predicate n i c (some f) [])
  | exists (c) : Plain agg c → Plain agg (.predicate (ascii "exists") [] c none [])
  | listComp (i c f m) : IsLabel i → Plain agg c → (∀ e, f = some e → Plain agg e) → (∀ e, m = some e → Plain agg e) → Plain agg (.listComp i c f m [])
  | reduce (a i v c m) : IsName a → IsName v → Plain agg i → Plain agg c → Plain agg m → Plain agg (.reduce a i v c m [])
  | aggregate (n d e) : IsLabel n → n ∉ reservedCalls → agg n = true → (∀ s, e ≠ .const (.str s)) → Plain agg e → Plain agg (.aggregate n d (some e))
  | range (l lo hi) : IsBase l → Plain agg l → (∀ e, lo = some e → Plain agg e) → (∀ e, hi = some e → Plain agg e) → Plain agg (.range l lo hi)

end Expr
end Nebula
