import Verif.Expr.Ast
import Verif.Text
/-!
# Specification vocabulary for comparing and copying expressions (C94, C95)
-/
namespace Nebula
namespace Expr

/-- The two nodes are alike, whatever is below them: the same kind, the same names and numbers, the
same operands present.  `R` relates the constants, `D` the DISTINCT flags of aggregates; whether a
variable is an inner one and the text an expression was parsed from do not matter. -/
def SameHead (R : Value → Value → Prop) (D : Bool → Bool → Prop) : Expr → Expr → Prop
  | const v, const w => R v w
  | unary o _, unary o' _ => o = o'
  | binary o _ _, binary o' _ _ => o = o'
  | labelAttribute l r, labelAttribute l' r' => l = l' ∧ R r r'
  | column i, column j => i = j
  | logical o es, logical o' es' => o = o' ∧ es.length = es'.length
  | cast t _, cast t' _ => t = t'
  | call n es, call n' es' => n = n' ∧ es.length = es'.length
  | prop k r s p, prop k' r' s' p' => k = k' ∧ r = r' ∧ s = s' ∧ p = p'
  | vertex, vertex => True
  | edge, edge => True
  | uuid a, uuid b => a = b
  | var n _, var m _ => n = m
  | versionedVar n v, versionedVar m w => n = m ∧ v.isSome = w.isSome
  | coll k es, coll k' es' => k = k' ∧ es.length = es'.length
  | map kvs, map kvs' => kvs.map Prod.fst = kvs'.map Prod.fst
  | label a, label b => a = b
  | case g c d cs, case g' c' d' cs' =>
    g = g' ∧ c.isSome = c'.isSome ∧ d.isSome = d'.isSome ∧ cs.length = cs'.length
  | predicate n i _ f _, predicate n' i' _ f' _ => n = n' ∧ i = i' ∧ f.isSome = f'.isSome
  | listComp i _ f m _, listComp i' _ f' m' _ => i = i' ∧ f.isSome = f'.isSome ∧ m.isSome = m'.isSome
  | reduce a _ v _ _ _, reduce a' _ v' _ _ _ => a = a' ∧ v = v'
  | text k a, text k' a' => k = k' ∧ a = a'
  | aggregate n d a, aggregate n' d' a' => n = n' ∧ D d d' ∧ a.isSome = a'.isSome
  | range _ lo hi, range _ lo' hi' => lo.isSome = lo'.isSome ∧ hi.isSome = hi'.isSome
  | _, _ => False

/-- The two trees are alike, node by node. -/
inductive Alike (R : Value → Value → Prop) (D : Bool → Bool → Prop) : Expr → Expr → Prop
  | mk {e f : Expr} (head : SameHead R D e f)
      (kids : ∀ (i : Nat) (x y : Expr), e.children[i]? = some x → f.children[i]? = some y → Alike R D x y) :
      Alike R D e f

/-- No pointer that is followed without a test is null: versioned variables have a version,
aggregates an argument. -/
def WholeHere : Expr → Prop
  | versionedVar _ v => v ≠ none
  | aggregate _ _ a => a ≠ none
  | _ => True

/-- Not a text search. -/
def NoTextHere : Expr → Prop
  | text _ _ => False
  | _ => True

/-- What the constructors make of the names of a property expression. -/
def PropMade : Expr → Prop
  | prop k r s p => match k with
    | .edge | .tag => r = []
    | .input => r = ascii "$-" ∧ s = []
    | .var => r = ascii "$"
    | .src => r = ascii "$^"
    | .dst => r = ascii "$$"
    | .edgeSrc => r = [] ∧ p = ascii "_src"
    | .edgeType => r = [] ∧ p = ascii "_type"
    | .edgeRank => r = [] ∧ p = ascii "_rank"
    | .edgeDst => r = [] ∧ p = ascii "_dst"
  | _ => True

/-- The constants of an expression satisfy `P`. -/
def ConstHere (P : Value → Prop) : Expr → Prop
  | const v => P v
  | labelAttribute _ v => P v
  | _ => True

end Expr
end Nebula
