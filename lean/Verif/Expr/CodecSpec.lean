import Verif.Expr.Ast
import Verif.Wire.Spec
/-!
# Specification for the expression codec

`Storable`: the expressions that are meant to be encoded and decoded — everything except the kinds
for which Expression.cpp and the headers say that they cannot be (input and variable properties,
versioned variables, label attributes, text search), columns, aggregates without argument, and
ranges without any bound.  The sizes are those of a 64-bit address space; the number of operands is
below 2^32.
`received`: the expression expected on the other side: constants are replaced by what the wire
format of values delivers (Verif.Wire.Spec), variables are inner variables.
-/
namespace Nebula
namespace Expr

def Size64 (n : Nat) : Prop := n < 2 ^ 64
def Count32 (n : Nat) : Prop := n < 2 ^ 32

/-- The members of the node itself. -/
def StorableHere : Expr → Prop
  | const v => Wire.Fits v
  | unary _ _ => True
  | binary _ _ _ => True
  | logical _ es => Count32 es.length
  | cast t _ => t < 2 ^ 64
  | call n es => Size64 n.length ∧ Size64 es.length
  | prop k r s p => k ≠ .input ∧ k ≠ .var ∧ Size64 r.length ∧ Size64 s.length ∧ Size64 p.length
  | vertex => True
  | edge => True
  | uuid f => f ≠ [] ∧ Size64 f.length
  | var n _ => Size64 n.length
  | coll _ es => Count32 es.length
  | map kvs => Count32 kvs.length ∧ ∀ kv ∈ kvs, Size64 kv.1.length
  | label n => Size64 n.length
  | case _ _ _ cs => Count32 cs.length
  | predicate n i _ _ o => Size64 n.length ∧ Size64 i.length ∧ Size64 o.length
  | listComp i _ _ _ o => Size64 i.length ∧ Size64 o.length
  | reduce a _ i _ _ o => Size64 a.length ∧ Size64 i.length ∧ Size64 o.length
  | aggregate n _ a => Size64 n.length ∧ a ≠ none
  | range _ lo hi => ¬(lo = none ∧ hi = none)
  | labelAttribute _ _ => False
  | column _ => False
  | versionedVar _ _ => False
  | text _ _ => False

/-- The whole tree. -/
def Storable (e : Expr) : Prop := All StorableHere e

mutual
def received : Expr → Expr
  | const v => const (Wire.wireImage v)
  | unary o e => unary o (received e)
  | binary o l r => binary o (received l) (received r)
  | labelAttribute l r => labelAttribute l r
  | column i => column i
  | logical o es => logical o (receivedAll es)
  | cast t e => cast t (received e)
  | call n es => call n (receivedAll es)
  | prop k r s p => prop k r s p
  | vertex => vertex
  | edge => edge
  | uuid f => uuid f
  | var n _ => var n true
  | versionedVar n v => versionedVar n (receivedOpt v)
  | coll k es => coll k (receivedAll es)
  | map kvs => map (receivedEntries kvs)
  | label n => label n
  | case g c d cs => case g (receivedOpt c) (receivedOpt d) (receivedCases cs)
  | predicate n i c f o => predicate n i (received c) (receivedOpt f) o
  | listComp i c f m o => listComp i (received c) (receivedOpt f) (receivedOpt m) o
  | reduce a i v c m o => reduce a (received i) v (received c) (received m) o
  | text k a => text k a
  | aggregate n d a => aggregate n d (receivedOpt a)
  | range l lo hi => range (received l) (receivedOpt lo) (receivedOpt hi)
def receivedAll : List Expr → List Expr
  | [] => []
  | e :: es => received e :: receivedAll es
def receivedEntries : List (Bytes × Expr) → List (Bytes × Expr)
  | [] => []
  | (k, e) :: es => (k, received e) :: receivedEntries es
def receivedCases : List (Expr × Expr) → List (Expr × Expr)
  | [] => []
  | (w, t) :: cs => (received w, received t) :: receivedCases cs
def receivedOpt : Option Expr → Option Expr
  | none => none
  | some e => some (received e)
end

/-- Nothing in the node is changed on the way: constants are plain (Verif.Wire.Spec), variables are
inner variables (VariableExpression.cpp:21 expects that). -/
def UnchangedHere : Expr → Prop
  | const v => Wire.Plain v
  | var _ inner => inner = true
  | _ => True
def Unchanged (e : Expr) : Prop := All UnchangedHere e

/-- The kinds whose encoding contains an element count or a type number. -/
def Sized : Kind → Bool
  | .logical _ => true
  | .cast => true
  | .call => true
  | .coll _ => true
  | .map => true
  | .case => true
  | .range => true
  | _ => false

end Expr
end Nebula
