import Verif.Value.Lemmas
/-!
# Expression trees (src/common/expression/*.h)

Every class derived from `Expression` with the members that survive construction.  Pointers that the
constructors require are children, pointers that may be null are `Option`s.  The caches `result_`,
`func_`, `aggFunc_` and `aggData_` are not part of the tree.
-/
namespace Nebula

/-- Expression.h:32-36, 105-108: the kinds of UnaryExpression. -/
inductive UnOp where
  | plus | negate | not | incr | decr | isNull | isNotNull | isEmpty | isNotEmpty
deriving DecidableEq, Repr

/-- Expression.h:26-30, 38-52, 54, 55: the kinds of the classes derived from BinaryExpression. -/
inductive BinOp where
  | add | minus | multiply | division | mod
  | eq | ne | lt | le | gt | ge | reg | inn | notIn
  | contains | notContains | startsWith | notStartsWith | endsWith | notEndsWith
  | subscript | attribute
deriving DecidableEq, Repr

/-- Expression.h:59-61. -/
inductive LogOp where
  | and | or | xor
deriving DecidableEq, Repr

/-- Expression.h:67-76: the kinds of the classes derived from PropertyExpression. -/
inductive PropKind where
  | tag | edge | input | var | dst | src | edgeSrc | edgeType | edgeRank | edgeDst
deriving DecidableEq, Repr

/-- Expression.h:85, 86, 97: ListExpression, SetExpression, PathBuildExpression. -/
inductive CollKind where
  | list | set | pathBuild
deriving DecidableEq, Repr

/-- Expression.h:99-102. -/
inductive TextKind where
  | prefix | wildcard | regexp | fuzzy
deriving DecidableEq, Repr

/-- TextSearchExpression.h:80-87 the members of TextSearchArgument. -/
structure TextArg where
  «from» : Bytes
  prop : Bytes
  val : Bytes
  op : Bytes
  fuzziness : Int
  limit : Int
  timeout : Int
deriving DecidableEq, Repr

/-- Expression.h:23-111 `enum class Kind : uint8_t`. -/
inductive Kind where
  | const
  | un (o : UnOp)
  | bin (o : BinOp)
  | labelAttribute
  | column
  | logical (o : LogOp)
  | cast
  | call
  | prop (k : PropKind)
  | vertex
  | edge
  | uuid
  | var
  | versionedVar
  | coll (k : CollKind)
  | map
  | label
  | case
  | predicate
  | listComp
  | reduce
  | text (k : TextKind)
  | aggregate
  | range
deriving DecidableEq, Repr

/-- The expressions. -/
inductive Expr where
  /-- ConstantExpression.h -/
  | const (v : Value)
  /-- UnaryExpression.h -/
  | unary (o : UnOp) (e : Expr)
  /-- BinaryExpression.h and the classes derived from it -/
  | binary (o : BinOp) (l r : Expr)
  /-- LabelAttributeExpression.h:21-100: label and constant -/
  | labelAttribute (l : Bytes) (r : Value)
  /-- ColumnExpression.h -/
  | column (i : Int)
  /-- LogicalExpression.h -/
  | logical (o : LogOp) (es : List Expr)
  /-- TypeCastingExpression.h; the type is the 64-bit flag of Value.h:63-80 -/
  | cast (ty : Nat) (e : Expr)
  /-- FunctionCallExpression.h -/
  | call (name : Bytes) (args : List Expr)
  /-- PropertyExpression.h -/
  | prop (k : PropKind) (ref sym prop : Bytes)
  /-- VertexExpression.h -/
  | vertex
  /-- EdgeExpression.h -/
  | edge
  /-- UUIDExpression.h -/
  | uuid (field : Bytes)
  /-- VariableExpression.h -/
  | var (name : Bytes) (inner : Bool)
  /-- VariableExpression.h VersionedVariableExpression -/
  | versionedVar (name : Bytes) (version : Option Expr)
  /-- ContainerExpression.h ListExpression, SetExpression; PathBuildExpression.h -/
  | coll (k : CollKind) (es : List Expr)
  /-- ContainerExpression.h MapExpression -/
  | map (kvs : List (Bytes × Expr))
  /-- LabelExpression.h -/
  | label (name : Bytes)
  /-- CaseExpression.h -/
  | case (generic : Bool) (cond dflt : Option Expr) (cases : List (Expr × Expr))
  /-- PredicateExpression.h -/
  | predicate (name innerVar : Bytes) (coll : Expr) (filter : Option Expr) (origin : Bytes)
  /-- ListComprehensionExpression.h -/
  | listComp (innerVar : Bytes) (coll : Expr) (filter mapping : Option Expr) (origin : Bytes)
  /-- ReduceExpression.h -/
  | reduce (acc : Bytes) (init : Expr) (innerVar : Bytes) (coll mapping : Expr) (origin : Bytes)
  /-- TextSearchExpression.h -/
  | text (k : TextKind) (a : TextArg)
  /-- AggregateExpression.h -/
  | aggregate (name : Bytes) (distinct : Bool) (arg : Option Expr)
  /-- SubscriptExpression.h SubscriptRangeExpression -/
  | range (list : Expr) (lo hi : Option Expr)

namespace Expr

/-- Expression.h `kind()`. -/
def kind : Expr → Kind
  | const _ => .const
  | unary o _ => .un o
  | binary o _ _ => .bin o
  | labelAttribute _ _ => .labelAttribute
  | column _ => .column
  | logical o _ => .logical o
  | cast _ _ => .cast
  | call _ _ => .call
  | prop k _ _ _ => .prop k
  | vertex => .vertex
  | edge => .edge
  | uuid _ => .uuid
  | var _ _ => .var
  | versionedVar _ _ => .versionedVar
  | coll k _ => .coll k
  | map _ => .map
  | label _ => .label
  | case _ _ _ _ => .case
  | predicate _ _ _ _ _ => .predicate
  | listComp _ _ _ _ _ => .listComp
  | reduce _ _ _ _ _ _ => .reduce
  | text k _ => .text k
  | aggregate _ _ _ => .aggregate
  | range _ _ _ => .range

/-- The expressions directly inside an expression (nothing of the C++; used to state and prove
properties of whole trees). -/
def children : Expr → List Expr
  | unary _ e => [e]
  | binary _ l r => [l, r]
  | logical _ es => es
  | cast _ e => [e]
  | call _ es => es
  | versionedVar _ v => v.toList
  | coll _ es => es
  | map kvs => kvs.map Prod.snd
  | case _ c d cs => c.toList ++ d.toList ++ cs.flatMap fun x => [x.1, x.2]
  | predicate _ _ c f _ => c :: f.toList
  | listComp _ c f m _ => c :: (f.toList ++ m.toList)
  | reduce _ i _ c m _ => [i, c, m]
  | aggregate _ _ a => a.toList
  | range l lo hi => l :: (lo.toList ++ hi.toList)
  | _ => []

theorem sizeOf_child (e : Expr) : ∀ x ∈ e.children, sizeOf x < sizeOf e := by
  intro x hx
  cases e with
  | unary o e => simp [children] at hx; subst hx; simp; omega
  | binary o l r => simp [children] at hx; rcases hx with rfl | rfl <;> simp <;> omega
  | logical o es => have := List.sizeOf_lt_of_mem (as := es) hx; simp; omega
  | cast t e => simp [children] at hx; subst hx; simp; omega
  | call n es => have := List.sizeOf_lt_of_mem (as := es) hx; simp; omega
  | versionedVar n v => cases v <;> simp [children] at hx; subst hx; simp; omega
  | coll k es => have := List.sizeOf_lt_of_mem (as := es) hx; simp; omega
  | map kvs =>
    obtain ⟨kv, hkv, rfl⟩ := List.mem_map.1 hx
    have := List.sizeOf_lt_of_mem hkv
    obtain ⟨k, v⟩ := kv
    simp at this ⊢; omega
  | case g c d cs =>
    simp only [children, List.mem_append, List.mem_flatMap] at hx
    rcases hx with (hx | hx) | ⟨y, hy, hx⟩
    · cases c <;> simp at hx; subst hx; simp; omega
    · cases d <;> simp at hx; subst hx; simp; omega
    · have := List.sizeOf_lt_of_mem hy
      obtain ⟨a, b⟩ := y
      simp at hx this ⊢
      rcases hx with rfl | rfl <;> omega
  | predicate n i c f o =>
    simp only [children, List.mem_cons] at hx
    rcases hx with rfl | hx
    · simp; omega
    · cases f <;> simp at hx; subst hx; simp; omega
  | listComp i c f m o =>
    simp only [children, List.mem_cons, List.mem_append] at hx
    rcases hx with rfl | hx | hx
    · simp; omega
    · cases f <;> simp at hx; subst hx; simp; omega
    · cases m <;> simp at hx; subst hx; simp; omega
  | reduce a i v c m o => simp [children] at hx; rcases hx with rfl | rfl | rfl <;> simp <;> omega
  | aggregate n d a => cases a <;> simp [children] at hx; subst hx; simp; omega
  | range l lo hi =>
    simp only [children, List.mem_cons, List.mem_append] at hx
    rcases hx with rfl | hx | hx
    · simp; omega
    · cases lo <;> simp at hx; subst hx; simp; omega
    · cases hi <;> simp at hx; subst hx; simp; omega
  | _ => simp [children] at hx

theorem children_induction {P : Expr → Prop} (h : ∀ e, (∀ x ∈ e.children, P x) → P e) (e : Expr) : P e := by
  have : ∀ n e, sizeOf e < n → P e := by
    intro n
    induction n with
    | zero => intro e he; omega
    | succ n ih => intro e he; exact h e fun x hx => ih x (by have := sizeOf_child e x hx; omega)
  exact this _ e (Nat.lt_succ_self _)

/-- The expression and every expression inside it satisfies `P`. -/
inductive All (P : Expr → Prop) : Expr → Prop
  | mk {e : Expr} (here : P e) (kids : ∀ x ∈ e.children, All P x) : All P e

theorem All.here {P : Expr → Prop} {e : Expr} (h : All P e) : P e := by cases h; assumption
theorem All.kids {P : Expr → Prop} {e : Expr} (h : All P e) : ∀ x ∈ e.children, All P x := by cases h; assumption
theorem All.imp {P Q : Expr → Prop} (hpq : ∀ e, P e → Q e) {e : Expr} (h : All P e) : All Q e := by
  induction h with
  | mk here _ ih => exact .mk (hpq _ here) ih

end Expr
end Nebula
