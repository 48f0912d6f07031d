import Verif.Expr.Ast
import Verif.Expr.Ops
/-!
# Model of `operator==` and `clone` of expressions (src/common/expression/*.h, *.cpp)

`none` is the dereference of a null pointer.

Where the C++ compares pointers the result depends on which objects the two expressions share.
`same` distinguishes the two ways in which expressions are compared: an expression with itself
(`same = true`, every pointer is compared with itself) and two expressions built apart from each
other (`same = false`, no object belongs to both).
-/
namespace Nebula
namespace Expr

/-- `a && b` where the evaluation of an operand can fail. -/
def andB (a b : Option Bool) : Option Bool :=
  match a with
  | some true => b
  | r => r

mutual
/-- `Expression::operator==`, all classes; the comparison of the kinds comes first in each of them.
UnaryExpression.cpp:13-20, BinaryExpression.cpp:11-18, LabelAttributeExpression.h:30-36,
ColumnExpression.cpp:18-24, ConstantExpression.cpp:13-20, LogicalExpression.cpp:156-173,
TypeCastingExpression.cpp:98-105, FunctionCallExpression.cpp:12-34, PropertyExpression.cpp:13-20,
VertexExpression.h:39-41, EdgeExpression.h:41-43, UUIDExpression.cpp:12-19,
VariableExpression.h:32-37 and 80-91, ContainerExpression.cpp:32-49, 104-121, 178-198,
PathBuildExpression.cpp:102-119, LabelExpression.cpp:21-27, CaseExpression.cpp:16-54,
PredicateExpression.cpp:156-192, ListComprehensionExpression.cpp:69-103, ReduceExpression.cpp:51-78,
TextSearchExpression.cpp:42-49 (which compares the pointers to the arguments),
AggregateExpression.cpp:11-18, SubscriptExpression.cpp:209-224. -/
def eqE (same : Bool) : Expr → Expr → Option Bool
  | .const v, .const w => some (Value.beq v w)
  | .unary o a, .unary o' b => if o = o' then eqE same a b else some false
  | .binary o l r, .binary o' l' r' => if o = o' then andB (eqE same l l') (eqE same r r') else some false
  | .labelAttribute l r, .labelAttribute l' r' => some (l == l' && Value.beq r r')
  | .column i, .column j => some (i == j)
  | .logical o es, .logical o' es' =>
    if o = o' then (if es.length = es'.length then eqL same es es' else some false) else some false
  | .cast t a, .cast t' b => if t = t' then eqE same a b else some false
  | .call n es, .call n' es' =>
    if n = n' then (if es.length = es'.length then eqL same es es' else some false) else some false
  | .prop k r s p, .prop k' r' s' p' => if k = k' then some (r == r' && s == s' && p == p') else some false
  | .vertex, .vertex => some true
  | .edge, .edge => some true
  | .uuid a, .uuid b => some (a == b)
  | .var n _, .var m _ => some (n == m)
  | .versionedVar n v, .versionedVar m w => if n = m then eqDeref same v w else some false
  | .coll k es, .coll k' es' =>
    if k = k' then (if es.length = es'.length then eqL same es es' else some false) else some false
  | .map kvs, .map kvs' => if kvs.length = kvs'.length then eqKvs same kvs kvs' else some false
  | .label a, .label b => some (a == b)
  | .case g c d cs, .case g' c' d' cs' =>
    if g = g' then
      andB (eqOpt same c c') (andB (eqOpt same d d')
        (if cs.length = cs'.length then eqCases same cs cs' else some false))
    else some false
  | .predicate n i c f _, .predicate n' i' c' f' _ =>
    if n ≠ n' then some false
    else if i.isEmpty ≠ i'.isEmpty then some false
    else if !i.isEmpty && i != i' then some false
    else andB (eqE same c c') (eqOpt same f f')
  | .listComp i c f m _, .listComp i' c' f' m' _ =>
    if i ≠ i' then some false
    else andB (eqE same c c') (andB (eqOpt same f f') (eqOpt same m m'))
  | .reduce a i v c m _, .reduce a' i' v' c' m' _ =>
    if a ≠ a' then some false
    else andB (eqE same i i') (if v ≠ v' then some false else andB (eqE same c c') (eqE same m m'))
  | .text k _, .text k' _ => if k = k' then some same else some false
  | .aggregate n _ a, .aggregate n' _ b => if n = n' then eqDeref same a b else some false
  | .range l lo hi, .range l' lo' hi' => andB (eqE same l l') (andB (eqPtr same lo lo') (eqPtr same hi hi'))
  | _, _ => some false
/-- The loops over operands of the same number. -/
def eqL (same : Bool) : List Expr → List Expr → Option Bool
  | a :: as, b :: bs => andB (eqE same a b) (eqL same as bs)
  | _, _ => some true
/-- ContainerExpression.cpp:188-195. -/
def eqKvs (same : Bool) : List (Bytes × Expr) → List (Bytes × Expr) → Option Bool
  | (k, a) :: as, (l, b) :: bs => if k ≠ l then some false else andB (eqE same a b) (eqKvs same as bs)
  | _, _ => some true
/-- CaseExpression.cpp:44-51. -/
def eqCases (same : Bool) : List (Expr × Expr) → List (Expr × Expr) → Option Bool
  | (w, t) :: as, (x, u) :: bs => andB (eqE same w x) (andB (eqE same t u) (eqCases same as bs))
  | _, _ => some true
/-- `*a == *b`. -/
def eqDeref (same : Bool) : Option Expr → Option Expr → Option Bool
  | some a, some b => eqE same a b
  | _, _ => none
/-- `hasX() != expr.hasX()`, then `*x_ != *expr.x_` if there is one (CaseExpression.cpp:25-40 etc.). -/
def eqOpt (same : Bool) : Option Expr → Option Expr → Option Bool
  | some a, some b => eqE same a b
  | none, none => some true
  | _, _ => some false
/-- CheckPointer.h:13-21 `checkPointer`. -/
def eqPtr (same : Bool) : Option Expr → Option Expr → Option Bool
  | some a, some b => if same then some true else eqE same a b
  | none, none => some true
  | _, _ => some false
end

/-- The property expressions the constructors make (PropertyExpression.h:17-20, 87-90, 118-121,
147-148, 175-178, 203-206, 234-237, 260-261, 287-288, 314-315, 341-342; Base.h:141-144). -/
def makeProp (k : PropKind) (sym prop : Bytes) : Expr :=
  match k with
  | .edge => .prop .edge [] sym prop
  | .tag => .prop .tag [] sym prop
  | .input => .prop .input (ascii "$-") [] prop
  | .var => .prop .var (ascii "$") sym prop
  | .src => .prop .src (ascii "$^") sym prop
  | .dst => .prop .dst (ascii "$$") sym prop
  | .edgeSrc => .prop .edgeSrc [] sym Ops.kSrc
  | .edgeType => .prop .edgeType [] sym Ops.kType
  | .edgeRank => .prop .edgeRank [] sym Ops.kRank
  | .edgeDst => .prop .edgeDst [] sym Ops.kDst

/-- TextSearchArgument::make and the default members (TextSearchExpression.h:17-23, 80-90). -/
def makeTextArg («from» prop val : Bytes) : TextArg := ⟨«from», prop, val, [], -2, 100, 200⟩

mutual
/-- `clone()`, all classes: UnaryExpression.h:71-73, ArithmeticExpression.h:64-67,
RelationalExpression.h:135-138, SubscriptExpression.h:30-32 and 61-66, AttributeExpression.h:33-35,
LabelAttributeExpression.h:45-49, ColumnExpression.h:31-33, ConstantExpression.h:46-48,
LogicalExpression.h:57-64, TypeCastingExpression.h:33-35, FunctionCallExpression.h:86-92,
PropertyExpression.h:82-84, 113-115, 142-144, 170-172, 198-200, 229-231, 255-257, 282-284, 309-311,
336-338, VertexExpression.h:31-33, EdgeExpression.h:33-35, UUIDExpression.h:31-33,
VariableExpression.h:43-45 and 97-99, ContainerExpression.h:110-116, 180-186, 250-256,
PathBuildExpression.cpp:138-144, LabelExpression.h:38-40, CaseExpression.h:122-133,
PredicateExpression.cpp:194-204, ListComprehensionExpression.cpp:56-67, ReduceExpression.cpp:38-49,
TextSearchExpression.h:128-131, AggregateExpression.h:41-44.
Which objects the copy shares with the original (none) is the subject of Expr/Objects. -/
def clone : Expr → Option Expr
  | .const v => some (.const v)
  | .unary o e => do let a ← clone e; some (.unary o a)
  | .binary o l r => do let a ← clone l; let b ← clone r; some (.binary o a b)
  | .labelAttribute l r => some (.labelAttribute l r)
  | .column i => some (.column i)
  | .logical o es => do let l ← cloneL es; some (.logical o l)
  | .cast t e => do let a ← clone e; some (.cast t a)
  | .call n es => do let l ← cloneL es; some (.call n l)
  | .prop k _ s p => some (makeProp k s p)
  | .vertex => some .vertex
  | .edge => some .edge
  | .uuid f => some (.uuid f)
  | .var n i => some (.var n i)
  | .versionedVar n v => match v with
    | none => none
    | some e => do let a ← clone e; some (.versionedVar n (some a))
  | .coll k es => do let l ← cloneL es; some (.coll k l)
  | .map kvs => do let l ← cloneKvs kvs; some (.map l)
  | .label n => some (.label n)
  | .case g c d cs => do
    let l ← cloneCases cs
    let x ← cloneO c
    let y ← cloneO d
    some (.case g x y l)
  | .predicate n i c f o => do
    let a ← clone c
    let b ← cloneO f
    some (.predicate n i a b o)
  | .listComp i c f m o => do
    let a ← clone c
    let b ← cloneO f
    let d ← cloneO m
    some (.listComp i a b d o)
  | .reduce a i v c m o => do
    let x ← clone i
    let y ← clone c
    let z ← clone m
    some (.reduce a x v y z o)
  | .text k a => some (.text k (makeTextArg a.from a.prop a.val))
  | .aggregate n d a => match a with
    | none => none
    | some e => do let x ← clone e; some (.aggregate n d (some x))
  | .range l lo hi => do
    let x ← clone l
    let y ← cloneO lo
    let z ← cloneO hi
    some (.range x y z)
/-- The loops. -/
def cloneL : List Expr → Option (List Expr)
  | [] => some []
  | e :: es => do let a ← clone e; let l ← cloneL es; some (a :: l)
/-- ContainerExpression.h:252-254. -/
def cloneKvs : List (Bytes × Expr) → Option (List (Bytes × Expr))
  | [] => some []
  | (k, e) :: es => do let a ← clone e; let l ← cloneKvs es; some ((k, a) :: l)
/-- CaseExpression.h:124-126. -/
def cloneCases : List (Expr × Expr) → Option (List (Expr × Expr))
  | [] => some []
  | (w, t) :: es => do let a ← clone w; let b ← clone t; let l ← cloneCases es; some ((a, b) :: l)
/-- `x != nullptr ? x->clone() : nullptr`. -/
def cloneO : Option Expr → Option (Option Expr)
  | none => some none
  | some e => do let a ← clone e; some (some a)
end

end Expr
end Nebula
