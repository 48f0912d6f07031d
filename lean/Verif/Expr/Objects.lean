import Verif.Expr.Compare
/-!
# The objects expressions are made of (src/common/expression/*.h, src/common/base/ObjectPool.h)

In Expr/Ast an expression is a tree. In the code it is an object in a pool that holds pointers to other objects in pools, which may be
pointed to from several places, and the setters overwrite these pointers. Here the objects are modelled, with `clone()` on them.

Simplified: objects that are only used on the way (`ExpressionList`, `MapItemList`, `CaseList`) and hold copies of the pointers are left out;
the order in which the objects of a copy are put into the pools is children first for all classes; `result_` and `aggData_`
are left out, as in Expr/Ast. A pointer that leads nowhere, a null pointer that is followed and a copy that does not end are all `none`.
-/
namespace Nebula
namespace Objects

/-- What an object holds besides pointers. -/
inductive Label where
  | const (v : Value)
  | unary (o : UnOp)
  | binary (o : BinOp)
  | labelAttribute
  | column (i : Int)
  | logical (o : LogOp)
  | cast (ty : Nat)
  /-- FunctionCallExpression.h:111-119: `func_` is the function that was found for `found` arguments -/
  | call (name : Bytes) (found : Nat)
  /-- FunctionCallExpression.h:17-60 `ArgumentList` -/
  | args
  | prop (k : PropKind) (ref sym prop : Bytes)
  | vertex
  | edge
  | uuid (field : Bytes)
  | var (name : Bytes) (inner : Bool)
  | versionedVar (name : Bytes)
  | coll (k : CollKind)
  | map (keys : List Bytes)
  | label (name : Bytes)
  | case (generic : Bool)
  | predicate (name innerVar origin : Bytes)
  | listComp (innerVar origin : Bytes)
  | reduce (acc innerVar origin : Bytes)
  | text (k : TextKind)
  /-- TextSearchExpression.h:16-90 `TextSearchArgument` -/
  | textArg (a : TextArg)
  | aggregate (name : Bytes) (distinct : Bool)
  | range

/-- An object: the pointers to its parts, and the pool it is in (`pool_`). The parts are in the order of the members; a CASE has condition
and default first. -/
structure Object where
  label : Label
  parts : List (Option Nat)
  pool : Nat

/-- All objects, and the next address that has not been used. -/
structure Heap where
  next : Nat
  obj : Nat → Option Object

/-- ObjectPool.h:34-42 `add`, of an object made by `new`. -/
def Heap.add (h : Heap) (o : Object) : Heap × Nat :=
  (⟨h.next + 1, fun a => if a = h.next then some o else h.obj a⟩, h.next)

/-- The object at `a` is overwritten. -/
def Heap.set (h : Heap) (a : Nat) (o : Object) : Heap :=
  ⟨h.next, fun b => if b = a then some o else h.obj b⟩

/-- The setters of the parts: BinaryExpression.h:31-33 and 43-45, UnaryExpression.h:83-85, LogicalExpression.h:88-91, FunctionCallExpression.h:41-44,
ContainerExpression.h:87-90, 157-160, 231-234, CaseExpression.h:68-74, 80-88, PredicateExpression.h:80-86, ListComprehensionExpression.h:76-86,
ReduceExpression.h:79-81, 87-93, SubscriptExpression.h:78-80, 90-92, 102-104, AggregateExpression.h:58-60, TypeCastingExpression.h:45-47,
PathBuildExpression.h:41-44. -/
def Heap.setPart (h : Heap) (a : Nat) (i : Nat) (p : Option Nat) : Heap :=
  match h.obj a with
  | some o => h.set a { o with parts := o.parts.set i p }
  | none => h

/-- FunctionCallExpression.h:24-27 `addArgument`, LogicalExpression.h:84-86 `addOperand`, PathBuildExpression.h:36-39 `add`. -/
def Heap.addPart (h : Heap) (a : Nat) (p : Option Nat) : Heap :=
  match h.obj a with
  | some o => h.set a { o with parts := o.parts ++ [p] }
  | none => h

/-- ObjectPool.h:29-32 `clear`, and the destruction of a pool. -/
def Heap.clear (h : Heap) (q : Nat) : Heap :=
  ⟨h.next, fun a => match h.obj a with
    | some o => if o.pool = q then none else some o
    | none => none⟩

/-- The parts that `clone` lets be null: CaseExpression.h:128-129, PredicateExpression.cpp:199, ListComprehensionExpression.cpp:60-62,
SubscriptExpression.h:64-65. -/
def nullable : Label → Nat → Bool
  | .case _, i => i < 2
  | .predicate .., i => i == 1
  | .listComp .., i => i == 1 || i == 2
  | .range, i => i == 1 || i == 2
  | _, _ => false

/-- What `clone` and the constructor it calls put into the copy; `n` is the number of arguments the copy of a call has
(FunctionCallExpression.h:86-92, 111-119). For properties and text searches see Expr/Compare. -/
def relabel (n : Nat) : Label → Label
  | .call name _ => .call name n
  | .prop k _ sym pr => match Expr.makeProp k sym pr with
    | .prop k' r' s' p' => .prop k' r' s' p'
    | _ => .vertex
  | .textArg a => .textArg (Expr.makeTextArg a.from a.prop a.val)
  | l => l

/-- The pool a copy is put into: that of the object (`pool_`), for the lists and arguments, which do not know theirs, that of the object
that holds them. -/
def Object.poolFor (o : Object) (holder : Nat) : Nat :=
  match o.label with
  | .args => holder
  | .textArg _ => holder
  | _ => o.pool

/-- The number of parts of the first part. -/
def Heap.count (h : Heap) : List (Option Nat) → Nat
  | some a :: _ => match h.obj a with
    | some o => o.parts.length
    | none => 0
  | _ => 0

mutual
/-- `clone()`, all classes (see Expr/Compare for the lines). -/
def copy (h : Heap) (q : Nat) (a : Nat) : Option (Heap × Nat) := do
  let o ← h.obj a
  let r ← copyParts h (o.poolFor q) o.label 0 o.parts
  some (r.1.add ⟨relabel (r.1.count r.2) o.label, r.2, o.poolFor q⟩)
partial_fixpoint
/-- The copies of the parts. -/
def copyParts (h : Heap) (q : Nat) (l : Label) (i : Nat) (ps : List (Option Nat)) : Option (Heap × List (Option Nat)) :=
  match ps with
  | [] => some (h, [])
  | none :: ps => if nullable l i then do
      let r ← copyParts h q l (i + 1) ps
      some (r.1, none :: r.2)
    else none
  | some a :: ps => do
    let c ← copy h q a
    let r ← copyParts c.1 q l (i + 1) ps
    some (r.1, some c.2 :: r.2)
partial_fixpoint
end

/-- `a->clone()`. -/
def clone (h : Heap) (a : Nat) : Option (Heap × Nat) := (h.obj a).bind fun o => copy h o.pool a

end Objects
end Nebula
