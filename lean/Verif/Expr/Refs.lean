import Verif.Expr.Eval
/-!
# Evaluation with references (src/common/expression/*.cpp, the `eval` functions)

In Expr/Eval every value is copied when it is returned. The C++ functions return references, and some of them hold a reference to the
value of one operand while they evaluate another one. Here the references are modelled: what a reference leads to is read when the C++
function reads it. The functions that copy at once are those of Expr/Eval, on the larger state.

Of the context (ExpressionContext.h:28-76): `getVar` returns a reference to the variable, `setVar` gives the variable another value. A
reference to a part of the old value (an item of a map, a property, a list that is iterated over) leads nowhere afterwards. Whether
a reference to the variable as a whole then leads to the new value or nowhere depends on the context (`keeps`): the only one in the
repository, that of the tests, removes the variable first (ExpressionContextMock.h:122-128), one that assigns in place keeps it. What the
other getters return, and the results of other nodes, are not touched by `setVar`.
-/
namespace Nebula
namespace Refs
open Value Eval

/-- What a reference returned by `eval` leads to. -/
inductive Ref where
  /-- a constant, the `result_` of a node, something the context holds elsewhere -/
  | own (v : Value)
  /-- the variable `n`, as it was after `k` assignments -/
  | var (n : Bytes) (k : Nat)
  /-- a part of the value which the variable `n` had after `k` assignments -/
  | part (n : Bytes) (k : Nat) (v : Value)

/-- The state of an evaluation, and how often each variable has been assigned. -/
structure RState where
  st : EState
  ver : Bytes → Nat

abbrev RE (α : Type) := EvalS RState α

/-- Reading what a reference leads to; `none`: it leads nowhere. -/
def get (keeps : Bool) : Ref → RState → Option Value
  | .own v, _ => some v
  | .var n k, s => if s.ver n = k ∨ keeps = true then some (s.st.vars n) else none
  | .part n k v, s => if s.ver n = k then some v else none

def read (keeps : Bool) (r : Ref) : RE Value := fun s => (get keeps r s).map fun v => (v, s)

/-- A reference to the part `v` of what `r` leads to. -/
def inside (s : RState) (v : Value) : Ref → Ref
  | .own _ => .own v
  | .var n _ => .part n (s.ver n) v
  | .part n k _ => .part n k v

/-- `ctx.setVar(n, v)`. -/
def RState.setVar (s : RState) (n : Bytes) (v : Value) : RState :=
  ⟨s.st.setVar n v, fun m => if m = n then s.ver m + 1 else s.ver m⟩

def setVar (n : Bytes) (v : Value) : RE Unit := fun s => some ((), s.setVar n v)

/-- The value of an operand that is copied at once. -/
def use (keeps : Bool) (m : RE Ref) : RE Value := bind m (read keeps)

/-- A result that is put into `result_`. -/
def own (m : RE Value) : RE Ref := bind m fun v => pure (.own v)

/-- A computation that touches no variable. -/
def quiet {α : Type} (c : Eval α) : RE α := fun s => (c s.st).map fun x => (x.1, ⟨x.2, s.ver⟩)

/-- The results that SubscriptExpression.cpp:68-73, 95-99 and AttributeExpression.cpp:24, 30-35, 52-56 return as references into the left
operand. -/
def byRef (o : BinOp) (l r : Value) : Bool :=
  match o, l, r with
  | .attribute, .map m, .str k => (m.lookup k).isSome
  | .attribute, .vertex v, .str k => k ≠ Ops.kVid && (Ops.findTag k v.tags).isSome
  | .attribute, .edge e, .str k => !Ops.underscore k && (e.props.lookup k).isSome
  | .subscript, .vertex v, .str k => k ≠ Ops.kVid && (Ops.findTag k v.tags).isSome
  | .subscript, .edge e, .str k => !Ops.underscore k && (e.props.lookup k).isSome
  | _, _, _ => false

/-- ArithmeticExpression.cpp:13-37, RelationalExpression.cpp:14-213, SubscriptExpression.cpp:15-103, AttributeExpression.cpp:16-70: both
operands are held as references and read after both have been evaluated. -/
def binOp (keeps : Bool) (env : Env) (o : BinOp) (p : List Nat) (a b : Ref) : RE Ref :=
  bind (read keeps a) fun l => bind (read keeps b) fun r => bind (quiet (Eval.binOp env o p l r)) fun v => fun s =>
    some (if byRef o l r then inside s v a else .own v, s)

/-- UnaryExpression.cpp:41-99. -/
def unOp (keeps : Bool) (env : Env) (o : UnOp) (var : Option (Option Bytes)) (m : RE Ref) : RE Ref :=
  match o with
  | .plus => own (use keeps m)
  | .negate => own (bind (use keeps m) fun v => pure v.neg)
  | .not => own (bind (use keeps m) fun v => pure v.not)
  | .incr => match var with
    | none => pure (.own kNullBadType)
    | some none => fail
    | some (some n) => bind (use keeps m) fun v => bind (lift (Value.add env.lib.fmt v (.int 1))) fun r => bind (setVar n r) fun _ => pure (.own r)
  | .decr => match var with
    | none => pure (.own kNullBadType)
    | some none => fail
    | some (some n) => bind (use keeps m) fun v => bind (lift (Value.sub v (.int 1))) fun r => bind (setVar n r) fun _ => pure (.own r)
  | .isNull => own (bind (use keeps m) fun v => pure (.bool v.isNull))
  | .isNotNull => own (bind (use keeps m) fun v => pure (.bool (!v.isNull)))
  | .isEmpty => own (bind (use keeps m) fun v => pure (.bool v.isEmpty))
  | .isNotEmpty => own (bind (use keeps m) fun v => pure (.bool (!v.isEmpty)))

/-- LogicalExpression.cpp:12-105. -/
def logical (o : LogOp) (p : List Nat) (ms : List (RE Value)) : RE Value :=
  match o with
  | .and => andOr false (.bool true) ms
  | .or => andOr true (.bool false) ms
  | .xor => fun s => match Eval.xor (s.st.mem p) false true ms s with
    | none => none
    | some (v, s) => some (v, ⟨s.st.setMem p v, s.ver⟩)

/-- FunctionCallExpression.cpp:77-80: the references to the arguments are collected. -/
def refs : List (RE Ref) → RE (List Ref)
  | [] => pure []
  | m :: ms => bind m fun r => bind (refs ms) fun rs => pure (r :: rs)

/-- The function reads them. -/
def reads (keeps : Bool) : List Ref → RE (List Value)
  | [] => pure []
  | r :: rs => bind (read keeps r) fun v => bind (reads keeps rs) fun vs => pure (v :: vs)

/-- PredicateExpression.cpp:80-149: `list` leads into the value of the collection; its length is read before every turn. -/
def predLoop (keeps : Bool) (t : PredType) (inner : Bytes) (filter : RE Ref) (list : Ref) (result : Bool) : List Value → RE Value
  | [] => bind (read keeps list) fun _ => pure (.bool result)
  | x :: xs => bind (read keeps list) fun _ => bind (setVar inner x) fun _ => bind (use keeps filter) fun v => match truth v with
    | none => pure kNullBadType
    | some b => match t with
      | .all => if b then predLoop keeps t inner filter list result xs else pure (.bool false)
      | .any => if b then pure (.bool true) else predLoop keeps t inner filter list result xs
      | .single => if b then (if result then pure (.bool false) else predLoop keeps t inner filter list true xs)
          else predLoop keeps t inner filter list result xs
      | .none => if b then pure (.bool false) else predLoop keeps t inner filter list result xs

/-- PredicateExpression.cpp:71-82, ListComprehensionExpression.cpp:15-25, ReduceExpression.cpp:15-24: the value of the collection; `f` gets the
reference to the list and its items. -/
def onList (r : Ref) (v : Value) (f : Ref → List Value → RE Value) : RE Value :=
  match v with
  | .null n => pure (.null n)
  | .empty => pure .empty
  | .list vs => fun s => f (inside s v r) vs s
  | _ => pure kNullBadType

/-- PredicateExpression.cpp:19-154. -/
def predicate (keeps : Bool) (name inner : Bytes) (operands : Option (RE Ref × RE Ref)) (collection : RE Ref) (filter : Option (RE Ref)) : RE Value :=
  if name = ascii "exists" then
    match operands with
    | some (c, k) => bind c fun c => bind k fun k => bind (read keeps c) fun c => bind (read keeps k) fun k => pure (Ops.exists? c k)
    | none => fail
  else match predType name with
    | none => pure kNullBadType
    | some t => bind collection fun r => bind (read keeps r) fun v => onList r v fun l vs =>
      predLoop keeps t inner (filter.getD fail) l (predStart t) vs

/-- ListComprehensionExpression.cpp:36-43: the filter. -/
def compFilter (keeps : Bool) : Option (RE Ref) → RE (Option Bool)
  | some f => bind (use keeps f) fun v => pure (truth v)
  | none => pure (some true)

/-- ListComprehensionExpression.cpp:45-49: what is put into the list; without a mapping the item is read again after the filter. -/
def compItem (keeps : Bool) (mapping : Option (RE Ref)) (list : Ref) (x : Value) : RE Value :=
  match mapping with
  | some m => use keeps m
  | none => bind (read keeps list) fun _ => pure x

/-- ListComprehensionExpression.cpp:32-50. -/
def compLoop (keeps : Bool) (inner : Bytes) (filter mapping : Option (RE Ref)) (list : Ref) (ret : List Value) : List Value → RE Value
  | [] => bind (read keeps list) fun _ => pure (.list ret)
  | x :: xs => bind (read keeps list) fun _ => bind (setVar inner x) fun _ =>
    bind (compFilter keeps filter) fun b => match b with
    | none => pure kNullBadType
    | some false => compLoop keeps inner filter mapping list ret xs
    | some true => bind (compItem keeps mapping list x) fun y =>
      compLoop keeps inner filter mapping list (ret ++ [y]) xs

/-- ListComprehensionExpression.cpp:12-54. -/
def listComp (keeps : Bool) (inner : Bytes) (collection : RE Ref) (filter mapping : Option (RE Ref)) : RE Value :=
  bind collection fun r => bind (read keeps r) fun v => onList r v fun l vs =>
    if filter.isNone && mapping.isNone then pure (.list vs)
    else compLoop keeps inner filter mapping l [] vs

/-- ReduceExpression.cpp:27-32. -/
def reduceLoop (keeps : Bool) (acc inner : Bytes) (mapping : RE Ref) (list : Ref) : List Value → RE Unit
  | [] => bind (read keeps list) fun _ => pure ()
  | x :: xs => bind (read keeps list) fun _ => bind (setVar inner x) fun _ => bind (use keeps mapping) fun v => bind (setVar acc v) fun _ =>
    reduceLoop keeps acc inner mapping list xs

/-- ReduceExpression.cpp:12-36: the initial value is held as a reference while the collection is evaluated. -/
def reduce (keeps : Bool) (acc : Bytes) (init : RE Ref) (inner : Bytes) (collection mapping : RE Ref) : RE Value :=
  bind init fun i => bind collection fun r => bind (read keeps r) fun v => onList r v fun l vs =>
    bind (read keeps i) fun i => bind (setVar acc i) fun _ => bind (reduceLoop keeps acc inner mapping l vs) fun _ =>
    fun s => some (s.st.vars acc, s)

/-- AggregateExpression.cpp:39-54: the argument is copied. -/
def aggregate (keeps : Bool) (env : Env) (name : Bytes) (distinct : Bool) (p : List Nat) (arg : Option (RE Ref)) : RE Value :=
  match arg with
  | none => fail
  | some m => bind (use keeps m) fun v => quiet (Eval.aggregate env name distinct p (some (pure v)))

/-- SubscriptExpression.cpp:122-187: the bounds are evaluated while the list is held; its length was read before them. -/
def range (keeps : Bool) (list : RE Ref) (lo hi : Option (RE Ref)) : RE Value :=
  bind list fun r => bind (read keeps r) fun v => match v with
    | .list vs => fun s =>
      let l := inside s v r
      let finish (a b : Int) : RE Value := bind (read keeps l) fun _ => pure (Ops.slice vs a b)
      let withHi (a : Int) : RE Value := match hi with
        | none => finish a vs.length
        | some m => bind (use keeps m) fun b => match Ops.bound vs.length b with
          | .inl x => pure x
          | .inr h => finish a h
      match lo with
      | none => withHi 0 s
      | some m => bind (use keeps m) (fun b => match Ops.bound vs.length b with
        | .inl x => pure x
        | .inr a => withHi a) s
    | _ => pure kNullBadType

mutual
/-- `Expression::eval`, all classes. -/
def eval (keeps : Bool) (env : Env) : Expr → List Nat → RE Ref
  | .const v, _ => pure (.own v)
  | .unary o e, p => unOp keeps env o e.varName (eval keeps env e (0 :: p))
  | .binary o l r, p => bind (eval keeps env l (0 :: p)) fun a => bind (eval keeps env r (1 :: p)) fun b => binOp keeps env o p a b
  | .labelAttribute _ _, _ => fail
  | .column i, _ => pure (.own (env.column i))
  | .logical o es, p => own (logical o p (uses keeps env es 0 p))
  | .cast ty e, p => own (bind (use keeps (eval keeps env e (0 :: p))) fun v => lift (Ops.cast env.strtod env.text ty v))
  | .call n es, p => own (bind (refs (evals keeps env es 0 p)) fun rs => bind (reads keeps rs) fun vs =>
      lift ((env.fn n es.length).bind fun f => f vs))
  | .prop k _ sym pr, _ => pure (.own (Eval.prop env k sym pr))
  | .vertex, _ => pure (.own env.vertex)
  | .edge, _ => pure (.own env.edge)
  | .uuid _, _ => pure (.own .empty)
  | .var n _, _ => fun s => some (.var n (s.ver n), s)
  | .versionedVar n none, _ => fun s => some (.var n (s.ver n), s)
  | .versionedVar n (some e), p => own (bind (use keeps (eval keeps env e (0 :: p))) fun v => match v with
    | .int i => pure (env.versionedVar n i)
    | _ => pure kNullBadType)
  | .coll k es, p => own (coll k (uses keeps env es 0 p))
  | .map kvs, p => own (mapOf [] (usesKvs keeps env kvs 0 p))
  | .label n, _ => pure (.own (.str n))
  | .case _ c d cs, p => own (caseExpr (useO keeps env c (0 :: p)) (useO keeps env d (1 :: p)) (usesCases keeps env cs 2 p))
  | .predicate n i c f _, p =>
    own (predicate keeps n i (operands keeps env c (0 :: p)) (eval keeps env c (0 :: p)) (evalO keeps env f (1 :: p)))
  | .listComp i c f m _, p => own (listComp keeps i (eval keeps env c (0 :: p)) (evalO keeps env f (1 :: p)) (evalO keeps env m (2 :: p)))
  | .reduce a i v c m _, p => own (reduce keeps a (eval keeps env i (0 :: p)) v (eval keeps env c (1 :: p)) (eval keeps env m (2 :: p)))
  | .text _ _, _ => fail
  | .aggregate n d a, p => own (aggregate keeps env n d p (evalO keeps env a (0 :: p)))
  | .range l lo hi, p => own (range keeps (eval keeps env l (0 :: p)) (evalO keeps env lo (1 :: p)) (evalO keeps env hi (2 :: p)))
def evals (keeps : Bool) (env : Env) : List Expr → Nat → List Nat → List (RE Ref)
  | [], _, _ => []
  | e :: es, i, p => eval keeps env e (i :: p) :: evals keeps env es (i + 1) p
def uses (keeps : Bool) (env : Env) : List Expr → Nat → List Nat → List (RE Value)
  | [], _, _ => []
  | e :: es, i, p => use keeps (eval keeps env e (i :: p)) :: uses keeps env es (i + 1) p
def evalO (keeps : Bool) (env : Env) : Option Expr → List Nat → Option (RE Ref)
  | none, _ => none
  | some e, p => some (eval keeps env e p)
def useO (keeps : Bool) (env : Env) : Option Expr → List Nat → Option (RE Value)
  | none, _ => none
  | some e, p => some (use keeps (eval keeps env e p))
def usesKvs (keeps : Bool) (env : Env) : List (Bytes × Expr) → Nat → List Nat → List (Bytes × RE Value)
  | [], _, _ => []
  | (k, e) :: es, i, p => (k, use keeps (eval keeps env e (i :: p))) :: usesKvs keeps env es (i + 1) p
def usesCases (keeps : Bool) (env : Env) : List (Expr × Expr) → Nat → List Nat → List (RE Value × RE Value)
  | [], _, _ => []
  | (w, t) :: es, i, p => (use keeps (eval keeps env w (i :: p)), use keeps (eval keeps env t ((i + 1) :: p))) :: usesCases keeps env es (i + 2) p
/-- PredicateExpression.cpp:23-25. -/
def operands (keeps : Bool) (env : Env) : Expr → List Nat → Option (RE Ref × RE Ref)
  | .binary _ l r, p => some (eval keeps env l (0 :: p), eval keeps env r (1 :: p))
  | .labelAttribute l r, _ => some (pure (.own (.str l)), pure (.own r))
  | _, _ => none
end

/-- The value a caller sees who reads the result of `eval` at once. -/
def value (keeps : Bool) (env : Env) (e : Expr) (p : List Nat) (s : RState) : Option Value :=
  (use keeps (eval keeps env e p) s).map Prod.fst

end Refs
end Nebula
