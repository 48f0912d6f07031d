import Verif.Expr.Ast
import Verif.Expr.Ops
import Verif.Agg.Model
/-!
# Model of the evaluation of expressions (src/common/expression/*.cpp, the `eval` functions)

An evaluation is a function from the state to `none` (abort or undefined behaviour) or a value and
the new state.  The state is

* `vars`: the values of the variables, read by `getVar` and written by `setVar` of the
  `ExpressionContext`;
* `mem`: the content of the member `result_` of every node of the expression that can be read before
  it is written in an evaluation (attribute expressions and XOR), addressed by the position of the
  node (positions of children, innermost first);
* `agg`: the `AggData` of the aggregate expressions, set by `setAggData`.

Simplifications: the C++ functions return references; here every value is copied when it is returned
(so a variable changed by a later operand does not change the value of an earlier operand, and a list
stays alive although the variable holding it is overwritten); Expr/Refs models the references, and C144
says for which expressions the two agree.  The getters of the context other than
`getVar` do not depend on `setVar`.  The functions of FunctionManager are functions of their
arguments.
-/
namespace Nebula

/-- The context and the library functions an evaluation reads (ExpressionContext.h:25-78). -/
structure Env where
  versionedVar : Bytes → Int → Value
  varProp : Bytes → Bytes → Value
  edgeProp : Bytes → Bytes → Value
  tagProp : Bytes → Bytes → Value
  srcProp : Bytes → Bytes → Value
  dstProp : Bytes → Bytes → Value
  inputProp : Bytes → Value
  vertex : Value
  edge : Value
  column : Int → Value
  regex : Bytes → Bytes → Option Bool
  /-- `FunctionManager::get` (`none`: an error, the call is then of an empty `std::function`) and the function itself (`none`: it does not return a value). -/
  fn : Bytes → Nat → Option (List Value → Option Value)
  lib : Agg.Lib
  strtod : Value.StrToD
  text : Value → Bytes

/-- What an evaluation reads and writes. -/
structure EState where
  vars : Bytes → Value
  mem : List Nat → Value
  agg : List Nat → Option AggData

/-- `ctx.setVar(name, v)`. -/
def EState.setVar (s : EState) (n : Bytes) (v : Value) : EState :=
  { s with vars := fun m => if m = n then v else s.vars m }
/-- `result_ = v` of the node at `p`. -/
def EState.setMem (s : EState) (p : List Nat) (v : Value) : EState :=
  { s with mem := fun q => if q = p then v else s.mem q }
/-- The aggregate function writes its `AggData`. -/
def EState.setAgg (s : EState) (p : List Nat) (d : AggData) : EState :=
  { s with agg := fun q => if q = p then some d else s.agg q }

/-- A computation on states of any kind. -/
abbrev EvalS (σ α : Type) := σ → Option (α × σ)

/-- A computation. -/
abbrev Eval (α : Type) := EvalS EState α

namespace Eval
open Value

variable {σ : Type}

def pure {α : Type} (a : α) : EvalS σ α := fun s => some (a, s)
def fail {α : Type} : EvalS σ α := fun _ => none
def bind {α β : Type} (m : EvalS σ α) (f : α → EvalS σ β) : EvalS σ β := fun s => match m s with
  | none => none
  | some (a, s) => f a s
def lift {α : Type} (a : Option α) : EvalS σ α := fun s => a.map fun a => (a, s)
def setVar (n : Bytes) (v : Value) : Eval Unit := fun s => some ((), s.setVar n v)
def getVar (n : Bytes) : Eval Value := fun s => some (s.vars n, s)

/-- The operands from left to right. -/
def all : List (EvalS σ Value) → EvalS σ (List Value)
  | [] => pure []
  | m :: ms => bind m fun v => bind (all ms) fun vs => pure (v :: vs)

/-- LogicalExpression.cpp:27-49 `evalAnd` (`dom = false`) and 53-76 `evalOr` (`dom = true`): `result`
is the member `result_`, `dom` the boolean that ends the evaluation. -/
def andOr (dom : Bool) (result : Value) : List (EvalS σ Value) → EvalS σ Value
  | [] => pure result
  | m :: ms => bind m fun v =>
    if v.isBadNull then pure v
    else match v with
      | .bool b => if b = dom then pure v else andOr dom result ms
      | .null _ => andOr dom v ms
      | .empty => if !result.isNull then andOr dom v ms else pure kNullBadType
      | _ => pure kNullBadType

/-- LogicalExpression.cpp:77-105 `evalXor`; `result` is `result_`. -/
def xor (result : Value) (hasEmpty firstBool : Bool) : List (EvalS σ Value) → EvalS σ Value
  | [] => pure result
  | m :: ms => bind m fun v =>
    if v.isNull then pure v
    else match v with
      | .bool b =>
        if hasEmpty then xor result hasEmpty firstBool ms
        else if firstBool then xor (.bool b) hasEmpty false ms
        else match result with
          | .bool a => xor (.bool (a ^^ b)) hasEmpty firstBool ms
          | _ => fail
      | .empty => xor v true firstBool ms
      | _ => pure kNullBadType

/-- LogicalExpression.cpp:12-24 `eval`.  XOR of no operand returns what `result_` held. -/
def logical (o : LogOp) (p : List Nat) (ms : List (Eval Value)) : Eval Value :=
  match o with
  | .and => andOr false (.bool true) ms
  | .or => andOr true (.bool false) ms
  | .xor => fun s => match xor (s.mem p) false true ms s with
    | none => none
    | some (v, s) => some (v, s.setMem p v)

/-- ArithmeticExpression.cpp:13-37, RelationalExpression.cpp:14-213, SubscriptExpression.cpp:15-103,
AttributeExpression.cpp:16-70 after the evaluation of both operands. -/
def binOp (env : Env) (o : BinOp) (p : List Nat) (l r : Value) : Eval Value :=
  match o with
  | .add => lift (Value.add env.lib.fmt l r)
  | .minus => lift (Value.sub l r)
  | .multiply => lift (Value.mul l r)
  | .division => lift (Value.div l r)
  | .mod => lift (Value.mod l r)
  | .eq => pure (Ops.eq l r)
  | .ne => pure (Ops.ne l r)
  | .lt => pure (Ops.lt l r)
  | .le => pure (Ops.le l r)
  | .gt => pure (Ops.gt l r)
  | .ge => pure (Ops.ge l r)
  | .reg => pure (Ops.reg env.regex l r)
  | .inn => pure (Ops.isIn false l r)
  | .notIn => pure (Ops.isIn true l r)
  | .contains => pure (Ops.contains false l r)
  | .notContains => pure (Ops.contains true l r)
  | .startsWith => pure (Ops.startsWith false l r)
  | .notStartsWith => pure (Ops.startsWith true l r)
  | .endsWith => pure (Ops.endsWith false l r)
  | .notEndsWith => pure (Ops.endsWith true l r)
  | .subscript => pure (Ops.subscript l r)
  | .attribute => fun s => (Ops.attr (s.mem p) l r).map fun x => (x.1, s.setMem p x.2)

/-- UnaryExpression.cpp:41-97; `var` tells whether the operand is a variable, and which (`varName`). -/
def unOp (env : Env) (o : UnOp) (var : Option (Option Bytes)) (m : Eval Value) : Eval Value :=
  match o with
  | .plus => m
  | .negate => bind m fun v => pure v.neg
  | .not => bind m fun v => pure v.not
  | .incr => match var with
    | none => pure kNullBadType
    | some none => fail
    | some (some n) => bind m fun v => bind (lift (Value.add env.lib.fmt v (.int 1))) fun r => bind (setVar n r) fun _ => pure r
  | .decr => match var with
    | none => pure kNullBadType
    | some none => fail
    | some (some n) => bind m fun v => bind (lift (Value.sub v (.int 1))) fun r => bind (setVar n r) fun _ => pure r
  | .isNull => bind m fun v => pure (.bool v.isNull)
  | .isNotNull => bind m fun v => pure (.bool (!v.isNull))
  | .isEmpty => bind m fun v => pure (.bool v.isEmpty)
  | .isNotEmpty => bind m fun v => pure (.bool (!v.isEmpty))

/-- PropertyExpression.cpp:55-136. -/
def prop (env : Env) (k : PropKind) (sym prop : Bytes) : Value :=
  match k with
  | .tag => env.tagProp sym prop
  | .input => env.inputProp prop
  | .var => env.varProp sym prop
  | .dst => env.dstProp sym prop
  | .src => env.srcProp sym prop
  | .edge | .edgeSrc | .edgeType | .edgeRank | .edgeDst => env.edgeProp sym prop

/-- PathBuildExpression.cpp:28-57: the items after the first. -/
def pathLoop : Nat → Path Value → List (EvalS σ Value) → EvalS σ Value
  | _, p, [] => pure (.path p)
  | i, p, m :: ms => bind m fun v => match Ops.pathItem i p v with
    | some p => pathLoop (i + 1) p ms
    | none => pure Ops.kNullBadData

/-- PathBuildExpression.cpp:14-60. -/
def pathBuild : List (EvalS σ Value) → EvalS σ Value
  | [] => pure kNull
  | m :: ms => bind m fun v => match Ops.getVertex v with
    | none => pure kNullBadType
    | some w => pathLoop 1 ⟨w, match v with | .path q => q.steps | _ => []⟩ ms

/-- ContainerExpression.cpp:52-63, 124-135 and PathBuildExpression.cpp. -/
def coll (k : CollKind) (ms : List (EvalS σ Value)) : EvalS σ Value :=
  match k with
  | .list => bind (all ms) fun vs => pure (.list vs)
  | .set => bind (all ms) fun vs => pure (.set (vs.foldl Agg.setInsert []))
  | .pathBuild => pathBuild ms

/-- `unordered_map::emplace`: ignored if the key is present. -/
def mapInsert (m : List (Bytes × Value)) (k : Bytes) (v : Value) : List (Bytes × Value) :=
  if (m.lookup k).isSome then m else m ++ [(k, v)]

/-- ContainerExpression.cpp:201-212 MapExpression. -/
def mapOf (acc : List (Bytes × Value)) : List (Bytes × EvalS σ Value) → EvalS σ Value
  | [] => pure (.map acc)
  | (k, m) :: ms => bind m fun v => mapOf (mapInsert acc k v) ms

/-- CaseExpression.cpp:58-74: the branches; `cond` is the value of the condition. -/
def caseLoop (cond : Option Value) (dflt : EvalS σ Value) : List (EvalS σ Value × EvalS σ Value) → EvalS σ Value
  | [] => dflt
  | (w, t) :: cs => bind w fun v =>
    match cond with
    | some c => if Value.beq c v then t else caseLoop cond dflt cs
    | none => match v with
      | .bool b => if b then t else caseLoop cond dflt cs
      | _ => pure kNullBadType

/-- CaseExpression.cpp:56-82. -/
def caseExpr (cond : Option (EvalS σ Value)) (dflt : Option (EvalS σ Value)) (cs : List (EvalS σ Value × EvalS σ Value)) : EvalS σ Value :=
  let d := dflt.getD (pure kNull)
  match cond with
  | none => caseLoop none d cs
  | some c => bind c fun v => caseLoop (some v) d cs

/-- PredicateExpression.h:19-24 the enumeration. -/
inductive PredType where
  | all | any | single | none
deriving DecidableEq, Repr

/-- PredicateExpression.cpp:12-17 `typeMap_`. -/
def predType (n : Bytes) : Option PredType :=
  [(ascii "all", PredType.all), (ascii "any", .any), (ascii "single", .single), (ascii "none", .none)].lookup n

/-- The value of a filter: `none` is a value that is neither EMPTY, NULL nor boolean; otherwise
whether it is the boolean true (PredicateExpression.cpp:88-94 etc.). -/
def truth : Value → Option Bool
  | .bool b => some b
  | .null _ => some false
  | .empty => some false
  | _ => none

/-- PredicateExpression.cpp:83-149: the loops; `result` is `result_`. -/
def predLoop (t : PredType) (inner : Bytes) (filter : Eval Value) (result : Bool) : List Value → Eval Value
  | [] => pure (.bool result)
  | x :: xs => bind (setVar inner x) fun _ => bind filter fun v => match truth v with
    | none => pure kNullBadType
    | some b => match t with
      | .all => if b then predLoop t inner filter result xs else pure (.bool false)
      | .any => if b then pure (.bool true) else predLoop t inner filter result xs
      | .single => if b then (if result then pure (.bool false) else predLoop t inner filter true xs)
          else predLoop t inner filter result xs
      | .none => if b then pure (.bool false) else predLoop t inner filter result xs

/-- The `result_` the loops start with (PredicateExpression.cpp:84, 100, 115, 134). -/
def predStart : PredType → Bool
  | .all => true
  | .any => false
  | .single => false
  | .none => true

/-- PredicateExpression.cpp:71-82, ListComprehensionExpression.cpp:15-23, ReduceExpression.cpp:15-23:
the value of the collection. -/
def onList (v : Value) (f : List Value → Eval Value) : Eval Value :=
  match v with
  | .null n => pure (.null n)
  | .empty => pure .empty
  | .list vs => f vs
  | _ => pure kNullBadType

/-- PredicateExpression.cpp:56-154.  `operands` are the operands of the collection if it is a
binary expression; `exists` on another expression is undefined (`static_cast`), a missing filter is a null dereference. -/
def predicate (name inner : Bytes) (operands : Option (Eval Value × Eval Value)) (collection : Eval Value)
    (filter : Option (Eval Value)) : Eval Value :=
  if name = ascii "exists" then
    match operands with
    | some (c, k) => bind c fun c => bind k fun k => pure (Ops.exists? c k)
    | none => fail
  else match predType name with
    | none => pure kNullBadType
    | some t => bind collection fun v => onList v fun vs =>
      predLoop t inner (filter.getD fail) (predStart t) vs

/-- ListComprehensionExpression.cpp:32-50; `ret` are the values so far. -/
def compLoop (inner : Bytes) (filter mapping : Option (Eval Value)) (ret : List Value) : List Value → Eval Value
  | [] => pure (.list ret)
  | x :: xs => bind (setVar inner x) fun _ =>
    bind (match filter with | some f => bind f fun v => pure (truth v) | none => pure (some true)) fun b =>
    match b with
    | none => pure kNullBadType
    | some false => compLoop inner filter mapping ret xs
    | some true => bind (match mapping with | some m => m | none => pure x) fun y =>
      compLoop inner filter mapping (ret ++ [y]) xs

/-- ListComprehensionExpression.cpp:12-54. -/
def listComp (inner : Bytes) (collection : Eval Value) (filter mapping : Option (Eval Value)) : Eval Value :=
  bind collection fun v => onList v fun vs =>
    if filter.isNone && mapping.isNone then pure (.list vs)
    else compLoop inner filter mapping [] vs

/-- ReduceExpression.cpp:27-32. -/
def reduceLoop (acc inner : Bytes) (mapping : Eval Value) : List Value → Eval Unit
  | [] => pure ()
  | x :: xs => bind (setVar inner x) fun _ => bind mapping fun v => bind (setVar acc v) fun _ =>
    reduceLoop acc inner mapping xs

/-- ReduceExpression.cpp:12-36. -/
def reduce (acc : Bytes) (init : Eval Value) (inner : Bytes) (collection mapping : Eval Value) : Eval Value :=
  bind init fun i => bind collection fun v => onList v fun vs =>
    bind (setVar acc i) fun _ => bind (reduceLoop acc inner mapping vs) fun _ => getVar acc

/-- AggregateExpression.cpp:39-54.  A missing argument, `AggData` or function is a null dereference
or a call of an empty `std::function`. -/
def aggregate (env : Env) (name : Bytes) (distinct : Bool) (p : List Nat) (arg : Option (Eval Value)) : Eval Value :=
  match arg with
  | none => fail
  | some m => bind m fun v => fun s =>
    match s.agg p with
    | none => none
    | some d =>
      if distinct && d.uniques.any (fun x => Value.beq x v) then some (d.result, s)
      else match Agg.get name with
        | none => none
        | some f => match Agg.feed env.lib f distinct d v with
          | none => none
          | some d => some (d.result, s.setAgg p d)

/-- SubscriptExpression.cpp:122-187 SubscriptRangeExpression. -/
def range (list : Eval Value) (lo hi : Option (Eval Value)) : Eval Value :=
  bind list fun v => match v with
    | .list vs =>
      let withHi (l : Int) : Eval Value := match hi with
        | none => pure (Ops.slice vs l vs.length)
        | some m => bind m fun b => match Ops.bound vs.length b with
          | .inl r => pure r
          | .inr h => pure (Ops.slice vs l h)
      match lo with
      | none => withHi 0
      | some m => bind m fun b => match Ops.bound vs.length b with
        | .inl r => pure r
        | .inr l => withHi l
    | _ => pure kNullBadType

end Eval

namespace Expr
open Value

/-- `varExpr->var()` of a variable (UnaryExpression.cpp:58-65). A versioned variable passes the check of its kind and is then cast to
the class of variables, which it does not derive from and whose members lie elsewhere: what is read as the name is undefined
(`some none`). -/
def varName : Expr → Option (Option Bytes)
  | .var n _ => some (some n)
  | .versionedVar _ _ => some none
  | _ => none

mutual
/-- `Expression::eval`, all classes.  `p` is the position of the node. -/
def eval (env : Env) : Expr → List Nat → Eval Value
  | .const v, _ => Eval.pure v
  | .unary o e, p => Eval.unOp env o e.varName (eval env e (0 :: p))
  | .binary o l r, p => Eval.bind (eval env l (0 :: p)) fun a => Eval.bind (eval env r (1 :: p)) fun b => Eval.binOp env o p a b
  | .labelAttribute _ _, _ => Eval.fail
  | .column i, _ => Eval.pure (env.column i)
  | .logical o es, p => Eval.logical o p (evals env es 0 p)
  | .cast ty e, p => Eval.bind (eval env e (0 :: p)) fun v => Eval.lift (Ops.cast env.strtod env.text ty v)
  | .call n es, p => Eval.bind (Eval.all (evals env es 0 p)) fun vs => Eval.lift ((env.fn n es.length).bind fun f => f vs)
  | .prop k _ sym pr, _ => Eval.pure (Eval.prop env k sym pr)
  | .vertex, _ => Eval.pure env.vertex
  | .edge, _ => Eval.pure env.edge
  | .uuid _, _ => Eval.pure .empty
  | .var n _, _ => Eval.getVar n
  | .versionedVar n none, _ => Eval.getVar n
  | .versionedVar n (some e), p => Eval.bind (eval env e (0 :: p)) fun v => match v with
    | .int i => Eval.pure (env.versionedVar n i)
    | _ => Eval.pure kNullBadType
  | .coll k es, p => Eval.coll k (evals env es 0 p)
  | .map kvs, p => Eval.mapOf [] (evalKvs env kvs 0 p)
  | .label n, _ => Eval.pure (.str n)
  | .case _ c d cs, p => Eval.caseExpr (evalO env c (0 :: p)) (evalO env d (1 :: p)) (evalCases env cs 2 p)
  | .predicate n i c f _, p =>
    Eval.predicate n i (operands env c (0 :: p)) (eval env c (0 :: p)) (evalO env f (1 :: p))
  | .listComp i c f m _, p => Eval.listComp i (eval env c (0 :: p)) (evalO env f (1 :: p)) (evalO env m (2 :: p))
  | .reduce a i v c m _, p => Eval.reduce a (eval env i (0 :: p)) v (eval env c (1 :: p)) (eval env m (2 :: p))
  | .text _ _, _ => Eval.fail
  | .aggregate n d a, p => Eval.aggregate env n d p (evalO env a (0 :: p))
  | .range l lo hi, p => Eval.range (eval env l (0 :: p)) (evalO env lo (1 :: p)) (evalO env hi (2 :: p))
/-- The operands, the first with position `i`. -/
def evals (env : Env) : List Expr → Nat → List Nat → List (Eval Value)
  | [], _, _ => []
  | e :: es, i, p => eval env e (i :: p) :: evals env es (i + 1) p
/-- An operand that may be missing. -/
def evalO (env : Env) : Option Expr → List Nat → Option (Eval Value)
  | none, _ => none
  | some e, p => some (eval env e p)
/-- The items of a map. -/
def evalKvs (env : Env) : List (Bytes × Expr) → Nat → List Nat → List (Bytes × Eval Value)
  | [], _, _ => []
  | (k, e) :: es, i, p => (k, eval env e (i :: p)) :: evalKvs env es (i + 1) p
/-- The branches of a CASE. -/
def evalCases (env : Env) : List (Expr × Expr) → Nat → List Nat → List (Eval Value × Eval Value)
  | [], _, _ => []
  | (w, t) :: es, i, p => (eval env w (i :: p), eval env t ((i + 1) :: p)) :: evalCases env es (i + 2) p
/-- The operands of a binary expression (PredicateExpression.cpp:20-25; `static_cast` to
BinaryExpression, whose kind is only checked in debug builds). -/
def operands (env : Env) : Expr → List Nat → Option (Eval Value × Eval Value)
  | .binary _ l r, p => some (eval env l (0 :: p), eval env r (1 :: p))
  | .labelAttribute l r, _ => some (Eval.pure (.str l), Eval.pure r)
  | _, _ => none
end

end Expr
end Nebula
