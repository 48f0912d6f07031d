import Verif.Expr.Ast
import Verif.Value.Text
/-!
# The text of an expression (`toString` of every class derived from `Expression`)

`none` is undefined behaviour (a null pointer or a missing element is used) or the abort of a `CHECK` or `LOG(FATAL)`.
-/
namespace Nebula
namespace Expr

/-- UnaryExpression.cpp:104-118: the operators written in front; the others have none. -/
def UnOp.front : UnOp → Option Bytes
  | .plus => some (ascii "+")
  | .negate => some (ascii "-")
  | .not => some (ascii "!")
  | .incr => some (ascii "++")
  | .decr => some (ascii "--")
  | _ => none

/-- UnaryExpression.cpp:119-126: the tests written behind. -/
def UnOp.behind : UnOp → Bytes
  | .isNull => ascii " IS NULL"
  | .isNotNull => ascii " IS NOT NULL"
  | .isEmpty => ascii " IS EMPTY"
  | .isNotEmpty => ascii " IS NOT EMPTY"
  | _ => []

/-- ArithmeticExpression.cpp:41-59, RelationalExpression.cpp:217-265. -/
def BinOp.sign : BinOp → Bytes
  | .add => ascii "+"
  | .minus => ascii "-"
  | .multiply => ascii "*"
  | .division => ascii "/"
  | .mod => ascii "%"
  | .lt => ascii "<"
  | .le => ascii "<="
  | .gt => ascii ">"
  | .ge => ascii ">="
  | .eq => ascii "=="
  | .ne => ascii "!="
  | .reg => ascii "=~"
  | .inn => ascii " IN "
  | .notIn => ascii " NOT IN "
  | .contains => ascii " CONTAINS "
  | .notContains => ascii " NOT CONTAINS "
  | .startsWith => ascii " STARTS WITH "
  | .notStartsWith => ascii " NOT STARTS WITH "
  | .endsWith => ascii " ENDS WITH "
  | .notEndsWith => ascii " NOT ENDS WITH "
  | .subscript | .attribute => []

/-- LogicalExpression.cpp:109-121. -/
def LogOp.sign : LogOp → Bytes
  | .and => ascii " AND "
  | .or => ascii " OR "
  | .xor => ascii " XOR "

/-- Value.cpp:1838-1910: the name of a type (the flags of Value.h:63-80). -/
def typeName (t : Nat) : Bytes :=
  if t = 1 then ascii "__EMPTY__" else
  if t = 2 then ascii "BOOL" else
  if t = 4 then ascii "INT" else
  if t = 8 then ascii "FLOAT" else
  if t = 16 then ascii "STRING" else
  if t = 32 then ascii "DATE" else
  if t = 64 then ascii "TIME" else
  if t = 128 then ascii "DATETIME" else
  if t = 256 then ascii "VERTEX" else
  if t = 512 then ascii "EDGE" else
  if t = 1024 then ascii "PATH" else
  if t = 2048 then ascii "LIST" else
  if t = 4096 then ascii "MAP" else
  if t = 8192 then ascii "SET" else
  if t = 16384 then ascii "DATASET" else
  if t = 9223372036854775808 then ascii "NULL" else ascii "__UNKNOWN__"

/-- AttributeExpression.cpp:82-87, LabelAttributeExpression.cpp:14-17: the name behind the dot. -/
def attrText (fmt : F64 → Bytes) : Value → Bytes
  | .str s => s
  | v => v.text fmt

/-- The text of `PropertyExpression` (PropertyExpression.cpp:142-160) and of `VariablePropertyExpression` (PropertyExpression.cpp:162-180), which has no dot behind the reference. -/
def propText (k : PropKind) (ref sym prop : Bytes) : Bytes :=
  (if ref = [] then [] else if k = .var then ref else ref ++ [46]) ++ (if sym = [] then [] else sym ++ [46]) ++ prop

/-- TextSearchExpression.cpp:20-40 `TextSearchArgument::toString`. -/
def textArgText (a : TextArg) : Bytes :=
  let op : Bytes := if a.op = ascii "or" then ascii "OR" else ascii "AND"
  a.from ++ 46 :: a.prop ++ ascii ", " ++ 34 :: a.val ++ [34] ++
    (if a.fuzziness = -1 then ascii ", AUTO, " ++ op else if a.fuzziness > -1 then ascii ", " ++ intDec a.fuzziness ++ ascii ", " ++ op else []) ++
    (if a.limit = -1 then [] else ascii ", " ++ intDec a.limit) ++ (if a.timeout = -1 then [] else ascii ", " ++ intDec a.timeout)

/-- TextSearchExpression.cpp:54-74. -/
def TextKind.word : TextKind → Bytes
  | .prefix => ascii "PREFIX("
  | .wildcard => ascii "WILDCARD("
  | .regexp => ascii "REGEXP("
  | .fuzzy => ascii "FUZZY("

/-- ContainerExpression.cpp:21, 93, PathBuildExpression.cpp:125 and the last characters: `buf.back()` is replaced, which is the comma behind the last item, or the bracket itself if there
are no items. -/
def CollKind.opening : CollKind → Bytes
  | .list => [91]
  | .set => [123]
  | .pathBuild => ascii "PathBuild["

def CollKind.closing : CollKind → UInt8
  | .list => 93
  | .set => 125
  | .pathBuild => 93

/-- `folly::join(sep, …)`, LogicalExpression.cpp:125-130. -/
def joinWith (sep : Bytes) : List Bytes → Bytes
  | [] => []
  | [t] => t
  | t :: u :: ts => t ++ sep ++ joinWith sep (u :: ts)

mutual
/-- `toString`: ConstantExpression.cpp:42-46, UnaryExpression.cpp:101-133, ArithmeticExpression.cpp:39-63, RelationalExpression.cpp:215-269, SubscriptExpression.cpp:106-114, 189-203,
AttributeExpression.cpp:76-90 (the right side must be a constant: a label passes the `CHECK` but is then used as a constant), LabelAttributeExpression.cpp:13-18, ColumnExpression.cpp:26-30,
LogicalExpression.cpp:107-134, TypeCastingExpression.cpp:130-134, FunctionCallExpression.cpp:85-94, PropertyExpression.cpp:142-180, VertexExpression.h:35-37, EdgeExpression.h:37-39,
UUIDExpression.cpp:45-47, VariableExpression.cpp:44-65, ContainerExpression.cpp:15-29, 87-101, 159-175, PathBuildExpression.cpp:121-132, LabelExpression.cpp:17-19, CaseExpression.cpp:84-116,
PredicateExpression.cpp:243-261, ListComprehensionExpression.cpp:142-161, ReduceExpression.cpp:107-125, AggregateExpression.cpp:60-80, TextSearchExpression.cpp:51-78. -/
def toText (fmt : F64 → Bytes) : Expr → Option Bytes
  | .const v => some (v.text fmt)
  | .unary o e => do
    let t ← toText fmt e
    match UnOp.front o with
    | some f => some (f ++ 40 :: t ++ [41])
    | none => some (t ++ UnOp.behind o)
  | .binary .subscript l r => do let a ← toText fmt l; let b ← toText fmt r; some (a ++ 91 :: b ++ [93])
  | .binary .attribute l r => do
    let a ← toText fmt l
    match r with
    | .const v => some (a ++ 46 :: attrText fmt v)
    | _ => none
  | .binary o l r => do let a ← toText fmt l; let b ← toText fmt r; some (40 :: a ++ BinOp.sign o ++ b ++ [41])
  | .labelAttribute l v => some (l ++ 46 :: attrText fmt v)
  | .column i => some (ascii "COLUMN[" ++ intDec i ++ [93])
  | .logical o es => do
    let ts ← toTexts fmt es
    match ts with
    | [] => none
    | _ => some (40 :: joinWith (LogOp.sign o) ts ++ [41])
  | .cast t e => do let a ← toText fmt e; some (40 :: typeName t ++ 41 :: a)
  | .call n es => do let ts ← toTexts fmt es; some (n ++ 40 :: joinWith [44] ts ++ [41])
  | .prop k r s p => some (propText k r s p)
  | .vertex => some (ascii "VERTEX")
  | .edge => some (ascii "EDGE")
  | .uuid f => some (ascii "uuid(\"" ++ cstr f ++ ascii "\")")
  | .var n _ => some (if n = [] then [] else 36 :: n)
  | .versionedVar n v => do
    let t ← toTextO fmt v
    some (if n = [] then [] else match t with
      | none => 36 :: n
      | some x => 36 :: n ++ 123 :: x ++ [125])
  | .coll k es => do
    let ts ← toTexts fmt es
    match ts with
    | [] => some ((CollKind.opening k).dropLast ++ [CollKind.closing k])
    | _ => some (CollKind.opening k ++ joinWith [44] ts ++ [CollKind.closing k])
  | .map kvs => do
    let ts ← toTextKvs fmt kvs
    match ts with
    | [] => some [125]
    | _ => some (123 :: joinWith [44] ts ++ [125])
  | .label n => some n
  | .case true c d cs => do
    let x ← toTextO fmt c
    let ts ← toTextCases fmt cs
    let y ← toTextO fmt d
    some (ascii "CASE" ++ (match x with | none => [] | some t => 32 :: t) ++
      (ts.flatMap fun wt => ascii " WHEN " ++ wt.1 ++ ascii " THEN " ++ wt.2) ++ (match y with | none => [] | some t => ascii " ELSE " ++ t) ++ ascii " END")
  | .case false _ (some d) ((w, t) :: _) => do
    let a ← toText fmt w
    let b ← toText fmt t
    let y ← toText fmt d
    some (40 :: a ++ ascii " ? " ++ b ++ ascii " : " ++ y ++ [41])
  | .case false _ _ _ => none
  | .predicate n i c f _ => do
    let a ← toText fmt c
    if n = ascii "exists" then some (n ++ 40 :: a ++ [41])
    else
      let b ← toTextO fmt f
      match b with
      | none => none
      | some t => some (n ++ 40 :: i ++ ascii " IN " ++ a ++ ascii " WHERE " ++ t ++ [41])
  | .listComp i c f m _ => do
    let a ← toText fmt c
    let x ← toTextO fmt f
    let y ← toTextO fmt m
    some (91 :: i ++ ascii " IN " ++ a ++ (match x with | none => [] | some t => ascii " WHERE " ++ t) ++ (match y with | none => [] | some t => ascii " | " ++ t) ++ [93])
  | .reduce a i v c m _ => do
    let x ← toText fmt i
    let y ← toText fmt c
    let z ← toText fmt m
    some (ascii "reduce(" ++ a ++ ascii " = " ++ x ++ ascii ", " ++ v ++ ascii " IN " ++ y ++ ascii " | " ++ z ++ [41])
  | .text k a => some (TextKind.word k ++ textArgText a ++ [41])
  | .aggregate n d a => match a with
    | none => none
    | some e => do
      let t ← toText fmt e
      let x : Bytes := match e with
        | .const (.str s) => s
        | _ => t
      some (n ++ 40 :: (if d then ascii "distinct " else []) ++ x ++ [41])
  | .range l lo hi => do
    let a ← toText fmt l
    let x ← toTextO fmt lo
    let y ← toTextO fmt hi
    some (a ++ 91 :: x.getD [] ++ ascii ".." ++ y.getD [] ++ [93])
/-- The loops over operands, arguments and items. -/
def toTexts (fmt : F64 → Bytes) : List Expr → Option (List Bytes)
  | [] => some []
  | e :: es => do let t ← toText fmt e; let ts ← toTexts fmt es; some (t :: ts)
/-- ContainerExpression.cpp:166-171. -/
def toTextKvs (fmt : F64 → Bytes) : List (Bytes × Expr) → Option (List Bytes)
  | [] => some []
  | (k, e) :: es => do let t ← toText fmt e; let ts ← toTextKvs fmt es; some ((k ++ 58 :: t) :: ts)
/-- CaseExpression.cpp:94-99. -/
def toTextCases (fmt : F64 → Bytes) : List (Expr × Expr) → Option (List (Bytes × Bytes))
  | [] => some []
  | (w, t) :: es => do let a ← toText fmt w; let b ← toText fmt t; let ts ← toTextCases fmt es; some ((a, b) :: ts)
/-- `x != nullptr`, and then its text. -/
def toTextO (fmt : F64 → Bytes) : Option Expr → Option (Option Bytes)
  | none => some none
  | some e => do let t ← toText fmt e; some (some t)
end

end Expr
end Nebula
