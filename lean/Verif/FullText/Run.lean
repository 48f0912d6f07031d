import Verif.FullText.Model
import Verif.Process.Model
import Verif.Json.Model
/-!
# Model of the full-text operations as a whole

src/common/plugin/fulltext/elasticsearch/ESStorageAdapter.cpp (`put`, `bulk`) and ESGraphAdapter.cpp (`prefix`, `wildcard`, `regexp`, `fuzzy`, `createIndex`,
`dropIndex`, `indexExists`): the command (FullText/Model), given to the shell by `runCommand` (Process/Model), and its output read as JSON (Json/Model).
The world outside is a function: a state and the text given to the shell to the next state and the pipe that `popen` returns.  The texts of errors and log
lines are not modelled: `none` is a `Status` that is not OK.
-/
namespace Nebula
namespace FullText
open Json
variable {F S : Type}

mutual
/-- What `result`, `statusCheck`, … look at of a `folly::dynamic`: they never look at a double, which is like null then (neither has members, a text or a truth value). -/
def seen : Dyn F → J
  | .null => .null
  | .bool b => .bool b
  | .int i => .int i
  | .dbl _ => .null
  | .str s => .str s
  | .arr l => .arr (seenList l)
  | .obj l => .obj (seenEntries l)
/-- Element by element. -/
def seenList : List (Dyn F) → List J
  | [] => []
  | j :: l => seen j :: seenList l
/-- Entry by entry. -/
def seenEntries : List (Bytes × Dyn F) → List (Bytes × J)
  | [] => []
  | (k, j) :: l => (k, seen j) :: seenEntries l
end

/-- `folly::parseJson` of an answer; `none`: it throws. -/
def readAnswer (D : Doubles F) (t : Bytes) : Option J := (parse D t).map seen

/-- ESStorageAdapter.cpp:123-127, 137-142, ESGraphAdapter.cpp:22-26, 166-170 and so on: run the command; an error or an empty output is an error. -/
def ask (shell : S → Bytes → S × Option Process.Pipe) (s : S) (cmd : Bytes) : S × Option Bytes :=
  match shell s (cstr cmd) with
  | (s', p) => match Process.runCommand p with
    | none => (s', none)
    | some t => (s', if t.isEmpty then none else some t)

section
variable (D : Doubles F) (ord : List Bytes → List Bytes) (md5 : Bytes → Bytes) (shell : S → Bytes → S × Option Process.Pipe)

/-- ESStorageAdapter.cpp:121-129 `put`. -/
def put (c : Client) (it : DocItem) (s : S) : S × Option Bool :=
  match ask shell s (putCmd ord md5 c it) with
  | (s', t) => (s', t.map fun t => checkPut (readAnswer D t))

/-- ESStorageAdapter.cpp:131-144 `bulk`. -/
def bulk (c : Client) (items : List DocItem) (s : S) : S × Option Bool :=
  if (bulkCmd ord md5 c items).isEmpty then (s, some true)
  else match ask shell s (bulkCmd ord md5 c items) with
    | (s', t) => (s', t.map fun t => checkBulk (readAnswer D t))

/-- ESGraphAdapter.cpp:16-72 `prefix`, `wildcard`, `regexp`, `fuzzy`: what is returned and the rows afterwards. -/
def search (c : Client) (it : DocItem) (timeout maxRows : Int) (op : SearchOp) (rows : List Bytes) (s : S) : S × Option Bool × List Bytes :=
  match ask shell s (searchCmd ord md5 c it timeout maxRows op) with
  | (s', none) => (s', none, rows)
  | (s', some t) => match result (readAnswer D t) rows with
    | (ok, rows') => (s', some ok, rows')

/-- ESGraphAdapter.cpp:162-174 `createIndex`. -/
def createIndex (c : Client) (index : Bytes) (s : S) : S × Option Bool :=
  match ask shell s (createIndexCmd c index) with
  | (s', t) => (s', t.map fun t => statusCheck (readAnswer D t))

/-- ESGraphAdapter.cpp:183-194 `dropIndex`. -/
def dropIndex (c : Client) (index : Bytes) (s : S) : S × Option Bool :=
  match ask shell s (dropIndexCmd c index) with
  | (s', t) => (s', t.map fun t => statusCheck (readAnswer D t))

/-- ESGraphAdapter.cpp:203-214 `indexExists`. -/
def indexExists (c : Client) (index : Bytes) (s : S) : S × Option Bool :=
  match ask shell s (indexExistsCmd c index) with
  | (s', t) => (s', t.map fun t => indexCheck (readAnswer D t))
end

end FullText
end Nebula
