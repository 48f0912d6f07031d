import Verif.Text
import Verif.Host.Model
/-!
# Model of the full-text plugin
src/common/plugin/fulltext/FTUtils.h, elasticsearch/ESStorageAdapter.cpp, ESGraphAdapter.cpp,
src/common/encryption/{Base64,MD5Utils}.cpp

Simplifications: `proxygen::base64Encode` is RFC 4648 base64 with padding; `proxygen::md5Encode` is an
arbitrary function `md5` (the theorems assume that it yields 32 hexadecimal digits); numbers in JSON
are integers; `folly::toJson` writes the entries of an object in an order that is not specified, here
given by an arbitrary function `ord` on the written entries. Running the command (`popen`) and
`folly::parseJson` are not modelled: `result`, `statusCheck`, … take the parsed answer, `none` if it
is not JSON.
-/
namespace Nebula
namespace FullText

/-! ## JSON -/

/-- `folly::dynamic`: the values used here (entries of an object without repeated keys). -/
inductive J where
  | null
  | bool (b : Bool)
  | int (i : Int)
  | str (s : Bytes)
  | arr (l : List J)
  | obj (l : List (Bytes × J))

/-- Hexadecimal digit, lower case. -/
def hexDigit (n : Nat) : UInt8 := if n < 10 then UInt8.ofNat (48 + n) else UInt8.ofNat (87 + n)

/-- folly/json.cpp `escapeString` with the default options: one byte of a string. -/
def jsonEsc (c : UInt8) : Bytes :=
  if c = 34 then [92, 34]
  else if c = 92 then [92, 92]
  else if c = 8 then [92, 98]
  else if c = 12 then [92, 102]
  else if c = 10 then [92, 110]
  else if c = 13 then [92, 114]
  else if c = 9 then [92, 116]
  else if c < 32 then [92, 117, 48, 48, hexDigit (c.toNat / 16), hexDigit (c.toNat % 16)]
  else [c]

/-- A string in JSON. -/
def jsonStr (s : Bytes) : Bytes := 34 :: (s.flatMap jsonEsc ++ [34])

/-- Pieces separated by commas. -/
def commas : List Bytes → Bytes
  | [] => []
  | [e] => e
  | e :: es => e ++ 44 :: commas es

mutual
/-- `folly::toJson`. -/
def toJson (ord : List Bytes → List Bytes) : J → Bytes
  | .null => ascii "null"
  | .bool b => if b then ascii "true" else ascii "false"
  | .int i => intDec i
  | .str s => jsonStr s
  | .arr l => 91 :: (commas (toJsonList ord l) ++ [93])
  | .obj l => 123 :: (commas (ord (toJsonEntries ord l)) ++ [125])
/-- The elements of an array. -/
def toJsonList (ord : List Bytes → List Bytes) : List J → List Bytes
  | [] => []
  | j :: l => toJson ord j :: toJsonList ord l
/-- The entries of an object. -/
def toJsonEntries (ord : List Bytes → List Bytes) : List (Bytes × J) → List Bytes
  | [] => []
  | (k, j) :: l => (jsonStr k ++ 58 :: toJson ord j) :: toJsonEntries ord l
end

/-! ## Base64 -/

/-- The base64 alphabet (RFC 4648, table 1). -/
def b64Char (n : Nat) : UInt8 :=
  if n < 26 then UInt8.ofNat (65 + n)
  else if n < 52 then UInt8.ofNat (71 + n)
  else if n < 62 then UInt8.ofNat (n - 4)
  else if n = 62 then 43 else 47

/-- Base64.cpp:12-16 `Base64::encode`. -/
def base64 : Bytes → Bytes
  | [] => []
  | [a] => [b64Char (a.toNat / 4), b64Char (a.toNat % 4 * 16), 61, 61]
  | [a, b] => [b64Char (a.toNat / 4), b64Char (a.toNat % 4 * 16 + b.toNat / 16), b64Char (b.toNat % 16 * 4), 61]
  | a :: b :: c :: r =>
    b64Char (a.toNat / 4) :: b64Char (a.toNat % 4 * 16 + b.toNat / 16) ::
      b64Char (b.toNat % 16 * 4 + c.toNat / 64) :: b64Char (c.toNat % 64) :: base64 r

/-! ## FTUtils.h -/

/-- FTUtils.h:37-79 `HttpClient`. -/
structure Client where
  host : HostAddr
  user : Bytes
  password : Bytes
deriving DecidableEq

/-- FTUtils.h:81-91 `HttpClient::toString`. -/
def Client.toStr (c : Client) : Bytes :=
  (if c.user ≠ [] then ascii " -u " ++ c.user ++ (if c.password ≠ [] then 58 :: c.password else []) else []) ++
    ascii " \"http://" ++ c.host.host ++ 58 :: intDec c.host.port ++ ascii "/"

/-- FTUtils.h:94-145 `DocItem`. -/
structure DocItem where
  index : Bytes
  column : Bytes
  part : Int
  val : Bytes
deriving DecidableEq

/-- CommonMacro.h:15 `MAX_INDEX_TYPE_LENGTH`. -/
def maxIndexLen : Nat := 256

/-- FTUtils.h:159-165 `DocIDTraits::id`: width 10, filled with zeros from the left. -/
def docPart (i : Int) : Bytes := List.replicate (10 - (intDec i).length) 48 ++ intDec i

/-- FTUtils.h:172-174 `DocIDTraits::val`. -/
def docVal (v : Bytes) : Bytes := if v.length > maxIndexLen then v.take maxIndexLen else v

/-- FTUtils.h:176-178, 25 `DocIDTraits::normalizedJson`: every `'` becomes `'\''`. -/
def normalized (v : Bytes) : Bytes := v.flatMap fun c => if c = 39 then [39, 92, 39, 39] else [c]

/-- FTUtils.h:180-193 `DocIDTraits::docId`. -/
def docId (md5 : Bytes → Bytes) (it : DocItem) : Bytes :=
  let encoded := base64 (if it.val.length > maxIndexLen then it.val.take maxIndexLen else it.val)
  let encoded := encoded.map fun c => if c = 47 then 95 else c
  docPart it.part ++ md5 it.column ++ encoded

/-- FTUtils.h:18-24. -/
def curl : Bytes := ascii "/usr/bin/curl"
def xput : Bytes := ascii " -XPUT"
def xpost : Bytes := ascii " -XPOST"
def xget : Bytes := ascii " -XGET"
def xdelete : Bytes := ascii " -XDELETE"
def contentJson : Bytes := ascii " -H \"Content-Type: application/json; charset=utf-8\""
def contentNdjson : Bytes := ascii " -H \"Content-Type: application/x-ndjson; charset=utf-8\""

/-! ## ESStorageAdapter.cpp -/

section
variable (ord : List Bytes → List Bytes) (md5 : Bytes → Bytes)

/-- ESStorageAdapter.cpp:146-154 `putHeader`. -/
def putHeader (c : Client) (it : DocItem) : Bytes :=
  curl ++ contentJson ++ xput ++ c.toStr ++ it.index ++ ascii "/_doc/" ++ docId md5 it ++ ascii "\""

/-- ESStorageAdapter.cpp:158-159: the document. -/
def putDoc (it : DocItem) : J :=
  .obj [(ascii "column_id", .str (md5 it.column)), (ascii "value", .str (docVal it.val))]

/-- ESStorageAdapter.cpp:156-163 `putBody`. -/
def putBody (it : DocItem) : Bytes := ascii " -d'" ++ normalized (toJson ord (putDoc md5 it)) ++ ascii "'"

/-- ESStorageAdapter.cpp:165-170 `putCmd`. -/
def putCmd (c : Client) (it : DocItem) : Bytes := putHeader md5 c it ++ putBody ord md5 it

/-- ESStorageAdapter.cpp:172-178 `bulkHeader`. -/
def bulkHeader (c : Client) : Bytes := curl ++ contentNdjson ++ xpost ++ c.toStr ++ ascii "_bulk\""

/-- ESStorageAdapter.cpp:193-194, 197: the line that names the document. -/
def bulkMeta (it : DocItem) : J :=
  .obj [(ascii "index", .obj [(ascii "_id", .str (docId md5 it)), (ascii "_index", .str it.index)])]

/-- ESStorageAdapter.cpp:195-196: the document. -/
def bulkDoc (it : DocItem) : J :=
  .obj [(ascii "value", .str (docVal it.val)), (ascii "column_id", .str (md5 it.column))]

/-- ESStorageAdapter.cpp:192-199: the lines of one item. -/
def bulkItem (it : DocItem) : Bytes :=
  toJson ord (bulkMeta md5 it) ++ [10] ++ normalized (toJson ord (bulkDoc md5 it)) ++ [10]

/-- ESStorageAdapter.cpp:180-202 `bulkBody`. -/
def bulkBody (items : List DocItem) : Bytes :=
  if items = [] then [] else ascii " -d '" ++ [10] ++ items.flatMap (bulkItem ord md5) ++ ascii "'"

/-- ESStorageAdapter.cpp:204-213 `bulkCmd`. -/
def bulkCmd (c : Client) (items : List DocItem) : Bytes :=
  if bulkBody ord md5 items = [] then [] else bulkHeader c ++ bulkBody ord md5 items

/-! ## ESGraphAdapter.cpp -/

/-- FTUtils.h:30-35 `FT_SEARCH_OP`; the fuzzy search with its two arguments. -/
inductive SearchOp where
  | pre
  | wildcard
  | regexp
  | fuzzy (fuzziness : J) (op : Bytes)

/-- ESGraphAdapter.cpp:80-89 `header`. -/
def searchHeader (c : Client) (it : DocItem) (timeout : Int) : Bytes :=
  curl ++ contentJson ++ xget ++ c.toStr ++ it.index ++ ascii "/_search?timeout=" ++ intDec timeout ++ ascii "ms" ++ ascii "\""

/-- ESGraphAdapter.cpp:91-95 `columnBody`. -/
def columnBody (col : Bytes) : J := .obj [(ascii "term", .obj [(ascii "column_id", .str (md5 col))])]

/-- ESGraphAdapter.cpp:132-159 `prefixBody`, `wildcardBody`, `regexpBody`, `fuzzyBody`. -/
def opBody (v : Bytes) : SearchOp → J
  | .pre => .obj [(ascii "prefix", .obj [(ascii "value", .str v)])]
  | .wildcard => .obj [(ascii "wildcard", .obj [(ascii "value", .str v)])]
  | .regexp => .obj [(ascii "regexp", .obj [(ascii "value", .str v)])]
  | .fuzzy f op => .obj [(ascii "match", .obj [(ascii "value",
      .obj [(ascii "query", .str v), (ascii "fuzziness", f), (ascii "operator", .str op)])])]

/-- ESGraphAdapter.cpp:102-126: the query. -/
def searchQuery (it : DocItem) (maxRows : Int) (op : SearchOp) : J :=
  .obj [(ascii "query", .obj [(ascii "bool", .obj [(ascii "must", .arr [columnBody md5 it.column, opBody it.val op])])]),
    (ascii "_source", .str (ascii "value")), (ascii "size", .int maxRows), (ascii "from", .int 0)]

/-- ESGraphAdapter.cpp:97-130 `body`. -/
def searchBody (it : DocItem) (maxRows : Int) (op : SearchOp) : Bytes :=
  ascii " -d'" ++ normalized (toJson ord (searchQuery md5 it maxRows op)) ++ ascii "'"

/-- ESGraphAdapter.cpp:16-72 `prefix`, `wildcard`, `regexp`, `fuzzy`: the command. -/
def searchCmd (c : Client) (it : DocItem) (timeout maxRows : Int) (op : SearchOp) : Bytes :=
  searchHeader c it timeout ++ searchBody ord md5 it maxRows op

/-- ESGraphAdapter.cpp:176-181 `createIndexCmd`. -/
def createIndexCmd (c : Client) (index : Bytes) : Bytes :=
  curl ++ contentJson ++ xput ++ c.toStr ++ index ++ ascii "\""

/-- ESGraphAdapter.cpp:196-201 `dropIndexCmd`. -/
def dropIndexCmd (c : Client) (index : Bytes) : Bytes :=
  curl ++ contentJson ++ xdelete ++ c.toStr ++ index ++ ascii "\""

/-- ESGraphAdapter.cpp:216-222 `indexExistsCmd`. -/
def indexExistsCmd (c : Client) (index : Bytes) : Bytes :=
  curl ++ contentJson ++ xget ++ c.toStr ++ ascii "_cat/indices/" ++ index ++ ascii "?format=json" ++ ascii "\""
end

/-! ## Reading the answers -/

/-- `dynamic::find`: throws (`none`) unless applied to an object. -/
def J.find (k : Bytes) : J → Option (Option J)
  | .obj l => some ((l.find? fun e => e.1 == k).map (·.2))
  | _ => none

/-- ESGraphAdapter.cpp:231-243: the rows added by one hit; `none` if an exception is thrown. -/
def hitRow (item : J) : Option (List Bytes) :=
  match item.find (ascii "_source") with
  | none => none
  | some none => some []
  | some (some s) =>
    match s.find (ascii "value") with
    | none => none
    | some none => some []
    | some (some (.str v)) => some [v]
    | some (some _) => none

/-- ESGraphAdapter.cpp:231-243: the loop over the hits; `false` if an exception ended it. -/
def hitRows : List J → List Bytes → Bool × List Bytes
  | [], rows => (true, rows)
  | h :: hs, rows =>
    match hitRow h with
    | none => (false, rows)
    | some r => hitRows hs (rows ++ r)

/-- ESGraphAdapter.cpp:224-252 `result`: what it returns and the rows afterwards. -/
def result (ret : Option J) (rows : List Bytes) : Bool × List Bytes :=
  match ret with
  | none => (false, rows)
  | some root =>
    match root.find (ascii "hits") with
    | none => (false, rows)
    | some none => (false, rows)
    | some (some h) =>
      match h.find (ascii "hits") with
      | none => (false, rows)
      | some none => (true, rows)
      | some (some (.arr l)) => hitRows l rows
      | some (some _) => (false, rows)

/-- ESGraphAdapter.cpp:254-270 `statusCheck`. -/
def statusCheck : Option J → Bool
  | some (.obj l) =>
    match (J.obj l).find (ascii "acknowledged") with
    | some (some (.bool b)) => b
    | _ => false
  | _ => false

/-- ESGraphAdapter.cpp:278-283: the loop of `indexCheck`. -/
def indexLoop : List J → Bool
  | [] => false
  | e :: es =>
    match e.find (ascii "index") with
    | none => false
    | some none => indexLoop es
    | some (some _) => true

/-- ESGraphAdapter.cpp:272-289 `indexCheck`. -/
def indexCheck : Option J → Bool
  | some (.arr l) => indexLoop l
  | _ => false

/-- ESStorageAdapter.cpp:16-53 `checkPut`. -/
def checkPut : Option J → Bool
  | some (.obj l) =>
    match (J.obj l).find (ascii "result") with
    | some (some (.str s)) => s == ascii "created" || s == ascii "updated"
    | _ => false
  | _ => false

/-- ESStorageAdapter.cpp:55-119 `checkBulk`. -/
def checkBulk : Option J → Bool
  | some (.obj l) =>
    match (J.obj l).find (ascii "errors") with
    | some (some (.bool b)) => !b
    | _ => false
  | _ => false

end FullText
end Nebula
