import Verif.FullText.Run
import Verif.FullText.JsonProps
/-!
# What a search engine does with the requests it understands

Nothing of the code: the side of Elasticsearch that C151 relies on.  `Asks` says which request the arguments of curl carry, `Engine` what an engine answers
and which documents it has afterwards.  Values are compared whole (the field is a keyword, not analysed text).
-/
namespace Nebula
namespace FullText
open Json Net
variable {F S : Type}

/-- A document as it is sent: where it goes, and its two members. -/
structure Doc where
  index : Bytes
  id : Bytes
  column : Bytes
  value : Bytes
deriving DecidableEq

/-- How far a fuzzy match may be off: a text or a number. -/
inductive Fuzz where
  | text (t : Bytes)
  | num (n : Int)
deriving DecidableEq

/-- The ways a value can match a text: it begins with it, it matches it as a wildcard or a regular expression, or nearly. -/
inductive How where
  | pre
  | wildcard
  | regexp
  | fuzzy (f : Fuzz) (op : Bytes)
deriving DecidableEq

/-- What can be asked. -/
inductive Req where
  | put (d : Doc)
  | bulk (ds : List Doc)
  /-- the values of at most `size` documents of the index with the given column whose value matches the text -/
  | find (index column text : Bytes) (how : How) (size : Int)

/-- A fuzziness as JSON. -/
def Fuzz.value : Fuzz → Dyn F
  | .text t => .str t
  | .num n => .int n

/-- The condition of a search as JSON. -/
def How.value (text : Bytes) : How → Dyn F
  | .pre => .obj [(ascii "prefix", .obj [(ascii "value", .str text)])]
  | .wildcard => .obj [(ascii "wildcard", .obj [(ascii "value", .str text)])]
  | .regexp => .obj [(ascii "regexp", .obj [(ascii "value", .str text)])]
  | .fuzzy f op => .obj [(ascii "match", .obj [(ascii "value", .obj [(ascii "query", .str text), (ascii "fuzziness", f.value), (ascii "operator", .str op)])])]

/-- The query of a search. -/
def queryValue (column text : Bytes) (how : How) (size : Int) : Dyn F :=
  .obj [(ascii "query", .obj [(ascii "bool", .obj [(ascii "must", .arr [.obj [(ascii "term", .obj [(ascii "column_id", .str column)])], how.value text])])]),
    (ascii "_source", .str (ascii "value")), (ascii "size", .int size), (ascii "from", .int 0)]

/-- The lines of a bulk: for each document where it goes and what it is. -/
inductive DocLines (D : Doubles F) : List Doc → List Bytes → Prop
  | nil : DocLines D [] []
  | cons {d ds a b lines} :
      ReadsAs D a (.obj [(ascii "index", .obj [(ascii "_id", .str d.id), (ascii "_index", .str d.index)])]) →
      ReadsAs D b (.obj [(ascii "value", .str d.value), (ascii "column_id", .str d.column)]) →
      DocLines D ds lines → DocLines D (d :: ds) (a :: b :: lines)

/-- The arguments of curl carry the request. -/
inductive Asks (D : Doubles F) (c : Client) : List Bytes → Req → Prop
  | put {d : Doc} {data : Bytes} : (47 : UInt8) ∉ d.index → (47 : UInt8) ∉ d.id →
      ReadsAs D data (.obj [(ascii "column_id", .str d.column), (ascii "value", .str d.value)]) →
      Asks D c (curlArgs "application/json" "PUT" c (d.index ++ ascii "/_doc/" ++ d.id) [ascii "-d" ++ data]) (.put d)
  | bulk {ds : List Doc} {data : Bytes} {lines : List Bytes} : splitAll 10 data = [] :: (lines ++ [[]]) → DocLines D ds lines →
      Asks D c (curlArgs "application/x-ndjson" "POST" c (ascii "_bulk") [ascii "-d", data]) (.bulk ds)
  | find {index column text data : Bytes} {how : How} {size timeout : Int} : (47 : UInt8) ∉ index → ReadsAs D data (queryValue column text how size) →
      Asks D c (curlArgs "application/json" "GET" c (index ++ ascii "/_search?timeout=" ++ intDec timeout ++ ascii "ms") [ascii "-d" ++ data])
        (.find index column text how size)

/-- What the engine has: by index and id, the column and the value. -/
abbrev Docs := Bytes → Bytes → Option (Bytes × Bytes)

/-- The documents after one more was put. -/
def Docs.put (m : Docs) (d : Doc) : Docs := fun i k => if i = d.index ∧ k = d.id then some (d.column, d.value) else m i k

/-- Something was written to the pipe, and it is JSON with the property. -/
def Answers (D : Doubles F) (o : Option Process.Pipe) (P : J → Prop) : Prop :=
  ∃ p j, o = some p ∧ p.fails = false ∧ p.rest ≠ [] ∧ readAnswer D p.rest = some j ∧ P j

/-- An engine that does what it is asked. `hit` is what it takes for a match: of a prefix, that the value begins with it; of the others nothing is said. -/
structure Engine (D : Doubles F) (c : Client) (hit : How → Bytes → Bytes → Bool) (step : S → List Bytes → S × Option Process.Pipe) (docs : S → Docs) : Prop where
  put : ∀ s args d, Asks D c args (.put d) → docs (step s args).1 = (docs s).put d ∧
    Answers D (step s args).2 fun j => j.Has "result" (.str (ascii "created")) ∨ j.Has "result" (.str (ascii "updated"))
  bulk : ∀ s args ds, Asks D c args (.bulk ds) → docs (step s args).1 = ds.foldl Docs.put (docs s) ∧
    Answers D (step s args).2 fun j => j.Has "errors" (.bool false)
  pre : ∀ text v, hit .pre text v = true ↔ text <+: v
  find : ∀ s args i col text how n, Asks D c args (.find i col text how n) → docs (step s args).1 = docs s ∧
    ∃ found : List (Bytes × Bytes), (found.map (·.1)).Nodup ∧ (∀ k v, (k, v) ∈ found ↔ docs s i k = some (col, v) ∧ hit how text v = true) ∧
      Answers D (step s args).2 fun j => ∃ h l, j.Has "hits" h ∧ h.Has "hits" (.arr l) ∧ HitValues l ((found.take n.toNat).map (·.2))

/-- A shell that runs what it is given: a command of plain words reaches the engine; of other texts nothing is said. -/
def Runs (shell : S → Bytes → S × Option Process.Pipe) (step : S → List Bytes → S × Option Process.Pipe) : Prop :=
  ∀ s text args, shellArgs text = some args → shell s text = step s args

end FullText
end Nebula
