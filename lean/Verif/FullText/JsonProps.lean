import Verif.FullText.Props
import Verif.Json.Lemmas
import Verif.Net.Props
/-!
# C60: the data handed to the search engine is the intended JSON

The text that the commands carry (C60_put, C60_search, C60_bulk) read as JSON is the intended document or query, for every value; the data of a bulk
command has two lines for every document.
-/
namespace Nebula
namespace FullText
open Json Net
variable {F : Type}

mutual
/-- The value as a general JSON value. -/
def J.dyn : J → Dyn F
  | .null => .null
  | .bool b => .bool b
  | .int i => .int i
  | .str s => .str s
  | .arr l => .arr (J.dynList l)
  | .obj l => .obj (J.dynEntries l)
/-- Element by element. -/
def J.dynList : List J → List (Dyn F)
  | [] => []
  | j :: l => j.dyn :: J.dynList l
/-- Entry by entry. -/
def J.dynEntries : List (Bytes × J) → List (Bytes × Dyn F)
  | [] => []
  | (k, j) :: l => (k, j.dyn) :: J.dynEntries l
end

theorem esc_eq (c : UInt8) : jsonEsc c = Json.esc c := rfl
theorem quote_eq (s : Bytes) : jsonStr s = Json.quote s := rfl
theorem commas_eq : ∀ l : List Bytes, commas l = Json.commas [] l
  | [] => rfl
  | [e] => rfl
  | e :: f :: l => by rw [commas, Json.commas, commas_eq (f :: l)] <;> simp

theorem bracket_eq (o c : UInt8) (l : List Bytes) : o :: (commas l ++ [c]) = Json.bracket o c none l := by
  unfold Json.bracket
  split
  · rename_i h; subst h; rfl
  · simp [Json.newline, Json.deeper, commas_eq]

mutual
theorem toJson_dump (D : Doubles F) (ord : List Bytes → List Bytes) : ∀ j : J, dump D ord none j.dyn = some (toJson ord j)
  | .null => by rw [J.dyn, dump, toJson]
  | .bool b => by rw [J.dyn, dump, toJson]
  | .int i => by rw [J.dyn, dump, toJson]
  | .str s => by rw [J.dyn, dump, toJson, quote_eq]
  | .arr l => by rw [J.dyn, dump, toJson, bracket_eq, show deeper none = none from rfl, toJsonList_dump D ord l]; rfl
  | .obj l => by rw [J.dyn, dump, toJson, bracket_eq, show deeper none = none from rfl, toJsonEntries_dump D ord l]; rfl
theorem toJsonList_dump (D : Doubles F) (ord : List Bytes → List Bytes) : ∀ l : List J, dumpList D ord none (J.dynList l) = some (toJsonList ord l)
  | [] => by rw [J.dynList, dumpList, toJsonList]
  | j :: l => by rw [J.dynList, dumpList, toJsonList, toJson_dump D ord j, toJsonList_dump D ord l]; rfl
theorem toJsonEntries_dump (D : Doubles F) (ord : List Bytes → List Bytes) : ∀ l : List (Bytes × J), dumpEntries D ord none (J.dynEntries l) = some (toJsonEntries ord l)
  | [] => by rw [J.dynEntries, dumpEntries, toJsonEntries]
  | (k, j) :: l => by rw [J.dynEntries, dumpEntries, toJsonEntries, toJson_dump D ord j, toJsonEntries_dump D ord l]; rfl
end

/-! ## No line breaks -/

theorem commas_line : ∀ l : List Bytes, (∀ e ∈ l, (10 : UInt8) ∉ e) → (10 : UInt8) ∉ commas l
  | [], _ => by simp [commas]
  | [e], h => by simpa [commas] using h e (by simp)
  | e :: f :: l, h => by
    have h1 := h e (by simp)
    have h2 := commas_line (f :: l) (fun x hx => h x (by simp [hx]))
    simp only [commas, List.mem_append, List.mem_cons, not_or]
    exact ⟨h1, by decide, h2⟩

theorem jsonStr_line (s : Bytes) : (10 : UInt8) ∉ jsonStr s := by
  unfold jsonStr
  simp only [List.mem_cons, List.mem_append, List.mem_flatMap, List.not_mem_nil, or_false, not_or, not_exists, not_and]
  exact ⟨by decide, fun c _ => allBytes (P := fun c => (10 : UInt8) ∉ jsonEsc c) (by decide +kernel) c, by decide⟩

mutual
theorem toJson_line {ord : List Bytes → List Bytes} (hord : ∀ l, (ord l).Perm l) : ∀ j : J, (10 : UInt8) ∉ toJson ord j
  | .null => by rw [toJson]; decide +kernel
  | .bool b => by rw [toJson]; cases b <;> decide +kernel
  | .int i => by
    rw [toJson]
    intro h
    exact absurd (intDec_plain i _ h) (by unfold PlainByte; decide +kernel)
  | .str s => by rw [toJson]; exact jsonStr_line s
  | .arr l => by
    rw [toJson]
    simp only [List.mem_cons, List.mem_append, List.not_mem_nil, or_false, not_or]
    exact ⟨by decide, commas_line _ (toJsonList_line hord l), by decide⟩
  | .obj l => by
    rw [toJson]
    simp only [List.mem_cons, List.mem_append, List.not_mem_nil, or_false, not_or]
    exact ⟨by decide, commas_line _ (fun e he => toJsonEntries_line hord l e ((hord _).mem_iff.mp he)), by decide⟩
theorem toJsonList_line {ord : List Bytes → List Bytes} (hord : ∀ l, (ord l).Perm l) : ∀ l : List J, ∀ e ∈ toJsonList ord l, (10 : UInt8) ∉ e
  | [] => by rw [toJsonList]; simp
  | j :: l => by
    rw [toJsonList]
    intro e he
    rcases List.mem_cons.mp he with rfl | he
    · exact toJson_line hord j
    · exact toJsonList_line hord l e he
theorem toJsonEntries_line {ord : List Bytes → List Bytes} (hord : ∀ l, (ord l).Perm l) : ∀ l : List (Bytes × J), ∀ e ∈ toJsonEntries ord l, (10 : UInt8) ∉ e
  | [] => by rw [toJsonEntries]; simp
  | (k, j) :: l => by
    rw [toJsonEntries]
    intro e he
    rcases List.mem_cons.mp he with rfl | he
    · simp only [List.mem_append, List.mem_cons, not_or]
      exact ⟨jsonStr_line k, by decide, toJson_line hord j⟩
    · exact toJsonEntries_line hord l e he
end

/-! ## The data -/

/-- The text is JSON for a value, up to the order of the entries of objects. -/
def ReadsAs (D : Doubles F) (text : Bytes) (v : Dyn F) : Prop := ∃ w, parse D text = some w ∧ Same v w

theorem readsAs (D : Doubles F) {ord : List Bytes → List Bytes} (hord : ∀ l, (ord l).Perm l) (j : J) (hf : Fine D (j.dyn (F := F))) (hd : depth (j.dyn (F := F)) ≤ maxDepth) :
    ReadsAs D (toJson ord j) j.dyn := parse_dump D hord _ none _ hf hd (toJson_dump D ord j)

section
variable {ord : List Bytes → List Bytes} {md5 : Bytes → Bytes} {c : Client}

/-- C60: the data argument of the command that stores a document, read as JSON, has the digest of the column and the value cut to 256 bytes. -/
theorem C60_put_json (D : Doubles F) (hord : ∀ l, (ord l).Perm l) (hmd5 : ∀ c, HexDigest (md5 c)) (hc : SafeClient c) (it : DocItem)
    (hi : ∀ b ∈ it.index, QuotableByte b) :
    ∃ data, shellArgs (putCmd ord md5 c it) =
        some (curlArgs "application/json" "PUT" c (it.index ++ ascii "/_doc/" ++ docId md5 it) [ascii "-d" ++ data]) ∧
      ReadsAs D data (.obj [(ascii "column_id", .str (md5 it.column)), (ascii "value", .str (it.val.take 256))]) := by
  refine ⟨_, C60_put hord hmd5 hc it hi, ?_⟩
  have hk : ascii "column_id" ≠ ascii "value" := by decide +kernel
  have := readsAs D hord (.obj [(ascii "column_id", .str (md5 it.column)), (ascii "value", .str (it.val.take 256))])
    (by simp [J.dyn, J.dynEntries, Fine, FineEntries, hk]) (by simp [J.dyn, J.dynEntries, depth, depthEntries, maxDepth])
  simpa only [J.dyn, J.dynEntries] using this

/-- The query of a search as a JSON value. -/
def searchValue (md5 : Bytes → Bytes) (it : DocItem) (maxRows : Int) (cond : Dyn F) : Dyn F :=
  .obj [(ascii "query", .obj [(ascii "bool", .obj [(ascii "must", .arr [.obj [(ascii "term", .obj [(ascii "column_id", .str (md5 it.column))])], cond])])]),
    (ascii "_source", .str (ascii "value")), (ascii "size", .int maxRows), (ascii "from", .int 0)]

/-- The condition of a search: the kind of match with the value searched for. -/
def condValue (v : Bytes) : SearchOp → Dyn F
  | .pre => .obj [(ascii "prefix", .obj [(ascii "value", .str v)])]
  | .wildcard => .obj [(ascii "wildcard", .obj [(ascii "value", .str v)])]
  | .regexp => .obj [(ascii "regexp", .obj [(ascii "value", .str v)])]
  | .fuzzy f op => .obj [(ascii "match", .obj [(ascii "value", .obj [(ascii "query", .str v), (ascii "fuzziness", f.dyn), (ascii "operator", .str op)])])]

/-- The fuzziness is a number or a text, as the parser makes it. -/
def SearchOp.Plain : SearchOp → Prop
  | .fuzzy (.int n) _ => InI64 n
  | .fuzzy (.str _) _ => True
  | .fuzzy _ _ => False
  | _ => True

/-- C60: the data argument of a search, read as JSON, asks for the column and the value searched for, and for at most the given number of rows. -/
theorem C60_search_json (D : Doubles F) (hord : ∀ l, (ord l).Perm l) (hc : SafeClient c) (it : DocItem) (hi : ∀ b ∈ it.index, QuotableByte b)
    (timeout maxRows : Int) (hr : InI64 maxRows) (op : SearchOp) (ho : op.Plain) :
    ∃ data, shellArgs (searchCmd ord md5 c it timeout maxRows op) =
        some (curlArgs "application/json" "GET" c (it.index ++ ascii "/_search?timeout=" ++ intDec timeout ++ ascii "ms") [ascii "-d" ++ data]) ∧
      ReadsAs D data (searchValue md5 it maxRows (condValue it.val op)) := by
  refine ⟨_, C60_search hord hc it hi timeout maxRows op, ?_⟩
  have hcond : (opBody it.val op).dyn (F := F) = condValue it.val op := by cases op <;> simp [opBody, condValue, J.dyn, J.dynEntries]
  have hfc : Fine D (condValue (F := F) it.val op) ∧ depth (condValue (F := F) it.val op) ≤ 4 := by
    have k : [ascii "query", ascii "fuzziness", ascii "operator"].Nodup := by decide +kernel
    match op, ho with
    | .pre, _ => simp [condValue, Fine, FineEntries, depth, depthEntries]
    | .wildcard, _ => simp [condValue, Fine, FineEntries, depth, depthEntries]
    | .regexp, _ => simp [condValue, Fine, FineEntries, depth, depthEntries]
    | .fuzzy (.int n) o, ho =>
      have ho' : InI64 n := ho
      refine ⟨⟨by simp, ⟨by simp, ⟨k, trivial, ?_, trivial, trivial⟩, trivial⟩, trivial⟩, by simp [condValue, depth, depthEntries, J.dyn]⟩
      rw [J.dyn]; exact ho'
    | .fuzzy (.str t) o, _ =>
      refine ⟨⟨by simp, ⟨by simp, ⟨k, trivial, ?_, trivial, trivial⟩, trivial⟩, trivial⟩, by simp [condValue, depth, depthEntries, J.dyn]⟩
      rw [J.dyn]; exact trivial
  have hv : (searchQuery md5 it maxRows op).dyn (F := F) = searchValue md5 it maxRows (condValue it.val op) := by
    simp [searchQuery, searchValue, J.dyn, J.dynEntries, J.dynList, columnBody, hcond]
  have k : [ascii "query", ascii "_source", ascii "size", ascii "from"].Nodup := by decide +kernel
  have := readsAs D hord (searchQuery md5 it maxRows op)
    (by
      rw [hv]
      refine ⟨k, ⟨by simp, ⟨by simp, ⟨?_, hfc.1, trivial⟩, trivial⟩, trivial⟩, trivial, hr, (by unfold Fine InI64; decide), trivial⟩
      simp [Fine, FineEntries])
    (by
      rw [hv]
      simp only [searchValue, depth, depthEntries, depthList, maxDepth]
      have := hfc.2
      omega)
  rw [hv] at this
  exact this

/-- The two lines a bulk sends for a document: where it goes, and what it is. -/
def BulkPair (D : Doubles F) (md5 : Bytes → Bytes) (it : DocItem) (a b : Bytes) : Prop :=
  ReadsAs D a (.obj [(ascii "index", .obj [(ascii "_id", .str (docId md5 it)), (ascii "_index", .str it.index)])]) ∧
    ReadsAs D b (.obj [(ascii "value", .str (it.val.take 256)), (ascii "column_id", .str (md5 it.column))])

/-- `lines` are the lines of the documents, two for each. -/
inductive BulkText (D : Doubles F) (md5 : Bytes → Bytes) : List DocItem → List Bytes → Prop
  | nil : BulkText D md5 [] []
  | cons {it items a b lines} : BulkPair D md5 it a b → BulkText D md5 items lines → BulkText D md5 (it :: items) (a :: b :: lines)

theorem bulk_lines (D : Doubles F) (hord : ∀ l, (ord l).Perm l) : ∀ items : List DocItem,
    ∃ lines, splitAll 10 (items.flatMap (bulkLines ord md5)) = lines ++ [[]] ∧ BulkText D md5 items lines
  | [] => ⟨[], by simp [splitAll], .nil⟩
  | it :: items => by
    obtain ⟨lines, h1, h2⟩ := bulk_lines D hord items
    have k1 : ascii "_id" ≠ ascii "_index" := by decide +kernel
    have k2 : ascii "value" ≠ ascii "column_id" := by decide +kernel
    have r1 := readsAs D hord (.obj [(ascii "index", .obj [(ascii "_id", .str (docId md5 it)), (ascii "_index", .str it.index)])])
      (by simp [J.dyn, J.dynEntries, Fine, FineEntries, k1]) (by simp [J.dyn, J.dynEntries, depth, depthEntries, maxDepth])
    have r2 := readsAs D hord (.obj [(ascii "value", .str (it.val.take 256)), (ascii "column_id", .str (md5 it.column))])
      (by simp [J.dyn, J.dynEntries, Fine, FineEntries, k2]) (by simp [J.dyn, J.dynEntries, depth, depthEntries, maxDepth])
    refine ⟨_, ?_, .cons ⟨by simpa only [J.dyn, J.dynEntries] using r1, by simpa only [J.dyn, J.dynEntries] using r2⟩ h2⟩
    rw [List.flatMap_cons, bulkLines]
    simp only [List.append_assoc, List.cons_append, List.nil_append]
    rw [splitAll_append 10 _ _ (toJson_line hord _), splitAll_append 10 _ _ (toJson_line hord _), h1]

/-- C60: the data argument of a bulk, cut into lines, has after an empty line exactly two lines for every document, which read as JSON say where it goes
and what it is. -/
theorem C60_bulk_json (D : Doubles F) (hord : ∀ l, (ord l).Perm l) (hmd5 : ∀ c, HexDigest (md5 c)) (hc : SafeClient c)
    (items : List DocItem) (hne : items ≠ []) (hq : ∀ it ∈ items, (39 : UInt8) ∉ it.index) :
    ∃ data lines, shellArgs (bulkCmd ord md5 c items) = some (curlArgs "application/x-ndjson" "POST" c (ascii "_bulk") [ascii "-d", data]) ∧
      splitAll 10 data = [] :: (lines ++ [[]]) ∧ BulkText D md5 items lines := by
  obtain ⟨lines, h1, h2⟩ := bulk_lines (md5 := md5) D hord items
  refine ⟨_, lines, C60_bulk hord hmd5 hc items hne hq, ?_, h2⟩
  rw [splitAll, if_pos rfl, h1]
end

example : (SearchOp.fuzzy (.int 2) (ascii "or")).Plain ∧ (SearchOp.fuzzy (.str (ascii "auto")) (ascii "and")).Plain ∧ SafeClient sampleClient ∧
    (∀ c, HexDigest (sampleMd5 c)) := ⟨by unfold SearchOp.Plain InI64; decide, trivial, sampleClient_safe, sampleMd5_hex⟩

end FullText
end Nebula
