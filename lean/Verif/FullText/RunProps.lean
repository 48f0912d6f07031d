import Verif.FullText.Engine
import Verif.Process.Props
import Mathlib.Data.List.Dedup
/-!
# C151: what was stored is found

The full-text operations as a whole: the command reaches the engine, the engine does what it is asked (FullText/Engine), and its answer is understood.
-/
namespace Nebula
namespace FullText
open Json Net
variable {F S : Type}

/-! ## One operation -/

theorem cstr_cstr (s : Bytes) : cstr (cstr s) = cstr s :=
  cstr_of_no_nul (by intro h; have := List.all_takeWhile (p := fun b : UInt8 => decide (b ≠ 0)) (l := s); rw [List.all_eq_true] at this; simpa using this 0 h)

theorem shellArgs_cstr (s : Bytes) : shellArgs (cstr s) = shellArgs s := by unfold shellArgs; rw [cstr_cstr]

theorem ask_eq {shell : S → Bytes → S × Option Process.Pipe} {step : S → List Bytes → S × Option Process.Pipe} (hr : Runs shell step) {s : S} {cmd : Bytes}
    {args : List Bytes} (h : shellArgs cmd = some args) {D : Doubles F} {P : J → Prop} (ha : Answers D (step s args).2 P) :
    ∃ t j, ask shell s cmd = ((step s args).1, some t) ∧ readAnswer D t = some j ∧ P j := by
  obtain ⟨p, j, h1, h2, h3, h4, h5⟩ := ha
  refine ⟨p.rest, j, ?_, h4, h5⟩
  have e := hr s (cstr cmd) args (by rw [shellArgs_cstr, h])
  have ho := Process.C108_output p
  rw [h2] at ho
  have ho' : Process.runCommand (step s args).2 = some p.rest := by rw [h1, ho]; rfl
  have hne : p.rest.isEmpty = false := by cases h : p.rest <;> simp_all
  simp only [ask, e, ho', hne]
  rfl

section
variable {D : Doubles F} {ord : List Bytes → List Bytes} {md5 : Bytes → Bytes} {shell : S → Bytes → S × Option Process.Pipe}
  {step : S → List Bytes → S × Option Process.Pipe} {docs : S → Docs} {c : Client}
  {hit : How → Bytes → Bytes → Bool}

/-- The document made of an item. -/
def docOf (md5 : Bytes → Bytes) (it : DocItem) : Doc := ⟨it.index, docId md5 it, md5 it.column, it.val.take 256⟩

/-- An index whose name reaches the engine. -/
def PlainIndex (i : Bytes) : Prop := (47 : UInt8) ∉ i ∧ (39 : UInt8) ∉ i ∧ ∀ b ∈ i, QuotableByte b

/-- An item that can be stored: the index has a plain name, the part is one of the 2^31. -/
def Storable (it : DocItem) : Prop := PlainIndex it.index ∧ 0 ≤ it.part ∧ it.part < 2 ^ 31

/-- **C151 (put).** Storing a document succeeds, and the engine has it then, with the value cut to 256 bytes, beside what it had. -/
theorem C151_put (he : Engine D c hit step docs) (hr : Runs shell step) (hord : ∀ l, (ord l).Perm l) (hmd5 : ∀ c, HexDigest (md5 c)) (hc : SafeClient c)
    (it : DocItem) (hi : Storable it) (s : S) :
    (put D ord md5 shell c it s).2 = some true ∧ docs (put D ord md5 shell c it s).1 = (docs s).put (docOf md5 it) := by
  obtain ⟨data, h1, h2⟩ := C60_put_json D hord hmd5 hc it hi.1.2.2
  have ha : Asks D c _ (.put (docOf md5 it)) := .put (d := docOf md5 it) (data := data) hi.1.1 (C75_id_text hmd5 it hi.2).2 h2
  obtain ⟨g1, g2⟩ := he.put s _ _ ha
  obtain ⟨t, j, e1, e2, e3⟩ := ask_eq hr (cmd := putCmd ord md5 c it) (by exact h1) g2
  have hok : checkPut (readAnswer D t) = true := (C76_status _).2.1.mpr ⟨j, e2, e3⟩
  unfold put
  rw [e1]
  exact ⟨by simp [hok], g1⟩

theorem docLines : ∀ {items : List DocItem} {lines : List Bytes}, BulkText D md5 items lines →
    DocLines D (items.map (docOf md5)) lines := by
  intro items lines h
  induction h with
  | nil => exact .nil
  | cons h _ ih => exact .cons h.1 h.2 ih

/-- **C151 (bulk).** Storing many documents at once succeeds, and the engine has then what it would have after storing them one after the other. -/
theorem C151_bulk (he : Engine D c hit step docs) (hr : Runs shell step) (hord : ∀ l, (ord l).Perm l) (hmd5 : ∀ c, HexDigest (md5 c)) (hc : SafeClient c)
    (items : List DocItem) (hi : ∀ it ∈ items, Storable it) (s : S) :
    (bulk D ord md5 shell c items s).2 = some true ∧
      docs (bulk D ord md5 shell c items s).1 = (items.map (docOf md5)).foldl Docs.put (docs s) := by
  by_cases hne : items = []
  · subst hne
    unfold bulk
    rw [C60_bulk_empty]
    exact ⟨rfl, rfl⟩
  · obtain ⟨data, lines, h1, h2, h3⟩ := C60_bulk_json D hord hmd5 hc items hne fun it h => (hi it h).1.2.1
    have ha : Asks D c _ (.bulk (items.map (docOf md5))) := .bulk h2 (docLines h3)
    obtain ⟨g1, g2⟩ := he.bulk s _ _ ha
    obtain ⟨t, j, e1, e2, e3⟩ := ask_eq hr (cmd := bulkCmd ord md5 c items) (by exact h1) g2
    have hok : checkBulk (readAnswer D t) = true := (C76_status _).2.2.mpr ⟨j, e2, e3⟩
    have hcmd : (bulkCmd ord md5 c items).isEmpty = false := by
      cases h : bulkCmd ord md5 c items with
      | nil => rw [h] at h1; simp [shellArgs, cstr, sh, curlArgs] at h1
      | cons _ _ => rfl
    unfold bulk
    rw [hcmd, e1]
    exact ⟨by simp [hok], by simpa using g1⟩

/-- The call that searches in the given way. -/
def How.call : How → SearchOp
  | .pre => .pre
  | .wildcard => .wildcard
  | .regexp => .regexp
  | .fuzzy (.text t) op => .fuzzy (.str t) op
  | .fuzzy (.num n) op => .fuzzy (.int n) op

/-- A fuzziness that is a number is an `int64_t`. -/
def How.Fits : How → Prop
  | .fuzzy (.num n) _ => InI64 n
  | _ => True

theorem how_plain : ∀ {how : How}, how.Fits → how.call.Plain
  | .pre, _ => trivial
  | .wildcard, _ => trivial
  | .regexp, _ => trivial
  | .fuzzy (.text _) _, _ => trivial
  | .fuzzy (.num _) _, h => h

theorem how_value (q : DocItem) (n : Int) : ∀ how : How, searchValue (F := F) md5 q n (condValue q.val how.call) = queryValue (md5 q.column) q.val how n
  | .pre => rfl
  | .wildcard => rfl
  | .regexp => rfl
  | .fuzzy (.text _) _ => by simp only [queryValue, How.value, Fuzz.value, searchValue, How.call, condValue, J.dyn]
  | .fuzzy (.num _) _ => by simp only [queryValue, How.value, Fuzz.value, searchValue, How.call, condValue, J.dyn]

/-- **C151 (search).** A search of any kind succeeds, leaves the documents as they are, and appends the values of documents of the index and the column that match the
text searched for: of all of them, or of as many as asked for. -/
theorem C151_search (he : Engine D c hit step docs) (hr : Runs shell step) (hord : ∀ l, (ord l).Perm l) (hc : SafeClient c)
    (q : DocItem) (hi : PlainIndex q.index) (timeout maxRows : Int) (hm : InI64 maxRows) (how : How) (hf : how.Fits) (rows : List Bytes) (s : S) :
    ∃ found : List (Bytes × Bytes), (found.map (·.1)).Nodup ∧
      (∀ k v, (k, v) ∈ found ↔ docs s q.index k = some (md5 q.column, v) ∧ hit how q.val v = true) ∧
      (search D ord md5 shell c q timeout maxRows how.call rows s).2 = (some true, rows ++ (found.take maxRows.toNat).map (·.2)) ∧
      docs (search D ord md5 shell c q timeout maxRows how.call rows s).1 = docs s := by
  obtain ⟨data, h1, h2⟩ := C60_search_json (md5 := md5) D hord hc q hi.2.2 timeout maxRows hm how.call (how_plain hf)
  rw [how_value] at h2
  have ha : Asks D c _ (.find q.index (md5 q.column) q.val how maxRows) := .find (data := data) (timeout := timeout) hi.1 h2
  obtain ⟨g1, found, g2, g3, g4⟩ := he.find s _ _ _ _ _ _ ha
  obtain ⟨t, j, e1, e2, h, l, e3, e4, e5⟩ := ask_eq hr (cmd := searchCmd ord md5 c q timeout maxRows how.call) (by exact h1) g4
  have hres := (C76_search_result (readAnswer D t) rows (rows ++ (found.take maxRows.toNat).map (·.2))).mpr ⟨j, h, e2, e3, .inr ⟨l, _, e4, e5, rfl⟩⟩
  refine ⟨found, g2, g3, ?_, ?_⟩
  · unfold search
    rw [e1]
    simp only [hres]
  · unfold search
    rw [e1]
    simp only [g1]

/-! ## What becomes of a call is up to the answer -/

/-- Nothing came back: the pipe cannot be opened, reading it fails, or it is empty. -/
def Silent (o : Option Process.Pipe) : Prop := ∀ p, o = some p → p.fails = true ∨ p.rest = []

theorem ask_silent (hr : Runs shell step) {s : S} {cmd : Bytes} {args : List Bytes} (h : shellArgs cmd = some args) :
    (ask shell s cmd).1 = (step s args).1 ∧ ((ask shell s cmd).2 = none ↔ Silent (step s args).2) ∧
    ∀ t, (ask shell s cmd).2 = some t ↔ ∃ p, (step s args).2 = some p ∧ p.fails = false ∧ p.rest ≠ [] ∧ p.rest = t := by
  have e := hr s (cstr cmd) args (by rw [shellArgs_cstr, h])
  unfold Silent
  cases ho : (step s args).2 with
  | none =>
    simp only [ask, e, ho, Process.runCommand]
    simp
  | some p =>
    have hp : Process.runCommand (some p) = if p.fails = true then none else some p.rest := Process.C108_output p
    cases hf : p.fails with
    | true =>
      rw [hf] at hp
      simp only [ask, e, ho, hp, if_true]
      simp [hf]
    | false =>
      rw [hf] at hp
      simp only [ask, e, ho, hp]
      cases hl : p.rest with
      | nil => simp [hf, hl]
      | cons x l => simp [hf, hl]

theorem ask_answers (hr : Runs shell step) {s : S} {cmd : Bytes} {args : List Bytes} (h : shellArgs cmd = some args) {f : Option J → Bool} {P : J → Prop}
    (hf : ∀ r, f r = true ↔ ∃ j, r = some j ∧ P j) :
    (ask shell s cmd).2.map (fun t => f (readAnswer D t)) = some true ↔ Answers D (step s args).2 P := by
  obtain ⟨_, _, h3⟩ := ask_silent hr (s := s) h
  rw [Option.map_eq_some_iff]
  constructor
  · rintro ⟨t, h1, h2⟩
    obtain ⟨p, g1, g2, g3, rfl⟩ := (h3 t).mp h1
    obtain ⟨j, e1, e2⟩ := (hf _).mp h2
    exact ⟨p, j, g1, g2, g3, e1, e2⟩
  · rintro ⟨p, j, g1, g2, g3, g4, g5⟩
    exact ⟨p.rest, (h3 _).mpr ⟨p, g1, g2, g3, rfl⟩, (hf _).mpr ⟨j, g4, g5⟩⟩

/-- **C151 (indexes).** Creating, dropping and looking for an index with a plain name is one request each.  The call says yes exactly if the answer is that the request was acknowledged, or
names an index (and, before that, has nothing that is not an object); it is an error exactly if nothing came back. -/
theorem C151_index (hr : Runs shell step) (hc : SafeClient c) (index : Bytes) (hi : ∀ b ∈ index, QuotableByte b) (s : S) :
    let create := curlArgs "application/json" "PUT" c index []
    let drop := curlArgs "application/json" "DELETE" c index []
    let look := curlArgs "application/json" "GET" c (ascii "_cat/indices/" ++ index ++ ascii "?format=json") []
    ((createIndex D shell c index s).1 = (step s create).1 ∧
      ((createIndex D shell c index s).2 = some true ↔ Answers D (step s create).2 fun j => j.Has "acknowledged" (.bool true)) ∧
      ((createIndex D shell c index s).2 = none ↔ Silent (step s create).2)) ∧
    ((dropIndex D shell c index s).1 = (step s drop).1 ∧
      ((dropIndex D shell c index s).2 = some true ↔ Answers D (step s drop).2 fun j => j.Has "acknowledged" (.bool true)) ∧
      ((dropIndex D shell c index s).2 = none ↔ Silent (step s drop).2)) ∧
    ((indexExists D shell c index s).1 = (step s look).1 ∧
      ((indexExists D shell c index s).2 = some true ↔
        Answers D (step s look).2 fun j => ∃ a e b v, j = .arr (a ++ e :: b) ∧ (∀ x ∈ a, x.Lacks "index") ∧ e.Has "index" v) ∧
      ((indexExists D shell c index s).2 = none ↔ Silent (step s look).2)) := by
  obtain ⟨h1, h2, h3⟩ := C60_index hc index hi
  refine ⟨⟨(ask_silent hr h1).1, ask_answers hr h1 (fun r => (C76_status r).1), ?_⟩, ⟨(ask_silent hr h2).1, ask_answers hr h2 (fun r => (C76_status r).1), ?_⟩,
    ⟨(ask_silent hr h3).1, ask_answers hr h3 (fun r => ?_), ?_⟩⟩
  · rw [← (ask_silent hr h1).2.1]; simp [createIndex]
  · rw [← (ask_silent hr h2).2.1]; simp [dropIndex]
  · rw [C76_index_exists]
    constructor
    · rintro ⟨a, e, b, v, g1, g2, g3⟩
      exact ⟨_, g1, a, e, b, v, rfl, g2, g3⟩
    · rintro ⟨_, g1, a, e, b, v, rfl, g2, g3⟩
      exact ⟨a, e, b, v, g1, g2, g3⟩
  · rw [← (ask_silent hr h3).2.1]; simp [indexExists]

/-- **C151 (failure).** Whatever the engine does: storing and searching make one request each, are an error exactly if nothing came back, and an error adds no rows; storing one document
succeeds exactly if the answer says created or updated.  The request carries the document, the documents or the query. -/
theorem C151_failure (D : Doubles F) (hr : Runs shell step) (hord : ∀ l, (ord l).Perm l) (hmd5 : ∀ c, HexDigest (md5 c)) (hc : SafeClient c) (s : S) :
    (∀ it, Storable it → ∃ args, Asks D c args (.put (docOf md5 it)) ∧
      (put D ord md5 shell c it s).1 = (step s args).1 ∧
      ((put D ord md5 shell c it s).2 = some true ↔
        Answers D (step s args).2 fun j => j.Has "result" (.str (ascii "created")) ∨ j.Has "result" (.str (ascii "updated"))) ∧
      ((put D ord md5 shell c it s).2 = none ↔ Silent (step s args).2)) ∧
    (∀ items, items ≠ [] → (∀ it ∈ items, Storable it) → ∃ args, Asks D c args (.bulk (items.map (docOf md5))) ∧
      (bulk D ord md5 shell c items s).1 = (step s args).1 ∧
      ((bulk D ord md5 shell c items s).2 = some true ↔ Answers D (step s args).2 fun j => j.Has "errors" (.bool false)) ∧
      ((bulk D ord md5 shell c items s).2 = none ↔ Silent (step s args).2)) ∧
    (∀ q timeout maxRows how rows, PlainIndex q.index → InI64 maxRows → How.Fits how → ∃ args, Asks D c args (.find q.index (md5 q.column) q.val how maxRows) ∧
      (search D ord md5 shell c q timeout maxRows how.call rows s).1 = (step s args).1 ∧
      ((search D ord md5 shell c q timeout maxRows how.call rows s).2.1 = none ↔ Silent (step s args).2) ∧
      ((search D ord md5 shell c q timeout maxRows how.call rows s).2.1 = none → (search D ord md5 shell c q timeout maxRows how.call rows s).2.2 = rows)) := by
  refine ⟨fun it hi => ?_, fun items hne hi => ?_, fun q timeout maxRows how rows hi hm hf => ?_⟩
  · obtain ⟨data, h1, h2⟩ := C60_put_json D hord hmd5 hc it hi.1.2.2
    refine ⟨_, .put (d := docOf md5 it) (data := data) hi.1.1 (C75_id_text hmd5 it hi.2).2 h2, (ask_silent hr h1).1, ask_answers hr h1 (fun r => (C76_status r).2.1), ?_⟩
    refine Iff.trans ?_ (ask_silent hr h1).2.1
    simp [put]
  · obtain ⟨data, lines, h1, h2, h3⟩ := C60_bulk_json D hord hmd5 hc items hne fun it h => (hi it h).1.2.1
    have hcmd : (bulkCmd ord md5 c items).isEmpty = false := by
      cases h : bulkCmd ord md5 c items with
      | nil => rw [h] at h1; simp [shellArgs, cstr, sh, curlArgs] at h1
      | cons _ _ => rfl
    have hb : bulk D ord md5 shell c items s = ((ask shell s (bulkCmd ord md5 c items)).1, (ask shell s (bulkCmd ord md5 c items)).2.map fun t => checkBulk (readAnswer D t)) := by
      unfold bulk; rw [hcmd]; rfl
    rw [hb]
    refine ⟨_, .bulk h2 (docLines h3), (ask_silent hr h1).1, ask_answers hr h1 (fun r => (C76_status r).2.2), ?_⟩
    refine Iff.trans ?_ (ask_silent hr h1).2.1
    simp
  · obtain ⟨data, h1, h2⟩ := C60_search_json (md5 := md5) D hord hc q hi.2.2 timeout maxRows hm how.call (how_plain hf)
    rw [how_value] at h2
    refine ⟨_, .find (data := data) (timeout := timeout) hi.1 h2, ?_⟩
    obtain ⟨g1, g2, g3⟩ := ask_silent hr (s := s) h1
    rw [← g1, ← g2]
    unfold search
    rcases ask shell s (searchCmd ord md5 c q timeout maxRows how.call) with ⟨s', _ | t⟩
    · exact ⟨rfl, by simp, fun _ => rfl⟩
    · exact ⟨rfl, by simp, by simp⟩

/-! ## Histories -/

/-- A call that stores. -/
inductive Store where
  | one (it : DocItem)
  | many (items : List DocItem)

/-- The items of a call. -/
def Store.items : Store → List DocItem
  | .one it => [it]
  | .many l => l

/-- The calls, one after the other: the state and what they return. -/
def stores (D : Doubles F) (ord : List Bytes → List Bytes) (md5 : Bytes → Bytes) (shell : S → Bytes → S × Option Process.Pipe) (c : Client) :
    List Store → S → S × List (Option Bool)
  | [], s => (s, [])
  | .one it :: l, s =>
    let r := put D ord md5 shell c it s
    let r' := stores D ord md5 shell c l r.1
    (r'.1, r.2 :: r'.2)
  | .many its :: l, s =>
    let r := bulk D ord md5 shell c its s
    let r' := stores D ord md5 shell c l r.1
    (r'.1, r.2 :: r'.2)

theorem stores_docs (he : Engine D c hit step docs) (hr : Runs shell step) (hord : ∀ l, (ord l).Perm l) (hmd5 : ∀ c, HexDigest (md5 c)) (hc : SafeClient c) :
    ∀ (l : List Store) (_ : ∀ it ∈ l.flatMap Store.items, Storable it) (s : S),
      (∀ b ∈ (stores D ord md5 shell c l s).2, b = some true) ∧
      docs (stores D ord md5 shell c l s).1 = ((l.flatMap Store.items).map (docOf md5)).foldl Docs.put (docs s)
  | [], _, s => ⟨by simp [stores], rfl⟩
  | .one it :: l, hi, s => by
    have h1 := C151_put he hr hord hmd5 hc it (hi it (by simp [Store.items])) s
    have h2 := stores_docs he hr hord hmd5 hc l (fun x hx => hi x (by simp at hx ⊢; exact .inr hx)) (put D ord md5 shell c it s).1
    constructor
    · intro b hb
      simp only [stores, List.mem_cons] at hb
      rcases hb with rfl | hb
      · exact h1.1
      · exact h2.1 b hb
    · simp only [stores, h2.2, h1.2, List.flatMap_cons, Store.items, List.map_append, List.foldl_append, List.map_cons, List.map_nil, List.foldl_cons, List.foldl_nil]
  | .many its :: l, hi, s => by
    have h1 := C151_bulk he hr hord hmd5 hc its (fun x hx => hi x (by simp [Store.items, hx])) s
    have h2 := stores_docs he hr hord hmd5 hc l (fun x hx => hi x (by simp at hx ⊢; exact .inr hx)) (bulk D ord md5 shell c its s).1
    constructor
    · intro b hb
      simp only [stores, List.mem_cons] at hb
      rcases hb with rfl | hb
      · exact h1.1
      · exact h2.1 b hb
    · simp only [stores, h2.2, h1.2, List.flatMap_cons, Store.items, List.map_append, List.foldl_append]

theorem put_doc (m : Docs) (it : DocItem) (i k : Bytes) :
    m.put (docOf md5 it) i k = if i = it.index ∧ k = docId md5 it then some (md5 it.column, it.val.take 256) else m i k := rfl

theorem docs_fold (hmd5 : ∀ c, HexDigest (md5 c)) (i k col v : Bytes) : ∀ (items : List DocItem) (_ : ∀ it ∈ items, Storable it) (m : Docs)
    (_ : ∀ it ∈ items, ∀ col v, m it.index (docId md5 it) = some (col, v) → col = md5 it.column ∧ v = it.val.take 256),
    ((items.map (docOf md5)).foldl Docs.put m i k = some (col, v) ↔
      m i k = some (col, v) ∨ ∃ it ∈ items, it.index = i ∧ docId md5 it = k ∧ md5 it.column = col ∧ it.val.take 256 = v)
  | [], _, m, _ => by simp
  | it :: l, hi, m, hm => by
    have hpart : ∀ a ∈ it :: l, 0 ≤ a.part ∧ a.part < 2 ^ 31 := fun a ha => (hi a ha).2
    rw [List.map_cons, List.foldl_cons, docs_fold hmd5 i k col v l (fun x hx => hi x (by simp [hx])) _ ?_]
    · simp only [List.mem_cons, exists_eq_or_imp, put_doc]
      by_cases hk : i = it.index ∧ k = docId md5 it
      · rw [if_pos hk]
        obtain ⟨rfl, rfl⟩ := hk
        constructor
        · rintro (h | h)
          · obtain ⟨rfl, rfl⟩ := Prod.mk.inj (Option.some.inj h)
            exact .inr (.inl ⟨rfl, rfl, rfl, rfl⟩)
          · exact .inr (.inr h)
        · rintro (h | h | h)
          · obtain ⟨rfl, rfl⟩ := hm it (by simp) _ _ h
            exact .inl rfl
          · obtain ⟨_, _, rfl, rfl⟩ := h
            exact .inl rfl
          · exact .inr h
      · rw [if_neg hk]
        constructor
        · rintro (h | h)
          · exact .inl h
          · exact .inr (.inr h)
        · rintro (h | ⟨rfl, rfl, _⟩ | h)
          · exact .inl h
          · exact absurd ⟨rfl, rfl⟩ hk
          · exact .inr h
    · intro a ha col v h
      rw [put_doc] at h
      by_cases hk : a.index = it.index ∧ docId md5 a = docId md5 it
      · rw [if_pos hk] at h
        obtain ⟨rfl, rfl⟩ := Prod.mk.inj (Option.some.inj h)
        obtain ⟨_, h2, h3⟩ := (C75_same_id (fun c => (hmd5 c).1) a it (hpart a (by simp [ha])) (hpart it (by simp))).mp hk.2
        exact ⟨h2.symm, h3.symm⟩
      · rw [if_neg hk] at h
        exact hm a (by simp [ha]) col v h

/-- The items a search is for. -/
def Wanted (md5 : Bytes → Bytes) (hit : How → Bytes → Bytes → Bool) (how : How) (q it : DocItem) : Bool :=
  it.index == q.index && md5 it.column == md5 q.column && hit how q.val (it.val.take 256)

/-- **C151 (what was stored is found).** After any calls that store, in an engine that was empty, all calls have succeeded and a search of any kind gives the values, cut to 256 bytes, of
the items stored in the index and the column that match the text searched for: each once for every part it was stored for, in some order, and no more than
asked for. -/
theorem C151_found (he : Engine D c hit step docs) (hr : Runs shell step) (hord : ∀ l, (ord l).Perm l) (hmd5 : ∀ c, HexDigest (md5 c)) (hc : SafeClient c)
    (calls : List Store) (hi : ∀ it ∈ calls.flatMap Store.items, Storable it) (s : S) (h0 : ∀ i k, docs s i k = none)
    (q : DocItem) (hq : PlainIndex q.index) (timeout maxRows : Int) (hm : InI64 maxRows) (how : How) (hf : how.Fits) (rows : List Bytes) :
    (∀ b ∈ (stores D ord md5 shell c calls s).2, b = some true) ∧
    ∃ all : List Bytes,
      all.Perm (((((calls.flatMap Store.items).filter (Wanted md5 hit how q)).map fun it => (it.part, it.val.take 256)).dedup).map (·.2)) ∧
      (search D ord md5 shell c q timeout maxRows how.call rows (stores D ord md5 shell c calls s).1).2 = (some true, rows ++ all.take maxRows.toNat) := by
  obtain ⟨hs, hd⟩ := stores_docs he hr hord hmd5 hc calls hi s
  refine ⟨hs, ?_⟩
  obtain ⟨found, f1, f2, f3, _⟩ := C151_search (md5 := md5) he hr hord hc q hq timeout maxRows hm how hf rows (stores D ord md5 shell c calls s).1
  refine ⟨found.map (·.2), ?_, by rw [f3, List.map_take]⟩
  generalize hits : calls.flatMap Store.items = items at hi hd
  have hmem : ∀ k v, (k, v) ∈ found ↔ ∃ it ∈ items, it.index = q.index ∧ docId md5 it = k ∧ md5 it.column = md5 q.column ∧ it.val.take 256 = v ∧ hit how q.val v = true := by
    intro k v
    rw [f2, hd, docs_fold hmd5 _ _ _ _ items hi _ (fun it _ col v h => by rw [h0] at h; simp at h)]
    simp only [h0]
    constructor
    · rintro ⟨h | ⟨it, h1, h2, h3, h4, h5⟩, hp⟩
      · simp at h
      · exact ⟨it, h1, h2, h3, h4, h5, hp⟩
    · rintro ⟨it, h1, h2, h3, h4, h5, hp⟩
      exact ⟨.inr ⟨it, h1, h2, h3, h4, h5⟩, hp⟩
  let mk : Int × Bytes → Bytes × Bytes := fun x => (docId md5 ⟨q.index, q.column, x.1, x.2⟩, x.2)
  have hid : ∀ it ∈ items, md5 it.column = md5 q.column → docId md5 it = docId md5 ⟨q.index, q.column, it.part, it.val.take 256⟩ := fun it hit h =>
    (C75_same_id (fun c => (hmd5 c).1) it ⟨q.index, q.column, it.part, it.val.take 256⟩ (hi it hit).2 (hi it hit).2).mpr
      ⟨rfl, h, by show it.val.take 256 = (it.val.take 256).take 256; rw [List.take_take]; rfl⟩
  have hkeys : ∀ x, x ∈ ((items.filter (Wanted md5 hit how q)).map fun it => (it.part, it.val.take 256)).dedup ↔
      ∃ it ∈ items, it.index = q.index ∧ md5 it.column = md5 q.column ∧ hit how q.val (it.val.take 256) = true ∧ (it.part, it.val.take 256) = x := by
    intro x
    simp only [List.mem_dedup, List.mem_map, List.mem_filter, Wanted, Bool.and_eq_true, beq_iff_eq]
    constructor
    · rintro ⟨it, ⟨h1, ⟨h2, h3⟩, h4⟩, h5⟩
      exact ⟨it, h1, h2, h3, h4, h5⟩
    · rintro ⟨it, h1, h2, h3, h4, h5⟩
      exact ⟨it, ⟨h1, ⟨h2, h3⟩, h4⟩, h5⟩
  have hinj : ∀ x ∈ ((items.filter (Wanted md5 hit how q)).map fun it => (it.part, it.val.take 256)).dedup,
      ∀ y ∈ ((items.filter (Wanted md5 hit how q)).map fun it => (it.part, it.val.take 256)).dedup, mk x = mk y → x = y := by
    intro x hx y hy h
    obtain ⟨a, ha, a1, a2, a3, rfl⟩ := (hkeys x).mp hx
    obtain ⟨b, hb, b1, b2, b3, rfl⟩ := (hkeys y).mp hy
    have h1 := (C75_same_id (fun c => (hmd5 c).1) ⟨q.index, q.column, a.part, a.val.take 256⟩ ⟨q.index, q.column, b.part, b.val.take 256⟩ (hi a ha).2 (hi b hb).2).mp
      (Prod.mk.inj h).1
    exact Prod.ext h1.1 (Prod.mk.inj h).2
  have hperm : found.Perm ((((items.filter (Wanted md5 hit how q)).map fun it => (it.part, it.val.take 256)).dedup).map mk) := by
    refine (List.perm_ext_iff_of_nodup (List.Nodup.of_map _ f1) (List.Nodup.map_on hinj (List.nodup_dedup _))).mpr ?_
    rintro ⟨k, v⟩
    rw [hmem, List.mem_map]
    constructor
    · rintro ⟨it, h1, h2, h3, h4, h5, hp⟩
      subst h5
      exact ⟨(it.part, it.val.take 256), (hkeys _).mpr ⟨it, h1, h2, h4, hp, rfl⟩, by rw [← h3, hid it h1 h4]⟩
    · rintro ⟨x, hx, h⟩
      obtain ⟨it, h1, h2, h3, h4, rfl⟩ := (hkeys x).mp hx
      obtain ⟨rfl, rfl⟩ := Prod.mk.inj h
      exact ⟨it, h1, h2, hid it h1 h3, h3, rfl, h4⟩
  have := hperm.map (·.2)
  rw [List.map_map] at this
  exact this

/-- **C151 (what was stored is found, prefixes).** The same for a prefix search, where a match is no matter of the engine. -/
theorem C151_prefix (he : Engine D c hit step docs) (hr : Runs shell step) (hord : ∀ l, (ord l).Perm l) (hmd5 : ∀ c, HexDigest (md5 c)) (hc : SafeClient c)
    (calls : List Store) (hi : ∀ it ∈ calls.flatMap Store.items, Storable it) (s : S) (h0 : ∀ i k, docs s i k = none)
    (q : DocItem) (hq : PlainIndex q.index) (timeout maxRows : Int) (hm : InI64 maxRows) (rows : List Bytes) :
    ∃ all : List Bytes,
      all.Perm (((((calls.flatMap Store.items).filter fun it => it.index = q.index ∧ md5 it.column = md5 q.column ∧ q.val <+: it.val.take 256).map
        fun it => (it.part, it.val.take 256)).dedup).map (·.2)) ∧
      (search D ord md5 shell c q timeout maxRows .pre rows (stores D ord md5 shell c calls s).1).2 = (some true, rows ++ all.take maxRows.toNat) := by
  obtain ⟨_, all, h1, h2⟩ := C151_found he hr hord hmd5 hc calls hi s h0 q hq timeout maxRows hm .pre trivial rows
  refine ⟨all, ?_, h2⟩
  have : (Wanted md5 hit .pre q) = fun it => decide (it.index = q.index ∧ md5 it.column = md5 q.column ∧ q.val <+: it.val.take 256) := by
    funext it
    rw [Bool.eq_iff_iff]
    simp [Wanted, he.pre, and_assoc]
  rwa [this] at h1

/-- **C151 fails for texts of more than 256 bytes:** what is stored is cut, what is searched for is not, so that a value is not found by itself. -/
theorem C151_long_violated (he : Engine D c hit step docs) (hr : Runs shell step) (hord : ∀ l, (ord l).Perm l) (hmd5 : ∀ c, HexDigest (md5 c)) (hc : SafeClient c)
    (it : DocItem) (hi : Storable it) (hl : 256 < it.val.length) (s : S) (h0 : ∀ i k, docs s i k = none) (timeout maxRows : Int) (hm : InI64 maxRows) :
    (put D ord md5 shell c it s).2 = some true ∧
    (search D ord md5 shell c it timeout maxRows .pre [] (put D ord md5 shell c it s).1).2 = (some true, []) := by
  obtain ⟨h1, all, h2, h3⟩ := C151_found he hr hord hmd5 hc [.one it] (by simpa [Store.items] using hi) s h0 it hi.1 timeout maxRows hm .pre trivial []
  have hw : Wanted md5 hit .pre it it = false := by
    simp only [Wanted, beq_self_eq_true, Bool.true_and]
    rw [Bool.eq_false_iff]
    intro h
    have := ((he.pre _ _).mp h).length_le
    simp at this
    omega
  have hall : all = [] := by simpa [Store.items, hw] using h2
  subst hall
  exact ⟨h1 _ (by simp [stores]), by simpa [stores, How.call] using h3⟩

end
end FullText
end Nebula
