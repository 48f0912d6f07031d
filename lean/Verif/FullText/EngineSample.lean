import Verif.FullText.RunProps
import Verif.Conf.Props
/-!
# An engine that does what it is asked

The hypotheses of C151 can be met: arguments carry at most one request (`asks_unique`), so that there is an engine that looks at the request and
answers it.
-/
namespace Nebula
namespace FullText
open Json Net
variable {F S : Type}

/-! ## A text is JSON for one value only -/

theorem sameEntries_mem {l m : List (Bytes × Dyn F)} (h : SameEntries l m) : m.map (·.1) = l.map (·.1) ∧ ∀ k v, (k, v) ∈ l → ∃ w, (k, w) ∈ m ∧ Same v w := by
  induction l generalizing m with
  | nil => cases h; exact ⟨rfl, by simp⟩
  | cons x l ih =>
    cases h with
    | cons hs ht =>
      obtain ⟨h1, h2⟩ := ih ht
      refine ⟨by simp [h1], fun k v hk => ?_⟩
      rcases List.mem_cons.mp hk with e | hk
      · obtain ⟨rfl, rfl⟩ := Prod.mk.inj e
        exact ⟨_, by simp, hs⟩
      · obtain ⟨w, hw, hsw⟩ := h2 k v hk
        exact ⟨w, by simp [hw], hsw⟩

theorem same_obj {l : List (Bytes × Dyn F)} {w : Dyn F} (h : Same (.obj l) w) :
    ∃ m, w = .obj m ∧ (m.map (·.1)).Perm (l.map (·.1)) ∧ ∀ k v, (k, v) ∈ l → ∃ w, (k, w) ∈ m ∧ Same v w := by
  cases h with
  | obj hp he =>
    obtain ⟨h1, h2⟩ := sameEntries_mem he
    refine ⟨_, rfl, ?_, fun k v hk => h2 k v (hp.mem_iff.mp hk)⟩
    rw [h1]
    exact (hp.map _).symm

theorem nodup_val {α β : Type} : ∀ {m : List (α × β)}, (m.map (·.1)).Nodup → ∀ {k : α} {a b : β}, (k, a) ∈ m → (k, b) ∈ m → a = b
  | [], _, _, _, _, h, _ => by simp at h
  | x :: m, hn, k, a, b, ha, hb => by
    simp only [List.map_cons, List.nodup_cons, List.mem_map, not_exists, not_and] at hn
    rcases List.mem_cons.mp ha with ea | ha' <;> rcases List.mem_cons.mp hb with eb | hb'
    · exact (Prod.mk.inj (ea.trans eb.symm)).2
    · rw [← ea] at hn; exact absurd rfl (hn.1 (k, b) hb')
    · rw [← eb] at hn; exact absurd rfl (hn.1 (k, a) ha')
    · exact nodup_val hn.2 ha' hb'

/-- Two objects that are the same as a third have the same values under a key. -/
theorem same_key {l l' : List (Bytes × Dyn F)} {w : Dyn F} (h : Same (.obj l) w) (h' : Same (.obj l') w) (hn : (l.map (·.1)).Nodup) {k : Bytes} {v v' : Dyn F}
    (hk : (k, v) ∈ l) (hk' : (k, v') ∈ l') : ∃ u, Same v u ∧ Same v' u := by
  obtain ⟨m, rfl, hp, hm⟩ := same_obj h
  obtain ⟨m', e, _, hm'⟩ := same_obj h'
  cases e
  obtain ⟨u, hu, s1⟩ := hm k v hk
  obtain ⟨u', hu', s2⟩ := hm' k v' hk'
  have := nodup_val (hp.nodup_iff.mpr hn) hu hu'
  subst this
  exact ⟨u, s1, s2⟩

theorem same_str {a b : Bytes} {u : Dyn F} (h : Same (.str a) u) (h' : Same (.str b) u) : a = b := by cases h; cases h'; rfl
theorem same_int {a b : Int} {u : Dyn F} (h : Same (.int a) u) (h' : Same (.int b) u) : a = b := by cases h; cases h'; rfl

theorem reads_same {D : Doubles F} {t : Bytes} {v v' : Dyn F} (h : ReadsAs D t v) (h' : ReadsAs D t v') : ∃ u, Same v u ∧ Same v' u := by
  obtain ⟨u, h1, h2⟩ := h
  obtain ⟨u', h3, h4⟩ := h'
  rw [h1] at h3
  cases h3
  exact ⟨u, h2, h4⟩

theorem keys_doc : [ascii "column_id", ascii "value"].Nodup ∧ [ascii "value", ascii "column_id"].Nodup ∧ [ascii "_id", ascii "_index"].Nodup ∧
    [ascii "query", ascii "_source", ascii "size", ascii "from"].Nodup := by decide +kernel

theorem same_only {k k' : Bytes} {v v' u : Dyn F} (h : Same (.obj [(k, v)]) u) (h' : Same (.obj [(k', v')]) u) : k = k' ∧ ∃ w, Same v w ∧ Same v' w := by
  obtain ⟨m, e, p, _⟩ := same_obj h
  obtain ⟨m', e', p', _⟩ := same_obj h'
  have : m = m' := by rw [e] at e'; cases e'; rfl
  subst this
  have hk : k = k' := by simpa using p.symm.trans p'
  subst hk
  obtain ⟨w, h1, h2⟩ := same_key h h' (by simp) List.mem_cons_self List.mem_cons_self
  exact ⟨rfl, w, h1, h2⟩

theorem keys_how : [ascii "query", ascii "fuzziness", ascii "operator"].Nodup ∧ [ascii "prefix", ascii "wildcard", ascii "regexp", ascii "match"].Nodup := by decide +kernel

theorem fuzz_unique {f f' : Fuzz} {u : Dyn F} (h : Same (f.value (F := F)) u) (h' : Same f'.value u) : f = f' := by
  cases f <;> cases f' <;> simp only [Fuzz.value] at h h'
  · rw [same_str h h']
  · cases h; cases h'
  · cases h; cases h'
  · rw [same_int h h']

theorem value_unique {k k' p p' : Bytes} {u : Dyn F} (h : Same (.obj [(k, .obj [(ascii "value", .str p)])]) u) (h' : Same (.obj [(k', .obj [(ascii "value", .str p')])]) u) : p = p' := by
  obtain ⟨_, u1, a1, b1⟩ := same_only h h'
  obtain ⟨_, u2, a2, b2⟩ := same_only a1 b1
  exact same_str a2 b2

theorem how_unique {p p' : Bytes} {w w' : How} {u : Dyn F} (h : Same (w.value (F := F) p) u) (h' : Same (w'.value p') u) : p = p' ∧ w = w' := by
  have hn := keys_how.2
  simp only [List.nodup_cons, List.mem_cons, List.not_mem_nil, or_false, not_or] at hn
  obtain ⟨⟨n1, n2, n3⟩, ⟨n4, n5⟩, n6, _⟩ := hn
  cases w <;> cases w' <;> simp only [How.value] at h h'
  · exact ⟨value_unique h h', rfl⟩
  · exact absurd (same_only h h').1 n1
  · exact absurd (same_only h h').1 n2
  · exact absurd (same_only h h').1 n3
  · exact absurd (same_only h' h).1 n1
  · exact ⟨value_unique h h', rfl⟩
  · exact absurd (same_only h h').1 n4
  · exact absurd (same_only h h').1 n5
  · exact absurd (same_only h' h).1 n2
  · exact absurd (same_only h' h).1 n4
  · exact ⟨value_unique h h', rfl⟩
  · exact absurd (same_only h h').1 n6
  · exact absurd (same_only h' h).1 n3
  · exact absurd (same_only h' h).1 n5
  · exact absurd (same_only h' h).1 n6
  rename_i f o f' o'
  obtain ⟨_, u1, a1, b1⟩ := same_only h h'
  obtain ⟨_, u2, a2, b2⟩ := same_only a1 b1
  obtain ⟨u3, a3, b3⟩ := same_key a2 b2 keys_how.1 (k := ascii "query") List.mem_cons_self List.mem_cons_self
  obtain ⟨u4, a4, b4⟩ := same_key a2 b2 keys_how.1 (k := ascii "fuzziness") (List.mem_cons_of_mem _ List.mem_cons_self) (List.mem_cons_of_mem _ List.mem_cons_self)
  obtain ⟨u5, a5, b5⟩ := same_key a2 b2 keys_how.1 (k := ascii "operator") (List.mem_cons_of_mem _ (List.mem_cons_of_mem _ List.mem_cons_self))
    (List.mem_cons_of_mem _ (List.mem_cons_of_mem _ List.mem_cons_self))
  exact ⟨same_str a3 b3, by rw [fuzz_unique a4 b4, same_str a5 b5]⟩

theorem query_unique {c c' p p' : Bytes} {w w' : How} {n n' : Int} {u : Dyn F} (h : Same (queryValue c p w n) u) (h' : Same (queryValue c' p' w' n') u) :
    c = c' ∧ p = p' ∧ w = w' ∧ n = n' := by
  have hn := keys_doc.2.2.2
  obtain ⟨u1, a1, b1⟩ := same_key h h' hn (k := ascii "query") List.mem_cons_self List.mem_cons_self
  obtain ⟨u2, a2, b2⟩ := same_key a1 b1 (by simp) List.mem_cons_self List.mem_cons_self
  obtain ⟨u3, a3, b3⟩ := same_key a2 b2 (by simp) List.mem_cons_self List.mem_cons_self
  obtain ⟨u4, a4, b4⟩ := same_key h h' hn (k := ascii "size") (List.mem_cons_of_mem _ (List.mem_cons_of_mem _ List.mem_cons_self)) (List.mem_cons_of_mem _ (List.mem_cons_of_mem _ List.mem_cons_self))
  cases a3 with
  | arr a3 =>
    cases b3 with
    | arr b3 =>
      cases a3 with
      | cons a5 a6 =>
        cases b3 with
        | cons b5 b6 =>
          cases a6 with
          | cons a7 _ =>
            cases b6 with
            | cons b7 _ =>
              obtain ⟨u5, a8, b8⟩ := same_key a5 b5 (by simp) List.mem_cons_self List.mem_cons_self
              obtain ⟨u6, a9, b9⟩ := same_key a8 b8 (by simp) List.mem_cons_self List.mem_cons_self
              obtain ⟨e1, e2⟩ := how_unique a7 b7
              exact ⟨same_str a9 b9, e1, e2, same_int a4 b4⟩

theorem docLines_unique {D : Doubles F} : ∀ {ds ds' : List Doc} {lines : List Bytes}, DocLines D ds lines → DocLines D ds' lines → ds = ds'
  | [], ds', _, h, h' => by cases h; cases h'; rfl
  | d :: ds, ds', _, h, h' => by
    cases h with
    | cons a1 a2 a3 =>
      cases h' with
      | cons b1 b2 b3 =>
        rename_i d' ds'
        obtain ⟨u, s1, s2⟩ := reads_same a1 b1
        obtain ⟨u1, s3, s4⟩ := same_key s1 s2 (by simp) List.mem_cons_self List.mem_cons_self
        obtain ⟨u2, s5, s6⟩ := same_key s3 s4 keys_doc.2.2.1 (k := ascii "_id") List.mem_cons_self List.mem_cons_self
        obtain ⟨u3, s7, s8⟩ := same_key s3 s4 keys_doc.2.2.1 (k := ascii "_index") (List.mem_cons_of_mem _ List.mem_cons_self) (List.mem_cons_of_mem _ List.mem_cons_self)
        obtain ⟨w, t1, t2⟩ := reads_same a2 b2
        obtain ⟨w1, t3, t4⟩ := same_key t1 t2 keys_doc.2.1 (k := ascii "value") List.mem_cons_self List.mem_cons_self
        obtain ⟨w2, t5, t6⟩ := same_key t1 t2 keys_doc.2.1 (k := ascii "column_id") (List.mem_cons_of_mem _ List.mem_cons_self) (List.mem_cons_of_mem _ List.mem_cons_self)
        have e : d = d' := by
          cases d; cases d'
          simp only [Doc.mk.injEq]
          exact ⟨same_str s7 s8, same_str s5 s6, same_str t5 t6, same_str t3 t4⟩
        rw [e, docLines_unique a3 b3]

theorem slash_split {i i' r r' : Bytes} (h : (47 : UInt8) ∉ i) (h' : (47 : UInt8) ∉ i') (e : i ++ 47 :: r = i' ++ 47 :: r') : i = i' ∧ r = r' := by
  induction i generalizing i' with
  | nil =>
    cases i' with
    | nil => simpa using e
    | cons x i' => simp at e; exact absurd e.1 (by intro hx; simp [hx] at h')
  | cons x i ih =>
    cases i' with
    | nil => simp at e; exact absurd e.1 (by intro hx; simp [← hx] at h)
    | cons y i' =>
      simp only [List.cons_append, List.cons.injEq] at e
      obtain ⟨h1, h2⟩ := ih (by simp at h; exact h.2) (by simp at h'; exact h'.2) e.2
      exact ⟨by rw [e.1, h1], h2⟩

theorem curlArgs_inj {ct m : String} {c : Client} {p p' : Bytes} {a b : Bytes} (h : curlArgs ct m c p [a] = curlArgs ct m c p' [b]) : p = p' ∧ a = b := by
  unfold curlArgs url at h
  simpa using h

theorem curlArgs_inj2 {ct m : String} {c : Client} {p p' : Bytes} {x a b : Bytes} (h : curlArgs ct m c p [x, a] = curlArgs ct m c p' [x, b]) : a = b := by
  unfold curlArgs url at h
  simp at h
  exact h.2

theorem curlArgs_method {ct ct' m m' : String} {c : Client} {p p' : Bytes} {l l' : List Bytes} (h : curlArgs ct m c p l = curlArgs ct' m' c p' l') :
    ascii m = ascii m' := by
  unfold curlArgs at h
  simp at h
  exact h.2.1

theorem methods : ascii "PUT" ≠ ascii "POST" ∧ ascii "PUT" ≠ ascii "GET" ∧ ascii "POST" ≠ ascii "GET" := by decide +kernel

theorem doc_slash : ascii "/_doc/" = 47 :: ascii "_doc/" ∧ ascii "/_search?timeout=" = 47 :: ascii "_search?timeout=" := by decide +kernel

/-- Arguments carry at most one request. -/
theorem asks_unique {D : Doubles F} {c : Client} {args : List Bytes} {r r' : Req} (h : Asks D c args r) (h' : Asks D c args r') : r = r' := by
  generalize ha : args = args' at h'
  cases h with
  | put h1 h2 h3 =>
    cases h' with
    | put g1 g2 g3 =>
      rename_i d data d' data'
      obtain ⟨e1, e2⟩ := curlArgs_inj ha
      simp only [doc_slash.1, List.append_assoc, List.cons_append] at e1
      obtain ⟨e3, e4⟩ := slash_split h1 g1 e1
      have e5 : d.id = d'.id := by simpa using e4
      have e6 : data = data' := by simpa using e2
      subst e6
      obtain ⟨u, s1, s2⟩ := reads_same h3 g3
      obtain ⟨u1, s3, s4⟩ := same_key s1 s2 keys_doc.1 (k := ascii "column_id") List.mem_cons_self List.mem_cons_self
      obtain ⟨u2, s5, s6⟩ := same_key s1 s2 keys_doc.1 (k := ascii "value") (List.mem_cons_of_mem _ List.mem_cons_self) (List.mem_cons_of_mem _ List.mem_cons_self)
      congr 1
      cases d; cases d'
      simp only [Doc.mk.injEq]
      exact ⟨e3, e5, same_str s3 s4, same_str s5 s6⟩
    | bulk _ _ => exact absurd (curlArgs_method ha) methods.1
    | find _ _ => exact absurd (curlArgs_method ha) methods.2.1
  | bulk h1 h2 =>
    cases h' with
    | put _ _ _ => exact absurd (curlArgs_method ha).symm methods.1
    | bulk g1 g2 =>
      have e := curlArgs_inj2 ha
      subst e
      rw [h1] at g1
      have e2 : _ = _ := List.append_cancel_right (List.cons.inj g1).2
      subst e2
      rw [docLines_unique h2 g2]
    | find _ _ => exact absurd (curlArgs_method ha) methods.2.2
  | find h1 h2 =>
    cases h' with
    | put _ _ _ => exact absurd (curlArgs_method ha).symm methods.2.1
    | bulk _ _ => exact absurd (curlArgs_method ha).symm methods.2.2
    | find g1 g2 =>
      obtain ⟨e1, e2⟩ := curlArgs_inj ha
      simp only [doc_slash.2, List.append_assoc, List.cons_append] at e1
      obtain ⟨e3, e4⟩ := slash_split h1 g1 e1
      have e6 := List.append_cancel_left e2
      subst e6
      obtain ⟨u, s1, s2⟩ := reads_same h2 g2
      obtain ⟨e7, e8, e9, e10⟩ := query_unique s1 s2
      rw [e3, e7, e8, e9, e10]

/-! ## The engine -/

/-- A list of documents, the newest first. -/
abbrev Shelf := List ((Bytes × Bytes) × Bytes × Bytes)

/-- The documents of the list. -/
def Shelf.docs (s : Shelf) : Docs := fun i k => s.lookup (i, k)

/-- A match with a text in which stars stand for any bytes. -/
def globs : Bytes → Bytes → Bool
  | [], v => v.isEmpty
  | 42 :: p, v => v.tails.any fun w => globs p w
  | c :: p, d :: v => c == d && globs p v
  | _ :: _, [] => false

/-- A match: a prefix, a wildcard; the other kinds only the value itself. -/
def sampleHit : How → Bytes → Bytes → Bool
  | .pre, p, v => p.isPrefixOf v
  | .wildcard, p, v => globs p v
  | _, p, v => p == v

/-- What is found. -/
def Shelf.found (s : Shelf) (i col : Bytes) (how : How) (text : Bytes) : List (Bytes × Bytes) :=
  ((s.map (·.1)).dedup.filterMap fun ik => if ik.1 = i then (match s.lookup ik with
    | some (c, v) => if c = col ∧ sampleHit how text v then some (ik.2, v) else none
    | none => none) else none)

/-- An answer, written by `folly::toJson`. -/
def reply (j : J) : Option Process.Pipe := some ⟨toJson id j, [], false, 0⟩

/-- The answer to a search. -/
def hitsOf (vs : List Bytes) : J :=
  .obj [(ascii "hits", .obj [(ascii "hits", .arr (vs.map fun v => .obj [(ascii "_source", .obj [(ascii "value", .str v)])]))])]

/-- What the engine does with a request. -/
def act (s : Shelf) : Req → Shelf × Option Process.Pipe
  | .put d => (((d.index, d.id), d.column, d.value) :: s, reply (.obj [(ascii "result", .str (ascii "created"))]))
  | .bulk ds => (ds.foldl (fun s d => ((d.index, d.id), d.column, d.value) :: s) s, reply (.obj [(ascii "errors", .bool false)]))
  | .find i col text how n => (s, reply (hitsOf (((s.found i col how text).take n.toNat).map (·.2))))

open Classical in
/-- The engine looks at what the arguments carry. -/
noncomputable def sampleStep (D : Doubles F) (c : Client) (s : Shelf) (args : List Bytes) : Shelf × Option Process.Pipe :=
  if h : ∃ r, Asks D c args r then act s h.choose else (s, none)

theorem sampleStep_eq {D : Doubles F} {c : Client} {args : List Bytes} {r : Req} (h : Asks D c args r) (s : Shelf) : sampleStep D c s args = act s r := by
  have hx : ∃ r, Asks D c args r := ⟨r, h⟩
  unfold sampleStep
  rw [dif_pos hx, asks_unique hx.choose_spec h]

mutual
theorem seen_dyn : ∀ j : J, seen (j.dyn (F := F)) = j
  | .null => rfl
  | .bool _ => rfl
  | .int _ => rfl
  | .str _ => rfl
  | .arr l => by rw [J.dyn, seen, seen_dynList l]
  | .obj l => by rw [J.dyn, seen, seen_dynEntries l]
theorem seen_dynList : ∀ l : List J, seenList (J.dynList (F := F) l) = l
  | [] => rfl
  | j :: l => by rw [J.dynList, seenList, seen_dyn j, seen_dynList l]
theorem seen_dynEntries : ∀ l : List (Bytes × J), seenEntries (J.dynEntries (F := F) l) = l
  | [] => rfl
  | (k, j) :: l => by rw [J.dynEntries, seenEntries, seen_dyn j, seen_dynEntries l]
end

mutual
/-- No object has more than one entry: there is only one order. -/
def Narrow : Dyn F → Prop
  | .arr l => NarrowList l
  | .obj [] => True
  | .obj [e] => Narrow e.2
  | .obj _ => False
  | _ => True
def NarrowList : List (Dyn F) → Prop
  | [] => True
  | j :: l => Narrow j ∧ NarrowList l
end

mutual
theorem same_narrow : ∀ {v w : Dyn F}, Same v w → Narrow v → w = v
  | _, _, .null, _ => rfl
  | _, _, .bool _, _ => rfl
  | _, _, .int _, _ => rfl
  | _, _, .dbl _, _ => rfl
  | _, _, .str _, _ => rfl
  | .arr l, _, .arr h, hn => by rw [sameList_narrow h (by simpa [Narrow] using hn)]
  | .obj [], _, .obj hp h, _ => by
    have := List.Perm.nil_eq hp
    subst this
    cases h
    rfl
  | .obj [e], _, .obj hp h, hn => by
    have := List.perm_singleton.mp hp.symm
    subst this
    cases h with
    | cons h1 h2 =>
      cases h2
      rw [same_narrow h1 (by simpa [Narrow] using hn)]
  | .obj (_ :: _ :: _), _, _, hn => by simp [Narrow] at hn
theorem sameList_narrow : ∀ {l m : List (Dyn F)}, SameList l m → NarrowList l → m = l
  | _, _, .nil, _ => rfl
  | _, _, .cons h1 h2, hn => by rw [same_narrow h1 hn.1, sameList_narrow h2 hn.2]
end

theorem reply_answers (D : Doubles F) {j : J} {P : J → Prop} (hf : Fine D (j.dyn (F := F))) (hd : depth (j.dyn (F := F)) ≤ maxDepth) (hn : Narrow (j.dyn (F := F))) (hP : P j)
    (hne : toJson id j ≠ []) : Answers D (reply j) P := by
  obtain ⟨w, h1, h2⟩ := readsAs D (ord := id) (fun l => .refl l) j hf hd
  refine ⟨_, j, rfl, rfl, by simpa [Process.Pipe.rest] using hne, ?_, hP⟩
  have : w = j.dyn := same_narrow h2 hn
  simp only [Process.Pipe.rest, List.flatten_nil, List.append_nil]
  rw [readAnswer, h1, this]
  simp [seen_dyn]

theorem hits_facts (D : Doubles F) : ∀ vs : List Bytes,
    FineList D (J.dynList (vs.map fun v => .obj [(ascii "_source", .obj [(ascii "value", .str v)])])) ∧
    depthList (F := F) (J.dynList (vs.map fun v => .obj [(ascii "_source", .obj [(ascii "value", .str v)])])) ≤ 3 ∧
    NarrowList (F := F) (J.dynList (vs.map fun v => .obj [(ascii "_source", .obj [(ascii "value", .str v)])])) ∧
    HitValues (vs.map fun v => .obj [(ascii "_source", .obj [(ascii "value", .str v)])]) vs
  | [] => by simp [J.dynList, FineList, depthList, NarrowList]; exact .nil
  | v :: vs => by
    obtain ⟨h1, h2, h3, h4⟩ := hits_facts D vs
    refine ⟨?_, ?_, ?_, .value ⟨.obj [(ascii "value", .str v)], ⟨_, rfl, by simp⟩, ⟨_, rfl, by simp⟩⟩ h4⟩
    · simp only [List.map_cons, J.dynList, FineList]
      exact ⟨by simp [J.dyn, J.dynEntries, Fine, FineEntries], h1⟩
    · simp only [List.map_cons, J.dynList, depthList]
      have : depth (F := F) (J.dyn (.obj [(ascii "_source", .obj [(ascii "value", .str v)])])) = 3 := by simp [J.dyn, J.dynEntries, depth, depthEntries]
      omega
    · simp only [List.map_cons, J.dynList, NarrowList]
      exact ⟨by simp [J.dyn, J.dynEntries, Narrow], h3⟩

theorem shelf_put (s : Shelf) (d : Doc) : Shelf.docs (((d.index, d.id), d.column, d.value) :: s) = (Shelf.docs s).put d := by
  funext i k
  simp only [Shelf.docs, Docs.put, List.lookup_cons]
  by_cases h : i = d.index ∧ k = d.id
  · rw [if_pos h, h.1, h.2]; simp
  · rw [if_neg h]
    have : ((i, k) == (d.index, d.id)) = false := by simpa using h
    rw [this]

theorem shelf_bulk : ∀ (ds : List Doc) (s : Shelf), Shelf.docs (ds.foldl (fun s d => ((d.index, d.id), d.column, d.value) :: s) s) = ds.foldl Docs.put (Shelf.docs s)
  | [], _ => rfl
  | d :: ds, s => by rw [List.foldl_cons, List.foldl_cons, shelf_bulk ds, shelf_put]

theorem lookup_mem_keys {α β : Type} [BEq α] [LawfulBEq α] {l : List (α × β)} {k : α} {v : β} (h : l.lookup k = some v) : k ∈ l.map (·.1) := by
  induction l with
  | nil => simp at h
  | cons x l ih =>
    rw [List.lookup_cons] at h
    by_cases e : k = x.1
    · simp [e]
    · rw [beq_eq_false_iff_ne.mpr e] at h
      simp only [List.map_cons, List.mem_cons]
      exact .inr (ih h)

theorem found_mem (s : Shelf) (i col : Bytes) (how : How) (text k v : Bytes) :
    (k, v) ∈ s.found i col how text ↔ Shelf.docs s i k = some (col, v) ∧ sampleHit how text v = true := by
  unfold Shelf.found Shelf.docs
  simp only [List.mem_filterMap, List.mem_dedup]
  constructor
  · rintro ⟨⟨a, b⟩, _, h⟩
    split at h
    · rename_i e
      split at h
      · rename_i c w hl
        split at h
        · rename_i hc
          obtain ⟨rfl, rfl⟩ := Prod.mk.inj (Option.some.inj h)
          simp only at e hl
          subst e
          exact ⟨by rw [hl, hc.1], hc.2⟩
        · cases h
      · cases h
    · cases h
  · rintro ⟨h1, h2⟩
    refine ⟨(i, k), lookup_mem_keys h1, ?_⟩
    simp only [h1, if_true]
    rw [if_pos ⟨trivial, h2⟩]

theorem found_nodup (s : Shelf) (i col : Bytes) (how : How) (text : Bytes) : ((s.found i col how text).map (·.1)).Nodup := by
  unfold Shelf.found
  have hn := List.nodup_dedup (s.map (·.1))
  generalize (s.map (·.1)).dedup = ks at hn
  induction ks with
  | nil => simp
  | cons x ks ih =>
    obtain ⟨h1, h2⟩ := List.nodup_cons.mp hn
    rw [List.filterMap_cons]
    split
    · exact ih h2
    · rename_i y hy
      rw [List.map_cons, List.nodup_cons]
      refine ⟨?_, ih h2⟩
      intro hmem
      apply h1
      have key : ∀ (x : Bytes × Bytes) (y : Bytes × Bytes), (if x.1 = i then (match s.lookup x with
          | some (c, v) => if c = col ∧ sampleHit how text v then some (x.2, v) else none
          | none => none) else none) = some y → x = (i, y.1) := by
        intro x y h
        split at h
        · rename_i e
          split at h
          · split at h
            · have := Option.some.inj h
              subst this
              exact Prod.ext e rfl
            · cases h
          · cases h
        · cases h
      obtain ⟨z, hz, hzy⟩ := List.mem_map.mp hmem
      obtain ⟨w, hw, hwz⟩ := List.mem_filterMap.mp hz
      rw [key x y hy, ← hzy, ← key w z hwz]
      exact hw

/-- There is an engine that does what it is asked. -/
theorem sample_engine (D : Doubles F) (c : Client) : Engine D c sampleHit (sampleStep D c) Shelf.docs where
  put s args d h := by
    rw [sampleStep_eq h]
    refine ⟨shelf_put s d, reply_answers D (by simp [J.dyn, J.dynEntries, Fine, FineEntries]) (by simp [J.dyn, J.dynEntries, depth, depthEntries, maxDepth])
      (by simp [J.dyn, J.dynEntries, Narrow]) (.inl ⟨_, rfl, by simp⟩) (by simp [toJson])⟩
  bulk s args ds h := by
    rw [sampleStep_eq h]
    refine ⟨shelf_bulk ds s, reply_answers D (by simp [J.dyn, J.dynEntries, Fine, FineEntries]) (by simp [J.dyn, J.dynEntries, depth, depthEntries, maxDepth])
      (by simp [J.dyn, J.dynEntries, Narrow]) ⟨_, rfl, by simp⟩ (by simp [toJson])⟩
  pre _ _ := List.isPrefixOf_iff_prefix
  find s args i col text how n h := by
    rw [sampleStep_eq h]
    obtain ⟨h1, h2, h3, h4⟩ := hits_facts D (((s.found i col how text).take n.toNat).map (·.2))
    refine ⟨rfl, s.found i col how text, found_nodup s i col how text, found_mem s i col how text, reply_answers D ?_ ?_ ?_ ⟨_, _, ⟨_, rfl, rfl⟩, ⟨_, rfl, rfl⟩, h4⟩ (by simp [hitsOf, toJson])⟩
    · simp only [hitsOf, J.dyn, J.dynEntries, Fine, FineEntries]
      exact ⟨by simp, ⟨by simp, h1, trivial⟩, trivial⟩
    · simp only [hitsOf, J.dyn, J.dynEntries, depth, depthEntries, maxDepth]
      omega
    · simp only [hitsOf, J.dyn, J.dynEntries, Narrow]
      exact h3

/-- A shell in front of it. -/
noncomputable def sampleShell (D : Doubles F) (c : Client) (s : Shelf) (text : Bytes) : Shelf × Option Process.Pipe :=
  match shellArgs text with
  | some args => sampleStep D c s args
  | none => (s, none)

theorem sample_runs (D : Doubles F) (c : Client) : Runs (sampleShell D c) (sampleStep D c) := by
  intro s text args h
  unfold sampleShell
  rw [h]

/-- Three values of which two are found. -/
example : ∃ all : List Bytes, all.Perm [ascii "ab", ascii "ac"] ∧
    (search Conf.sampleDoubles id sampleMd5 (sampleShell Conf.sampleDoubles sampleClient) sampleClient ⟨ascii "i", ascii "c", 0, ascii "a"⟩ 10 100 .pre []
      (stores Conf.sampleDoubles id sampleMd5 (sampleShell Conf.sampleDoubles sampleClient) sampleClient
        [.one ⟨ascii "i", ascii "c", 1, ascii "ab"⟩, .many [⟨ascii "i", ascii "c", 2, ascii "ba"⟩, ⟨ascii "i", ascii "c", 1, ascii "ac"⟩], .one ⟨ascii "i", ascii "c", 1, ascii "ab"⟩] []).1).2 =
      (some true, all) := by
  obtain ⟨_, all, h1, h2⟩ := C151_found (sample_engine Conf.sampleDoubles sampleClient) (sample_runs Conf.sampleDoubles sampleClient) (ord := id) (fun l => .refl l) sampleMd5_hex sampleClient_safe
    [.one ⟨ascii "i", ascii "c", 1, ascii "ab"⟩, .many [⟨ascii "i", ascii "c", 2, ascii "ba"⟩, ⟨ascii "i", ascii "c", 1, ascii "ac"⟩], .one ⟨ascii "i", ascii "c", 1, ascii "ab"⟩]
    (by unfold Storable PlainIndex QuotableByte; decide +kernel) [] (fun _ _ => rfl) ⟨ascii "i", ascii "c", 0, ascii "a"⟩ (by unfold PlainIndex QuotableByte; decide +kernel) 10 100
    (by unfold InI64; decide) .pre trivial []
  have hp : (((([Store.one ⟨ascii "i", ascii "c", 1, ascii "ab"⟩, .many [⟨ascii "i", ascii "c", 2, ascii "ba"⟩, ⟨ascii "i", ascii "c", 1, ascii "ac"⟩],
      .one ⟨ascii "i", ascii "c", 1, ascii "ab"⟩].flatMap Store.items).filter (Wanted sampleMd5 sampleHit .pre ⟨ascii "i", ascii "c", 0, ascii "a"⟩)).map
        fun it => (it.part, it.val.take 256)).dedup.map (·.2)).Perm [ascii "ab", ascii "ac"] := by decide +kernel
  have hp' := h1.trans hp
  refine ⟨all, hp', ?_⟩
  simp only [How.call] at h2
  rw [h2]
  have : all.take (100 : Int).toNat = all := List.take_of_length_le (by have := hp'.length_eq; simp at this; rw [this]; decide)
  rw [this]
  rfl

/-- A wildcard search with a limit of one row: of three values one matches. -/
example : (search Conf.sampleDoubles id sampleMd5 (sampleShell Conf.sampleDoubles sampleClient) sampleClient ⟨ascii "i", ascii "c", 0, ascii "a*c"⟩ 10 1 .wildcard [ascii "x"]
      (stores Conf.sampleDoubles id sampleMd5 (sampleShell Conf.sampleDoubles sampleClient) sampleClient
        [.one ⟨ascii "i", ascii "c", 1, ascii "ab"⟩, .many [⟨ascii "i", ascii "c", 2, ascii "ba"⟩, ⟨ascii "i", ascii "c", 1, ascii "abbc"⟩]] []).1).2 =
      (some true, [ascii "x", ascii "abbc"]) := by
  obtain ⟨_, all, h1, h2⟩ := C151_found (sample_engine Conf.sampleDoubles sampleClient) (sample_runs Conf.sampleDoubles sampleClient) (ord := id) (fun l => .refl l) sampleMd5_hex sampleClient_safe
    [.one ⟨ascii "i", ascii "c", 1, ascii "ab"⟩, .many [⟨ascii "i", ascii "c", 2, ascii "ba"⟩, ⟨ascii "i", ascii "c", 1, ascii "abbc"⟩]]
    (by unfold Storable PlainIndex QuotableByte; decide +kernel) [] (fun _ _ => rfl) ⟨ascii "i", ascii "c", 0, ascii "a*c"⟩ (by unfold PlainIndex QuotableByte; decide +kernel) 10 1
    (by unfold InI64; decide) .wildcard trivial [ascii "x"]
  have hp : (((([Store.one ⟨ascii "i", ascii "c", 1, ascii "ab"⟩, .many [⟨ascii "i", ascii "c", 2, ascii "ba"⟩, ⟨ascii "i", ascii "c", 1, ascii "abbc"⟩]].flatMap
      Store.items).filter (Wanted sampleMd5 sampleHit .wildcard ⟨ascii "i", ascii "c", 0, ascii "a*c"⟩)).map
        fun it => (it.part, it.val.take 256)).dedup.map (·.2)) = [ascii "abbc"] := by decide +kernel
  rw [hp] at h1
  simp only [How.call] at h2
  rw [h2, List.perm_singleton.mp h1]
  rfl

/-- A fuzziness that fits: a number or a text. -/
example : (How.fuzzy (.num 2) (ascii "or")).Fits ∧ (How.fuzzy (.text (ascii "AUTO")) (ascii "and")).Fits := ⟨by unfold How.Fits InI64; decide, trivial⟩

/-- A value of 257 bytes that is stored and not found. -/
example : (search Conf.sampleDoubles id sampleMd5 (sampleShell Conf.sampleDoubles sampleClient) sampleClient ⟨ascii "i", ascii "c", 1, List.replicate 257 97⟩ 10 100 .pre []
    (put Conf.sampleDoubles id sampleMd5 (sampleShell Conf.sampleDoubles sampleClient) sampleClient ⟨ascii "i", ascii "c", 1, List.replicate 257 97⟩ []).1).2 = (some true, []) :=
  (C151_long_violated (sample_engine Conf.sampleDoubles sampleClient) (sample_runs Conf.sampleDoubles sampleClient) (ord := id) (fun l => .refl l) sampleMd5_hex sampleClient_safe
    ⟨ascii "i", ascii "c", 1, List.replicate 257 97⟩ (by unfold Storable PlainIndex QuotableByte; decide +kernel) (by decide +kernel) [] (fun _ _ => rfl) 10 100
    (by unfold InI64; decide)).2

/-- An engine that acknowledges everything: the index is created. -/
example : (createIndex Conf.sampleDoubles (fun (_ : Unit) _ => ((), reply (.obj [(ascii "acknowledged", .bool true)]))) sampleClient (ascii "i") ()).2 = some true :=
  ((C151_index (D := Conf.sampleDoubles) (step := fun (_ : Unit) _ => ((), reply (.obj [(ascii "acknowledged", .bool true)]))) (fun _ _ _ _ => rfl) sampleClient_safe (ascii "i")
    (by unfold QuotableByte; decide +kernel) ()).1.2.1).mpr
    (reply_answers _ (by simp [J.dyn, J.dynEntries, Fine, FineEntries]) (by simp [J.dyn, J.dynEntries, depth, depthEntries, maxDepth])
      (by simp [J.dyn, J.dynEntries, Narrow]) ⟨_, rfl, rfl⟩ (by simp [toJson]))

/-- No engine: storing is an error. -/
example : (put Conf.sampleDoubles id sampleMd5 (fun (_ : Unit) _ => ((), none)) sampleClient ⟨ascii "i", ascii "c", 1, ascii "ab"⟩ ()).2 = none := by
  obtain ⟨args, _, _, _, h⟩ := (C151_failure (step := fun (_ : Unit) _ => ((), none)) (ord := id) Conf.sampleDoubles (fun _ _ _ _ => rfl) (fun l => .refl l) sampleMd5_hex sampleClient_safe ()).1
    ⟨ascii "i", ascii "c", 1, ascii "ab"⟩ (by unfold Storable PlainIndex QuotableByte; decide +kernel)
  exact h.mpr (fun p hp => by cases hp)

end FullText
end Nebula
