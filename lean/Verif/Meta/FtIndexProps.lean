import Verif.Meta.FtIndex
/-! # Looking up full-text indexes (C106) -/
namespace Nebula
namespace Meta

section
variable {C : Type}

/-! ## What a user expects -/

/-- The index is on the schema of that number. -/
def FTIndex.On (x : FTIndex) (schema : Int) : Prop := x.dep = .tag schema ∨ x.dep = .edge schema

/-- The answers of the server so far: the last list of indexes, and the last list of servers. -/
def lastIndexes : List (FtEvent C) → AMap Bytes FTIndex → AMap Bytes FTIndex
  | [], m => m
  | .indexes m :: es, _ => lastIndexes es m
  | _ :: es, m => lastIndexes es m
def lastClients : List (FtEvent C) → List C → List C
  | [], l => l
  | .clients l :: es, _ => lastClients es l
  | _ :: es, l => lastClients es l

/-- Every lookup by name is for an index the server has listed last. -/
def KnownNames : List (FtEvent C) → AMap Bytes FTIndex → Prop
  | [], _ => True
  | .indexes m :: es, _ => KnownNames es m
  | .byName _ n :: es, m => m.find n ≠ none ∧ KnownNames es m
  | _ :: es, m => KnownNames es m

/-! ## Lookups -/

theorem bySpace_find (space : Int) : ∀ (l : List (Bytes × FTIndex)) (r : AMap Bytes FTIndex) (n : Bytes), (l.map Prod.fst).Nodup →
    (ftBySpaceLoop space l r).find n = ((l.find? (fun x => x.1 == n && x.2.space == space)).map Prod.snd).or (r.find n)
  | [], r, n, _ => by simp [ftBySpaceLoop]
  | x :: l, r, n, h => by
    rw [List.map_cons, List.nodup_cons] at h
    rw [ftBySpaceLoop, bySpace_find space l _ n h.2]
    by_cases hs : x.2.space = space
    · rw [if_pos hs, AMap.find_set]
      by_cases hn : x.1 = n
      · rw [if_pos hn, List.find?_cons_of_pos (by simp [hn, hs])]
        have : l.find? (fun x => x.1 == n && x.2.space == space) = none := by
          rw [List.find?_eq_none]
          intro y hy hc
          simp at hc
          exact h.1 (List.mem_map.2 ⟨y, hy, hc.1.trans hn.symm⟩)
        rw [this]; rfl
      · rw [if_neg hn, List.find?_cons_of_neg (by simp [hn])]
    · rw [if_neg hs, List.find?_cons_of_neg (by simp [hs])]

/-- **C106 (of a space).** The indexes listed for a space are exactly those of that space. -/
theorem C106_by_space {s : FtCache C} (hr : s.ready = true) (hn : s.indexes.NodupKeys) (space : Int) :
    ∃ r, ftBySpace s space = some r ∧ ∀ n x, r.find n = some x ↔ s.indexes.find n = some x ∧ x.space = space := by
  refine ⟨_, by simp [ftBySpace, hr]; rfl, fun n x => ?_⟩
  rw [bySpace_find space _ _ _ hn]
  simp only [AMap.find, Option.or_none]
  constructor
  · intro h
    obtain ⟨f, hf, rfl⟩ := Option.map_eq_some_iff.1 h
    have hp := List.find?_some hf
    simp at hp
    have hm := List.mem_of_find?_eq_some hf
    exact ⟨AMap.mem_find hn (by rw [← hp.1]; exact hm), hp.2⟩
  · rintro ⟨hf, hs⟩
    have hm := AMap.find_mem hf
    cases hfi : s.indexes.find? (fun x => x.1 == n && x.2.space == space) with
    | none => exact absurd (List.find?_eq_none.1 hfi _ hm) (by simp [hs])
    | some y =>
      have hp := List.find?_some hfi
      simp at hp
      have := AMap.mem_find hn (k := n) (v := y.2) (by rw [← hp.1]; exact List.mem_of_find?_eq_some hfi)
      rw [hf] at this
      rw [Option.map_some, ← Option.some.inj this]

/-- **C106 (of a schema).** If every listed index names its schema, the search for the index of a schema finds one of that space and schema if there is
one and reports that there is none otherwise, whatever the order in which the map is visited. -/
theorem C106_by_schema {s : FtCache C} (hr : s.ready = true) (hd : ∀ x ∈ s.indexes, x.2.dep ≠ .empty) {order : List (Bytes × FTIndex)}
    (ho : order.Perm s.indexes) (space schema : Int) :
    (∃ n x, ftBySchema s order space schema = .found n x ∧ (n, x) ∈ s.indexes ∧ x.space = space ∧ x.On schema) ∨
    (ftBySchema s order space schema = .notFound ∧ ∀ n x, (n, x) ∈ s.indexes → x.space = space → ¬ x.On schema) := by
  have hd' : ∀ x ∈ order, x.2.dep ≠ .empty := fun x hx => hd x (ho.mem_iff.1 hx)
  have key : (∃ n x, ftBySchemaLoop space schema order = .found n x ∧ (n, x) ∈ order ∧ x.space = space ∧ x.On schema) ∨
      (ftBySchemaLoop space schema order = .notFound ∧ ∀ n x, (n, x) ∈ order → x.space = space → ¬ x.On schema) := by
    clear ho
    induction order with
    | nil => exact .inr ⟨rfl, by simp⟩
    | cons y l ih =>
      have hy := hd' y (by simp)
      have hread : ∃ id, y.2.dep.read = some id ∧ ∀ k, y.2.On k ↔ id = k := by
        unfold FTIndex.On
        cases h : y.2.dep with
        | empty => exact absurd h hy
        | tag id => exact ⟨id, rfl, fun k => by simp⟩
        | edge id => exact ⟨id, rfl, fun k => by simp⟩
      obtain ⟨id, h1, h2⟩ := hread
      rw [ftBySchemaLoop, h1]
      dsimp only
      by_cases hm : y.2.space = space ∧ id = schema
      · rw [if_pos hm]
        exact .inl ⟨y.1, y.2, rfl, by simp, hm.1, (h2 schema).2 hm.2⟩
      · rw [if_neg hm]
        rcases ih (fun x hx => hd' x (by simp [hx])) with ⟨n, x, e, hx, hs, hon⟩ | ⟨e, hno⟩
        · exact .inl ⟨n, x, e, by simp [hx], hs, hon⟩
        · refine .inr ⟨e, fun n x hx hs hon => ?_⟩
          rcases List.mem_cons.1 hx with rfl | hx
          · exact hm ⟨hs, (h2 schema).1 hon⟩
          · exact hno n x hx hs hon
  unfold ftBySchema
  rw [hr]
  simp only [Bool.not_true, Bool.false_eq_true, if_false]
  rcases key with ⟨n, x, e, hx, h⟩ | ⟨e, hno⟩
  · exact .inl ⟨n, x, e, ho.mem_iff.1 hx, h⟩
  · exact .inr ⟨e, fun n x hx => hno n x (ho.mem_iff.2 hx)⟩

/-- **C106 (by name, partial).** A listed index is found by its name and its space, not under another space, and the cache does not change.  Missing: a name
that is not listed. -/
theorem C106_by_name_partial {s : FtCache C} (hr : s.ready = true) {name : Bytes} {x : FTIndex} (hx : s.indexes.find name = some x) (space : Int) :
    (ftByName s space name).1 = s ∧ ((ftByName s space name).2 = .found name x ↔ x.space = space) ∧
    ((ftByName s space name).2 = .notFound ↔ x.space ≠ space) := by
  unfold ftByName
  rw [hr, hx]
  simp only [Bool.not_true, Bool.false_eq_true, if_false]
  by_cases h : x.space = space
  · simp [h]
  · simp [h]

/-- **C106 (histories).** As long as only listed names are looked up, the cache is what the server listed last, so that the lookups above answer from it. -/
theorem C106_history_partial : ∀ (h : List (FtEvent C)) (s : FtCache C), KnownNames h s.indexes →
    (ftRun s h).indexes = lastIndexes h s.indexes ∧ (ftRun s h).clients = lastClients h s.clients
  | [], s, _ => ⟨rfl, rfl⟩
  | e :: h, s, hk => by
    cases e with
    | clients l => exact C106_history_partial h { s with clients := l } hk
    | indexes m => exact C106_history_partial h { s with indexes := m } hk
    | ready => exact C106_history_partial h { s with ready := true } hk
    | byName space n =>
      obtain ⟨hn, hk⟩ := hk
      have hst : (ftByName s space n).1 = s := by
        unfold ftByName
        split
        · rfl
        · split
          · split <;> rfl
          · exact absurd (by assumption) hn
      rw [ftRun, ftStep, hst]
      exact C106_history_partial h s hk

/-- **C106 (servers).** The list of full-text servers is the last one the server gave, and an error if that is empty or nothing was loaded. -/
theorem C106_clients {s : FtCache C} (l : List C) : ftClients s = some l ↔ s.ready = true ∧ s.clients = l ∧ l ≠ [] := by
  unfold ftClients
  cases s.ready with
  | false => simp
  | true =>
    by_cases h : s.clients = []
    · simp only [Bool.not_true, Bool.false_eq_true, if_false, List.isEmpty_iff, if_pos h, true_and]
      constructor
      · intro h'; cases h'
      · rintro ⟨rfl, h'⟩; exact absurd h h'
    · simp only [Bool.not_true, Bool.false_eq_true, if_false, List.isEmpty_iff, if_neg h, true_and, Option.some.injEq]
      constructor
      · rintro rfl; exact ⟨rfl, h⟩
      · exact fun h' => h'.1

/-- **C106 (not ready).** Nothing is answered, and nothing changes, before the first complete refresh. -/
theorem C106_not_ready {s : FtCache C} (hr : s.ready = false) (order : List (Bytes × FTIndex)) (space schema : Int) (name : Bytes) :
    ftAll s = none ∧ ftBySpace s space = none ∧ ftBySchema s order space schema = .notReady ∧ ftByName s space name = (s, .notReady) ∧ ftClients s = none := by
  simp [ftAll, ftBySpace, ftBySchema, ftByName, ftClients, hr]

/-- **C106 (by name, violated).** Looking up a name that no index has succeeds, for every space, with an index of space 0 without fields.  From then on
this index is listed until the next refresh, and a search for the index of a schema that comes upon it reads an empty union. -/
theorem C106_by_name_violated {s : FtCache C} (hr : s.ready = true) {name : Bytes} (hn : s.indexes.find name = none) (space : Int) :
    (ftByName s space name).2 = .found name .fresh ∧ (ftAll (ftByName s space name).1).bind (·.find name) = some .fresh ∧
    ∀ schema, ∃ order, order.Perm (ftByName s space name).1.indexes ∧ ftBySchema (ftByName s space name).1 order space schema = .crashed := by
  have e : ftByName s space name = ({ s with indexes := s.indexes.set name .fresh }, .found name .fresh) := by
    unfold ftByName; rw [hr, hn]; rfl
  rw [e]
  refine ⟨rfl, by simp [ftAll, hr, AMap.find_set], fun schema => ?_⟩
  have hm : (name, FTIndex.fresh) ∈ s.indexes.set name FTIndex.fresh := AMap.find_mem (by rw [AMap.find_set, if_pos rfl])
  obtain ⟨l1, l2, hl⟩ := List.append_of_mem hm
  refine ⟨(name, .fresh) :: (l1 ++ l2), ?_, ?_⟩
  · dsimp only
    rw [hl]
    exact List.perm_middle.symm
  · simp [ftBySchema, hr, ftBySchemaLoop, FTIndex.fresh, SchemaRef.read]

end

/-! ## Examples -/

/-- Two indexes. -/
def exFt : FtCache Nat := ⟨true, [1], [(ascii "a", ⟨1, .tag 5, [ascii "x"]⟩), (ascii "b", ⟨2, .edge 5, [ascii "y"]⟩)]⟩

example : exFt.indexes.NodupKeys ∧ (∀ x ∈ exFt.indexes, x.2.dep ≠ .empty) ∧ ftBySchema exFt exFt.indexes.reverse 1 5 = .found (ascii "a") ⟨1, .tag 5, [ascii "x"]⟩ ∧
    ftBySchema exFt exFt.indexes 2 6 = .notFound ∧ (ftByName exFt 2 (ascii "b")).2 = .found (ascii "b") ⟨2, .edge 5, [ascii "y"]⟩ ∧
    (ftByName exFt 1 (ascii "b")).2 = .notFound ∧ exFt.indexes.find (ascii "c") = none ∧
    KnownNames [.byName 1 (ascii "a"), .indexes [], .clients [2, 3], .ready] exFt.indexes := by
  refine ⟨?_, ?_, by decide +kernel, by decide +kernel, by decide +kernel, by decide +kernel, by decide +kernel, ?_⟩
  · unfold AMap.NodupKeys; decide +kernel
  · decide +kernel
  · exact ⟨by decide +kernel, trivial⟩

end Meta
end Nebula
