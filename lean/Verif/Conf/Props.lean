import Verif.Conf.Spec
import Verif.Json.Lemmas
/-! # C96–C98: configurations -/
namespace Nebula
namespace Conf
open Json
variable {F : Type}

/-! ## C96: an item is fetched with its own type or not at all -/

theorem find_item {c : Dyn F} {key : Bytes} {v : Dyn F} : find c key = some (some v) ↔ Item c key v := by
  constructor
  · intro h
    cases c with
    | obj l =>
      simp only [find, Option.some.injEq, Option.map_eq_some_iff] at h
      obtain ⟨⟨k, w⟩, he, rfl⟩ := h
      have := List.find?_some he
      simp at this; subst this
      exact ⟨l, rfl, he⟩
    | _ => simp [find] at h
  · rintro ⟨l, rfl, h⟩
    simp [find, h]

theorem find_noItem {c : Dyn F} {key : Bytes} : find c key = some none ↔ NoItem c key := by
  constructor
  · intro h
    cases c with
    | obj l =>
      simp only [find, Option.some.injEq, Option.map_eq_none_iff, List.find?_eq_none] at h
      exact ⟨l, rfl, fun v hv => h (key, v) hv (by simp)⟩
    | _ => simp [find] at h
  · rintro ⟨l, rfl, h⟩
    simp only [find, Option.some.injEq, Option.map_eq_none_iff, List.find?_eq_none]
    rintro ⟨k, v⟩ hm hk
    simp at hk; subst hk
    exact h v hm

theorem obj_find (l : List (Bytes × Dyn F)) (key : Bytes) : find (.obj l) key = some none ∨ ∃ v, find (.obj l) key = some (some v) := by
  cases h : (l.find? fun e => e.1 == key).map (·.2) with
  | none => exact Or.inl (by simp only [find, h])
  | some v => exact Or.inr ⟨v, by simp only [find, h]⟩

theorem fetchSpec_of {T : Type} {mk : T → Dyn F} {l : List (Bytes × Dyn F)} {key : Bytes} {val : T} {res : Option (Res × T)}
    (h1 : ∀ x, find (.obj l) key = some (some (mk x)) → res = some (.ok, x))
    (h2 : ∀ o, find (.obj l) key = some o → (∀ x, o ≠ some (mk x)) → res = some (.error, val)) : FetchSpec mk (.obj l) key val res := by
  refine ⟨fun x hx => h1 x (find_item.mpr hx), fun hx => ?_⟩
  rcases obj_find l key with h | ⟨v, h⟩
  · exact h2 _ h (by simp)
  · refine h2 _ h fun x e => ?_
    simp only [Option.some.injEq] at e; subst e
    exact hx x (find_item.mp h)

/-- C96: fetching a scalar item succeeds exactly if the item is there and has that type, and then gives its value; otherwise the caller's variable keeps
its value. -/
theorem C96_fetch (l : List (Bytes × Dyn F)) (key : Bytes) :
    (∀ val, FetchSpec .int (.obj l) key val (fetchAsInt (.obj l) key val)) ∧
    (∀ val, FetchSpec .dbl (.obj l) key val (fetchAsDouble (.obj l) key val)) ∧
    (∀ val, FetchSpec .bool (.obj l) key val (fetchAsBool (.obj l) key val)) ∧
    (∀ val, FetchSpec .str (.obj l) key val (fetchAsString (.obj l) key val)) := by
  refine ⟨fun val => ?_, fun val => ?_, fun val => ?_, fun val => ?_⟩ <;>
  · refine fetchSpec_of (fun x hx => by simp [fetchAsInt, fetchAsDouble, fetchAsBool, fetchAsString, hx]) fun o ho hx => ?_
    simp only [fetchAsInt, fetchAsDouble, fetchAsBool, fetchAsString, ho, Option.map_some]
    rcases o with _ | v
    · rfl
    · cases v <;> first | rfl | (exact absurd rfl (hx _))

/-- C96: a nested configuration is fetched as it is, and only if it is an object. -/
theorem C96_subconf (l : List (Bytes × Dyn F)) (key : Bytes) (sub : Dyn F) :
    (∀ m, Item (.obj l) key (.obj m) → fetchAsSubConf (.obj l) key sub = some (.ok, .obj m)) ∧
    ((∀ m, ¬ Item (.obj l) key (.obj m)) → fetchAsSubConf (.obj l) key sub = some (.error, sub)) := by
  refine ⟨fun m hm => by simp [fetchAsSubConf, find_item.mpr hm], fun hm => ?_⟩
  rcases obj_find l key with h | ⟨v, h⟩
  · simp [fetchAsSubConf, h]
  · simp only [fetchAsSubConf, h, Option.map_some]
    cases v <;> first | rfl | (exact absurd (find_item.mp h) (hm _))

theorem appendAll_ok {T : Type} {conv : Dyn F → Option T} : ∀ (l : List (Dyn F)) (xs val : List T), l.map conv = xs.map some →
    appendAll conv l val = (.ok, val ++ xs)
  | [], xs, val, h => by cases xs with
    | nil => simp [appendAll]
    | cons _ _ => simp at h
  | e :: l, xs, val, h => by cases xs with
    | nil => simp at h
    | cons x xs =>
      simp only [List.map_cons, List.cons.injEq] at h
      rw [appendAll, h.1]
      simp only
      rw [appendAll_ok l xs _ h.2]; simp

theorem appendAll_bad {T : Type} {conv : Dyn F → Option T} : ∀ (l : List (Dyn F)) (val : List T), (∃ e ∈ l, conv e = none) →
    ∃ out, appendAll conv l val = (.error, out) ∧ val <+: out
  | [], val, h => by simp at h
  | e :: l, val, h => by
    rw [appendAll]
    cases hc : conv e with
    | none => exact ⟨val, by simp, List.prefix_refl _⟩
    | some x =>
      obtain ⟨out, h1, h2⟩ := appendAll_bad l (val ++ [x]) (by
        obtain ⟨e', hm, he⟩ := h
        rcases List.mem_cons.mp hm with rfl | hm
        · rw [hc] at he; simp at he
        · exact ⟨e', hm, he⟩)
      exact ⟨out, by simp [h1], (List.prefix_append _ _).trans h2⟩

/-- C96: fetching an array succeeds exactly if the item is an array all of whose entries convert; then their values, in order, are appended to
the caller's vector.  Otherwise what the vector held is still at its front. -/
theorem C96_array_partial {T : Type} (conv : Dyn F → Option T) (l : List (Bytes × Dyn F)) (key : Bytes) (val : List T) :
    (∀ es xs, Item (.obj l) key (.arr es) → es.map conv = xs.map some → fetchAsArray conv (.obj l) key val = some (.ok, val ++ xs)) ∧
    ((∀ es, ¬ Item (.obj l) key (.arr es)) → fetchAsArray conv (.obj l) key val = some (.error, val)) ∧
    (∀ es, Item (.obj l) key (.arr es) → (∃ e ∈ es, conv e = none) → ∃ out, fetchAsArray conv (.obj l) key val = some (.error, out) ∧ val <+: out) := by
  refine ⟨fun es xs h hx => ?_, fun hm => ?_, fun es h hx => ?_⟩
  · simp [fetchAsArray, find_item.mpr h, appendAll_ok es xs val hx]
  · rcases obj_find l key with h | ⟨v, h⟩
    · simp [fetchAsArray, h]
    · simp only [fetchAsArray, h, Option.map_some]
      cases v <;> first | rfl | (exact absurd (find_item.mp h) (hm _))
  · obtain ⟨out, h1, h2⟩ := appendAll_bad es val hx
    exact ⟨out, by simp [fetchAsArray, find_item.mpr h, h1], h2⟩

/-- C96: exactly what a failed fetch of an array leaves behind: the values of the entries before the first one that does
not convert. -/
theorem C96_array_rest {T : Type} (conv : Dyn F → Option T) (l : List (Bytes × Dyn F)) (key : Bytes) (val xs : List T)
    (pre post : List (Dyn F)) (e : Dyn F) (h : Item (.obj l) key (.arr (pre ++ e :: post))) (hp : pre.map conv = xs.map some)
    (he : conv e = none) : fetchAsArray conv (.obj l) key val = some (.error, val ++ xs) := by
  have key : ∀ (pre : List (Dyn F)) (xs val : List T), pre.map conv = xs.map some →
      appendAll conv (pre ++ e :: post) val = (.error, val ++ xs) := by
    intro pre
    induction pre with
    | nil => intro xs val h; cases xs with
      | nil => simp [appendAll, he]
      | cons x xs => simp at h
    | cons a pre ih => intro xs val h; cases xs with
      | nil => simp at h
      | cons x xs =>
        simp only [List.map_cons, List.cons.injEq] at h
        simp only [List.cons_append, appendAll, h.1]
        rw [ih xs _ h.2]
        simp
  simp [fetchAsArray, find_item.mpr h, key pre xs val hp]

/-- C96: arrays whose elements all have the type asked for are fetched whole. -/
theorem C96_array_typed (C : Conv F) (l : List (Bytes × Dyn F)) (key : Bytes) :
    (∀ xs val, Item (.obj l) key (.arr (xs.map .int)) → fetchAsArray (asInt C) (.obj l) key val = some (.ok, val ++ xs)) ∧
    (∀ xs val, Item (.obj l) key (.arr (xs.map .dbl)) → fetchAsArray (asDouble C) (.obj l) key val = some (.ok, val ++ xs)) ∧
    (∀ xs val, Item (.obj l) key (.arr (xs.map .bool)) → fetchAsArray (asBool C) (.obj l) key val = some (.ok, val ++ xs)) ∧
    (∀ xs val, Item (.obj l) key (.arr (xs.map .str)) → fetchAsArray (asString C) (.obj l) key val = some (.ok, val ++ xs)) := by
  refine ⟨fun xs val h => ?_, fun xs val h => ?_, fun xs val h => ?_, fun xs val h => ?_⟩ <;>
    exact (C96_array_partial _ l key val).1 _ xs h (by rw [List.map_map]; rfl)

/-- C96 fails for arrays: an entry that does not convert makes the fetch fail, but the entries before it stay in the caller's vector. -/
theorem C96_array_violated (C : Conv F) :
    fetchAsArray (asInt C) (.obj [(ascii "ports", .arr [.int 1, .int 2, .null, .int 4])]) (ascii "ports") [7] = some (.error, [7, 1, 2]) := by
  have : (ascii "ports" == ascii "ports") = true := by decide +kernel
  simp [fetchAsArray, find, appendAll, asInt]

/-- C96 fails for a text that is JSON but not an object: it is accepted as a configuration, and every fetch from it throws. -/
theorem C96_not_object_violated (D : Doubles F) (c : Dyn F) (key : Bytes) :
    parseFromString D c (ascii "[1]") = (.ok, .arr [.int 1]) ∧ fetchAsInt (F := F) (.arr [.int 1]) key 0 = none := by
  refine ⟨?_, rfl⟩
  have : parse D (ascii "[1]") = some (.arr [.int 1]) := by
    obtain ⟨v, h1, h2⟩ := parse_dump D (ord := id) (fun l => .refl l) (.arr [.int 1]) none (ascii "[1]") (by simp [Fine, FineList]; decide) (by simp [depth, depthList, maxDepth])
      (by simp [dump, dumpList, deeper, bracket, newline, commas]; decide +kernel)
    cases h2 with
    | arr h => cases h with
      | cons h h' => cases h'; cases h; exact h1
  simp [parseFromString, this]

/-- C96: a string item that was put in is fetched back, every other item stays; an item of another type is not overwritten. -/
theorem C96_upsert (l : List (Bytes × Dyn F)) (key val : Bytes) :
    ((NoItem (.obj l) key ∨ ∃ s, Item (.obj l) key (.str s)) → ∃ m, upsertStringField (.obj l) key val = some (.ok, .obj m) ∧
      Item (.obj m) key (.str val) ∧ ∀ k, k ≠ key → ∀ v, Item (.obj m) k v ↔ Item (.obj l) k v) ∧
    (∀ v, Item (.obj l) key v → (∀ s, v ≠ .str s) → upsertStringField (.obj l) key val = some (.error, .obj l)) := by
  have hset : ∀ l : List (Bytes × Dyn F), Item (.obj (setKey key (.str val) l)) key (.str val) ∧
      ∀ k, k ≠ key → ∀ v, Item (.obj (setKey key (.str val) l)) k v ↔ Item (.obj l) k v := by
    intro l
    induction l with
    | nil =>
      refine ⟨⟨_, rfl, by simp [setKey]⟩, fun k hk v => ?_⟩
      simp only [Item, setKey, Dyn.obj.injEq, exists_eq_left', List.find?_cons, List.find?_nil]
      rw [show (key == k) = false from beq_eq_false_iff_ne.mpr (Ne.symm hk)]
    | cons e l ih =>
      by_cases he : e.1 = key
      · refine ⟨⟨_, rfl, by simp [setKey, he]⟩, fun k hk v => ?_⟩
        have h1 : ¬ (key = k) := fun h => hk h.symm
        simp [Item, setKey, he, h1]
      · refine ⟨?_, fun k hk v => ?_⟩
        · obtain ⟨m, hm, h⟩ := ih.1
          simp only [Dyn.obj.injEq] at hm; subst hm
          exact ⟨_, rfl, by simpa [setKey, he] using h⟩
        · have h2 := ih.2 k hk v
          simp only [Item, Dyn.obj.injEq, exists_eq_left', setKey, if_neg he, List.find?_cons] at h2 ⊢
          split
          · exact Iff.rfl
          · exact h2
  constructor
  · rintro (h | ⟨s, h⟩)
    · exact ⟨_, by simp [upsertStringField, find_noItem.mpr h], hset l⟩
    · exact ⟨_, by simp [upsertStringField, find_item.mpr h], hset l⟩
  · intro v h hs
    have hf := find_item.mpr h
    cases v <;> first | (simp only [upsertStringField, hf]; done) | (exact absurd rfl (hs _))

example : Item (F := Nat) (.obj [(ascii "a", .int 3), (ascii "b", .str (ascii "x"))]) (ascii "b") (.str (ascii "x")) := ⟨_, rfl, by rfl⟩
example : NoItem (F := Nat) (.obj [(ascii "a", .int 3)]) (ascii "b") := ⟨_, rfl, fun v hv => by simp at hv; exact absurd hv.1 (by decide +kernel)⟩

/-! ## C97: a configuration that was written is read back -/

/-- C97: the text of a configuration, plain or pretty, is read back as the same configuration. -/
theorem C97_dump_partial (D : Doubles F) {ord : List Bytes → List Bytes} (hord : ∀ l, (ord l).Perm l) (pretty : Bool) (c old : Dyn F) (text : Bytes)
    (hf : Fine D c) (hd : depth c ≤ 100) (h : dumpTo D ord pretty c = some text) :
    ∃ c', parseFromString D old text = (.ok, c') ∧ Same c c' := by
  obtain ⟨v, h1, h2⟩ := parse_dump D hord c _ text hf hd h
  exact ⟨v, by simp [parseFromString, h1], h2⟩

theorem sameEntries_find {l m : List (Bytes × Dyn F)} (h : SameEntries l m) (key : Bytes) (v : Dyn F) :
    (l.find? fun e => e.1 == key) = some (key, v) → ∃ w, (m.find? fun e => e.1 == key) = some (key, w) ∧ Same v w := by
  induction l generalizing m with
  | nil => simp
  | cons e l ih =>
    cases h with
    | @cons k a b _ m hab hlm =>
      simp only [List.find?_cons]
      cases hk : (k == key) with
      | true =>
        simp only [Option.some.injEq, Prod.mk.injEq]
        rintro ⟨rfl, rfl⟩; exact ⟨b, ⟨rfl, rfl⟩, hab⟩
      | false => exact ih hlm

theorem perm_find {l l' : List (Bytes × Dyn F)} (hp : l.Perm l') (hn : (l.map (·.1)).Nodup) (key : Bytes) (v : Dyn F)
    (h : (l.find? fun e => e.1 == key) = some (key, v)) : (l'.find? fun e => e.1 == key) = some (key, v) := by
  have hm : (key, v) ∈ l' := hp.mem_iff.mp (List.mem_of_find?_eq_some h)
  have hn' : (l'.map (·.1)).Nodup := (hp.map _).nodup_iff.mp hn
  clear h hp hn
  induction l' with
  | nil => simp at hm
  | cons e l' ih =>
    simp only [List.map_cons, List.nodup_cons] at hn'
    rcases List.mem_cons.mp hm with rfl | hm
    · simp
    · have : (e.1 == key) = false := by
        simp only [beq_eq_false_iff_ne]; rintro rfl; exact hn'.1 (List.mem_map.mpr ⟨_, hm, rfl⟩)
      rw [List.find?_cons, this]; exact ih hm hn'.2

/-- C97: every scalar item of the written configuration is in the configuration that is read, with the same value. -/
theorem C97_items_partial (D : Doubles F) {ord : List Bytes → List Bytes} (hord : ∀ l, (ord l).Perm l) (pretty : Bool) (l : List (Bytes × Dyn F)) (old : Dyn F)
    (text : Bytes) (hf : Fine D (.obj l)) (hd : depth (.obj l) ≤ 100) (h : dumpTo D ord pretty (.obj l) = some text) :
    ∃ m, parseFromString D old text = (.ok, .obj m) ∧ m.length = l.length ∧ ∀ key v, Item (.obj l) key v → ∃ w, Item (.obj m) key w ∧ Same v w := by
  obtain ⟨c', h1, h2⟩ := C97_dump_partial D hord pretty _ old text hf hd h
  cases h2 with
  | @obj _ l' m hp hs =>
    refine ⟨m, h1, ?_, ?_⟩
    · have : ∀ {a b : List (Bytes × Dyn F)}, SameEntries a b → b.length = a.length := by
        intro a
        induction a with
        | nil => intro b hb; cases hb; rfl
        | cons e a ih => intro b hb; cases hb with
          | cons _ h => simp [ih h]
      rw [this hs, hp.length_eq]
    · rintro key v ⟨l2, hl, hi⟩
      simp only [Dyn.obj.injEq] at hl; subst hl
      simp only [Fine] at hf
      obtain ⟨w, hw, hsame⟩ := sameEntries_find hs key v (perm_find hp hf.1 key v hi)
      exact ⟨w, ⟨m, rfl, hw⟩, hsame⟩

/-- C97 fails for doubles without a fraction: folly writes 1.0 as `1`, which is read as an integer, so that the item is no longer a double. -/
theorem C97_double_violated (D : Doubles F) {ord : List Bytes → List Bytes} (hord : ∀ l, (ord l).Perm l) (one x : F) (hfin : D.finite one = true)
    (htext : D.text one = ascii "1") (old : Dyn F) : ∃ text m, dumpTo D ord false (.obj [(ascii "ratio", .dbl one)]) = some text ∧
      fetchAsDouble (.obj [(ascii "ratio", .dbl one)]) (ascii "ratio") x = some (.ok, one) ∧
      parseFromString D old text = (.ok, .obj m) ∧ fetchAsDouble (.obj m) (ascii "ratio") x = some (.error, x) := by
  have hd1 : dumpTo D ord false (.obj [(ascii "ratio", .dbl one)]) = dumpTo D ord false (.obj [(ascii "ratio", .int 1)]) := by
    simp only [dumpTo, Bool.false_eq_true, if_false, dump, dumpEntries, hfin, if_true, htext]
    rw [show intDec 1 = ascii "1" by decide +kernel]
  have hd2 : ∃ text, dumpTo D ord false (.obj [(ascii "ratio", .int 1)]) = some text := by
    simp [dumpTo, dump, dumpEntries]
  obtain ⟨text, ht⟩ := hd2
  obtain ⟨m, h1, _, h2⟩ := C97_items_partial D hord false [(ascii "ratio", .int 1)] old text (by simp [Fine, FineEntries]; decide) (by simp [depth, depthEntries]) ht
  refine ⟨text, m, hd1.trans ht, by simp [fetchAsDouble, find], h1, ?_⟩
  obtain ⟨w, hw, hs⟩ := h2 (ascii "ratio") (.int 1) ⟨_, rfl, by simp⟩
  cases hs
  simp [fetchAsDouble, find_item.mpr hw]

/-- A sample library: the double `n` stands for n/10. -/
def sampleDoubles : Doubles Nat where
  text n := natDec (n / 10) ++ 46 :: natDec (n % 10)
  read s := if s = natDec 3 ++ 46 :: natDec 1 then some 31 else none
  finite _ := true
  inf := 0
  negInf := 0
  nan := 0

example : Fine sampleDoubles (.obj [(ascii "pi", .dbl 31), (ascii "sub", .obj [(ascii "k", .arr [.int (-4), .str (ascii "a\"b\n"), .null, .bool true])])]) ∧
    dumpTo sampleDoubles List.reverse true (.obj [(ascii "pi", .dbl 31), (ascii "n", .arr [.int (-4)])]) =
      some (ascii "{\n  \"n\": [\n    -4\n  ],\n  \"pi\": 3.1\n}") := by
  constructor
  · simp only [Fine, FineEntries, FineList, and_true]
    refine ⟨by decide +kernel, ⟨⟨⟨[], natDec 3, 46 :: natDec 1, [], by decide +kernel, Or.inl rfl, by decide +kernel, by decide +kernel, Or.inr ⟨natDec 1, rfl, by decide +kernel⟩,
      Or.inl rfl, by decide +kernel⟩⟩, by decide +kernel⟩, by decide +kernel, by decide⟩
  · decide +kernel

/-! ## C98: comments -/

theorem mark_iff (c : UInt8) (s : Bytes) : Mark (c :: s) ↔ c = 35 ∨ (c = 47 ∧ s.head? = some 47) := by
  constructor
  · rintro (⟨t, h⟩ | ⟨t, h⟩)
    · simp at h; exact Or.inl h.1
    · simp at h; obtain ⟨rfl, rfl⟩ := h; exact Or.inr ⟨rfl, rfl⟩
  · rintro (rfl | ⟨rfl, h⟩)
    · exact Or.inl ⟨s, rfl⟩
    · obtain ⟨t, rfl⟩ : ∃ t, s = 47 :: t := by cases s with
        | nil => simp at h
        | cons x t => simp at h; subst h; exact ⟨t, rfl⟩
      exact Or.inr ⟨t, rfl⟩

/-- The part of a line before a comment. -/
def cut : Bytes → Bytes
  | [] => []
  | c :: s => if c = 35 ∨ (c = 47 ∧ s.head? = some 47) then [] else c :: cut s

theorem cut_spec : ∀ l : Bytes, CutAt l (cut l)
  | [] => ⟨⟨[], rfl, Or.inl rfl⟩, by simp [cut]⟩
  | c :: s => by
    unfold cut
    split
    · rename_i h
      exact ⟨⟨c :: s, rfl, Or.inr ((mark_iff c s).mpr h)⟩, by simp⟩
    · rename_i h
      obtain ⟨⟨rest, h1, h2⟩, h3⟩ := cut_spec s
      refine ⟨⟨rest, by rw [List.cons_append, ← h1], h2⟩, ?_⟩
      intro i hi
      cases i with
      | zero => rw [List.drop_zero, mark_iff]; exact h
      | succ i => simp only [List.length_cons] at hi; simpa using h3 i (by omega)

theorem cutAt_unique {l p q : Bytes} (hp : CutAt l p) (hq : CutAt l q) : p = q := by
  have key : ∀ {p q : Bytes}, CutAt l p → CutAt l q → ¬ p.length < q.length := by
    rintro p q ⟨⟨r, h1, h2⟩, _⟩ ⟨⟨r', h1', _⟩, h3'⟩ hlt
    have := h3' p.length hlt
    rw [h1, List.drop_left] at this
    rcases h2 with rfl | h2
    · have e1 := congrArg List.length h1
      have e2 := congrArg List.length h1'
      simp only [List.length_append, List.length_nil] at e1 e2; omega
    · exact this h2
  have hl : p.length = q.length := by have := key hp hq; have := key hq hp; omega
  obtain ⟨⟨r, h1, _⟩, _⟩ := hp
  obtain ⟨⟨r', h1', _⟩, _⟩ := hq
  exact (List.append_inj (h1.symm.trans h1') hl).1

theorem strip_line (e : UInt8) (he : e = 10 ∨ e = 13) (r : Bytes) : ∀ l : Bytes, OneLine l → strip false (l ++ e :: r) = cut l ++ e :: strip false r ∧
    strip true (l ++ e :: r) = e :: strip false r
  | [], _ => by
    have h35 : e ≠ 35 := by rcases he with rfl | rfl <;> decide
    have h47 : e ≠ 47 := by rcases he with rfl | rfl <;> decide
    simp [strip, cut, he, h35, h47]
  | c :: s, hl => by
    have hc : c ≠ 10 ∧ c ≠ 13 := ⟨fun h => hl.1 (by simp [h]), fun h => hl.2 (by simp [h])⟩
    have hs : OneLine s := ⟨fun h => hl.1 (List.mem_cons_of_mem _ h), fun h => hl.2 (List.mem_cons_of_mem _ h)⟩
    obtain ⟨i1, i2⟩ := strip_line e he r s hs
    refine ⟨?_, by rw [List.cons_append, strip, if_neg (by simp [hc]), i2]⟩
    have hh : (s ++ e :: r).head? = some 47 ↔ s.head? = some 47 := by
      cases s with
      | nil => have h47 : e ≠ 47 := by rcases he with rfl | rfl <;> decide
               simp [h47]
      | cons x s => simp
    rw [List.cons_append, strip, cut]
    by_cases h1 : c = 35
    · simp [h1, i2]
    · rw [if_neg h1]
      by_cases h2 : c = 47 ∧ s.head? = some 47
      · rw [if_pos ⟨h2.1, hh.mpr h2.2⟩, if_pos (Or.inr h2), i2]; rfl
      · rw [if_neg (fun h => h2 ⟨h.1, hh.mp h.2⟩), if_neg (fun h => h.elim h1 h2), i1]; rfl

theorem strip_last : ∀ l : Bytes, OneLine l → strip false l = cut l ∧ strip true l = []
  | [], _ => ⟨rfl, rfl⟩
  | c :: s, hl => by
    have hc : c ≠ 10 ∧ c ≠ 13 := ⟨fun h => hl.1 (by simp [h]), fun h => hl.2 (by simp [h])⟩
    have hs : OneLine s := ⟨fun h => hl.1 (List.mem_cons_of_mem _ h), fun h => hl.2 (List.mem_cons_of_mem _ h)⟩
    obtain ⟨i1, i2⟩ := strip_last s hs
    refine ⟨?_, by rw [strip, if_neg (by simp [hc]), i2]⟩
    rw [strip, cut]
    by_cases h1 : c = 35
    · simp [h1, i2]
    · rw [if_neg h1]
      by_cases h2 : c = 47 ∧ s.head? = some 47
      · rw [if_pos h2, if_pos (Or.inr h2), i2]
      · rw [if_neg h2, if_neg (fun h => h.elim h1 h2), i1]

/-- Every line cut at its first comment mark. -/
inductive CutLines : List (Bytes × UInt8) → List (Bytes × UInt8) → Prop
  | nil : CutLines [] []
  | cons {l p e ls ps} : CutAt l p → CutLines ls ps → CutLines ((l, e) :: ls) ((p, e) :: ps)

theorem strip_lines {last plast : Bytes} (hlast : OneLine last) (hpl : CutAt last plast) : ∀ {ls ps : List (Bytes × UInt8)}, CutLines ls ps →
    (∀ e ∈ ls, OneLine e.1 ∧ (e.2 = 10 ∨ e.2 = 13)) → strip false (joinLines ls last) = joinLines ps plast := by
  intro ls ps h
  induction h with
  | nil => intro _; rw [joinLines, joinLines, (strip_last last hlast).1]; exact cutAt_unique (cut_spec _) hpl
  | @cons l p e ls ps h1 _ ih =>
    intro hall
    obtain ⟨a, b⟩ := hall (l, e) (by simp)
    rw [joinLines, joinLines, (strip_line e b _ l a).1, ih fun x hx => hall x (List.mem_cons_of_mem _ hx), cutAt_unique (cut_spec l) h1]

theorem cstr_id {s : Bytes} (h : (0 : UInt8) ∉ s) : cstr s = s := by
  unfold cstr
  induction s with
  | nil => rfl
  | cons c s ih =>
    simp only [List.mem_cons, not_or] at h
    rw [List.takeWhile_cons, if_pos (by simpa using fun e => h.1 e.symm), ih h.2]

/-- C98: a file is read as the JSON text that remains when every line is cut at its first comment mark (`#` or `//`), wherever that mark is. -/
theorem C98_comments (D : Doubles F) (c : Dyn F) {ls ps : List (Bytes × UInt8)} {last plast : Bytes} (hls : ∀ e ∈ ls, OneLine e.1 ∧ (e.2 = 10 ∨ e.2 = 13))
    (hlast : OneLine last) (hcut : CutLines ls ps) (hpl : CutAt last plast) (hne : joinLines ls last ≠ []) (h0 : (0 : UInt8) ∉ joinLines ls last) :
    parseFromFile D c (.data (joinLines ls last)) = parseFromString D c (joinLines ps plast) := by
  rw [parseFromFile, if_neg (by simpa using hne), cstr_id h0, strip_lines hlast hpl hcut hls]

theorem strip_none : ∀ s : Bytes, (∀ i, ¬ Mark (s.drop i)) → strip false s = s
  | [], _ => rfl
  | c :: s, h => by
    have h0 := h 0
    rw [List.drop_zero, mark_iff, not_or] at h0
    rw [strip, if_neg h0.1, if_neg h0.2, strip_none s fun i => by simpa using h (i + 1)]

/-- C98: a file without comment marks is read as its text; a file that cannot be read, is empty or is not JSON leaves the configuration as it was. -/
theorem C98_plain_file (D : Doubles F) (c : Dyn F) :
    (∀ b : Bytes, b ≠ [] → (0 : UInt8) ∉ b → (∀ i, ¬ Mark (b.drop i)) → parseFromFile D c (.data b) = parseFromString D c b) ∧
    (∀ f r c', parseFromFile D c f = (r, c') → r ≠ .ok → c' = c) ∧
    (∀ r c', parseFromFile D c .missing = (r, c') → r = .noSuchFile) ∧
    (∀ f r c', (f = .denied ∨ f = .otherError ∨ f = .data []) → parseFromFile D c f = (r, c') → r = .error) := by
  refine ⟨fun b hb h0 hm => by rw [parseFromFile, if_neg (by simpa using hb), cstr_id h0, strip_none b hm], ?_, ?_, ?_⟩
  · intro f r c' h hr
    have hps : ∀ t, parseFromString D c t = (r, c') → c' = c := by
      intro t ht
      unfold parseFromString at ht
      split at ht
      · simp at ht; exact absurd ht.1.symm hr
      · simp at ht; exact ht.2.symm
    cases f with
    | data b =>
      simp only [parseFromFile] at h
      split at h
      · simp at h; exact h.2.symm
      · exact hps _ h
    | _ => simp [parseFromFile] at h; exact h.2.symm
  · intro r c' h; simp [parseFromFile] at h; exact h.1.symm
  · rintro f r c' (rfl | rfl | rfl) h <;> simp [parseFromFile] at h <;> exact h.1.symm

/-- C98 fails for comment marks in strings: the address of a server makes a well-formed configuration unreadable, and a string with a line end in it
is silently shortened. -/
theorem C98_string_violated (D : Doubles F) (c : Dyn F) :
    (parseFromString D c (ascii "{\"url\":\"http://h\"}") = (.ok, .obj [(ascii "url", .str (ascii "http://h"))]) ∧
      parseFromFile D c (.data (ascii "{\"url\":\"http://h\"}")) = (.error, c)) ∧
    (parseFromString D c (ascii "{\"a\":\"x#y\nz\"}") = (.ok, .obj [(ascii "a", .str (ascii "x#y\nz"))]) ∧
      parseFromFile D c (.data (ascii "{\"a\":\"x#y\nz\"}")) = (.ok, .obj [(ascii "a", .str (ascii "x\nz"))])) := by
  rw [show ascii "{\"url\":\"http://h\"}" = [123, 34, 117, 114, 108, 34, 58, 34, 104, 116, 116, 112, 58, 47, 47, 104, 34, 125] by decide +kernel, show ascii "url" = [117, 114, 108] by decide +kernel, show ascii "http://h" = [104, 116, 116, 112, 58, 47, 47, 104] by decide +kernel, show ascii "{\"a\":\"x#y\nz\"}" = [123, 34, 97, 34, 58, 34, 120, 35, 121, 10, 122, 34, 125] by decide +kernel, show ascii "a" = [97] by decide +kernel, show ascii "x#y\nz" = [120, 35, 121, 10, 122] by decide +kernel, show ascii "x\nz" = [120, 10, 122] by decide +kernel]
  exact ⟨⟨rfl, rfl⟩, rfl, rfl⟩

/-- C98 fails for a NUL in the file: the rest of the file is not read. -/
theorem C98_nul_violated (D : Doubles F) (c : Dyn F) : parseFromFile D c (.data (ascii "{}" ++ 0 :: ascii "garbage")) = (.ok, .obj []) := by
  rw [show ascii "{}" = [123, 125] by decide +kernel, show ascii "garbage" = [103, 97, 114, 98, 97, 103, 101] by decide +kernel]
  rfl

example : CutAt (ascii "\"int\": 123, // this is # a comment") (ascii "\"int\": 123, ") ∧ OneLine (ascii "x # y") ∧ CutAt (ascii "a/b") (ascii "a/b") := by
  have h1 := cut_spec (ascii "\"int\": 123, // this is # a comment")
  rw [show cut (ascii "\"int\": 123, // this is # a comment") = ascii "\"int\": 123, " by decide +kernel] at h1
  have h2 := cut_spec (ascii "a/b")
  rw [show cut (ascii "a/b") = ascii "a/b" by decide +kernel] at h2
  exact ⟨h1, by unfold OneLine; decide +kernel, h2⟩

end Conf
end Nebula
