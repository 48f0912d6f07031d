import Verif.Meta.Config
/-! # C65: the configuration cache follows the meta server -/
namespace Nebula
namespace Meta

/-- The item a listing gives for a key: the first one. -/
def listed (items : List CfgItem) (k : Int × Bytes) : Option CfgItem := items.find? fun i => (i.module, i.name) == k

theorem itemMap_find : ∀ (items : List CfgItem) (m : CfgCache) (k : Int × Bytes), (itemMap m items).find k = (m.find k).or (listed items k)
  | [], m, k => by simp [itemMap, listed]
  | i :: is, m, k => by
    rw [itemMap, itemMap_find is, AMap.find_emplace]
    unfold listed
    by_cases e : (i.module, i.name) = k
    · subst e
      rw [if_pos rfl]
      cases m.find (i.module, i.name) <;> simp
    · rw [if_neg e]
      congr 1
      rw [List.find?_cons_of_neg (by simpa using e)]

theorem itemMap_nodup : ∀ (items : List CfgItem) (m : CfgCache), m.NodupKeys → (itemMap m items).NodupKeys
  | [], _, h => h
  | _ :: is, _, h => itemMap_nodup is _ (AMap.nodup_emplace h _ _)

theorem order_find {items : List CfgItem} {order : CfgCache} (h : order.Perm (itemMap [] items)) (k : Int × Bytes) : order.find k = listed items k := by
  have hn : (itemMap [] items).NodupKeys := itemMap_nodup items [] AMap.nodup_nil
  have hn' : AMap.NodupKeys order := (h.map Prod.fst).nodup_iff.2 hn
  have e := itemMap_find items [] k
  rw [show AMap.find ([] : CfgCache) k = none from rfl, Option.none_or] at e
  rw [← e]
  by_cases hx : ∃ v, order.find k = some v
  · obtain ⟨v, hv⟩ := hx
    rw [hv, AMap.mem_find hn (h.subset (AMap.find_mem hv))]
  · have h1 : order.find k = none := by
      cases hc : order.find k with
      | none => rfl
      | some v => exact absurd ⟨v, hc⟩ hx
    rw [h1]
    cases hc : (itemMap [] items).find k with
    | none => rfl
    | some v =>
      have := AMap.mem_find hn' (h.symm.subset (AMap.find_mem hc))
      rw [h1] at this; cases this

theorem entry_cache {lib : FlagLib} {st st' : CfgState} {e : (Int × Bytes) × CfgItem} (h : cfgEntry lib st e = some st') :
    (∀ k, k ≠ e.1 → st'.cache.find k = st.cache.find k) ∧ ∃ i, st'.cache.find e.1 = some i ∧ i.value = e.2.value ∧
      (i = e.2 ∨ st.cache.find e.1 = some i) := by
  unfold cfgEntry at h
  dsimp only at h
  cases hf : st.cache.find e.1 with
  | none =>
    rw [hf] at h
    simp only [if_true] at h
    obtain ⟨fl, _, rfl⟩ := Option.map_eq_some_iff.1 h
    refine ⟨fun k hk => ?_, e.2, ?_, rfl, .inl rfl⟩
    · dsimp only; rw [AMap.find_set, if_neg (fun h => hk h.symm)]
    · dsimp only; rw [AMap.find_set, if_pos rfl]
  | some old =>
    rw [hf] at h
    dsimp only at h
    by_cases hv : e.2.value ≠ old.value
    · rw [if_pos (by simpa using hv)] at h
      obtain ⟨fl, _, rfl⟩ := Option.map_eq_some_iff.1 h
      refine ⟨fun k hk => ?_, e.2, ?_, rfl, .inl rfl⟩
      · dsimp only; rw [AMap.find_set, if_neg (fun h => hk h.symm)]
      · dsimp only; rw [AMap.find_set, if_pos rfl]
    · rw [if_neg (by simpa using hv)] at h
      cases h
      refine ⟨fun _ _ => rfl, old, hf, ?_, .inr rfl⟩
      exact (Decidable.not_not.1 hv).symm

theorem entries_cache {lib : FlagLib} : ∀ (es : List ((Int × Bytes) × CfgItem)) (st st' : CfgState), AMap.NodupKeys es → cfgEntries lib st es = some st' →
    ∀ k, match AMap.find es k with
      | some i => ∃ j, st'.cache.find k = some j ∧ j.value = i.value
      | none => st'.cache.find k = st.cache.find k
  | [], st, st', _, h, k => by rw [cfgEntries] at h; cases h; rfl
  | e :: es, st, st', hn, h, k => by
    rw [cfgEntries] at h
    obtain ⟨s1, h1, h2⟩ := Option.bind_eq_some_iff.1 h
    obtain ⟨a, i, b, c, _⟩ := entry_cache h1
    have hn2 : AMap.NodupKeys es := (List.nodup_cons.1 hn).2
    have hne : e.1 ∉ es.map Prod.fst := (List.nodup_cons.1 hn).1
    have ih := entries_cache es s1 st' hn2 h2 k
    obtain ⟨ek, ei⟩ := e
    rw [AMap.find]
    by_cases hk : ek = k
    · subst hk
      rw [(AMap.find_none_iff es ek).2 hne] at ih
      simp only [if_true]
      exact ⟨i, by rw [ih]; exact b, c⟩
    · rw [if_neg hk]
      cases hf : AMap.find es k with
      | none => rw [hf] at ih; dsimp only at ih ⊢; rw [ih]; exact a k (fun h => hk h.symm)
      | some j => rw [hf] at ih; exact ih

/-- **C65.** After a load, every key listed by the server is in the cache with the server's value; all other entries are as before. -/
theorem C65_cache {lib : FlagLib} {items : List CfgItem} {st st' : CfgState} (h : LoadCfg lib items st st') (k : Int × Bytes) :
    (∀ i, listed items k = some i → ∃ j, st'.cache.find k = some j ∧ j.value = i.value) ∧
    (listed items k = none → st'.cache.find k = st.cache.find k) := by
  obtain ⟨order, hp, hr⟩ := h
  have hn' : AMap.NodupKeys order := (hp.map Prod.fst).nodup_iff.2 (itemMap_nodup items [] AMap.nodup_nil)
  have := entries_cache order st st' hn' hr k
  rw [order_find hp] at this
  constructor
  · intro i hi; rw [hi] at this; exact this
  · intro hi; rw [hi] at this; exact this

/-- The text of a flag stands for a value: it reads back as the value, or it is what setting the flag to the value leads to. -/
def StandsFor (lib : FlagLib) (name text : Bytes) (v : CfgVal) : Prop :=
  gflagsValueToValue lib v text = some v ∨ ∃ t, valueToGflagString lib v = some t ∧ lib.store name t = some text

theorem update_flags {lib : FlagLib} {flags fl : Flags} {i : CfgItem} (h : updateGflags lib flags i = some fl) :
    (∀ n, n ≠ i.name → fl.find n = flags.find n) ∧ (∀ n, flags.find n = none → fl.find n = none) ∧
    (i.mutable = false → fl = flags) ∧
    (i.mutable = true → (∀ n t, lib.store n t ≠ none) → ∀ cur, flags.find i.name = some cur →
      ∃ t, fl.find i.name = some t ∧ StandsFor lib i.name t i.value) := by
  unfold updateGflags at h
  cases hm : i.mutable with
  | false => rw [hm, if_pos rfl] at h; cases h; exact ⟨fun _ _ => rfl, fun _ h => h, fun _ => rfl, (by intro h; cases h)⟩
  | true =>
    rw [hm, if_neg (by decide)] at h
    cases hf : flags.find i.name with
    | none => rw [hf] at h; cases h; exact ⟨fun _ _ => rfl, fun _ h => h, fun _ => rfl, (by intro _ _ cur hc; cases hc)⟩
    | some cur =>
      rw [hf] at h
      obtain ⟨v, hv, h⟩ := Option.bind_eq_some_iff.1 h
      by_cases hne : v ≠ i.value
      · rw [if_pos hne] at h
        obtain ⟨t, ht, h⟩ := Option.map_eq_some_iff.1 h
        dsimp only at h
        have hemp : (if i.value = .map [] then ascii "{}" else t) = t := by
          split
          · rename_i e
            rw [e] at ht
            have : some (ascii "{" ++ [] ++ ascii "}") = some t := ht
            have := Option.some.inj this
            rw [← this]; rfl
          · rfl
        rw [hemp] at h
        cases hs : lib.store i.name t with
        | none =>
          rw [hs] at h; dsimp only at h; subst h
          exact ⟨fun _ _ => rfl, fun _ h => h, (by intro h; cases h), fun _ hst => absurd hs (hst _ _)⟩
        | some t' =>
          rw [hs] at h; dsimp only at h; subst h
          refine ⟨fun n hn => by rw [AMap.find_set, if_neg (fun h => hn h.symm)], fun n hn => ?_, (by intro h; cases h), fun _ _ c _ => ?_⟩
          · rw [AMap.find_set]
            split
            · rename_i e; subst e; rw [hf] at hn; cases hn
            · exact hn
          · exact ⟨t', by rw [AMap.find_set, if_pos rfl], .inr ⟨t, ht, hs⟩⟩
      · rw [if_neg hne] at h; cases h
        refine ⟨fun _ _ => rfl, fun _ h => h, (by intro h; cases h), fun _ _ c _ => ?_⟩
        exact ⟨cur, hf, .inl (by rw [hv, Decidable.not_not.1 hne])⟩

/-- **C65.** A flag changes only if the server lists a mutable item of its name, the value of which differs from the cached one or was not
cached; no flag appears or disappears. -/
theorem C65_only_changed {lib : FlagLib} {items : List CfgItem} {st st' : CfgState} (h : LoadCfg lib items st st') (n : Bytes)
    (hc : st'.flags.find n ≠ st.flags.find n) : st.flags.find n ≠ none ∧ st'.flags.find n ≠ none ∧
    ∃ i ∈ items, i.name = n ∧ i.mutable = true ∧ ∀ old, st.cache.find (i.module, i.name) = some old → old.value ≠ i.value := by
  obtain ⟨order, hp, hr⟩ := h
  have hn' : AMap.NodupKeys order := (hp.map Prod.fst).nodup_iff.2 (itemMap_nodup items [] AMap.nodup_nil)
  have hmem : ∀ e ∈ order, e.2 ∈ items ∧ e.1 = (e.2.module, e.2.name) := by
    intro e he
    have hf := AMap.mem_find hn' (show (e.1, e.2) ∈ order from he)
    rw [order_find hp] at hf
    exact ⟨List.mem_of_find?_eq_some hf, by have := List.find?_some hf; simp at this; exact this.symm⟩
  have key : ∀ (es : List ((Int × Bytes) × CfgItem)) (s : CfgState), (∀ e ∈ es, e ∈ order) → AMap.NodupKeys es → cfgEntries lib s es = some st' →
      (∀ e ∈ es, s.cache.find e.1 = st.cache.find e.1) → st'.flags.find n ≠ s.flags.find n →
      s.flags.find n ≠ none ∧ st'.flags.find n ≠ none ∧ ∃ i ∈ items, i.name = n ∧ i.mutable = true ∧
        ∀ old, st.cache.find (i.module, i.name) = some old → old.value ≠ i.value := by
    intro es
    induction es with
    | nil => intro s _ _ hrun _ hne; rw [cfgEntries] at hrun; cases hrun; exact absurd rfl hne
    | cons e es ih =>
      intro s hsub hnd hrun hcache hne
      rw [cfgEntries] at hrun
      obtain ⟨s1, h1, h2⟩ := Option.bind_eq_some_iff.1 hrun
      have hx := entry_cache h1
      have hnd2 : AMap.NodupKeys es := (List.nodup_cons.1 hnd).2
      have hnk : ∀ e' ∈ es, e'.1 ≠ e.1 := by
        intro e' he' heq
        exact (List.nodup_cons.1 hnd).1 (List.mem_map.2 ⟨e', he', heq⟩)
      have hcache' : ∀ e' ∈ es, s1.cache.find e'.1 = st.cache.find e'.1 := by
        intro e' he'
        rw [hx.1 _ (hnk e' he')]
        exact hcache e' (List.mem_cons_of_mem _ he')
      have hsub' : ∀ e' ∈ es, e' ∈ order := fun e' he' => hsub e' (List.mem_cons_of_mem _ he')
      -- what the entry did to the flags
      have hfl : s1.flags = s.flags ∨ (updateGflags lib s.flags e.2 = some s1.flags ∧ ∀ old, s.cache.find e.1 = some old → e.2.value ≠ old.value) := by
        unfold cfgEntry at h1
        dsimp only at h1
        cases hf : s.cache.find e.1 with
        | none =>
          rw [hf] at h1
          simp only [if_true] at h1
          obtain ⟨fl, hfl, rfl⟩ := Option.map_eq_some_iff.1 h1
          exact .inr ⟨hfl, by intro old ho; cases ho⟩
        | some old =>
          rw [hf] at h1
          dsimp only at h1
          by_cases hv : e.2.value ≠ old.value
          · rw [if_pos (by simpa using hv)] at h1
            obtain ⟨fl, hfl, rfl⟩ := Option.map_eq_some_iff.1 h1
            exact .inr ⟨hfl, by intro o ho; cases ho; exact hv⟩
          · rw [if_neg (by simpa using hv)] at h1
            cases h1; exact .inl rfl
      by_cases hsame : st'.flags.find n = s1.flags.find n
      · -- changed by this entry
        rcases hfl with heq | ⟨hu, hold⟩
        · exact absurd (hsame.trans (by rw [heq])) hne
        · have hne1 : s1.flags.find n ≠ s.flags.find n := fun h => hne (hsame.trans h)
          obtain ⟨u1, u2, u3, _⟩ := update_flags hu
          obtain ⟨hi, hk⟩ := hmem e (hsub e List.mem_cons_self)
          have hname : e.2.name = n := by
            by_cases h : n = e.2.name
            · exact h.symm
            · exact absurd (u1 n h) hne1
          have hmut : e.2.mutable = true := by
            cases hm : e.2.mutable with
            | true => rfl
            | false => exact absurd (by rw [u3 hm]) hne1
          have hsome : s.flags.find n ≠ none := by
            intro h0
            exact hne1 ((u2 n h0).trans h0.symm)
          have hs1 : s1.flags.find n ≠ none := by
            intro h0
            -- the flags only gain or keep texts
            unfold updateGflags at hu
            rw [hmut, if_neg (by decide)] at hu
            cases hf : s.flags.find e.2.name with
            | none => rw [hname] at hf; exact hsome hf
            | some cur =>
              rw [hf] at hu
              obtain ⟨v, hv, hu⟩ := Option.bind_eq_some_iff.1 hu
              split at hu
              · obtain ⟨t, ht, hu⟩ := Option.map_eq_some_iff.1 hu
                dsimp only at hu
                split at hu
                · rw [← hu, AMap.find_set, if_pos hname] at h0; cases h0
                · rw [← hu] at h0; exact hsome h0
              · rw [← Option.some.inj hu] at h0; exact hsome h0
          refine ⟨hsome, by rw [hsame]; exact hs1, e.2, hi, hname, hmut, ?_⟩
          intro old ho
          rw [← hk, ← hcache e List.mem_cons_self] at ho
          exact fun h => hold old ho h.symm
      · -- changed by a later entry
        obtain ⟨a, b, c⟩ := ih s1 hsub' hnd2 h2 hcache' hsame
        refine ⟨?_, b, c⟩
        rcases hfl with heq | ⟨hu, _⟩
        · rwa [heq] at a
        · intro h0; exact a ((update_flags hu).2.1 n h0)
  exact key order st (fun e he => he) hn' hr (fun _ _ => rfl) hc

/-- All items are mutable and of one module. -/
def OneModule (m : Int) (items : List CfgItem) : Prop := ∀ i ∈ items, i.mutable = true ∧ i.module = m

structure Follows (lib : FlagLib) (m : Int) (st : CfgState) : Prop where
  keys : ∀ k i, st.cache.find k = some i → k = (m, i.name)
  follows : ∀ k i, st.cache.find k = some i → ∀ t, st.flags.find i.name = some t → StandsFor lib i.name t i.value

theorem entry_follows {lib : FlagLib} {m : Int} {st st' : CfgState} {e : (Int × Bytes) × CfgItem} (hs : ∀ n t, lib.store n t ≠ none)
    (hi : Follows lib m st) (hk : e.1 = (m, e.2.name)) (hm : e.2.mutable = true) (h : cfgEntry lib st e = some st') : Follows lib m st' := by
  have hupd : ∀ fl, updateGflags lib st.flags e.2 = some fl → Follows lib m ⟨st.cache.set e.1 e.2, fl⟩ := by
    intro fl hu
    obtain ⟨u1, u2, _, u4⟩ := update_flags hu
    constructor
    · intro k i hf
      dsimp only at hf
      rw [AMap.find_set] at hf
      by_cases e1 : e.1 = k
      · rw [if_pos e1] at hf; cases hf; rw [← e1, hk]
      · rw [if_neg e1] at hf; exact hi.keys k i hf
    · intro k i hf t ht
      dsimp only at hf ht
      rw [AMap.find_set] at hf
      by_cases e1 : e.1 = k
      · rw [if_pos e1] at hf; cases hf
        cases hc : st.flags.find e.2.name with
        | none => rw [u2 _ hc] at ht; cases ht
        | some cur =>
          obtain ⟨t', h1, h2⟩ := u4 hm hs cur hc
          rw [h1] at ht; cases ht; exact h2
      · rw [if_neg e1] at hf
        have hkk := hi.keys k i hf
        have hne : i.name ≠ e.2.name := by
          intro hh; apply e1; rw [hk, hkk, hh]
        rw [u1 _ hne] at ht
        exact hi.follows k i hf t ht
  unfold cfgEntry at h
  dsimp only at h
  cases hf : st.cache.find e.1 with
  | none =>
    rw [hf] at h
    simp only [if_true] at h
    obtain ⟨fl, hu, rfl⟩ := Option.map_eq_some_iff.1 h
    exact hupd fl hu
  | some old =>
    rw [hf] at h
    dsimp only at h
    by_cases hv : e.2.value ≠ old.value
    · rw [if_pos (by simpa using hv)] at h
      obtain ⟨fl, hu, rfl⟩ := Option.map_eq_some_iff.1 h
      exact hupd fl hu
    · rw [if_neg (by simpa using hv)] at h
      cases h; exact hi

theorem load_follows {lib : FlagLib} {m : Int} {items : List CfgItem} {st st' : CfgState} (hs : ∀ n t, lib.store n t ≠ none) (ho : OneModule m items)
    (hi : Follows lib m st) (h : LoadCfg lib items st st') : Follows lib m st' := by
  obtain ⟨order, hp, hr⟩ := h
  have hn' : AMap.NodupKeys order := (hp.map Prod.fst).nodup_iff.2 (itemMap_nodup items [] AMap.nodup_nil)
  have hmem : ∀ e ∈ order, e.1 = (m, e.2.name) ∧ e.2.mutable = true := by
    intro e he
    have hf := AMap.mem_find hn' (show (e.1, e.2) ∈ order from he)
    rw [order_find hp] at hf
    obtain ⟨h1, h2⟩ := ho e.2 (List.mem_of_find?_eq_some hf)
    refine ⟨?_, h1⟩
    have : (e.2.module, e.2.name) = e.1 := by simpa using List.find?_some hf
    rw [← this, h2]
  have key : ∀ (es : List ((Int × Bytes) × CfgItem)) (s : CfgState), (∀ e ∈ es, e ∈ order) → cfgEntries lib s es = some st' → Follows lib m s →
      Follows lib m st' := by
    intro es
    induction es with
    | nil => intro s _ hrun hf; rw [cfgEntries] at hrun; cases hrun; exact hf
    | cons e es ih =>
      intro s hsub hrun hf
      rw [cfgEntries] at hrun
      obtain ⟨s1, h1, h2⟩ := Option.bind_eq_some_iff.1 hrun
      obtain ⟨a, b⟩ := hmem e (hsub e List.mem_cons_self)
      exact ih s1 (fun e' he' => hsub e' (List.mem_cons_of_mem _ he')) h2 (entry_follows hs hf a b h1)
  exact key order st (fun _ h => h) hr hi

/-- A history of loads. -/
inductive Loads (lib : FlagLib) (m : Int) : CfgState → CfgState → Prop
  | start (st) : Loads lib m st st
  | load {st st' st'' : CfgState} {items} : Loads lib m st st' → OneModule m items → LoadCfg lib items st' st'' → Loads lib m st st''

/-- **C65.** After any history of loads of mutable items of one module, starting with an empty cache, every flag of the process the server
listed at any time stands for the value in the cache, which is the last value the server listed (`C65_cache`).  Assumed: flags
are not set by others, and setting a flag is not refused. -/
theorem C65_flags_follow {lib : FlagLib} {m : Int} {flags : Flags} {st : CfgState} (hs : ∀ n t, lib.store n t ≠ none)
    (h : Loads lib m ⟨[], flags⟩ st) : ∀ k i, st.cache.find k = some i → ∀ t, st.flags.find i.name = some t → StandsFor lib i.name t i.value := by
  have key : ∀ s0 s1 : CfgState, Loads lib m s0 s1 → s0.cache = [] → Follows lib m s1 := by
    intro s0 s1 hl h0
    induction hl with
    | start => exact ⟨(by intro k i h; rw [h0] at h; cases h), (by intro k i h; rw [h0] at h; cases h)⟩
    | load _ ho hl ih => exact load_follows hs ho ih hl
  exact (key _ _ h rfl).follows

/-- **C65.** For integers, booleans and strings the flag then reads back as the server's value, if the libraries read what they print and
gflags keeps the text. -/
theorem C65_reads_back {lib : FlagLib} (h1 : ∀ n, lib.toInt (lib.showInt n) = some n) (h2 : lib.toBool (ascii "true") = some true)
    (h3 : lib.toBool (ascii "false") = some false) (h4 : ∀ n t, lib.store n t = some t) {name text : Bytes} {v : CfgVal}
    (hv : StandsFor lib name text v) (hk : (∃ b, v = .bool b) ∨ (∃ n, v = .int n) ∨ (∃ s, v = .str s)) : gflagsValueToValue lib v text = some v := by
  rcases hv with h | ⟨t, ht, hst⟩
  · exact h
  · rw [h4] at hst; cases hst
    rcases hk with ⟨b, rfl⟩ | ⟨n, rfl⟩ | ⟨s, rfl⟩
    · cases b
      · have : some (ascii "false") = some text := ht
        cases this
        show (lib.toBool _).map _ = _
        rw [h3]; rfl
      · have : some (ascii "true") = some text := ht
        cases this
        show (lib.toBool _).map _ = _
        rw [h2]; rfl
    · have : some (lib.showInt n) = some text := ht
      cases this
      show (lib.toInt _).map _ = _
      rw [h1]; rfl
    · have : some s = some text := ht
      cases this
      rfl

/-! ## Where the flags do not follow -/

/-- A library in which texts of digits stand for one-digit numbers, for examples. -/
def sampleLib : FlagLib where
  toInt := fun t => match t with
    | [d] => some (d.toNat - 48)
    | _ => none
  toBool := fun t => if t = ascii "true" then some true else if t = ascii "false" then some false else none
  showInt := fun n => [UInt8.ofNat (48 + n.toNat)]
  parseJson := fun _ => none
  store := fun _ t => some t

/-- A load that changes a flag. -/
example : LoadCfg sampleLib [⟨1, ascii "v", true, .int 3⟩] ⟨[], [(ascii "v", ascii "0")]⟩
    ⟨[((1, ascii "v"), ⟨1, ascii "v", true, .int 3⟩)], [(ascii "v", ascii "3")]⟩ := ⟨_, List.Perm.refl _, by rfl⟩

/-- **C65, violated in these cases.** An item that becomes mutable while its value stays the same is not applied; a flag that was changed
locally is not set back while the server's value stays the same; a null value for a mutable flag ends the process. -/
theorem C65_follow_violated :
    (∃ st, LoadCfg sampleLib [⟨1, ascii "v", false, .int 3⟩] ⟨[], [(ascii "v", ascii "0")]⟩ st ∧
      LoadCfg sampleLib [⟨1, ascii "v", true, .int 3⟩] st st ∧ st.flags.find (ascii "v") = some (ascii "0")) ∧
    LoadCfg sampleLib [⟨1, ascii "v", true, .int 3⟩] ⟨[((1, ascii "v"), ⟨1, ascii "v", true, .int 3⟩)], [(ascii "v", ascii "7")]⟩
      ⟨[((1, ascii "v"), ⟨1, ascii "v", true, .int 3⟩)], [(ascii "v", ascii "7")]⟩ ∧
    (∀ lib st cur, st.flags.find (ascii "v") = some cur → st.cache.find (1, ascii "v") = none → ∀ st',
      ¬ LoadCfg lib [⟨1, ascii "v", true, .null⟩] st st') := by
  refine ⟨⟨⟨[((1, ascii "v"), ⟨1, ascii "v", false, .int 3⟩)], [(ascii "v", ascii "0")]⟩, ⟨_, List.Perm.refl _, by rfl⟩, ⟨_, List.Perm.refl _, by rfl⟩,
    by decide +kernel⟩, ⟨_, List.Perm.refl _, by rfl⟩, ?_⟩
  rintro lib st cur hc hca st' ⟨order, hp, hr⟩
  have : order = [((1, ascii "v"), ⟨1, ascii "v", true, .null⟩)] := List.perm_singleton.1 hp
  subst this
  rw [cfgEntries, cfgEntry] at hr
  dsimp only at hr
  rw [hca] at hr
  simp [updateGflags, hc, gflagsValueToValue, valueToGflagString] at hr

/-! ## Nested options -/

/-- Reads a JSON string without escapes: what is between the quotes, and the rest. -/
def readJsonStr : Bytes → Option (Bytes × Bytes)
  | [] => none
  | c :: t => if c ≠ 0x22 then none else match t.dropWhile (fun d => d != 0x22) with
    | [] => none
    | _ :: r => some (t.takeWhile (fun d => d != 0x22), r)

/-- Reads the members of a JSON object with string values. -/
def readMembers : Nat → Bytes → Option (List (Bytes × Bytes))
  | 0, _ => none
  | fuel + 1, t => (readJsonStr t).bind fun kt => match kt.2 with
    | [] => none
    | c :: t2 => if c ≠ 0x3a then none else (readJsonStr t2).bind fun vt => match vt.2 with
      | [] => none
      | d :: t4 =>
        if d = 0x7d ∧ t4 = [] then some [(kt.1, vt.1)]
        else if d = 0x2c then (readMembers fuel t4).map fun m => (kt.1, vt.1) :: m
        else none

/-- Reads `{"k":"v",...}`. -/
def readObject : Bytes → Option (List (Bytes × Bytes))
  | [] => none
  | c :: t => if c ≠ 0x7b then none else if t = [0x7d] then some [] else readMembers t.length t

theorem readJsonStr_quote (s r : Bytes) (h : ∀ c ∈ s, c ≠ 0x22) : readJsonStr (0x22 :: (s ++ 0x22 :: r)) = some (s, r) := by
  have h' : ∀ c ∈ s, (c != 0x22) = true := fun c hc => by simpa using h c hc
  rw [readJsonStr, if_neg (by simp), List.takeWhile_append_of_pos h', List.dropWhile_append_of_pos h']
  simp

/-- **C65, violated for nested options.** The text a flag of nested options is set to is not a JSON object: the values are quoted twice.
Whatever the option, unless its value begins with a comma or a closing brace the text cannot be read; the same text with single
quotes can. -/
theorem C65_nested_violated (lib : FlagLib) (k v : Bytes) (hk : ∀ c ∈ k, c ≠ 0x22) (hv : ∀ c ∈ v, c ≠ 0x22)
    (h1 : v.head? ≠ some 0x2c) (h2 : v.head? ≠ some 0x7d) :
    (∃ t, valueToGflagString lib (.map [(k, v)]) = some t ∧ readObject t = none) ∧
    readObject (ascii "{\"" ++ k ++ ascii "\":\"" ++ v ++ ascii "\"}") = some [(k, v)] := by
  have a1 : ascii "{" = [0x7b] := by decide +kernel
  have a2 : ascii "}" = [0x7d] := by decide +kernel
  have a3 : ascii "\"" = [0x22] := by decide +kernel
  have a4 : ascii ":" = [0x3a] := by decide +kernel
  have a5 : ascii "{\"" = [0x7b, 0x22] := by decide +kernel
  have a6 : ascii "\":\"" = [0x22, 0x3a, 0x22] := by decide +kernel
  have a7 : ascii "\"}" = [0x22, 0x7d] := by decide +kernel
  constructor
  · refine ⟨_, rfl, ?_⟩
    have e : ascii "{" ++ joinComma ([(k, v)].map showEntry) ++ ascii "}" =
        0x7b :: (0x22 :: (k ++ 0x22 :: (0x3a :: (0x22 :: ([] ++ 0x22 :: (v ++ [0x22, 0x22, 0x7d])))))) := by
      simp [joinComma, showEntry, a1, a2, a3, a4]
    rw [e, readObject, if_neg (by simp), if_neg (by simp)]
    generalize hl : (0x22 :: (k ++ 0x22 :: (0x3a :: (0x22 :: ([] ++ 0x22 :: (v ++ [0x22, 0x22, 0x7d])))))).length = n
    cases n with
    | zero => simp at hl
    | succ n =>
      rw [readMembers, readJsonStr_quote k _ hk, Option.bind_some]
      dsimp only
      rw [if_neg (by simp), readJsonStr_quote [] _ (by simp), Option.bind_some]
      cases v with
      | nil => rfl
      | cons c v =>
        have c1 : c ≠ 0x2c := fun h => h1 (by rw [h]; rfl)
        have c2 : c ≠ 0x7d := fun h => h2 (by rw [h]; rfl)
        rw [List.cons_append]
        dsimp only
        rw [if_neg (fun h => c2 h.1), if_neg c1]
  · have e : ascii "{\"" ++ k ++ ascii "\":\"" ++ v ++ ascii "\"}" = 0x7b :: (0x22 :: (k ++ 0x22 :: (0x3a :: (0x22 :: (v ++ 0x22 :: [0x7d]))))) := by
      simp [a5, a6, a7]
    rw [e, readObject, if_neg (by simp), if_neg (by simp)]
    generalize hl : (0x22 :: (k ++ 0x22 :: (0x3a :: (0x22 :: (v ++ 0x22 :: [0x7d]))))).length = n
    cases n with
    | zero => simp at hl
    | succ n =>
      rw [readMembers, readJsonStr_quote k _ hk, Option.bind_some]
      dsimp only
      rw [if_neg (by simp), readJsonStr_quote v _ hv, Option.bind_some]
      rfl

end Meta
end Nebula
