import Verif.Meta.RemoteSpec
import Verif.Meta.CacheProps
import Verif.Meta.ListenerProps
/-!
# Listener lookups (C124)
-/
namespace Nebula
namespace Meta
open AMap

theorem loadFrom_nodup : ∀ (ls : List Listed) (m : AMap HostAddr (List (Int × Int))), m.NodupKeys → (loadListenersFrom m ls).NodupKeys
  | [], _, h => h
  | _ :: ls, _, h => loadFrom_nodup ls _ (nodup_update h _ _ _)

theorem loadFrom_find (h : HostAddr) : ∀ (ls : List Listed) (m : AMap HostAddr (List (Int × Int))),
    (loadListenersFrom m ls).find h = if onHost ls h = [] then m.find h else some ((m.find h).getD [] ++ onHost ls h)
  | [], m => by simp [loadListenersFrom, onHost]
  | l :: ls, m => by
    rw [loadListenersFrom, loadFrom_find h ls, find_update]
    by_cases e : l.host = h
    · subst e
      simp only [onHost, List.filter_cons, decide_true, if_true, List.map_cons]
      split
      · rename_i h0; simp [h0]
      · simp
    · simp [onHost, e]

theorem load_find (ls : List Listed) (h : HostAddr) :
    (loadListeners ls).find h = if onHost ls h = [] then none else some (onHost ls h) := by
  rw [loadListeners, loadFrom_find]; simp [find]

theorem perm_find {K V : Type} [DecidableEq K] {a b : AMap K V} (h : a.Perm b) (hb : b.NodupKeys) (k : K) : a.find k = b.find k := by
  have ha : a.NodupKeys := (h.map Prod.fst).nodup_iff.2 hb
  apply Option.ext; intro v
  rw [find_iff_mem ha, find_iff_mem hb]
  exact h.mem_iff

theorem load_nodup (ls : List Listed) : (loadListeners ls).NodupKeys := loadFrom_nodup ls _ nodup_nil

/-- The listeners of a space in the cache. -/
theorem keeps_find {c : LocalCache} {listing : ListenerListing} (hk : Keeps c listing) {s : Int} {ls} (hs : listing s = some ls) :
    ∃ x, c.find s = some x ∧ x.listeners.Perm (loadListeners ls) := by
  cases hf : c.find s with
  | none => rw [(hk.2.1 s).1 hf] at hs; cases hs
  | some x => exact ⟨x, rfl, hk.2.2 s x ls hf hs⟩

/-- C124: what a round of loading makes of the answers of the server holds the listing. -/
theorem C124_load {answers : AMap Int (PartsAlloc × List Listed)} (hn : answers.NodupKeys) :
    Keeps (answers.map fun e => (e.1, loadSpace e.2.1 (loadListeners e.2.2))) fun s => (answers.find s).map Prod.snd := by
  have hf : ∀ (l : AMap Int (PartsAlloc × List Listed)) s, AMap.find (l.map fun e => (e.1, loadSpace e.2.1 (loadListeners e.2.2))) s =
      (l.find s).map fun e => loadSpace e.1 (loadListeners e.2) := by
    intro l s
    induction l with
    | nil => rfl
    | cons e l ih =>
      simp only [List.map_cons, find, ih]
      split <;> rfl
  refine ⟨by simpa [NodupKeys, Function.comp_def] using hn, fun s => by rw [hf]; simp, fun s x ls h1 h2 => ?_⟩
  rw [hf] at h1
  cases ha : answers.find s with
  | none => simp [ha] at h1
  | some e =>
    simp only [ha, Option.map_some, Option.some.injEq] at h1 h2
    subst h1 h2
    exact .rfl

/-- C124: the listeners of a host in a space are exactly what the server listed for that host, in the server's order, or the
lookup says which of the two was unknown. -/
theorem C124_by_host {c : LocalCache} {listing : ListenerListing} (hk : Keeps c listing) (s : Int) (h : HostAddr) :
    listenersBySpaceHost true c s h = match listing s with
      | none => .error .spaceNotFound
      | some ls => if ∃ l ∈ ls, l.host = h then .ok (onHost ls h) else .error .listenerNotFound := by
  unfold listenersBySpaceHost
  simp only [Bool.not_true, Bool.false_eq_true, if_false]
  cases hs : listing s with
  | none => rw [(hk.2.1 s).2 hs]
  | some ls =>
    obtain ⟨x, hf, hp⟩ := keeps_find hk hs
    rw [hf]
    simp only [perm_find hp (load_nodup ls), load_find]
    by_cases h0 : ∃ l ∈ ls, l.host = h
    · have : onHost ls h ≠ [] := by
        obtain ⟨l, hl, e⟩ := h0
        simp only [onHost, ne_eq, List.map_eq_nil_iff, List.filter_eq_nil_iff, decide_eq_true_eq]
        exact fun hh => hh l hl e
      simp [this, h0]
    · have : onHost ls h = [] := by
        simp only [onHost, List.map_eq_nil_iff, List.filter_eq_nil_iff, decide_eq_true_eq]
        exact fun l hl e => h0 ⟨l, hl, e⟩
      simp [this, h0]

theorem mem_allListeners (p t : Int) (h : HostAddr) : ∀ m : AMap HostAddr (List (Int × Int)),
    (h, t) ∈ allListeners p m ↔ ∃ l, (h, l) ∈ m ∧ (p, t) ∈ l
  | [] => by simp [allListeners]
  | (h', l) :: m => by
    simp only [allListeners, List.mem_append, List.mem_map, List.mem_filter, decide_eq_true_eq, Prod.mk.injEq, mem_allListeners p t h m,
      List.mem_cons]
    constructor
    · rintro (⟨⟨a, b⟩, ⟨h1, h2⟩, h3, h4⟩ | ⟨l', h1, h2⟩)
      · dsimp only at h2 h4; subst h2 h4 h3
        exact ⟨l, .inl ⟨rfl, rfl⟩, h1⟩
      · exact ⟨l', .inr h1, h2⟩
    · rintro ⟨l', ⟨e1, e2⟩ | h1, h2⟩
      · subst e1 e2; exact .inl ⟨(p, t), ⟨h2, rfl⟩, rfl, rfl⟩
      · exact .inr ⟨l', h1, h2⟩

theorem count_allListeners (p t : Int) (h : HostAddr) : ∀ m : AMap HostAddr (List (Int × Int)), m.NodupKeys →
    (allListeners p m).count (h, t) = ((m.find h).getD []).count (p, t)
  | [], _ => by simp [allListeners, find]
  | (h', l) :: m, hn => by
    have hn' : h' ∉ m.map Prod.fst ∧ NodupKeys m := by simpa [NodupKeys] using hn
    have hfst : ((l.filter fun e => decide (e.1 = p)).map fun e => (h', e.2)).count (h, t) = if h' = h then l.count (p, t) else 0 := by
      induction l with
      | nil => simp
      | cons e l ih =>
        obtain ⟨a, b⟩ := e
        by_cases e1 : a = p
        · subst e1
          simp only [List.filter_cons, decide_true, if_true, List.map_cons, List.count_cons]
          rw [ih (by simpa [NodupKeys] using hn)]
          by_cases e2 : h' = h
          · simp [e2]
          · simp [e2]
        · simp only [List.filter_cons, e1, decide_false, Bool.false_eq_true, if_false, List.count_cons]
          rw [ih (by simpa [NodupKeys] using hn)]
          simp [e1]
    rw [allListeners, List.count_append, hfst, count_allListeners p t h m hn'.2, find]
    by_cases e : h' = h
    · subst e
      simp [(find_none_iff m h').2 hn'.1]
    · simp [e]

theorem count_onHost (p t : Int) (h : HostAddr) : ∀ ls : List Listed, (onHost ls h).count (p, t) = ls.count ⟨t, h, p⟩
  | [] => rfl
  | l :: ls => by
    have ih := count_onHost p t h ls
    obtain ⟨t', h', p'⟩ := l
    simp only [onHost, List.filter_cons, List.count_cons] at *
    by_cases e : h' = h
    · subst e
      simp only [decide_true, if_true, List.map_cons, List.count_cons, ih]
      simp only [beq_iff_eq, Prod.mk.injEq, Listed.mk.injEq, true_and]
      simp only [and_comm]
    · simp [e, ih]

theorem count_onPart (p t : Int) (h : HostAddr) : ∀ ls : List Listed, (onPart ls p).count (h, t) = ls.count ⟨t, h, p⟩
  | [] => rfl
  | l :: ls => by
    have ih := count_onPart p t h ls
    obtain ⟨t', h', p'⟩ := l
    simp only [onPart, List.filter_cons, List.count_cons] at *
    by_cases e : p' = p
    · subst e
      simp only [decide_true, if_true, List.map_cons, List.count_cons, ih]
      simp only [beq_iff_eq, Prod.mk.injEq, Listed.mk.injEq, and_true]
      simp only [and_comm]
    · simp [e, ih]

theorem all_perm {ls : List Listed} {m : AMap HostAddr (List (Int × Int))} (hm : m.Perm (loadListeners ls)) (p : Int) :
    (allListeners p m).Perm (onPart ls p) := by
  rw [List.perm_iff_count]
  rintro ⟨h, t⟩
  have hn : m.NodupKeys := (hm.map Prod.fst).nodup_iff.2 (load_nodup ls)
  rw [count_allListeners p t h m hn, count_onPart, perm_find hm (load_nodup ls), load_find, ← count_onHost]
  split
  · rename_i e; simp [e]
  · rfl

/-- C124: the listeners of a part are exactly those the server listed for it, each as often; the lookup fails exactly if there is
none. -/
theorem C124_by_part {c : LocalCache} {listing : ListenerListing} (hk : Keeps c listing) (s p : Int) :
    match listing s with
      | none => listenerHostTypes true c s p = .error .spaceNotFound
      | some ls => if ∃ l ∈ ls, l.part = p then ∃ items, listenerHostTypes true c s p = .ok items ∧ items.Perm (onPart ls p)
        else listenerHostTypes true c s p = .error .listenerNotFound := by
  unfold listenerHostTypes
  simp only [Bool.not_true, Bool.false_eq_true, if_false]
  cases hs : listing s with
  | none => rw [(hk.2.1 s).2 hs]
  | some ls =>
    obtain ⟨x, hf, hp⟩ := keeps_find hk hs
    rw [hf]
    have ha := all_perm hp p
    dsimp only
    split
    · rename_i h0
      have : onPart ls p ≠ [] := by
        obtain ⟨l, hl, e⟩ := h0
        simp only [onPart, ne_eq, List.map_eq_nil_iff, List.filter_eq_nil_iff, decide_eq_true_eq]
        exact fun hh => hh l hl e
      cases hx : allListeners p x.listeners with
      | nil => rw [hx] at ha; exact absurd ha.nil_eq.symm this
      | cons a as => exact ⟨_, rfl, hx ▸ ha⟩
    · rename_i h0
      have : onPart ls p = [] := by
        simp only [onPart, List.map_eq_nil_iff, List.filter_eq_nil_iff, decide_eq_true_eq]
        exact fun l hl e => h0 ⟨l, hl, e⟩
      rw [this] at ha
      rw [ha.eq_nil]

theorem firstListener_some {p t : Int} {h : HostAddr} : ∀ {m : AMap HostAddr (List (Int × Int))}, firstListener p t m = some h →
    ∃ l, (h, l) ∈ m ∧ (p, t) ∈ l
  | (h', l) :: m, e => by
    rw [firstListener] at e
    split at e
    · rename_i ha
      cases e
      simp only [List.any_eq_true, Bool.and_eq_true, decide_eq_true_eq] at ha
      obtain ⟨⟨a, b⟩, hm, e1, e2⟩ := ha
      dsimp only at e1 e2; subst e1 e2
      exact ⟨l, by simp, hm⟩
    · obtain ⟨l', h1, h2⟩ := firstListener_some e
      exact ⟨l', by simp [h1], h2⟩

theorem firstListener_none {p t : Int} : ∀ {m : AMap HostAddr (List (Int × Int))}, firstListener p t m = none →
    ∀ h l, (h, l) ∈ m → (p, t) ∉ l
  | [], _, _, _, hm => by simp at hm
  | (h', l') :: m, e, h, l, hm => by
    rw [firstListener] at e
    split at e
    · cases e
    · rename_i ha
      rcases List.mem_cons.1 hm with e' | hm
      · cases e'
        intro hc
        apply ha
        simp only [List.any_eq_true, Bool.and_eq_true, decide_eq_true_eq]
        exact ⟨(p, t), hc, rfl, rfl⟩
      · exact firstListener_none e h l hm

theorem mem_load {ls : List Listed} {m : AMap HostAddr (List (Int × Int))} (hm : m.Perm (loadListeners ls)) (p t : Int) (h : HostAddr) :
    (∃ l, (h, l) ∈ m ∧ (p, t) ∈ l) ↔ (⟨t, h, p⟩ : Listed) ∈ ls := by
  rw [← mem_allListeners, (all_perm hm p).mem_iff]
  simp only [onPart, List.mem_map, List.mem_filter, decide_eq_true_eq, Prod.mk.injEq]
  constructor
  · rintro ⟨⟨a, b, d⟩, ⟨h1, e0⟩, e1, e2⟩
    dsimp only at e0 e1 e2; subst e0 e1 e2; exact h1
  · intro h1; exact ⟨_, ⟨h1, rfl⟩, rfl, rfl⟩

/-- C124: the listener of a part and type is a host the server listed for exactly these; one is found exactly if there is one. -/
theorem C124_by_type {c : LocalCache} {listing : ListenerListing} (hk : Keeps c listing) (s p t : Int) :
    match listing s with
      | none => listenerHost true c s p t = .error .spaceNotFound
      | some ls => (∃ h, listenerHost true c s p t = .ok h ∧ (⟨t, h, p⟩ : Listed) ∈ ls) ∨
        (listenerHost true c s p t = .error .listenerNotFound ∧ ∀ h, (⟨t, h, p⟩ : Listed) ∉ ls) := by
  unfold listenerHost
  simp only [Bool.not_true, Bool.false_eq_true, if_false]
  cases hs : listing s with
  | none => rw [(hk.2.1 s).2 hs]
  | some ls =>
    obtain ⟨x, hf, hp⟩ := keeps_find hk hs
    rw [hf]
    dsimp only
    cases hx : firstListener p t x.listeners with
    | none =>
      refine .inr ⟨rfl, fun h hm => ?_⟩
      obtain ⟨l, h1, h2⟩ := (mem_load hp p t h).2 hm
      exact firstListener_none hx h l h1 h2
    | some h =>
      have hm := (mem_load hp p t h).1 (firstListener_some hx)
      exact .inl ⟨h, rfl, hm⟩

/-- C124: if the server keeps one listener per part and type, the lookup returns that one whatever the iteration order. -/
theorem C124_unique {c : LocalCache} {listing : ListenerListing} (hk : Keeps c listing) {s p t : Int} {h : HostAddr} {ls}
    (hs : listing s = some ls) (hm : (⟨t, h, p⟩ : Listed) ∈ ls) (hu : ∀ h', (⟨t, h', p⟩ : Listed) ∈ ls → h' = h) :
    listenerHost true c s p t = .ok h := by
  have := C124_by_type hk s p t
  rw [hs] at this
  dsimp only at this
  rcases this with ⟨h', e, hm'⟩ | ⟨_, hno⟩
  · rw [e, hu h' hm']
  · exact absurd hm (hno h)

/-- C124: before the first load every lookup says that the client is not ready. -/
theorem C124_not_ready (c : LocalCache) (s p t : Int) (h : HostAddr) :
    listenersBySpaceHost false c s h = .error .notReady ∧ listenersByHost false c h = .error .notReady ∧
    listenerHost false c s p t = .error .notReady ∧ listenerHostTypes false c s p = .error .notReady := ⟨rfl, rfl, rfl, rfl⟩

/-! ### All listeners of a host -/

/-- The entry of a listeners map for a part. -/
def entry (m : ListenersMap) (s p : Int) : List ListenerHosts := ((m.find s).bind fun x => x.find p).getD []

theorem entry_update (m : ListenersMap) (s p s' p' : Int) (i : ListenerHosts) :
    entry (m.update s [] fun x => x.update p [] fun y => y ++ [i]) s' p' =
      if s = s' ∧ p = p' then entry m s' p' ++ [i] else entry m s' p' := by
  unfold entry
  rw [find_update]
  by_cases e : s = s'
  · subst e
    simp only [if_true, Option.bind_some, true_and, find_update]
    by_cases e2 : p = p'
    · subst e2
      cases m.find s <;> simp [find]
    · cases m.find s <;> simp [e2, find]
  · simp [e]

/-- The listeners of part `p` in a list of parts and types, with the peers of the part. -/
def withPeers (alloc : PartsAlloc) (p : Int) (l : List (Int × Int)) : List ListenerHosts := match alloc.find p with
  | none => []
  | some peers => (l.filter fun e => decide (e.1 = p)).map fun e => ⟨e.2, peers⟩

theorem withPeers_cons (alloc : PartsAlloc) (p : Int) (e : Int × Int) (l) :
    withPeers alloc p (e :: l) = withPeers alloc p [e] ++ withPeers alloc p l := by
  unfold withPeers
  cases alloc.find p with
  | none => rfl
  | some x => by_cases h : e.1 = p <;> simp [h]

theorem entry_of (s s' p' : Int) (x : SpaceCache) : ∀ (l : List (Int × Int)) (m : ListenersMap),
    entry (listenersOf s x m l) s' p' = entry m s' p' ++ (if s = s' then withPeers x.partsAlloc p' l else [])
  | [], m => by
    rw [listenersOf]; unfold withPeers
    cases x.partsAlloc.find p' <;> simp
  | (p, t) :: l, m => by
    rw [listenersOf, withPeers_cons]
    cases hp : x.partsAlloc.find p with
    | none =>
      dsimp only
      rw [entry_of s s' p' x l m]
      have : withPeers x.partsAlloc p' [(p, t)] = [] := by
        unfold withPeers
        cases hp' : x.partsAlloc.find p' with
        | none => rfl
        | some y =>
          have : p ≠ p' := by rintro rfl; rw [hp] at hp'; cases hp'
          simp [this]
      rw [this, List.nil_append]
    | some peers =>
      dsimp only
      rw [entry_of s s' p' x l, entry_update]
      by_cases e : s = s'
      · subst e
        by_cases e2 : p = p'
        · subst e2; simp [withPeers, hp]
        · have : withPeers x.partsAlloc p' [(p, t)] = [] := by
            unfold withPeers
            cases x.partsAlloc.find p' <;> simp [e2]
          simp [e2, this]
      · simp [e]

theorem entry_in (me : HostAddr) (s s' p' : Int) (x : SpaceCache) : ∀ (ls : AMap HostAddr (List (Int × Int))) (m : ListenersMap), ls.NodupKeys →
    entry (listenersIn me s x m ls) s' p' = entry m s' p' ++ (if s = s' then withPeers x.partsAlloc p' ((ls.find me).getD []) else [])
  | [], m, _ => by
    rw [listenersIn]; unfold withPeers
    cases x.partsAlloc.find p' <;> simp [find]
  | (h, l) :: ls, m, hn => by
    have hn' : h ∉ ls.map Prod.fst ∧ NodupKeys ls := by simpa [NodupKeys] using hn
    rw [listenersIn]
    by_cases e : me = h
    · subst e
      simp only [ne_eq, not_true_eq_false, if_false, find, if_true, Option.getD_some]
      rw [entry_in me s s' p' x ls _ hn'.2, entry_of, (find_none_iff ls me).2 hn'.1]
      have : withPeers x.partsAlloc p' [] = [] := by unfold withPeers; cases x.partsAlloc.find p' <;> simp
      simp [this]
    · simp only [ne_eq, e, not_false_iff, if_true, find, Ne.symm e, if_false]
      exact entry_in me s s' p' x ls m hn'.2

theorem entry_from (me : HostAddr) (s' p' : Int) : ∀ (c : LocalCache) (m : ListenersMap), c.NodupKeys →
    (∀ s x, c.find s = some x → x.listeners.NodupKeys) →
    entry (listenersMapFrom me m c) s' p' = entry m s' p' ++ (match c.find s' with
      | none => []
      | some x => withPeers x.partsAlloc p' ((x.listeners.find me).getD []))
  | [], m, _, _ => by simp [listenersMapFrom, find]
  | (s, x) :: c, m, hn, hl => by
    have hn' : s ∉ c.map Prod.fst ∧ NodupKeys c := by simpa [NodupKeys] using hn
    have hc : ∀ s x, find c s = some x → x.listeners.NodupKeys := by
      intro s2 x2 h2
      apply hl s2 x2
      rw [find, if_neg, h2]
      rintro rfl
      rw [(find_none_iff c s).2 hn'.1] at h2; cases h2
    rw [listenersMapFrom, entry_from me s' p' c _ hn'.2 hc, entry_in me s s' p' x _ _ (hl s x (by simp [find]))]
    by_cases e : s = s'
    · subst e
      simp [find, (find_none_iff c s).2 hn'.1]
    · simp [find, e]

/-- C124: the listeners of a host over all spaces: under a space and a part are exactly the listeners the server listed for the
host, in its order and each with the peers of the part; nothing if the peers of the part are not known. -/
theorem C124_all {c : LocalCache} {listing : ListenerListing} (hk : Keeps c listing) (h : HostAddr) :
    ∃ m, listenersByHost true c h = .ok m ∧ ∀ s p, ((m.find s).bind fun x => x.find p).getD [] =
      match listing s, peersOf c s p with
      | some ls, some peers => (ls.filter fun l => decide (l.host = h) && decide (l.part = p)).map fun l => ⟨l.type, peers⟩
      | _, _ => [] := by
  refine ⟨_, rfl, fun s p => ?_⟩
  have hl : ∀ s x, c.find s = some x → x.listeners.NodupKeys := by
    intro s x hf
    cases hs : listing s with
    | none => rw [(hk.2.1 s).2 hs] at hf; cases hf
    | some ls => exact ((hk.2.2 s x ls hf hs).map Prod.fst).nodup_iff.2 (load_nodup ls)
  have := entry_from h s p c [] hk.1 hl
  unfold entry at this
  rw [doGetListenersMap, this]
  simp only [find, Option.bind_none, Option.getD_none, List.nil_append]
  cases hs : listing s with
  | none => rw [(hk.2.1 s).2 hs]
  | some ls =>
    obtain ⟨x, hf, hp⟩ := keeps_find hk hs
    unfold peersOf
    rw [hf]
    dsimp only [Option.bind_some]
    unfold withPeers
    cases x.partsAlloc.find p with
    | none => rfl
    | some peers =>
      dsimp only
      rw [perm_find hp (load_nodup ls), load_find]
      have : (if onHost ls h = [] then none else some (onHost ls h)).getD [] = onHost ls h := by
        split
        · rename_i e; simp [e]
        · rfl
      rw [this, onHost, List.filter_map, List.map_map, List.filter_filter]
      simp [Function.comp_def, Bool.and_comm]

/-! ### Telling the store about the listeners of its parts -/

/-- The parts of a parts map. -/
theorem mem_keys {m : PartsMap} (hm : PmOk m) (s p : Int) :
    (s, p) ∈ (m.flatMap fun e => e.2.map fun q => (e.1, q.1)) ↔ ∃ hs, partOf (pview m) s p = some hs := by
  simp only [List.mem_flatMap, List.mem_map, Prod.mk.injEq, partOf, pview]
  constructor
  · rintro ⟨⟨s', l⟩, h1, ⟨p', ph⟩, h2, e1, e2⟩
    dsimp only at h1 h2 e1 e2; subst e1 e2
    have f1 := mem_find hm.1 h1
    have f2 := mem_find (hm.2 s' l f1).1 h2
    exact ⟨ph.hosts, by simp [f1, f2]⟩
  · rintro ⟨hs, h⟩
    cases f1 : m.find s with
    | none => simp [f1] at h
    | some l =>
      cases f2 : l.find p with
      | none => simp [f1, f2] at h
      | some ph => exact ⟨(s, l), find_mem f1, (p, ph), find_mem f2, rfl, rfl⟩

theorem nodup_keys : ∀ {m : PartsMap}, m.NodupKeys → (∀ e ∈ m, NodupKeys e.2) → (m.flatMap fun e => e.2.map fun q => (e.1, q.1)).Nodup
  | [], _, _ => by simp
  | (s, l) :: m, hn, hl => by
    have hn' : s ∉ m.map Prod.fst ∧ NodupKeys m := by simpa [NodupKeys] using hn
    rw [List.flatMap_cons, List.nodup_append]
    refine ⟨?_, nodup_keys hn'.2 fun e he => hl e (List.mem_cons_of_mem _ he), ?_⟩
    · have := hl (s, l) (by simp)
      unfold NodupKeys at this
      rw [show (l.map fun q => (s, q.1)) = (l.map Prod.fst).map fun p => (s, p) by simp]
      unfold List.Nodup at *
      rw [List.pairwise_map]
      exact this.imp fun h e => h (by cases e; rfl)
    · intro a ha b hb e
      subst e
      simp only [List.mem_map] at ha
      obtain ⟨q, _, rfl⟩ := ha
      simp only [List.mem_flatMap, List.mem_map, Prod.mk.injEq] at hb
      obtain ⟨e, he, q', _, e1, _⟩ := hb
      exact hn'.1 (List.mem_map.2 ⟨e, he, e1⟩)

theorem zip_keys {α β : Type} (g : α → Nat → β) (f : β → α) (hf : ∀ a i, f (g a i) = a) : ∀ (l : List α) (n : Nat),
    ((l.zipIdx n).map fun x => g x.1 x.2).map f = l
  | [], _ => by simp
  | a :: l, n => by
    have := zip_keys g f hf l (n + 1)
    simp only [List.zipIdx_cons, List.map_cons, hf, this]

theorem remoteNote_hosts {c : LocalCache} {listing : ListenerListing} (hk : Keeps c listing) (r : Bool) (s p : Int) :
    (match listenerHostTypes r c s p with
      | .ok l => l.map Prod.fst
      | .error _ => []).Perm
      (if r then ((listing s).elim [] fun ls => (ls.filter fun (l : Listed) => decide (l.part = p)).map Listed.host) else []) := by
  cases r with
  | false => simp [listenerHostTypes]
  | true =>
    simp only [if_true]
    have := C124_by_part hk s p
    cases hl : listing s with
    | none =>
      rw [hl] at this; dsimp only at this
      rw [this]; simp
    | some ls =>
      rw [hl] at this; dsimp only at this
      dsimp only [Option.elim]
      split at this
      · obtain ⟨items, h1, h2⟩ := this
        rw [h1]
        have := h2.map Prod.fst
        rw [onPart, List.map_map] at this
        exact this
      · rename_i h0
        rw [this]
        have : (ls.filter fun l => decide (l.part = p)) = [] := by
          simp only [List.filter_eq_nil_iff, decide_eq_true_eq]
          exact fun l hl e => h0 ⟨l, hl, e⟩
        rw [this]; exact .rfl

/-- C124: the store is told about every part it has (in the cache the round started from) exactly once and about no other; the
hosts it is told are exactly the hosts of the listeners of that part in the cache of one moment of the round, none if that cache
knows no listener of the part. -/
theorem C124_remote {start : LocalCache} (hs : Loaded start) (me : HostAddr) (now : Nat → Bool × LocalCache) :
    ∃ notes, loadRemoteListeners me start now = some notes ∧ (notes.map fun n => (n.space, n.part)).Nodup ∧
      (∀ s p, (∃ n ∈ notes, n.space = s ∧ n.part = p) ↔ ∃ hs, peersOf start s p = some hs ∧ me ∈ hs) ∧
      ∀ n ∈ notes, ∃ i, ∀ listing, Keeps (now i).2 listing →
        n.hosts.Perm (if (now i).1 then ((listing n.space).elim [] fun ls => (ls.filter fun l => decide (l.part = n.part)).map Listed.host) else []) := by
  obtain ⟨m, e, hm, hv⟩ := doGetPartsMap_view hs me
  have hz := zip_keys (fun (k : Int × Int) i => remoteNote (now i).1 (now i).2 k.1 k.2) (fun n => (n.space, n.part))
    (fun _ _ => rfl) (m.flatMap fun e => e.2.map fun q => (e.1, q.1)) 0
  have hmem := mem_keys hm
  refine ⟨_, by rw [loadRemoteListeners, e]; rfl, ?_, ?_, ?_⟩
  · rw [hz]
    exact nodup_keys hm.1 fun e he => (hm.2 e.1 e.2 (mem_find hm.1 he)).1
  · intro s p
    have h1 : (∃ hs, partOf (pview m) s p = some hs) ↔ ∃ hs, peersOf start s p = some hs ∧ me ∈ hs := by
      rw [hv]
      unfold partOf viewOf
      constructor
      · rintro ⟨hs, h⟩
        split at h
        · simp only [Option.bind_some, Option.filter_eq_some_iff, decide_eq_true_eq] at h
          exact ⟨hs, h⟩
        · cases h
      · rintro ⟨hs, h1, h2⟩
        rw [if_pos ⟨p, hs, h1, h2⟩]
        exact ⟨hs, by simp [h1, h2]⟩
    rw [← h1, ← hmem, ← hz]
    simp only [List.mem_map, Prod.mk.injEq]
  · intro n hn
    simp only [List.mem_map] at hn
    obtain ⟨⟨⟨s, p⟩, i⟩, _, rfl⟩ := hn
    refine ⟨i, fun listing hk => ?_⟩
    exact remoteNote_hosts hk _ s p

/-- C124: a tag or edge index is known exactly if the space is and the index is listed in it. -/
theorem C124_indexed {I : Type} (indexes : AMap Int (AMap Int I)) (s i : Int) :
    (checkIndexed indexes s i = .ok () ↔ ∃ m x, indexes.find s = some m ∧ m.find i = some x) ∧
    (checkIndexed indexes s i = .error .spaceNotFound ↔ indexes.find s = none) ∧
    (checkIndexed indexes s i = .error .indexNotFound ↔ ∃ m, indexes.find s = some m ∧ m.find i = none) := by
  unfold checkIndexed
  cases indexes.find s with
  | none => simp
  | some m => cases hm : m.find i <;> simp [hm]

/-! ### Non-vacuity -/

/-- Three listeners on two hosts. -/
def threeListed : List Listed := [⟨1, ⟨[97], 1⟩, 1⟩, ⟨1, ⟨[98], 1⟩, 2⟩, ⟨1, ⟨[97], 1⟩, 2⟩]

/-- One space with two parts and these listeners. -/
def threeCache : LocalCache := [(7, loadSpace [(1, [⟨[99], 9⟩]), (2, [⟨[99], 9⟩])] (loadListeners threeListed).reverse)]

theorem threeKeeps : Keeps threeCache fun s => if s = 7 then some threeListed else none := by
  refine ⟨by simp [threeCache, NodupKeys], fun s => ?_, fun s x ls h1 h2 => ?_⟩
  · by_cases e : s = 7
    · subst e; simp [threeCache, find]
    · simp [threeCache, find, e, Ne.symm e]
  · by_cases e : s = 7
    · subst e
      simp only [threeCache, find, if_true, Option.some.injEq] at h1 h2
      subst h1 h2
      exact List.reverse_perm _
    · simp [e] at h2

example : listenersBySpaceHost true threeCache 7 ⟨[97], 1⟩ = .ok [(1, 1), (2, 1)] := by
  rw [C124_by_host threeKeeps]; rfl

example : listenerHost true threeCache 7 1 1 = .ok ⟨[97], 1⟩ :=
  C124_unique threeKeeps (ls := threeListed) rfl (by decide) (by
    intro h' hm
    simp [threeListed] at hm
    exact hm)

/-- The host of the parts is told about the listeners of both. -/
example : loadRemoteListeners ⟨[99], 9⟩ threeCache (fun _ => (true, threeCache)) =
    some [⟨7, 1, [⟨[97], 1⟩]⟩, ⟨7, 2, [⟨[98], 1⟩, ⟨[97], 1⟩]⟩] := by decide +kernel

end Meta
end Nebula
