import Verif.Storage.Kv
import Verif.Storage.KvSpec
import Verif.Storage.ClientProps
/-! # The key-value client and requests to one part (C126) -/
namespace Nebula
namespace Storage
open AMap

theorem clusterIds_ok {α : Type} {n : Int} (h0 : 0 < n) (h1 : n < 2 ^ 31) {leader : Int → Option HostAddr}
    (hl : ∀ p, 1 ≤ p → p ≤ n → ∃ h, leader p = some h) (f : α → Bytes) (ids : List α) :
    ∃ m, clusterIds (some n) leader f ids = .ok m ∧ NoEmpty m ∧
      ∀ h p, sentTo m h p = ids.filter fun id => partId n (f id) = some p ∧ leader p = some h := by
  obtain ⟨ls, e, _⟩ := leadersFrom_some leader n.toNat 1 [] (fun q a b => hl q (by omega) (by omega))
  obtain ⟨m, e2, a, _⟩ := clusterLoop_some h0 h1 ls f ids [] ⟨nodup_nil, by intro h l h'; cases h'⟩
  obtain ⟨m', e3, b, _⟩ := C48_partition h0 h1 leader hl f ids
  have e4 : clusterIds (some n) leader f ids = .ok m := by simp only [clusterIds, e]; exact e2
  rw [e4] at e3; cases e3
  exact ⟨m, e4, a, b⟩

theorem mem_requests {α : Type} {m : Clusters α} (hm : NoEmpty m) {p : Int} {v : List α} (h : (p, v) ∈ requests m) :
    ∃ a, sentTo m a p = v ∧ v ≠ [] := by
  simp only [requests, List.mem_flatMap] at h
  obtain ⟨⟨a, l⟩, h1, h2⟩ := h
  have f1 := mem_find hm.1 h1
  obtain ⟨g1, _, g3⟩ := hm.2 a l f1
  have f2 := mem_find g1 h2
  exact ⟨a, by simp [sentTo, f1, f2], g3 p v f2⟩

theorem requests_nodup {α : Type} : ∀ {m : Clusters α}, m.NodupKeys → (∀ h l, (h, l) ∈ m → NodupKeys l) →
    (∀ h l h' l' p, (h, l) ∈ m → (h', l') ∈ m → p ∈ l.map Prod.fst → p ∈ l'.map Prod.fst → h = h') → NodupKeys (requests m)
  | [], _, _, _ => nodup_nil
  | (h, l) :: m, hn, hl, hd => by
    have hn' : h ∉ m.map Prod.fst ∧ NodupKeys m := by simpa [NodupKeys] using hn
    have ih := requests_nodup (m := m) hn'.2 (fun a b hab => hl a b (by simp [hab]))
      (fun a b a' b' p h1 h2 => hd a b a' b' p (by simp [h1]) (by simp [h2]))
    unfold NodupKeys requests at *
    rw [List.flatMap_cons, List.map_append, List.nodup_append]
    refine ⟨hl h l (by simp), ih, ?_⟩
    intro p hp q hq e
    subst e
    simp only [List.mem_map, List.mem_flatMap] at hq
    obtain ⟨x, ⟨⟨h', l'⟩, hm', hx⟩, e⟩ := hq
    have := hd h l h' l' p (by simp) (by simp [hm']) hp (List.mem_map.2 ⟨x, hx, e⟩)
    subst this
    exact hn'.1 (List.mem_map.2 ⟨_, hm', rfl⟩)

/-- Every part is asked in one entry, for exactly the items of that part. -/
theorem requests_spec {α : Type} {n : Int} (h0 : 0 < n) (h1 : n < 2 ^ 31) {leader : Int → Option HostAddr}
    (hl : ∀ p, 1 ≤ p → p ≤ n → ∃ h, leader p = some h) (f : α → Bytes) (ids : List α) :
    ∃ m, clusterIds (some n) leader f ids = .ok m ∧ NodupKeys (requests m) ∧
      ∀ p, (AMap.find (requests m) p).getD [] = ids.filter fun id => decide (partId n (f id) = some p) := by
  obtain ⟨m, e, hm, hs⟩ := clusterIds_ok h0 h1 hl f ids
  have hd : ∀ h l h' l' p, (h, l) ∈ m → (h', l') ∈ m → p ∈ l.map Prod.fst → p ∈ l'.map Prod.fst → h = h' := by
    intro h l h' l' p hm1 hm2 hp1 hp2
    have key : ∀ h l, (h, l) ∈ m → p ∈ l.map Prod.fst → leader p = some h := by
      intro h l hm1 hp1
      have f1 := mem_find hm.1 hm1
      obtain ⟨v, f2⟩ := (mem_keys_iff l p).1 hp1
      have hne := (hm.2 h l f1).2.2 p v f2
      have : sentTo m h p = v := by simp [sentTo, f1, f2]
      rw [← this, hs h p] at hne
      obtain ⟨x, hx⟩ := List.exists_mem_of_ne_nil _ hne
      simp only [List.mem_filter, decide_eq_true_eq] at hx
      exact hx.2.2
    have a := key h l hm1 hp1
    have b := key h' l' hm2 hp2
    rw [a] at b; exact Option.some.inj b
  have hn : NodupKeys (requests m) := requests_nodup hm.1 (fun h l hml => (hm.2 h l (mem_find hm.1 hml)).1) hd
  refine ⟨m, e, hn, fun p => ?_⟩
  cases hf : AMap.find (requests m) p with
  | some v =>
    obtain ⟨a, h2, h3⟩ := mem_requests hm (find_mem hf)
    rw [Option.getD_some, ← h2, hs a p]
    rw [← h2, hs a p] at h3
    obtain ⟨x, hx⟩ := List.exists_mem_of_ne_nil _ h3
    simp only [List.mem_filter, decide_eq_true_eq] at hx
    apply List.filter_congr
    intro y _
    simp [hx.2.2]
  | none =>
    rw [Option.getD_none]
    symm
    rw [List.filter_eq_nil_iff]
    intro x hx hp
    simp only [decide_eq_true_eq] at hp
    obtain ⟨q, hq, hq1, hq2⟩ := C35_range h0 h1 (f x)
    rw [hp] at hq; cases hq
    obtain ⟨h, hh⟩ := hl p hq1 hq2
    have hs' := hs h p
    have hmem : x ∈ sentTo m h p := by rw [hs']; simp [hx, hp, hh]
    cases hfh : m.find h with
    | none => simp [sentTo, hfh, find] at hmem
    | some l =>
      cases hfp : l.find p with
      | none => simp [sentTo, hfh, hfp] at hmem
      | some v =>
        rw [find_none_iff] at hf
        apply hf
        simp only [requests, List.mem_map, List.mem_flatMap]
        exact ⟨(p, v), ⟨(h, l), find_mem hfh, find_mem hfp⟩, rfl⟩

theorem putAll_at : ∀ (l : List (Int × List (Bytes × Bytes))) (st : Parts) (p : Int) (k : Bytes), NodupKeys l →
    putAll st l p k = match lastValue ((AMap.find l p).getD []) k with
      | some v => some v
      | none => st p k
  | [], st, p, k, _ => by simp [putAll, find, lastValue]
  | (q, kvs) :: l, st, p, k, hn => by
    have hn' : q ∉ l.map Prod.fst ∧ NodupKeys l := by simpa [NodupKeys] using hn
    have : putAll st ((q, kvs) :: l) = putAll (putPart st q kvs) l := rfl
    rw [this, putAll_at l _ p k hn'.2, find]
    by_cases e : q = p
    · subst e
      rw [(find_none_iff l q).2 hn'.1]
      simp only [Option.getD_none, lastValue, putPart, if_true, Option.getD_some]
      cases lastValue kvs k <;> rfl
    · simp [e, putPart, Ne.symm e]

theorem removeAll_at : ∀ (l : List (Int × List Bytes)) (st : Parts) (p : Int) (k : Bytes), NodupKeys l →
    removeAll st l p k = if k ∈ (AMap.find l p).getD [] then none else st p k
  | [], st, p, k, _ => by simp [removeAll, find]
  | (q, ks) :: l, st, p, k, hn => by
    have hn' : q ∉ l.map Prod.fst ∧ NodupKeys l := by simpa [NodupKeys] using hn
    have : removeAll st ((q, ks) :: l) = removeAll (removePart st q ks) l := rfl
    rw [this, removeAll_at l _ p k hn'.2, find]
    by_cases e : q = p
    · subst e
      rw [(find_none_iff l q).2 hn'.1]
      simp [removePart]
    · simp [e, removePart, Ne.symm e]

theorem perm_find' {V : Type} {a b : AMap Int V} (h : a.Perm b) (hb : b.NodupKeys) (k : Int) : a.find k = b.find k := by
  have ha : a.NodupKeys := (h.map Prod.fst).nodup_iff.2 hb
  apply Option.ext; intro v
  exact ⟨fun e => mem_find hb (h.mem_iff.1 (find_mem e)), fun e => mem_find ha (h.mem_iff.2 (find_mem e))⟩

theorem lastValue_filter (n p : Int) (k : Bytes) (hk : partId n k = some p) : ∀ kvs : List (Bytes × Bytes),
    lastValue (kvs.filter fun e => decide (partId n e.1 = some p)) k = lastValue kvs k
  | [] => rfl
  | (k', v) :: kvs => by
    have ih := lastValue_filter n p k hk kvs
    by_cases e : partId n k' = some p
    · simp only [List.filter_cons, e, decide_true, if_true, lastValue, ih]
    · have hne : k' ≠ k := by rintro rfl; exact e hk
      simp only [List.filter_cons, e, decide_false, Bool.false_eq_true, if_false, lastValue, ih, hne]
      cases lastValue kvs k <;> rfl

/-- **C126 (put).** Whatever the leaders are and in whatever order the hosts work, after a put every key that was given holds the last
value given for it, and every other key holds what it held. -/
theorem C126_put {n : Int} (h0 : 0 < n) (h1 : n < 2 ^ 31) {leader : Int → Option HostAddr} (hl : ∀ p, 1 ≤ p → p ≤ n → ∃ h, leader p = some h)
    (kvs : List (Bytes × Bytes)) : ∃ m, putCall (some n) leader kvs = .ok m ∧ ∀ l, l.Perm (requests m) → ∀ (st : Parts) k,
      holds n (putAll st l) k = match lastValue kvs k with
        | some v => some v
        | none => holds n st k := by
  obtain ⟨m, e, hn, hs⟩ := requests_spec h0 h1 hl Prod.fst kvs
  refine ⟨m, e, fun l hp st k => ?_⟩
  obtain ⟨p, hk, _, _⟩ := C35_range h0 h1 k
  have hnl : NodupKeys l := (hp.map Prod.fst).nodup_iff.2 hn
  simp only [holds, hk, Option.bind_some]
  rw [putAll_at l st p k hnl, perm_find' hp hn, hs p, lastValue_filter n p k hk]

/-- **C126 (remove).** After a remove, exactly the given keys are gone. -/
theorem C126_remove {n : Int} (h0 : 0 < n) (h1 : n < 2 ^ 31) {leader : Int → Option HostAddr} (hl : ∀ p, 1 ≤ p → p ≤ n → ∃ h, leader p = some h)
    (keys : List Bytes) : ∃ m, keysCall (some n) leader keys = .ok m ∧ ∀ l, l.Perm (requests m) → ∀ (st : Parts) k,
      holds n (removeAll st l) k = if k ∈ keys then none else holds n st k := by
  obtain ⟨m, e, hn, hs⟩ := requests_spec h0 h1 hl id keys
  refine ⟨m, e, fun l hp st k => ?_⟩
  obtain ⟨p, hk, _, _⟩ := C35_range h0 h1 k
  have hnl : NodupKeys l := (hp.map Prod.fst).nodup_iff.2 hn
  simp only [holds, hk, Option.bind_some]
  rw [removeAll_at l st p k hnl, perm_find' hp hn, hs p]
  simp [hk]

/-- **C126 (get).** The answers of all hosts together are exactly the keys asked for that hold something, each with what it holds. -/
theorem C126_get {n : Int} (h0 : 0 < n) (h1 : n < 2 ^ 31) {leader : Int → Option HostAddr} (hl : ∀ p, 1 ≤ p → p ≤ n → ∃ h, leader p = some h)
    (keys : List Bytes) : ∃ m, keysCall (some n) leader keys = .ok m ∧ ∀ l, l.Perm (requests m) → ∀ (st : Parts) k v,
      (k, v) ∈ answers st l ↔ k ∈ keys ∧ holds n st k = some v := by
  obtain ⟨m, e, hn, hs⟩ := requests_spec h0 h1 hl id keys
  refine ⟨m, e, fun l hp st k v => ?_⟩
  obtain ⟨p, hk, _, _⟩ := C35_range h0 h1 k
  have hnl : NodupKeys l := (hp.map Prod.fst).nodup_iff.2 hn
  have hkey : k ∈ (AMap.find (requests m) p).getD [] ↔ k ∈ keys := by rw [hs p]; simp [hk]
  simp only [answers, List.mem_flatMap, List.mem_filterMap, Option.map_eq_some_iff, Prod.mk.injEq]
  simp only [holds, hk, Option.bind_some]
  constructor
  · rintro ⟨⟨q, ks⟩, hx, k', hk', v', hv, rfl, rfl⟩
    have hf : AMap.find (requests m) q = some ks := mem_find hn (hp.mem_iff.1 hx)
    have := hs q
    rw [hf, Option.getD_some] at this
    rw [this] at hk'
    simp only [id, List.mem_filter, decide_eq_true_eq] at hk'
    rw [hk] at hk'
    obtain ⟨h2, h3⟩ := hk'
    cases h3
    exact ⟨h2, hv⟩
  · rintro ⟨h2, h3⟩
    cases hf : AMap.find (requests m) p with
    | none => rw [← hkey, hf] at h2; simp at h2
    | some ks =>
      rw [← hkey, hf, Option.getD_some] at h2
      exact ⟨(p, ks), hp.mem_iff.2 (find_mem hf), k, h2, v, h3, rfl, rfl⟩

/-- **C126 (put, then get).** A get after a put answers, for a key of the put, exactly the last value, even if the leaders moved in between. -/
theorem C126_put_get {n : Int} (h0 : 0 < n) (h1 : n < 2 ^ 31) {leader leader' : Int → Option HostAddr}
    (hl : ∀ p, 1 ≤ p → p ≤ n → ∃ h, leader p = some h) (hl' : ∀ p, 1 ≤ p → p ≤ n → ∃ h, leader' p = some h)
    (kvs : List (Bytes × Bytes)) (keys : List Bytes) :
    ∃ m m', putCall (some n) leader kvs = .ok m ∧ keysCall (some n) leader' keys = .ok m' ∧
      ∀ l l', l.Perm (requests m) → l'.Perm (requests m') → ∀ (st : Parts) k, k ∈ keys → k ∈ kvs.map Prod.fst →
        ∀ v, (k, v) ∈ answers (putAll st l) l' ↔ lastValue kvs k = some v := by
  obtain ⟨m, e, a⟩ := C126_put h0 h1 hl kvs
  obtain ⟨m', e', b⟩ := C126_get h0 h1 hl' keys
  refine ⟨m, m', e, e', fun l l' hp hp' st k hk hkv v => ?_⟩
  rw [b l' hp' _ k v, a l hp st k]
  have : ∃ w, lastValue kvs k = some w := by
    clear a e
    induction kvs with
    | nil => simp at hkv
    | cons x kvs ih =>
      obtain ⟨k', w⟩ := x
      simp only [lastValue]
      cases hlv : lastValue kvs k with
      | some u => exact ⟨u, rfl⟩
      | none =>
        simp only [List.map_cons, List.mem_cons] at hkv
        rcases hkv with rfl | hkv
        · exact ⟨w, by simp⟩
        · obtain ⟨u, hu⟩ := ih hkv; rw [hlv] at hu; cases hu
  obtain ⟨w, hw⟩ := this
  rw [hw]
  simp [hk]

/-- **C126 (space unknown).** All three fail without a request if the space is unknown or a part has no leader. -/
theorem C126_unknown (leader : Int → Option HostAddr) (keys : List Bytes) (kvs : List (Bytes × Bytes)) :
    (keysCall none leader keys = .error ∧ putCall none leader kvs = .error) ∧
    ∀ (n p : Int), 1 ≤ p → p ≤ n → leader p = none → keysCall (some n) leader keys = .error ∧ putCall (some n) leader kvs = .error :=
  ⟨⟨rfl, rfl⟩, fun n p h1 h2 hp => ⟨(C48_unknown leader id keys).2 n p h1 h2 hp, (C48_unknown leader Prod.fst kvs).2 n p h1 h2 hp⟩⟩

/-! ## Requests to one part -/

/-- C126: without a known type of ids, or with one that is not supported, nothing is sent: the answer is an error. -/
theorem C126_untyped {α : Type} (parts : Option Int) (leader : Int → Option HostAddr) (f : VidType → α → Option (Bytes × α)) (item : α) (items : List α)
    {t : Option VidType} (ht : t = none ∨ t = some .unsupported) :
    updateCall t parts leader f item = .error ∧ groupCall t parts leader f items = .error := by
  rcases ht with rfl | rfl <;> exact ⟨rfl, rfl⟩

/-- **C126 (update).** An update of a vertex or an edge goes to the leader of the part of its (source) id with its ids as strings: the
host and the part that any insert, delete or read of a list with that vertex or edge goes to. -/
theorem C126_update {n : Int} (h0 : 0 < n) (h1 : n < 2 ^ 31) {leader : Int → Option HostAddr} (hl : ∀ p, 1 ≤ p → p ≤ n → ∃ h, leader p = some h)
    {t : VidType} {item : Item} (hi : (t = .int64 ∧ IntIds item) ∨ (t = .fixedString ∧ StrIds item)) :
    ∃ h p x, updateCall (some t) (some n) leader idFromItem item = .ok (h, p, x) ∧ leader p = some h ∧ partId n (vidBytes item.src) = some p ∧
      x = (if t = .int64 then item.stringIds else item) ∧
      ∀ items m after, groupCall (some t) (some n) leader idFromItem items = .ok (m, after) → item ∈ items →
        (∀ a ∈ items, (t = .int64 ∧ IntIds a) ∨ (t = .fixedString ∧ StrIds a)) → x ∈ (sentTo m h p).map Prod.snd := by
  obtain ⟨p, hp, hp1, hp2⟩ := C35_range h0 h1 (vidBytes item.src)
  obtain ⟨h, hh⟩ := hl p hp1 hp2
  rcases hi with ⟨rfl, hi⟩ | ⟨rfl, hi⟩
  · refine ⟨h, p, item.stringIds, ?_, hh, hp, by simp, ?_⟩
    · have : idFromItem .int64 item = some (vidBytes item.src, item.stringIds) := by
        cases item with
        | vertex v r => obtain ⟨i, rfl⟩ := hi; rfl
        | edge v w r => obtain ⟨⟨i, rfl⟩, j, rfl⟩ := hi; rfl
      simp [updateCall, this, hp, hh]
    · intro items m after e hm hall
      obtain ⟨m', after', e', a, _⟩ := C73_int_routing_partial h0 h1 hl (items := items) (fun a ha => by
        rcases hall a ha with ⟨_, h⟩ | ⟨h, _⟩
        · exact h
        · cases h)
      rw [e] at e'; cases e'
      rw [a h p]
      exact List.mem_map.2 ⟨item, by simp [hm, hp, hh], rfl⟩
  · refine ⟨h, p, item, ?_, hh, hp, by simp, ?_⟩
    · have : idFromItem .fixedString item = some (vidBytes item.src, item) := by
        cases item with
        | vertex v r => obtain ⟨i, rfl⟩ := hi; rfl
        | edge v w r => obtain ⟨i, rfl⟩ := hi; rfl
      simp [updateCall, this, hp, hh]
    · intro items m after e hm hall
      obtain ⟨m', e', a, _⟩ := C73_string_routing h0 h1 hl (items := items) (fun a ha => by
        rcases hall a ha with ⟨h, _⟩ | ⟨_, h⟩
        · cases h
        · exact h)
      rw [e] at e'; cases e'
      rw [a h p]
      simp [hm, hp, hh]

/-- **C126 (uuid).** The identifier of a name is asked of the leader of the part of the name. -/
theorem C126_uuid {n : Int} (h0 : 0 < n) (h1 : n < 2 ^ 31) {leader : Int → Option HostAddr} (hl : ∀ p, 1 ≤ p → p ≤ n → ∃ h, leader p = some h)
    (name : Bytes) : ∃ h p, uuidCall (some n) leader name = .ok (h, p) ∧ leader p = some h ∧ partId n name = some p := by
  obtain ⟨p, hp, hp1, hp2⟩ := C35_range h0 h1 name
  obtain ⟨h, hh⟩ := hl p hp1 hp2
  exact ⟨h, p, by simp [uuidCall, hp, hh], hh, hp⟩

/-- **C126 (scan).** A scan of a part goes to its leader and to nobody if there is none. -/
theorem C126_scan (leader : Int → Option HostAddr) (p : Int) :
    (∀ h, scanCall leader p = .ok h ↔ leader p = some h) ∧ (scanCall leader p = .error ↔ leader p = none) := by
  unfold scanCall
  cases leader p <;> simp

/-- **C126 (lookup).** A lookup in an index asks every part of the space exactly once, at its leader. -/
theorem C126_lookup {n : Int} {leader : Int → Option HostAddr} (hl : ∀ p, 1 ≤ p → p ≤ n → ∃ h, leader p = some h) :
    ∃ m, lookupCall (some n) leader = .ok m ∧ ∀ p, 1 ≤ p → p ≤ n → ∃ h, leader p = some h ∧ ((m.find h).getD []).count p = 1 ∧
      ∀ h', h' ≠ h → ((m.find h').getD []).count p = 0 := by
  obtain ⟨m, e, hm⟩ := C48_host_parts leader hl
  refine ⟨m, e, fun p h1 h2 => ?_⟩
  obtain ⟨h, hh⟩ := hl p h1 h2
  refine ⟨h, hh, ?_, fun h' hne => ?_⟩
  · have hnd : ((m.find h).getD []).Nodup := (hm h).1.imp fun h => Int.ne_of_lt h
    rw [hnd.count, if_pos (((hm h).2 p).2 ⟨h1, h2, hh⟩)]
  · rw [List.count_eq_zero]
    intro hmem
    have := ((hm h').2 p).1 hmem
    rw [hh] at this
    exact hne (Option.some.inj this.2.2).symm

/-- A space with two parts and two leaders; two keys in different parts are stored and read back, the second value of a key wins. -/
example : let a : HostAddr := ⟨[97], 1⟩; let b : HostAddr := ⟨[98], 1⟩
    let leader : Int → Option HostAddr := fun p => if p = 1 then some a else if p = 2 then some b else none
    (∀ p, 1 ≤ p → p ≤ 2 → ∃ h, leader p = some h) ∧ partId 2 (intBytes 4) = some 1 ∧ partId 2 (intBytes 5) = some 2 ∧
    lastValue [(intBytes 4, [1]), (intBytes 5, [2]), (intBytes 4, [3])] (intBytes 4) = some [3] := by
  refine ⟨?_, by decide +kernel, by decide +kernel, by decide +kernel⟩
  intro p h1 h2
  by_cases h : p = 1
  · exact ⟨⟨[97], 1⟩, by simp [h]⟩
  · exact ⟨⟨[98], 1⟩, by have : p = 2 := by omega
                         simp [this]⟩

end Storage
end Nebula
