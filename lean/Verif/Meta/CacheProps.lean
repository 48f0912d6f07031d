import Verif.Meta.CacheSpec
/-!
# C55 (host-part maps), C52 (part notifications)
-/
namespace Nebula
namespace Meta
open AMap

/-! ## C55 -/

theorem addHosts_find (part : Int) : ∀ (hs : List HostAddr) (m : AMap HostAddr (List Int)) (h : HostAddr),
    (addHosts m part hs).find h =
      if h ∈ hs then some ((m.find h).getD [] ++ List.replicate (hs.count h) part) else m.find h
  | [], m, h => by simp [addHosts]
  | a :: hs, m, h => by
    rw [addHosts, addHosts_find part hs, find_update]
    by_cases e : a = h
    · subst e
      simp only [if_true, Option.getD_some, List.mem_cons, true_or, List.count_cons_self]
      split
      · rw [List.replicate_succ]; simp
      · rename_i hn
        rw [List.count_eq_zero_of_not_mem hn]; simp
    · have e' : h ≠ a := Ne.symm e
      rw [if_neg e]
      simp [e', List.count_cons, e]

theorem addHosts_nodup (part : Int) : ∀ (hs : List HostAddr) {m : AMap HostAddr (List Int)}, m.NodupKeys → (addHosts m part hs).NodupKeys
  | [], _, h => h
  | _ :: hs, _, h => addHosts_nodup part hs (nodup_update h _ _ _)

/-- The parts of a host, in the order of the allocation. -/
theorem reverseFrom_find (h : HostAddr) : ∀ (ps : PartsAlloc) (m : AMap HostAddr (List Int)),
    (reverseFrom m ps).find h =
      if ∃ e ∈ ps, h ∈ e.2 then some ((m.find h).getD [] ++ ps.flatMap fun e => List.replicate (e.2.count h) e.1) else m.find h
  | [], m => by simp [reverseFrom]
  | (p, hs) :: ps, m => by
    rw [reverseFrom, reverseFrom_find h ps, addHosts_find]
    simp only [List.mem_cons, List.flatMap_cons, exists_eq_or_imp]
    by_cases h1 : h ∈ hs
    · simp only [h1, if_true, Option.getD_some, true_or]
      split
      · simp
      · rename_i hn
        have : (ps.flatMap fun e => List.replicate (e.2.count h) e.1) = [] := by
          rw [List.flatMap_eq_nil_iff]
          intro e he
          rw [List.count_eq_zero_of_not_mem fun hm => hn ⟨e, he, hm⟩]; rfl
        rw [this]; simp
    · rw [List.count_eq_zero_of_not_mem h1]
      simp only [h1, if_false, false_or, List.replicate_zero, List.nil_append]

/-- C55: a host's part list contains every part as often as the part's peer list contains the host; hosts that are no peer have no list. -/
theorem C55_multiplicity {ps : PartsAlloc} (hn : ps.NodupKeys) (h : HostAddr) (p : Int) :
    (((reverse ps).find h).getD []).count p = ((ps.find p).getD []).count h := by
  have key : ∀ ps : PartsAlloc, ps.NodupKeys →
      (ps.flatMap fun e => List.replicate (e.2.count h) e.1).count p = ((ps.find p).getD []).count h := by
    intro ps
    induction ps with
    | nil => intro _; rfl
    | cons e ps ih =>
      intro hn
      obtain ⟨q, hs⟩ := e
      have hq : q ∉ ps.map Prod.fst ∧ NodupKeys ps := by simpa [NodupKeys, List.map_cons, List.nodup_cons] using hn
      rw [List.flatMap_cons, List.count_append, ih hq.2]
      simp only [find]
      by_cases e : q = p
      · subst e
        rw [(find_none_iff ps q).2 hq.1]
        simp
      · simp [e, List.count_replicate]
  unfold reverse
  rw [reverseFrom_find]
  split
  · simpa [find] using key ps hn
  · rename_i hne
    have : ((ps.find p).getD []).count h = 0 := by
      rw [← key ps hn]
      have : (ps.flatMap fun e => List.replicate (e.2.count h) e.1) = [] := by
        rw [List.flatMap_eq_nil_iff]
        intro e he
        rw [List.count_eq_zero_of_not_mem fun hm => hne ⟨e, he, hm⟩]; rfl
      rw [this]; rfl
    rw [this]; rfl

theorem mem_of_count {α : Type} [DecidableEq α] {l : List α} {a : α} : a ∈ l ↔ l.count a ≠ 0 := by
  rw [Ne, List.count_eq_zero]; simp

/-- A host has a list exactly if some part lists it. -/
theorem reverse_isSome {ps : PartsAlloc} (_ : ps.NodupKeys) (h : HostAddr) :
    (∃ l, (reverse ps).find h = some l ∧ l ≠ []) ∨ ((reverse ps).find h = none) := by
  unfold reverse
  rw [reverseFrom_find]
  split
  · rename_i he
    obtain ⟨e, he, hm⟩ := he
    refine .inl ⟨_, rfl, ?_⟩
    intro hnil
    simp only [find, Option.getD_none, List.nil_append, List.flatMap_eq_nil_iff] at hnil
    have := hnil e he
    rw [List.replicate_eq_nil_iff] at this
    exact mem_of_count.1 hm this
  · exact .inr rfl

theorem mem_reverse {ps : PartsAlloc} (hn : ps.NodupKeys) (h : HostAddr) (p : Int) :
    p ∈ ((reverse ps).find h).getD [] ↔ ∃ hs, ps.find p = some hs ∧ h ∈ hs := by
  rw [mem_of_count, C55_multiplicity hn, ← mem_of_count]
  cases ps.find p <;> simp

/-- C55: `checkPartExistInCache` is OK exactly if the host is a peer of the part. -/
theorem C55_check_part {c : LocalCache} (hc : Loaded c) (h : HostAddr) (s p : Int) :
    (checkPart c h s p = .ok ↔ ∃ hs, peersOf c s p = some hs ∧ h ∈ hs) ∧
    (checkPart c h s p = .spaceNotFound ↔ c.find s = none) ∧
    (checkPart c h s p = .hostNotFound ↔ (∃ x, c.find s = some x) ∧ ∀ q hs, peersOf c s q = some hs → h ∉ hs) := by
  unfold checkPart peersOf
  cases hf : c.find s with
  | none => simp
  | some x =>
    obtain ⟨hn, hr⟩ := hc.2 s x hf
    have hm := mem_reverse hn h
    dsimp only
    rw [hr]
    cases hh : (reverse x.partsAlloc).find h with
    | none =>
      rw [hh] at hm
      simp only [Option.getD_none, List.not_mem_nil, false_iff, not_exists, not_and] at hm
      simp only [Option.bind_some, reduceCtorEq, false_iff, true_iff, Option.some.injEq, exists_eq', true_and]
      exact ⟨fun ⟨hs, h1, h2⟩ => hm p hs h1 h2, fun q hs h1 => hm q hs h1⟩
    | some l =>
      rw [hh] at hm
      simp only [Option.getD_some] at hm
      have hl : l ≠ [] := by
        rcases reverse_isSome hn h with ⟨l', e, hl⟩ | e
        · rw [hh] at e; cases e; exact hl
        · rw [hh] at e; cases e
      simp only [Option.bind_some]
      refine ⟨?_, ?_, ?_⟩
      · rw [← hm p]
        split
        · rename_i ha; simpa using ha
        · rename_i ha; simpa using ha
      · split <;> simp
      · have : ∃ q, q ∈ l := List.exists_mem_of_ne_nil l hl
        obtain ⟨q, hq⟩ := this
        obtain ⟨hs, h1, h2⟩ := (hm q).1 hq
        have : ¬ ∀ q hs, x.partsAlloc.find q = some hs → h ∉ hs := fun hh => hh q hs h1 h2
        split <;> simp [this] <;> exact ⟨q, hs, h1, h2⟩

/-- C55: `checkSpaceExistInCache` is OK exactly if the host is a peer of some part of the space. -/
theorem C55_check_space {c : LocalCache} (hc : Loaded c) (h : HostAddr) (s : Int) :
    (checkSpace c h s = .ok ↔ ∃ p hs, peersOf c s p = some hs ∧ h ∈ hs) ∧
    (checkSpace c h s = .spaceNotFound ↔ c.find s = none) := by
  unfold checkSpace peersOf
  cases hf : c.find s with
  | none => simp
  | some x =>
    obtain ⟨hn, hr⟩ := hc.2 s x hf
    have hm := mem_reverse hn h
    dsimp only
    rw [hr]
    rcases reverse_isSome hn h with ⟨l, hh, hl⟩ | hh
    · rw [hh] at hm ⊢
      simp only [Option.getD_some] at hm
      obtain ⟨q, hq⟩ := List.exists_mem_of_ne_nil l hl
      obtain ⟨hs, h1, h2⟩ := (hm q).1 hq
      have : l.isEmpty = false := by cases l <;> simp_all
      simp only [this, Bool.not_false, if_true, Option.bind_some, true_iff, reduceCtorEq]
      exact ⟨⟨q, hs, h1, h2⟩, by simp⟩
    · rw [hh] at hm ⊢
      simp only [Option.getD_none, List.not_mem_nil, false_iff, not_exists, not_and] at hm
      simp only [Option.bind_some, reduceCtorEq, false_iff]
      exact ⟨fun ⟨q, hs, h1, h2⟩ => hm q hs h1 h2, by simp⟩

/-- A space with two parts on three hosts, one of which is listed twice. -/
example : let a : HostAddr := ⟨[97], 1⟩; let b : HostAddr := ⟨[98], 1⟩
    (((reverse [(1, [a, b]), (2, [b, b])]).find b).getD []) = [1, 2, 2] ∧ (reverse [(1, [a, b]), (2, [b, b])]).find a = some [1] := by
  decide

/-! ## C52 -/

/-- A part map whose entries are where they belong. -/
def PmOk (m : PartsMap) : Prop :=
  m.NodupKeys ∧ ∀ s l, m.find s = some l → l.NodupKeys ∧ ∀ p ph, l.find p = some ph → ph.spaceId = s ∧ ph.partId = p

/-- What a part map says. -/
def pview (m : PartsMap) : View := fun s => (m.find s).map fun l p => (l.find p).map PartHosts.hosts

theorem partsOf_some (s : Int) (c : SpaceCache) : ∀ (ps : List Int) (m : PartsMap), PmOk m → (∀ p ∈ ps, ∃ hs, c.partsAlloc.find p = some hs) →
    ∃ m', partsOf s c m ps = some m' ∧ PmOk m' ∧
      (∀ s' ≠ s, m'.find s' = m.find s') ∧
      (ps ≠ [] → ∃ l, m'.find s = some l ∧ ∀ p, l.find p =
        if p ∈ ps then (c.partsAlloc.find p).map (fun hs => ⟨s, p, hs⟩) else ((m.find s).getD []).find p) ∧
      (ps = [] → m' = m)
  | [], m, hm, _ => ⟨m, rfl, hm, fun _ _ => rfl, fun h => absurd rfl h, fun _ => rfl⟩
  | q :: ps, m, hm, hp => by
    obtain ⟨hs, hq⟩ := hp q (by simp)
    have h1 : PmOk (m.update s [] fun l => l.set q ⟨s, q, hs⟩) := by
      refine ⟨nodup_update hm.1 _ _ _, fun s' l hl => ?_⟩
      rw [find_update] at hl
      split at hl
      · rename_i e; subst e
        cases hl
        cases hf : m.find s with
        | none =>
          refine ⟨nodup_set nodup_nil _ _, fun p ph hp => ?_⟩
          rw [Option.getD_none, find_set] at hp
          split at hp
          · rename_i e; subst e; cases hp; exact ⟨rfl, rfl⟩
          · cases hp
        | some l =>
          obtain ⟨a, b⟩ := hm.2 s l hf
          refine ⟨nodup_set a _ _, fun p ph hp => ?_⟩
          rw [Option.getD_some, find_set] at hp
          split at hp
          · rename_i e; subst e; cases hp; exact ⟨rfl, rfl⟩
          · exact b p ph hp
      · exact hm.2 s' l hl
    obtain ⟨m', e, a, b, d, f⟩ := partsOf_some s c ps _ h1 fun p h => hp p (by simp [h])
    refine ⟨m', by simp only [partsOf, hq]; exact e, a, fun s' hs' => ?_, fun _ => ?_, fun h => by cases h⟩
    · rw [b s' hs', find_update, if_neg (Ne.symm hs')]
    · by_cases hn : ps = []
      · subst hn
        rw [f rfl]
        refine ⟨_, by rw [find_update, if_pos rfl], fun p => ?_⟩
        rw [find_set]
        by_cases e : q = p
        · subst e; simp [hq]
        · simp [e, Ne.symm e]
      · obtain ⟨l, hl, hfind⟩ := d hn
        refine ⟨l, hl, fun p => ?_⟩
        rw [hfind p, find_update, if_pos rfl, Option.getD_some, find_set]
        by_cases hps : p ∈ ps
        · simp [hps]
        · by_cases e : q = p
          · subst e; simp [hq, hps]
          · simp [hps, e, Ne.symm e]

theorem partsMapFrom_some (me : HostAddr) : ∀ (c : LocalCache) (m : PartsMap), c.NodupKeys →
    (∀ s x, (s, x) ∈ c → x.partsAlloc.NodupKeys ∧ x.partsOnHost = reverse x.partsAlloc) → PmOk m → (∀ s ∈ c.map Prod.fst, m.find s = none) →
    ∃ m', partsMapFrom me m c = some m' ∧ PmOk m' ∧ ∀ s, pview m' s = match c.find s with
      | none => pview m s
      | some x => match (reverse x.partsAlloc).find me with
        | none => none
        | some ps => some fun p => if p ∈ ps then x.partsAlloc.find p else none
  | [], m, _, _, hm, _ => ⟨m, rfl, hm, fun _ => rfl⟩
  | (s, x) :: c, m, hn, hx, hm, hd => by
    have hn' : s ∉ c.map Prod.fst ∧ NodupKeys c := by simpa [NodupKeys, List.map_cons, List.nodup_cons] using hn
    obtain ⟨ha, hr⟩ := hx s x (by simp)
    simp only [partsMapFrom, hr]
    have hms : m.find s = none := hd s (by simp)
    cases hp : (reverse x.partsAlloc).find me with
    | none =>
      obtain ⟨m', e, a, b⟩ := partsMapFrom_some me c m hn'.2 (fun s x h => hx s x (by simp [h])) hm (fun s h => hd s (by simp [h]))
      refine ⟨m', e, a, fun s' => ?_⟩
      rw [b s']
      simp only [find]
      by_cases es : s = s'
      · subst es
        rw [(find_none_iff c s).2 hn'.1]
        simp [hp, pview, hms]
      · simp [es]
    | some ps =>
      have hmem := mem_reverse ha me
      rw [hp] at hmem
      have hne : ps ≠ [] := by
        rcases reverse_isSome ha me with ⟨l, e, hl⟩ | e
        · rw [hp] at e; cases e; exact hl
        · rw [hp] at e; cases e
      obtain ⟨m1, e1, a1, b1, d1, _⟩ := partsOf_some s x ps m hm fun p h => by
        obtain ⟨hs, h1, _⟩ := (hmem p).1 h; exact ⟨hs, h1⟩
      obtain ⟨l, hl, hlf⟩ := d1 hne
      obtain ⟨m', e, a, b⟩ := partsMapFrom_some me c m1 hn'.2 (fun s x h => hx s x (by simp [h])) a1 (fun s' h => by
        have : s' ≠ s := by rintro rfl; exact hn'.1 h
        rw [b1 s' this]; exact hd s' (by simp [h]))
      refine ⟨m', by simp only [e1]; exact e, a, fun s' => ?_⟩
      rw [b s']
      simp only [find]
      by_cases es : s = s'
      · subst es
        rw [(find_none_iff c s).2 hn'.1]
        simp only [if_true, hp, pview, hl, Option.map_some]
        congr 1
        funext p
        rw [hlf p, hms]
        split
        · cases x.partsAlloc.find p <;> simp
        · simp [find]
      · have : pview m1 s' = pview m s' := by unfold pview; rw [b1 s' (Ne.symm es)]
        simp [es, this]

/-- `doGetPartsMap` computes what the host should know. -/
theorem doGetPartsMap_view {c : LocalCache} (hc : Loaded c) (me : HostAddr) :
    ∃ m, doGetPartsMap me c = some m ∧ PmOk m ∧ pview m = viewOf me c := by
  obtain ⟨m, e, a, b⟩ := partsMapFrom_some me c [] hc.1 (fun s x h => hc.2 s x (mem_find hc.1 h))
    ⟨nodup_nil, by intro s l h; cases h⟩ (fun _ _ => rfl)
  refine ⟨m, e, a, ?_⟩
  funext s
  rw [b s]
  unfold viewOf peersOf
  cases hf : c.find s with
  | none => simp [pview, find]
  | some x =>
    obtain ⟨hn, hr⟩ := hc.2 s x hf
    have hm := mem_reverse hn me
    rcases reverse_isSome hn me with ⟨l, hh, hl⟩ | hh
    · rw [hh] at hm
      simp only [Option.getD_some] at hm
      obtain ⟨q, hq⟩ := List.exists_mem_of_ne_nil l hl
      obtain ⟨hs, h1, h2⟩ := (hm q).1 hq
      rw [if_pos ⟨q, hs, by simpa using h1, h2⟩]
      simp only [hh, Option.bind_some]
      congr 1
      funext p
      by_cases hp : p ∈ l
      · obtain ⟨hs, h1, h2⟩ := (hm p).1 hp
        simp [hp, h1, h2, Option.filter]
      · rw [if_neg hp]
        cases h1 : x.partsAlloc.find p with
        | none => rfl
        | some hs =>
          have : me ∉ hs := fun h2 => hp ((hm p).2 ⟨hs, h1, h2⟩)
          simp [Option.filter, this]
    · rw [hh] at hm
      simp only [Option.getD_none, List.not_mem_nil, false_iff, not_exists, not_and] at hm
      rw [if_neg (by rintro ⟨p, hs, h1, h2⟩; exact hm p hs (by simpa using h1) h2)]
      simp only [hh]

theorem put_put {K : Type} (v : ViewOf K) (s : Int) (x y) : (v.put s x).put s y = v.put s y := by
  funext s'; unfold ViewOf.put; split <;> rfl

theorem put_self {K : Type} (v : ViewOf K) (s : Int) (x) (h : v s = x) : v.put s x = v := by
  funext s'; unfold ViewOf.put; split
  · rename_i e; rw [e, h]
  · rfl

@[simp] theorem put_get {K : Type} (v : ViewOf K) (s : Int) (x) : v.put s x s = x := by simp [ViewOf.put]

/-- Adding the parts of a new space. -/
theorem told_added (s : Int) : ∀ (l : AMap Int PartHosts) (v : View) (f), l.NodupKeys → (∀ p ph, (p, ph) ∈ l → ph.spaceId = s ∧ ph.partId = p) →
    v s = some f → (∀ p ∈ l.map Prod.fst, f p = none) →
    Exec Told v (l.map fun p => .partAdded p.2) (v.put s (some fun p => match l.find p with | some ph => some ph.hosts | none => f p))
  | [], v, f, _, _, hv, _ => by simp only [List.map_nil, find]; rw [put_self v s _ hv]; exact .nil
  | (q, ph) :: l, v, f, hn, hl, hv, hf => by
    have hn' : q ∉ l.map Prod.fst ∧ NodupKeys l := by simpa [NodupKeys, List.map_cons, List.nodup_cons] using hn
    obtain ⟨h1, h2⟩ := hl q ph (by simp)
    have ih := told_added s l (v.put s (some (putPart f q (some ph.hosts)))) (putPart f q (some ph.hosts)) hn'.2
      (fun p x h => hl p x (by simp [h])) (by simp) (fun p hp => by
        have : p ≠ q := by rintro rfl; exact hn'.1 hp
        simp only [putPart, if_neg this]; exact hf p (by simp [hp]))
    rw [put_put] at ih
    have hlast : (fun p => match AMap.find l p with | some x => some x.hosts | none => putPart f q (some ph.hosts) p) =
        fun p => match AMap.find ((q, ph) :: l) p with | some x => some x.hosts | none => f p := by
      funext p
      simp only [find]
      by_cases e : q = p
      · subst e; rw [(find_none_iff l q).2 hn'.1]; simp [putPart]
      · simp [e, putPart, Ne.symm e]
    rw [hlast] at ih
    refine .cons ?_ ih
    have := Told.partAdded (v := v) (ph := ph) (f := f) (by rw [h1]; exact hv) (by rw [h2]; exact hf q (by simp))
    rw [h1, h2] at this
    exact this

/-- Adding and updating the parts of a known space. -/
theorem told_merge (s : Int) (old : AMap Int PartHosts) (hold : ∀ p ph, old.find p = some ph → ph.spaceId = s ∧ ph.partId = p) :
    ∀ (l : AMap Int PartHosts) (v : View) (f), l.NodupKeys → (∀ p ph, (p, ph) ∈ l → ph.spaceId = s ∧ ph.partId = p) →
    v s = some f → (∀ p ∈ l.map Prod.fst, f p = (old.find p).map PartHosts.hosts) →
    Exec Told v (l.flatMap (newPartNotes old)) (v.put s (some fun p => match l.find p with | some ph => some ph.hosts | none => f p))
  | [], v, f, _, _, hv, _ => by simp only [List.flatMap_nil, find]; rw [put_self v s _ hv]; exact .nil
  | (q, ph) :: l, v, f, hn, hl, hv, hf => by
    have hn' : q ∉ l.map Prod.fst ∧ NodupKeys l := by simpa [NodupKeys, List.map_cons, List.nodup_cons] using hn
    obtain ⟨h1, h2⟩ := hl q ph (by simp)
    have ih := told_merge s old hold l (v.put s (some (putPart f q (some ph.hosts)))) (putPart f q (some ph.hosts)) hn'.2
      (fun p x h => hl p x (by simp [h])) (by simp) (fun p hp => by
        have : p ≠ q := by rintro rfl; exact hn'.1 hp
        simp only [putPart, if_neg this]; exact hf p (by simp [hp]))
    rw [put_put] at ih
    have hlast : (fun p => match AMap.find l p with | some x => some x.hosts | none => putPart f q (some ph.hosts) p) =
        fun p => match AMap.find ((q, ph) :: l) p with | some x => some x.hosts | none => f p := by
      funext p
      simp only [find]
      by_cases e : q = p
      · subst e; rw [(find_none_iff l q).2 hn'.1]; simp [putPart]
      · simp [e, putPart, Ne.symm e]
    rw [hlast] at ih
    rw [List.flatMap_cons]
    refine Exec.append ?_ ih
    have hfq := hf q (by simp)
    simp only [newPartNotes]
    cases ho : old.find q with
    | none =>
      rw [ho] at hfq
      have := Told.partAdded (v := v) (ph := ph) (f := f) (by rw [h1]; exact hv) (by rw [h2]; exact hfq)
      rw [h1, h2] at this
      exact .one this
    | some o =>
      rw [ho] at hfq
      obtain ⟨h3, h4⟩ := hold q o ho
      simp only
      split
      · rename_i hne
        have hne' : o.hosts ≠ ph.hosts := by
          intro h; apply hne
          cases o; cases ph; simp_all
        have := Told.partUpdated (v := v) (ph := ph) (f := f) (by rw [h1]; exact hv) (by rw [h2]; exact hfq) hne'
        rw [h1, h2] at this
        exact .one this
      · rename_i he
        have he : o = ph := Classical.not_not.1 he
        subst he
        have : putPart f q (some o.hosts) = f := by
          funext p; unfold putPart; split
          · rename_i e; rw [e, hfq]; rfl
          · rfl
        rw [this, put_self v s _ hv]
        exact .nil

theorem if_congr' {α} {a b : Prop} [Decidable a] [Decidable b] {x y z w : α} (h : a ↔ b) (h1 : x = z) (h2 : y = w) :
    (if a then x else y) = if b then z else w := by
  subst h1 h2
  by_cases hb : b
  · rw [if_pos hb, if_pos (h.2 hb)]
  · rw [if_neg hb, if_neg (fun e => hb (h.1 e))]

/-- Removing parts of a space. -/
theorem told_removed (s : Int) (gone : Int → Bool) : ∀ (l : AMap Int PartHosts) (v : View) (f), l.NodupKeys →
    v s = some f → (∀ p ∈ l.map Prod.fst, gone p = true → f p ≠ none) →
    Exec Told v (l.flatMap fun p => if gone p.1 then [.partRemoved s p.1] else [])
      (v.put s (some fun p => if p ∈ l.map Prod.fst ∧ gone p = true then none else f p))
  | [], v, f, _, hv, _ => by simp only [List.flatMap_nil, List.map_nil, List.not_mem_nil, false_and, if_false]; rw [put_self v s _ hv]; exact .nil
  | (q, ph) :: l, v, f, hn, hv, hf => by
    have hn' : q ∉ l.map Prod.fst ∧ NodupKeys l := by simpa [NodupKeys, List.map_cons, List.nodup_cons] using hn
    rw [List.flatMap_cons]
    cases hg : gone q with
    | false =>
      have ih := told_removed s gone l v f hn'.2 hv (fun p hp => hf p (by simp [hp]))
      simp only [hg, Bool.false_eq_true, if_false, List.nil_append]
      have : (fun p => if p ∈ List.map Prod.fst ((q, ph) :: l) ∧ gone p = true then none else f p) =
          fun p => if p ∈ List.map Prod.fst l ∧ gone p = true then none else f p := by
        funext p
        by_cases e : p = q
        · subst e; simp [hg]
        · exact if_congr' (by simp [e]) rfl rfl
      rw [this]; exact ih
    | true =>
      cases hq : f q with
      | none => exact absurd hq (hf q (by simp) hg)
      | some hs =>
        have ih := told_removed s gone l (v.put s (some (putPart f q none))) (putPart f q none) hn'.2 (by simp) (fun p hp hgp => by
          have : p ≠ q := by rintro rfl; exact hn'.1 hp
          simp only [putPart, if_neg this]; exact hf p (by simp [hp]) hgp)
        rw [put_put] at ih
        simp only [hg, if_true, List.cons_append, List.nil_append]
        have : (fun p => if p ∈ List.map Prod.fst ((q, ph) :: l) ∧ gone p = true then none else f p) =
            fun p => if p ∈ List.map Prod.fst l ∧ gone p = true then none else putPart f q none p := by
          funext p
          by_cases e : p = q
          · subst e; simp [hg, putPart]
          · exact if_congr' (by simp [e]) rfl (by simp [e, putPart])
        rw [this]
        exact .cons (.partRemoved hv hq) ih

/-- What is known between the two loops. -/
def both (old new : View) : View := fun s => match new s with
  | none => old s
  | some n => some fun p => match n p with | some h => some h | none => (old s).bind fun o => o p

theorem told_new {old : PartsMap} (ho : PmOk old) : ∀ (l : PartsMap) (v : View), PmOk l → (∀ s ∈ l.map Prod.fst, v s = pview old s) →
    Exec Told v (l.flatMap (newSpaceNotes old)) (both v (pview l))
  | [], v, _, _ => by
    have : both v (pview []) = v := by funext s; rfl
    rw [this]; exact .nil
  | (s, ps) :: l, v, hl, hv => by
    have hn' : s ∉ l.map Prod.fst ∧ NodupKeys l := by
      have := hl.1; simpa [NodupKeys, List.map_cons, List.nodup_cons] using this
    obtain ⟨hps, hpp⟩ := hl.2 s ps (by simp [find])
    have hl' : PmOk l := ⟨hn'.2, fun s' x hx => hl.2 s' x (by
      have : s ≠ s' := by rintro rfl; rw [(find_none_iff l s).2 hn'.1] at hx; cases hx
      simp [find, this, hx])⟩
    have hvs := hv s (by simp)
    have hpp' : ∀ p ph, (p, ph) ∈ ps → ph.spaceId = s ∧ ph.partId = p := fun p ph h => hpp p ph (mem_find hps h)
    rw [List.flatMap_cons]
    have mid : Exec Told v (newSpaceNotes old (s, ps)) (v.put s (both v (pview ((s, ps) :: l)) s)) := by
      have hb : both v (pview ((s, ps) :: l)) s = some fun p => match (ps.find p) with | some ph => some ph.hosts | none => (v s).bind fun o => o p := by
        simp only [both, pview, find, if_true, Option.map_some]
        congr 1; funext p
        cases ps.find p <;> rfl
      rw [hb]
      simp only [newSpaceNotes]
      cases hos : old.find s with
      | none =>
        have hvn : v s = none := by rw [hvs]; simp [pview, hos]
        refine .cons (.spaceAdded hvn) ?_
        have := told_added s ps (v.put s (some fun _ => none)) (fun _ => none) hps hpp' (by simp) (fun _ _ => rfl)
        rw [put_put] at this
        rw [hvn]; exact this
      | some o =>
        have hvn : v s = some fun p => (o.find p).map PartHosts.hosts := by rw [hvs]; simp [pview, hos]
        have := told_merge s o (ho.2 s o hos).2 ps v _ hps hpp' hvn (fun _ _ => rfl)
        rw [hvn]
        exact this
    refine Exec.append mid ?_
    have ih := told_new ho l (v.put s (both v (pview ((s, ps) :: l)) s)) hl' (fun s' hs' => by
      have : s' ≠ s := by rintro rfl; exact hn'.1 hs'
      simp only [ViewOf.put, if_neg this]; exact hv s' (by simp [hs']))
    have hlast : both (v.put s (both v (pview ((s, ps) :: l)) s)) (pview l) = both v (pview ((s, ps) :: l)) := by
      funext s'
      by_cases e : s' = s
      · subst e
        have : pview l s' = none := by simp [pview, (find_none_iff l s').2 hn'.1]
        simp only [both, this, put_get]
      · have : pview ((s, ps) :: l) s' = pview l s' := by simp [pview, find, Ne.symm e]
        simp only [both, this, ViewOf.put, if_neg e]
    rw [hlast] at ih
    exact ih

theorem flatMap_single {α β} (f : α → β) : ∀ l : List α, (l.flatMap fun x => [f x]) = l.map f
  | [] => rfl
  | a :: l => by rw [List.flatMap_cons, List.map_cons, flatMap_single f l]; rfl

theorem told_old {new : PartsMap} : ∀ (l : PartsMap) (v : View), PmOk l →
    (∀ s ∈ l.map Prod.fst, v s = both (pview l) (pview new) s) →
    Exec Told v (l.flatMap (oldSpaceNotes new)) (fun s => if s ∈ l.map Prod.fst then pview new s else v s)
  | [], v, _, _ => by simp only [List.flatMap_nil, List.map_nil, List.not_mem_nil, if_false]; exact .nil
  | (s, ps) :: l, v, hl, hv => by
    have hn' : s ∉ l.map Prod.fst ∧ NodupKeys l := by
      have := hl.1; simpa [NodupKeys, List.map_cons, List.nodup_cons] using this
    obtain ⟨hps, hpp⟩ := hl.2 s ps (by simp [find])
    have hl' : PmOk l := ⟨hn'.2, fun s' x hx => hl.2 s' x (by
      have : s ≠ s' := by rintro rfl; rw [(find_none_iff l s).2 hn'.1] at hx; cases hx
      simp [find, this, hx])⟩
    have hvs := hv s (by simp)
    rw [List.flatMap_cons]
    have mid : Exec Told v (oldSpaceNotes new (s, ps)) (v.put s (pview new s)) := by
      simp only [oldSpaceNotes]
      cases hns : new.find s with
      | none =>
        have hvn : v s = some fun p => (ps.find p).map PartHosts.hosts := by
          rw [hvs]; simp [both, pview, hns, find]
        have h1 := told_removed s (fun _ => true) ps v _ hps hvn (fun p hp _ => by
          obtain ⟨x, hx⟩ := (mem_keys_iff ps p).1 hp
          simp [hx])
        have e1 : (ps.flatMap fun p => if (fun _ => true) p.1 = true then [Note.partRemoved s p.1] else []) = ps.map fun p => .partRemoved s p.1 := by
          simp only [if_true]
          exact flatMap_single _ ps
        rw [e1] at h1
        refine h1.append (.one ?_)
        have := Told.spaceRemoved (v := v.put s (some fun p => if p ∈ ps.map Prod.fst ∧ (fun _ => true) p = true then none else (ps.find p).map PartHosts.hosts))
          (s := s) (put_get _ _ _) (fun p => by
            simp only [and_true]
            by_cases hp : p ∈ ps.map Prod.fst
            · simp [hp]
            · rw [if_neg hp, (find_none_iff ps p).2 hp]; rfl)
        rw [put_put] at this
        simpa [pview, hns] using this
      | some n =>
        have hvn : v s = some fun p => match n.find p with | some ph => some ph.hosts | none => (ps.find p).map PartHosts.hosts := by
          rw [hvs]; simp only [both, pview, hns, find, if_true, Option.map_some, Option.bind_some]
          congr 1; funext p; cases n.find p <;> rfl
        have h1 := told_removed s (fun p => (n.find p).isNone) ps v _ hps hvn (fun p hp hg => by
          obtain ⟨x, hx⟩ := (mem_keys_iff ps p).1 hp
          have : n.find p = none := by simpa using hg
          simp [hx, this])
        have e1 : (ps.flatMap fun p => if (fun p => (n.find p).isNone) p.1 = true then [Note.partRemoved s p.1] else []) =
            ps.flatMap fun p => match n.find p.1 with | none => [.partRemoved s p.1] | some _ => [] := by
          congr 1; funext p; dsimp only
          by_cases h : n.find p.1 = none
          · rw [if_pos (by rw [h]; rfl), h]
          · rw [if_neg (by simpa using h)]
            cases hq : n.find p.1 with
            | none => exact absurd hq h
            | some ph => rfl
        rw [e1] at h1
        have e2 : (some fun p => if p ∈ ps.map Prod.fst ∧ (fun p => (n.find p).isNone) p = true then none
            else match n.find p with | some ph => some ph.hosts | none => (ps.find p).map PartHosts.hosts) = pview new s := by
          simp only [pview, hns, Option.map_some]
          congr 1; funext p
          by_cases hp : n.find p = none
          · by_cases hpm : p ∈ ps.map Prod.fst
            · rw [if_pos ⟨hpm, by rw [hp]; rfl⟩, hp]; rfl
            · rw [if_neg (fun h => hpm h.1), (find_none_iff ps p).2 hpm, hp]
          · rw [if_neg (fun h => hp (by simpa using h.2))]
            cases hq : n.find p with
            | none => exact absurd hq hp
            | some ph => rfl
        rw [e2] at h1
        exact h1
    refine mid.append ?_
    have ih := told_old (new := new) l (v.put s (pview new s)) hl' (fun s' hs' => by
      have hne : s' ≠ s := by rintro rfl; exact hn'.1 hs'
      have := hv s' (by simp [hs'])
      simp only [ViewOf.put, if_neg hne, this, both]
      have e : pview ((s, ps) :: l) s' = pview l s' := by simp [pview, find, Ne.symm hne]
      rw [e])
    have hlast : (fun s' => if s' ∈ l.map Prod.fst then pview new s' else v.put s (pview new s) s') =
        fun s' => if s' ∈ List.map Prod.fst ((s, ps) :: l) then pview new s' else v s' := by
      funext s'
      by_cases e : s' = s
      · subst e; simp
      · exact if_congr' (by simp [e]) rfl (by simp [e, ViewOf.put])
    rw [hlast] at ih
    exact ih

theorem diffMaps_exact {old new : PartsMap} (ho : PmOk old) (hn : PmOk new) : Exec Told (pview old) (diffMaps old new) (pview new) := by
  unfold diffMaps
  have h1 := told_new ho new (pview old) hn (fun _ _ => rfl)
  have h2 := told_old (new := new) old (both (pview old) (pview new)) ho (fun _ _ => rfl)
  have : (fun s => if s ∈ old.map Prod.fst then pview new s else both (pview old) (pview new) s) = pview new := by
    funext s
    split
    · rfl
    · rename_i h
      have : pview old s = none := by simp [pview, (find_none_iff old s).2 h]
      simp only [both, this]
      cases pview new s with
      | none => rfl
      | some n =>
        simp only [Option.bind_none, Option.some.injEq]
        funext p
        cases n p <;> rfl
  rw [this] at h2
  exact h1.append h2

/-- C52: after a refresh from any loaded cache to any other, the notifications are a sensible sequence (nothing is added twice,
removed or updated without being known, updated without a change) that leads from what this host should have known to what it
should know now. -/
theorem C52_notifications {old new : LocalCache} (ho : Loaded old) (hn : Loaded new) (me : HostAddr) :
    ∃ notes, diff me old new = some notes ∧ Exec Told (viewOf me old) notes (viewOf me new) := by
  obtain ⟨o, e1, a1, b1⟩ := doGetPartsMap_view ho me
  obtain ⟨n, e2, a2, b2⟩ := doGetPartsMap_view hn me
  refine ⟨diffMaps o n, by simp [diff, e1, e2], ?_⟩
  rw [← b1, ← b2]
  exact diffMaps_exact a1 a2

theorem mem_pview {m : PartsMap} (hm : PmOk m) (s p : Int) (hs : List HostAddr) :
    (∃ l ph, (s, l) ∈ m ∧ (p, ph) ∈ l ∧ ph = ⟨s, p, hs⟩) ↔ partOf (pview m) s p = some hs := by
  unfold partOf pview
  constructor
  · rintro ⟨l, ph, h1, h2, rfl⟩
    have h3 := mem_find hm.1 h1
    have h4 := mem_find (hm.2 s l h3).1 h2
    simp [h3, h4]
  · intro h
    cases hf : m.find s with
    | none => rw [hf] at h; cases h
    | some l =>
      rw [hf] at h
      simp only [Option.map_some, Option.bind_some] at h
      cases hp : l.find p with
      | none => rw [hp] at h; cases h
      | some ph =>
        rw [hp] at h
        simp only [Option.map_some, Option.some.injEq] at h
        obtain ⟨h1, h2⟩ := (hm.2 s l hf).2 p ph hp
        exact ⟨l, ph, find_mem hf, find_mem hp, by cases ph; simp_all⟩

theorem partOf_find {m : PartsMap} {s p : Int} {hs : List HostAddr} (h : partOf (pview m) s p = some hs) :
    ∃ l ph, m.find s = some l ∧ l.find p = some ph ∧ ph.hosts = hs := by
  unfold partOf pview at h
  cases hf : m.find s with
  | none => rw [hf] at h; cases h
  | some l =>
    rw [hf] at h
    simp only [Option.map_some, Option.bind_some] at h
    cases hp : l.find p with
    | none => rw [hp] at h; cases h
    | some ph =>
      rw [hp] at h
      simp only [Option.map_some, Option.some.injEq] at h
      exact ⟨l, ph, rfl, hp, h⟩

theorem partOf_none {m : PartsMap} {s p : Int} {l} (h : m.find s = some l) (hp : l.find p = none) : partOf (pview m) s p = none := by
  simp [partOf, pview, h, hp]

/-- C52: exactly the parts that were added, changed or removed are reported, and with their new peers. -/
theorem C52_exact {old new : LocalCache} (ho : Loaded old) (hn : Loaded new) (me : HostAddr) {notes : List Note}
    (hd : diff me old new = some notes) (s p : Int) (hs : List HostAddr) :
    (Note.partAdded ⟨s, p, hs⟩ ∈ notes ↔ partOf (viewOf me old) s p = none ∧ partOf (viewOf me new) s p = some hs) ∧
    (Note.partUpdated ⟨s, p, hs⟩ ∈ notes ↔ (∃ hs', partOf (viewOf me old) s p = some hs' ∧ hs' ≠ hs) ∧ partOf (viewOf me new) s p = some hs) ∧
    (Note.partRemoved s p ∈ notes ↔ (∃ hs', partOf (viewOf me old) s p = some hs') ∧ partOf (viewOf me new) s p = none) := by
  obtain ⟨o, e1, a1, b1⟩ := doGetPartsMap_view ho me
  obtain ⟨n, e2, a2, b2⟩ := doGetPartsMap_view hn me
  have e : notes = diffMaps o n := by simp [diff, e1, e2] at hd; exact hd.symm
  subst e
  rw [← b1, ← b2]
  unfold diffMaps
  refine ⟨?_, ?_, ?_⟩
  · constructor
    · intro h
      rcases List.mem_append.1 h with h | h
      · obtain ⟨⟨s', l⟩, h1, h2⟩ := List.mem_flatMap.1 h
        simp only [newSpaceNotes] at h2
        cases hos : o.find s' with
        | none =>
          rw [hos] at h2
          simp only [List.mem_cons, reduceCtorEq, List.mem_map, Note.partAdded.injEq, false_or] at h2
          obtain ⟨⟨p', ph⟩, h3, h4⟩ := h2
          simp only at h4
          obtain ⟨h5, h6⟩ := (a2.2 s' l (mem_find a2.1 h1)).2 p' ph (mem_find (a2.2 s' l (mem_find a2.1 h1)).1 h3)
          rw [h4] at h5 h6
          simp only at h5 h6
          subst h5 h6
          exact ⟨by simp [partOf, pview, hos], (mem_pview a2 _ _ _).1 ⟨l, ph, h1, h3, h4⟩⟩
        | some ol =>
          rw [hos] at h2
          obtain ⟨⟨p', ph⟩, h3, h4⟩ := List.mem_flatMap.1 h2
          simp only [newPartNotes] at h4
          cases hop : ol.find p' with
          | none =>
            rw [hop] at h4
            simp only [List.mem_singleton, Note.partAdded.injEq] at h4
            obtain ⟨h5, h6⟩ := (a2.2 s' l (mem_find a2.1 h1)).2 p' ph (mem_find (a2.2 s' l (mem_find a2.1 h1)).1 h3)
            rw [← h4] at h5 h6
            simp only at h5 h6
            subst h5 h6
            exact ⟨partOf_none hos hop, (mem_pview a2 _ _ _).1 ⟨l, ph, h1, h3, h4.symm⟩⟩
          | some op =>
            rw [hop] at h4
            simp only at h4
            split at h4 <;> simp at h4
      · exfalso
        obtain ⟨⟨s', l⟩, h1, h2⟩ := List.mem_flatMap.1 h
        simp only [oldSpaceNotes] at h2
        cases hns : n.find s' with
        | none => rw [hns] at h2; simp at h2
        | some nl =>
          rw [hns] at h2
          obtain ⟨⟨p', ph⟩, h3, h4⟩ := List.mem_flatMap.1 h2
          simp only at h4
          cases hnp : nl.find p' <;> rw [hnp] at h4 <;> simp at h4
    · rintro ⟨h1, h2⟩
      obtain ⟨l, ph, h3, h4, h5⟩ := (mem_pview a2 _ _ _).2 h2
      refine List.mem_append.2 (.inl (List.mem_flatMap.2 ⟨(s, l), h3, ?_⟩))
      simp only [newSpaceNotes]
      cases hos : o.find s with
      | none => simp only [List.mem_cons, reduceCtorEq, List.mem_map, false_or]; exact ⟨(p, ph), h4, by rw [h5]⟩
      | some ol =>
        refine List.mem_flatMap.2 ⟨(p, ph), h4, ?_⟩
        simp only [newPartNotes]
        cases hop : ol.find p with
        | none => simp [h5]
        | some op => simp [partOf, pview, hos, hop] at h1
  · constructor
    · intro h
      rcases List.mem_append.1 h with h | h
      · obtain ⟨⟨s', l⟩, h1, h2⟩ := List.mem_flatMap.1 h
        simp only [newSpaceNotes] at h2
        cases hos : o.find s' with
        | none => rw [hos] at h2; simp at h2
        | some ol =>
          rw [hos] at h2
          obtain ⟨⟨p', ph⟩, h3, h4⟩ := List.mem_flatMap.1 h2
          simp only [newPartNotes] at h4
          cases hop : ol.find p' with
          | none => rw [hop] at h4; simp at h4
          | some op =>
            rw [hop] at h4
            simp only at h4
            split at h4
            · rename_i hne
              simp only [List.mem_singleton, Note.partUpdated.injEq] at h4
              obtain ⟨h5, h6⟩ := (a2.2 s' l (mem_find a2.1 h1)).2 p' ph (mem_find (a2.2 s' l (mem_find a2.1 h1)).1 h3)
              rw [← h4] at h5 h6
              simp only at h5 h6
              subst h5 h6
              obtain ⟨h7, h8⟩ := (a1.2 _ ol hos).2 _ op hop
              refine ⟨⟨op.hosts, (mem_pview a1 _ _ _).1 ⟨ol, op, find_mem hos, find_mem hop, by cases op; simp_all⟩, ?_⟩,
                (mem_pview a2 _ _ _).1 ⟨l, ph, h1, h3, h4.symm⟩⟩
              intro h9; apply hne; rw [← h4]; cases op; simp_all
            · simp at h4
      · exfalso
        obtain ⟨⟨s', l⟩, h1, h2⟩ := List.mem_flatMap.1 h
        simp only [oldSpaceNotes] at h2
        cases hns : n.find s' with
        | none => rw [hns] at h2; simp at h2
        | some nl =>
          rw [hns] at h2
          obtain ⟨⟨p', ph⟩, h3, h4⟩ := List.mem_flatMap.1 h2
          simp only at h4
          cases hnp : nl.find p' <;> rw [hnp] at h4 <;> simp at h4
    · rintro ⟨⟨hs', h0, hne⟩, h2⟩
      obtain ⟨l, ph, h3, h4, h5⟩ := (mem_pview a2 _ _ _).2 h2
      obtain ⟨ol, op, h6, h7, h8⟩ := partOf_find h0
      refine List.mem_append.2 (.inl (List.mem_flatMap.2 ⟨(s, l), h3, ?_⟩))
      simp only [newSpaceNotes, h6]
      refine List.mem_flatMap.2 ⟨(p, ph), h4, ?_⟩
      simp only [newPartNotes, h7]
      rw [if_pos (by rintro rfl; apply hne; rw [← h8, h5])]
      simp [h5]
  · constructor
    · intro h
      rcases List.mem_append.1 h with h | h
      · exfalso
        obtain ⟨⟨s', l⟩, h1, h2⟩ := List.mem_flatMap.1 h
        simp only [newSpaceNotes] at h2
        cases hos : o.find s' with
        | none => rw [hos] at h2; simp at h2
        | some ol =>
          rw [hos] at h2
          obtain ⟨⟨p', ph⟩, h3, h4⟩ := List.mem_flatMap.1 h2
          simp only [newPartNotes] at h4
          cases hop : ol.find p' with
          | none => rw [hop] at h4; simp at h4
          | some op =>
            rw [hop] at h4
            simp only at h4
            split at h4 <;> simp at h4
      · obtain ⟨⟨s', l⟩, h1, h2⟩ := List.mem_flatMap.1 h
        simp only [oldSpaceNotes] at h2
        have hol := mem_find a1.1 h1
        cases hns : n.find s' with
        | none =>
          rw [hns] at h2
          simp only [List.mem_append, List.mem_map, Note.partRemoved.injEq, List.mem_singleton, reduceCtorEq, or_false] at h2
          obtain ⟨⟨p', ph⟩, h3, h4, h5⟩ := h2
          simp only at h4 h5
          subst h4 h5
          exact ⟨⟨ph.hosts, by simp [partOf, pview, hol, mem_find (a1.2 _ l hol).1 h3]⟩, by simp [partOf, pview, hns]⟩
        | some nl =>
          rw [hns] at h2
          obtain ⟨⟨p', ph⟩, h3, h4⟩ := List.mem_flatMap.1 h2
          simp only at h4
          cases hnp : nl.find p' with
          | none =>
            rw [hnp] at h4
            simp only [List.mem_singleton, Note.partRemoved.injEq] at h4
            obtain ⟨rfl, rfl⟩ := h4
            exact ⟨⟨ph.hosts, by simp [partOf, pview, hol, mem_find (a1.2 _ l hol).1 h3]⟩, partOf_none hns hnp⟩
          | some _ => rw [hnp] at h4; simp at h4
    · rintro ⟨⟨hs', h0⟩, h2⟩
      obtain ⟨l, ph, h3, h4, h5⟩ := partOf_find h0
      refine List.mem_append.2 (.inr (List.mem_flatMap.2 ⟨(s, l), find_mem h3, ?_⟩))
      simp only [oldSpaceNotes]
      cases hns : n.find s with
      | none => simp only [List.mem_append, List.mem_map]; exact .inl ⟨(p, ph), find_mem h4, rfl⟩
      | some nl =>
        refine List.mem_flatMap.2 ⟨(p, ph), find_mem h4, ?_⟩
        cases hnp : nl.find p with
        | none => simp [hnp]
        | some x => simp [partOf, pview, hns, hnp] at h2

/-- A part moves from hosts a,b to b,c while another is dropped: b hears of the change, a of the removal, c of the space. -/
example : let a : HostAddr := ⟨[97], 1⟩; let b : HostAddr := ⟨[98], 1⟩; let c : HostAddr := ⟨[99], 1⟩
    let old : LocalCache := [(7, loadSpace [(1, [a, b]), (2, [b])] [])]
    let new : LocalCache := [(7, loadSpace [(1, [b, c])] [])]
    diff a old new = some [.partRemoved 7 1, .spaceRemoved 7 false] ∧
    diff b old new = some [.partUpdated ⟨7, 1, [b, c]⟩, .partRemoved 7 2] ∧
    diff c old new = some [.spaceAdded 7 false, .partAdded ⟨7, 1, [b, c]⟩] := by decide

theorem loaded_one (s : Int) (alloc : PartsAlloc) (ls) (h : alloc.NodupKeys) : Loaded [(s, loadSpace alloc ls)] := by
  refine ⟨by simp [NodupKeys], fun s' x hx => ?_⟩
  simp only [find] at hx
  split at hx
  · cases hx; exact ⟨h, rfl⟩
  · cases hx

/-- Both caches of the example are `Loaded`. -/
example : let a : HostAddr := ⟨[97], 1⟩; let b : HostAddr := ⟨[98], 1⟩; let c : HostAddr := ⟨[99], 1⟩
    Loaded [(7, loadSpace [(1, [a, b]), (2, [b])] [])] ∧ Loaded [(7, loadSpace [(1, [b, c])] [])] :=
  ⟨loaded_one _ _ _ (by simp [NodupKeys]), loaded_one _ _ _ (by simp [NodupKeys])⟩

end Meta
end Nebula
