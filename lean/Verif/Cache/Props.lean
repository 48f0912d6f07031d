import Mathlib.Data.List.Dedup
import Verif.Cache.Lemmas
/-!
# C22, C23: the LRU caches
-/
namespace Nebula
open Spec
variable {K V : Type} [DecidableEq K]

theorem LRU.rep_init (cap : Nat) : LRU.Rep (LRU.init cap : LRU K V) [] :=
  ⟨rfl, List.Perm.refl _, by simp, by simp, by simp⟩

/-- C22: every sequence of operations on a cache with a positive capacity is defined (no dangling
iterator, no failed check) and returns what the recency list returns; the cache then holds exactly
the entries of the recency list. -/
theorem C22_refines (cap : Nat) (hc : 0 < cap) (ops : List (CacheOp K V)) :
    ∃ s, (LRU.init cap : LRU K V).run ops = some (s, (Recency.run cap [] ops).2) ∧
      s.list.map (·.2) = (Recency.run cap [] ops).1.map (·.1) ∧
      (∀ k, (s.find k).map (fun e => e.2.1) = (Recency.run cap [] ops).1.value k) ∧
      s.size = (Recency.run cap [] ops).1.length := by
  obtain ⟨s, L, e, r, a, _⟩ := LRU.run_rep (LRU.rep_init (K := K) (V := V) cap) hc ops
  have a' : LRU.abs L = (Recency.run cap [] ops).1 := a
  refine ⟨s, e, ?_, ?_, ?_⟩
  · rw [← a', r.list]; simp [LRU.abs]
  · intro k
    rw [← a']
    cases hv : (LRU.abs L).value k with
    | none => rw [r.find_none (LRU.none_of_value hv)]; rfl
    | some v =>
      obtain ⟨A, B, i, rfl⟩ := LRU.split_of_value hv
      rw [r.find_some (k := k) (v := v) (i := i) (by simp)]; rfl
  · rw [r.size, ← a']; simp [LRU.abs]

/-! ### Histories -/
namespace Spec.Recency

/-- The recency lists and histories reachable from the empty cache. -/
inductive Reach (cap : Nat) : Recency K V → History K V → Prop
  | init : Reach cap [] []
  | step {l h} (op : CacheOp K V) : Reach cap l h →
      Reach cap (Recency.step cap l op).1 ((op, (Recency.step cap l op).2) :: h)

theorem reach_run {cap : Nat} {l : Recency K V} {h : History K V} (r : Reach cap l h) (ops : List (CacheOp K V)) :
    Reach cap (Recency.run cap l ops).1 ((ops.zip (Recency.run cap l ops).2).reverse ++ h) := by
  induction ops generalizing l h with
  | nil => simpa [Recency.run] using r
  | cons op ops ih =>
    have := ih (Reach.step op r)
    simpa [Recency.run] using this

theorem card_le {A U : List K} (hA : A.Nodup) (h : ∀ x ∈ A, x ∈ U) : A.length ≤ U.dedup.length :=
  (hA.subperm fun _ hx => List.mem_dedup.mpr (h _ hx)).length_le

structure Inv (cap : Nat) (l : Recency K V) (h : History K V) : Prop where
  nodup : (l.map (·.1)).Nodup
  bound : l.length ≤ cap
  sound : ∀ k v, l.value k = some v → stored k h = some v
  order : ∀ A k v B, l = A ++ (k, v) :: B → ∀ a ∈ A, a.1 ∈ usedSince k h
  kept : ∀ k v, stored k h = some v → l.value k = some v ∨ cap ≤ (usedSince k h).dedup.length

theorem nodup_without {l : Recency K V} (h : (l.map (·.1)).Nodup) (k : K) : ((l.without k).map (·.1)).Nodup :=
  h.sublist (List.Sublist.map _ List.filter_sublist)

theorem value_cons_self (l : Recency K V) (k : K) (v : V) : value ((k, v) :: l) k = some v := by simp [value]

theorem value_cons_ne (l : Recency K V) {k k' : K} (v : V) (h : k' ≠ k) : value ((k', v) :: l) k = value l k := by
  have : (k == k') = false := by simpa using fun e => h e.symm
  simp [value, List.lookup_cons, this]

theorem value_without_ne (l : Recency K V) {k k' : K} (h : k' ≠ k) : value (l.without k') k = value l k := by
  induction l with
  | nil => rfl
  | cons x l ih =>
    obtain ⟨a, w⟩ := x
    by_cases e : a = k'
    · subst e
      have : without ((a, w) :: l) a = without l a := by simp [without]
      rw [this, ih, value_cons_ne _ _ h]
    · have : without ((a, w) :: l) k' = (a, w) :: without l k' := by simp [without, e]
      rw [this]
      by_cases e2 : a = k
      · subst e2; simp [value]
      · rw [value_cons_ne _ _ e2, value_cons_ne _ _ e2, ih]

theorem value_without_self (l : Recency K V) (k : K) : value (l.without k) k = none := by
  rw [value_none]
  intro a ha
  simpa using (List.mem_filter.mp ha).2

theorem mem_of_value {l : Recency K V} {k : K} {v : V} (h : l.value k = some v) : (k, v) ∈ l := by
  obtain ⟨A, B, rfl, _⟩ := value_some h; simp

theorem value_of_mem {l : Recency K V} {k : K} {v : V} (hn : (l.map (·.1)).Nodup) (h : (k, v) ∈ l) :
    l.value k = some v := by
  obtain ⟨A, B, rfl⟩ := List.append_of_mem h
  apply value_split
  intro a ha e
  rw [List.map_append, List.map_cons] at hn
  exact (List.nodup_append.mp hn).2.2 a.1 (List.mem_map.mpr ⟨a, ha, rfl⟩) k (by simp) e

theorem split_without {l A B : Recency K V} {k k' : K} {v' : V} (h : l.without k = A ++ (k', v') :: B) :
    ∃ A3 B3, l = A3 ++ (k', v') :: B3 ∧ ∀ a ∈ A, a ∈ A3 := by
  obtain ⟨l1, l2, rfl, h1, h2⟩ := List.filter_eq_append_iff.mp h
  obtain ⟨l3, l4, rfl, _, _, _⟩ := List.filter_eq_cons_iff.mp h2
  refine ⟨l1 ++ l3, l4, by simp, ?_⟩
  intro a ha
  rw [← h1] at ha
  simp [(List.mem_filter.mp ha).1]

/-- Touching a key: it becomes the most recent, the others keep their order. -/
theorem Inv.touch {cap : Nat} {l : Recency K V} {h : History K V} (i : Inv cap l h) (k : K) (v : V) (w : V)
    (hv : l.value k = some w) (h' : History K V)
    (hs : stored k h' = some v) (hs' : ∀ k', k' ≠ k → stored k' h' = stored k' h)
    (hu' : ∀ k', k' ≠ k → usedSince k' h' = k :: usedSince k' h) :
    Inv cap ((k, v) :: l.without k) h' := by
  have hlen : (l.without k).length < l.length := by
    unfold without
    rw [List.length_filter_lt_length_iff_exists]
    exact ⟨(k, w), mem_of_value hv, by simp⟩
  constructor
  · simp only [List.map_cons, List.nodup_cons]
    refine ⟨?_, nodup_without i.nodup k⟩
    intro hm
    obtain ⟨a, ha, e⟩ := List.mem_map.mp hm
    exact value_none.mp (value_without_self l k) a ha e
  · have := i.bound; simp; omega
  · intro k' v' hv'
    by_cases e : k = k'
    · subst e; rw [value_cons_self] at hv'; rw [hs]; exact hv'
    · rw [value_cons_ne _ _ e, value_without_ne _ e] at hv'
      rw [hs' k' fun h => e h.symm]
      exact i.sound _ _ hv'
  · intro A k' v' B hl a ha
    rcases List.cons_eq_append_iff.mp hl with ⟨rfl, _⟩ | ⟨A', rfl, hl'⟩
    · simp at ha
    · have hne : k' ≠ k := by
        have : (k', v') ∈ l.without k := by rw [hl']; simp
        simpa using (List.mem_filter.mp this).2
      rw [hu' k' hne]
      rcases List.mem_cons.mp ha with rfl | ha
      · simp
      · obtain ⟨A3, B3, e1, e2⟩ := split_without hl'
        exact List.mem_cons_of_mem _ (i.order _ _ _ _ e1 a (e2 a ha))
  · intro k' v' hst
    by_cases e : k = k'
    · subst e
      rw [hs] at hst
      exact .inl (by rw [value_cons_self]; exact hst)
    · have e' : k' ≠ k := fun h => e h.symm
      rw [hs' k' e'] at hst
      rw [hu' k' e']
      rcases i.kept k' v' hst with hv' | hfull
      · exact .inl (by rw [value_cons_ne _ _ e, value_without_ne _ e]; exact hv')
      · refine .inr (Nat.le_trans hfull ?_)
        exact card_le (List.nodup_dedup _) fun x hx => List.mem_cons_of_mem _ (List.mem_dedup.mp hx)

/-- A new key in a cache, possibly pushing out the last entry. -/
theorem Inv.push {cap : Nat} (hc : 0 < cap) {l : Recency K V} {h : History K V} (i : Inv cap l h) (k : K) (v : V)
    (hv : l.value k = none) (h' : History K V)
    (hs : stored k h' = some v) (hs' : ∀ k', k' ≠ k → stored k' h' = stored k' h)
    (hu' : ∀ k', k' ≠ k → usedSince k' h' = k :: usedSince k' h) :
    Inv cap (l.put cap k v) h' := by
  have hput : ∃ R, l.put cap k v = (k, v) :: R ∧ (R = l ∧ l.length < cap ∨ R = l.dropLast ∧ l.length = cap) := by
    unfold put
    rw [hv]
    by_cases hf : cap ≤ l.length
    · exact ⟨l.dropLast, by simp [hf], .inr ⟨rfl, Nat.le_antisymm i.bound hf⟩⟩
    · exact ⟨l, by simp [hf], .inl ⟨rfl, by omega⟩⟩
  obtain ⟨R, e, hR⟩ := hput
  rw [e]
  have hsub : R.Sublist l := by rcases hR with ⟨rfl, _⟩ | ⟨rfl, _⟩; exact List.Sublist.refl _; exact List.dropLast_sublist _
  have hk : ∀ a ∈ R, a.1 ≠ k := fun a ha => value_none.mp hv a (hsub.subset ha)
  constructor
  · simp only [List.map_cons, List.nodup_cons]
    refine ⟨?_, i.nodup.sublist (hsub.map _)⟩
    intro hm
    obtain ⟨a, ha, e⟩ := List.mem_map.mp hm
    exact hk a ha e
  · rcases hR with ⟨rfl, h1⟩ | ⟨rfl, h1⟩ <;> simp <;> omega
  · intro k' v' hv'
    by_cases e : k = k'
    · subst e; rw [value_cons_self] at hv'; rw [hs]; exact hv'
    · rw [value_cons_ne _ _ e] at hv'
      rw [hs' k' fun h => e h.symm]
      exact i.sound _ _ (value_of_mem i.nodup (hsub.subset (mem_of_value hv')))
  · intro A k' v' B hl a ha
    rcases List.cons_eq_append_iff.mp hl with ⟨rfl, _⟩ | ⟨A', rfl, hl'⟩
    · simp at ha
    · have hne : k' ≠ k := hk (k', v') (by rw [hl']; simp)
      rw [hu' k' hne]
      rcases List.mem_cons.mp ha with rfl | ha
      · simp
      · apply List.mem_cons_of_mem
        rcases hR with ⟨rfl, _⟩ | ⟨rfl, hlen⟩
        · exact i.order _ _ _ _ hl' a ha
        · have hne : l ≠ [] := by rintro rfl; simp at hlen; omega
          have := List.dropLast_append_getLast hne
          rw [hl'] at this
          exact i.order A' k' v' (B ++ [l.getLast hne]) (by simpa using this.symm) a ha
  · intro k' v' hst
    by_cases e : k = k'
    · subst e
      rw [hs] at hst
      exact .inl (by rw [value_cons_self]; exact hst)
    · have e' : k' ≠ k := fun h => e h.symm
      rw [hs' k' e'] at hst
      rw [hu' k' e', value_cons_ne _ _ e]
      rcases i.kept k' v' hst with hv' | hfull
      · rcases hR with ⟨rfl, _⟩ | ⟨rfl, hlen⟩
        · exact .inl hv'
        · have hne : l ≠ [] := by rintro rfl; simp at hlen; omega
          have hl := (List.dropLast_append_getLast hne).symm
          have hm := mem_of_value hv'
          rw [hl] at hm
          rcases List.mem_append.mp hm with hm | hm
          · exact .inl (value_of_mem (i.nodup.sublist (hsub.map _)) hm)
          · right
            simp only [List.mem_singleton] at hm
            rw [← hm] at hl
            have hA := i.order _ _ _ _ hl
            have hn : (((k, v) :: l.dropLast).map (·.1)).Nodup := by
              simp only [List.map_cons, List.nodup_cons]
              refine ⟨?_, i.nodup.sublist (hsub.map _)⟩
              intro hm
              obtain ⟨a, ha, e⟩ := List.mem_map.mp hm
              exact hk a ha e
            have := card_le hn (U := k :: usedSince k' h) fun x hx => by
              obtain ⟨a, ha, rfl⟩ := List.mem_map.mp hx
              rcases List.mem_cons.mp ha with rfl | ha
              · simp
              · exact List.mem_cons_of_mem _ (hA a ha)
            simp at this
            omega
      · refine .inr (Nat.le_trans hfull ?_)
        exact card_le (List.nodup_dedup _) fun x hx => List.mem_cons_of_mem _ (List.mem_dedup.mp hx)

/-- An operation that changes nothing. -/
theorem Inv.same {cap : Nat} {l : Recency K V} {h h' : History K V} (i : Inv cap l h)
    (hs : ∀ k, stored k h' = stored k h) (hu : ∀ k, usedSince k h' = usedSince k h) : Inv cap l h' :=
  ⟨i.nodup, i.bound, fun k v hv => by rw [hs]; exact i.sound k v hv,
   fun A k v B hl a ha => by rw [hu]; exact i.order A k v B hl a ha,
   fun k v hv => by rw [hs] at hv; rw [hu]; exact i.kept k v hv⟩

theorem inv_step {cap : Nat} (hc : 0 < cap) {l : Recency K V} {h : History K V} (i : Inv cap l h) (op : CacheOp K V) :
    Inv cap (Recency.step cap l op).1 ((op, (Recency.step cap l op).2) :: h) := by
  cases op with
  | contains k => exact i.same (fun _ => rfl) (fun _ => rfl)
  | insert k v =>
    simp only [step]
    have hs : stored k ((CacheOp.insert k v, CacheRes.unit) :: h) = some v := by simp [stored]
    have hs' : ∀ k', k' ≠ k → stored k' ((CacheOp.insert k v, CacheRes.unit) :: h) = stored k' h := by
      intro k' e; simp [stored, Ne.symm e]
    have hu' : ∀ k', k' ≠ k → usedSince k' ((CacheOp.insert k v, CacheRes.unit) :: h) = k :: usedSince k' h := by
      intro k' e; simp [usedSince, Ne.symm e]
    cases hv : l.value k with
    | none => exact i.push hc k v hv _ hs hs' hu'
    | some w =>
      have : l.put cap k v = (k, v) :: l.without k := by simp [put, hv]
      rw [this]
      exact i.touch k v w hv _ hs hs' hu'
  | get k =>
    simp only [step]
    cases hv : l.value k with
    | none => exact i.same (fun _ => rfl) (fun _ => rfl)
    | some w =>
      exact i.touch k w w hv _ (by simpa [stored] using i.sound _ _ hv) (fun _ _ => rfl)
        (fun k' e => by simp [usedSince, Ne.symm e])
  | putIfAbsent k v =>
    simp only [step]
    cases hv : l.value k with
    | none =>
      exact i.push hc k v hv _ (by simp [stored]) (fun k' e => by simp [stored, Ne.symm e])
        (fun k' e => by simp [usedSince, Ne.symm e])
    | some w =>
      exact i.touch k w w hv _ (by simpa [stored] using i.sound _ _ hv) (fun _ _ => rfl)
        (fun k' e => by simp [usedSince, Ne.symm e])
  | evict k =>
    simp only [step]
    constructor
    · exact nodup_without i.nodup k
    · exact Nat.le_trans (List.length_filter_le _ _) i.bound
    · intro k' v' hv'
      by_cases e : k = k'
      · subst e; rw [value_without_self] at hv'; simp at hv'
      · rw [value_without_ne _ e] at hv'
        simpa [stored, e] using i.sound _ _ hv'
    · intro A k' v' B hl a ha
      obtain ⟨A3, B3, e1, e2⟩ := split_without hl
      exact i.order _ _ _ _ e1 a (e2 a ha)
    · intro k' v' hst
      by_cases e : k = k'
      · subst e; simp [stored] at hst
      · simp only [stored, e, if_false] at hst
        rcases i.kept k' v' hst with hv' | hfull
        · exact .inl (by rw [value_without_ne _ e]; exact hv')
        · exact .inr hfull
  | clear => exact ⟨by simp [step], by simp [step], by simp [step, value], by simp [step], by simp [stored]⟩

theorem inv_of_reach {cap : Nat} (hc : 0 < cap) {l : Recency K V} {h : History K V} (r : Reach cap l h) :
    Inv cap l h := by
  induction r with
  | init => exact ⟨by simp, by simp, by simp [value], by simp, by simp [stored]⟩
  | step op _ ih => exact inv_step hc ih op

end Spec.Recency

/-- The history (latest first) of a run. -/
def historyOf (ops : List (CacheOp K V)) (rs : List (CacheRes V)) : History K V := (ops.zip rs).reverse

/-- C22: after any sequence of operations on a cache of capacity `cap`:
the number of entries is at most `cap`; what a lookup finds is the value last stored for the key and
not removed since; and a stored key is found if fewer than `cap` other keys were used since its
last use. -/
theorem C22_history (cap : Nat) (hc : 0 < cap) (ops : List (CacheOp K V)) :
    ∃ s rs, (LRU.init cap : LRU K V).run ops = some (s, rs) ∧ s.size ≤ cap ∧
      ∀ k, ∃ s' r, s.step (.get k) = some (s', r) ∧
        (∀ v, r = .value v → stored k (historyOf ops rs) = some v) ∧
        (∀ v, stored k (historyOf ops rs) = some v → (usedSince k (historyOf ops rs)).dedup.length < cap →
          r = .value v) := by
  obtain ⟨s, L, e, r, a, c⟩ := LRU.run_rep (LRU.rep_init (K := K) (V := V) cap) hc ops
  have c' : s.capacity = cap := c
  have a' : LRU.abs L = (Recency.run cap [] ops).1 := a
  have i := Recency.inv_of_reach hc (Recency.reach_run (Recency.Reach.init (K := K) (V := V) (cap := cap)) ops)
  rw [← a', List.append_nil] at i
  refine ⟨s, _, e, ?_, ?_⟩
  · rw [r.size]; have := i.bound; simpa [LRU.abs] using this
  · intro k
    obtain ⟨s', L', e', _, _, _⟩ := LRU.step_rep r (by omega) (.get k)
    refine ⟨s', _, e', ?_, ?_⟩
    · intro v hv
      cases hh : (LRU.abs L).value k with
      | none => simp [Recency.step, hh] at hv
      | some w =>
        simp only [Recency.step, hh, CacheRes.value.injEq] at hv
        subst hv
        exact i.sound k w hh
    · intro v hst hlt
      rcases i.kept k v hst with this | hfull
      · simp [Recency.step, this]
      · exact absurd hlt (by unfold historyOf; exact Nat.not_lt.mpr hfull)

/-- C22: an insertion removes at most one other key, only when the cache is full, and then every
other key in the cache was used after the removed one. -/
theorem C22_victim (cap : Nat) (hc : 0 < cap) (ops : List (CacheOp K V)) (k : K) (v : V) :
    ∃ s rs s', (LRU.init cap : LRU K V).run ops = some (s, rs) ∧ s.insert k v = some s' ∧
      s'.contains k = true ∧
      ∀ k', s.contains k' = true → s'.contains k' = false →
        s.size = cap ∧ s.contains k = false ∧
        ∀ k'', k'' ≠ k' → s.contains k'' = true → s'.contains k'' = true ∧ k'' ∈ usedSince k' (historyOf ops rs) := by
  obtain ⟨s, L, e, r, a, c⟩ := LRU.run_rep (LRU.rep_init (K := K) (V := V) cap) hc ops
  have c' : s.capacity = cap := c
  have a' : LRU.abs L = (Recency.run cap [] ops).1 := a
  have i := Recency.inv_of_reach hc (Recency.reach_run (Recency.Reach.init (K := K) (V := V) (cap := cap)) ops)
  rw [← a', List.append_nil] at i
  obtain ⟨s', L', e', r', ab', _, _⟩ := LRU.insert_rep r (by omega) k v
  have hcon : ∀ (s : LRU K V) L, LRU.Rep s L → ∀ k, s.contains k = ((LRU.abs L).value k).isSome := by
    intro s L r k
    unfold LRU.contains
    cases hv : (LRU.abs L).value k with
    | none => rw [r.find_none (LRU.none_of_value hv)]; rfl
    | some v =>
      obtain ⟨A, B, i, rfl⟩ := LRU.split_of_value hv
      rw [r.find_some (k := k) (v := v) (i := i) (by simp)]; rfl
  refine ⟨s, _, s', e, e', ?_, ?_⟩
  · rw [hcon s' L' r', ab', Recency.put]
    split <;> (try split) <;> rw [Recency.value_cons_self] <;> rfl
  · intro k' h1 h2
    rw [hcon s' L' r', ab', c'] at h2
    rw [hcon s L r] at h1
    have hkk : k ≠ k' := by
      rintro rfl
      rw [Recency.put] at h2
      split at h2 <;> (try split at h2) <;> rw [Recency.value_cons_self] at h2 <;> simp at h2
    cases hk : (LRU.abs L).value k with
    | some w =>
      rw [Recency.put] at h2
      simp only [hk] at h2
      rw [Recency.value_cons_ne _ _ hkk, Recency.value_without_ne _ hkk] at h2
      rw [h2] at h1; simp at h1
    | none =>
      have hput : (LRU.abs L).put cap k v = if cap ≤ (LRU.abs L).length then (k, v) :: (LRU.abs L).dropLast
          else (k, v) :: (LRU.abs L) := by simp [Recency.put, hk]
      rw [hput] at h2
      split at h2
      · rename_i hf
        have hlen : (LRU.abs L).length = cap := Nat.le_antisymm i.bound hf
        rw [Recency.value_cons_ne _ _ hkk] at h2
        obtain ⟨v', hv'⟩ := Option.isSome_iff_exists.mp h1
        have hmem := Recency.mem_of_value hv'
        have hne : LRU.abs L ≠ [] := by intro h; rw [h] at hmem; simp at hmem
        have hlast : LRU.abs L = (LRU.abs L).dropLast ++ [(k', v')] := by
          have := (List.dropLast_append_getLast hne).symm
          rw [this] at hmem
          rcases List.mem_append.mp hmem with hm | hm
          · have hn : ((LRU.abs L).dropLast.map (·.1)).Nodup := i.nodup.sublist ((List.dropLast_sublist _).map _)
            rw [Recency.value_of_mem hn hm] at h2; simp at h2
          · simp only [List.mem_singleton] at hm
            rw [← hm] at this; exact this
        refine ⟨by rw [r.size]; simpa [LRU.abs] using hlen, by rw [hcon s L r, hk]; rfl, ?_⟩
        intro k'' hne' h3
        rw [hcon s L r] at h3
        obtain ⟨v'', hv''⟩ := Option.isSome_iff_exists.mp h3
        have hm'' := Recency.mem_of_value hv''
        have hdrop : (k'', v'') ∈ (LRU.abs L).dropLast := by
          rw [hlast] at hm''
          rcases List.mem_append.mp hm'' with hm | hm
          · exact hm
          · simp at hm; exact absurd hm.1 hne'
        constructor
        · rw [hcon s' L' r', ab', c', hput, if_pos hf]
          by_cases e2 : k = k''
          · subst e2; rw [Recency.value_cons_self]; rfl
          · have hn : ((LRU.abs L).dropLast.map (·.1)).Nodup := i.nodup.sublist ((List.dropLast_sublist _).map _)
            rw [Recency.value_cons_ne _ _ e2, Recency.value_of_mem hn hdrop]; rfl
        · exact i.order _ _ _ _ hlast _ hdrop
      · rw [Recency.value_cons_ne _ _ hkk] at h2
        rw [h2] at h1; simp at h1

/-- C22, C23: the counters: the number of lookups and of successful lookups since the last `clear`,
exactly. -/
theorem C22_counters (cap : Nat) (hc : 0 < cap) (ops : List (CacheOp K V)) :
    ∃ s rs, (LRU.init cap : LRU K V).run ops = some (s, rs) ∧
      s.total = lookups (historyOf ops rs) ∧ s.hits = found (historyOf ops rs) := by
  have main : ∀ (ops : List (CacheOp K V)) (s : LRU K V) (L : List (Nat × K × V)) (h : History K V),
      LRU.Rep s L → 0 < s.capacity → s.total = lookups h → s.hits = found h →
      ∃ s' rs, s.run ops = some (s', rs) ∧ s'.total = lookups ((ops.zip rs).reverse ++ h) ∧
        s'.hits = found ((ops.zip rs).reverse ++ h) := by
    intro ops
    induction ops with
    | nil => intro s L h _ _ ht hh; exact ⟨s, [], rfl, by simpa using ht, by simpa using hh⟩
    | cons op ops ih =>
      intro s L h r hc ht hh
      obtain ⟨s1, L1, e1, r1, _, c1⟩ := LRU.step_rep r hc op
      obtain ⟨t1, h1⟩ := LRU.step_counters r hc op e1 h ht hh
      obtain ⟨s2, rs, e2, t2, h2⟩ := ih s1 L1 _ r1 (by omega) t1 h1
      refine ⟨s2, _ :: rs, by simp only [LRU.run, e1, e2]; rfl, by simpa using t2, by simpa using h2⟩
  obtain ⟨s, rs, e, t, h⟩ := main ops (LRU.init cap) [] [] (LRU.rep_init cap) hc rfl rfl
  exact ⟨s, rs, e, by simpa [historyOf] using t, by simpa [historyOf] using h⟩

/-- C22, C23: the eviction counter: in every step other than `clear`, evictions plus entries grows
by one exactly if the step adds a key that was not in the cache; so every entry that disappears is
counted once. -/
theorem C22_evicts (cap : Nat) (hc : 0 < cap) (ops : List (CacheOp K V)) (op : CacheOp K V) :
    ∃ s rs s' r, (LRU.init cap : LRU K V).run ops = some (s, rs) ∧ s.step op = some (s', r) ∧
      CountsEvictions s op s' := by
  obtain ⟨s, L, e, r, a, c⟩ := LRU.run_rep (LRU.rep_init (K := K) (V := V) cap) hc ops
  obtain ⟨s', L', e', r', a', c'⟩ := LRU.step_rep r (by rw [c]; exact hc) op
  exact ⟨s, _, s', _, e, e', LRU.step_evicts r (by rw [c]; exact hc) op e'⟩

/-- A cache of capacity 0 is not usable: the first insertion decrements `end()` of an empty list. -/
theorem C22_zero_capacity (k : K) (v : V) : (LRU.init 0 : LRU K V).insert k v = none := rfl

/-! ### Sanity: concrete runs meet the hypotheses and the bound is tight -/
example : ((LRU.init 2 : LRU Nat Nat).run [.insert 1 10, .insert 2 20, .get 1, .insert 3 30, .get 2, .get 1]).map (·.2) =
    some [.unit, .unit, .value 10, .unit, .error, .value 10] := rfl
example : stored 2 (historyOf [CacheOp.insert 1 10, .insert 2 20, .get 1, .insert 3 30]
    [CacheRes.unit, .unit, .value 10, .unit]) = some 20 ∧
    (usedSince 2 (historyOf [CacheOp.insert 1 10, .insert 2 20, .get 1, .insert 3 30]
    [CacheRes.unit, .unit, .value 10, .unit])) = [3, 1] := by decide

/-! ## C23: the sharded cache -/
namespace ShardedCache

/-- A schedule: operations with the index of their bucket.  Every operation holds the lock of its
bucket and touches no other bucket, so a concurrent execution is such a sequence; `clear()` is one
`clear` per bucket. -/
def run (c : ShardedCache K V) : List (Nat × CacheOp K V) → Option (ShardedCache K V × List (CacheRes V))
  | [] => some (c, [])
  | (i, op) :: ops => match c.onBucket i op with
    | none => none
    | some (c, r) => match run c ops with
      | none => none
      | some (c, rs) => some (c, r :: rs)

/-- The reachable shape: every bucket is a represented LRU of positive capacity. -/
def Good (c : ShardedCache K V) : Prop := ∀ b ∈ c.buckets, 0 < b.capacity ∧ ∃ L, LRU.Rep b L

theorem onBucket_good {c : ShardedCache K V} (h : Good c) {i : Nat} {b : LRU K V} (hb : c.buckets[i]? = some b)
    (op : CacheOp K V) : ∃ b' r, b.step op = some (b', r) ∧ b'.capacity = b.capacity ∧
      c.onBucket i op = some ({ c with buckets := c.buckets.set i b' }, r) ∧
      Good { c with buckets := c.buckets.set i b' } := by
  obtain ⟨hc, L, r⟩ := h b (List.mem_of_getElem? hb)
  obtain ⟨b', L', e, r', _, c'⟩ := LRU.step_rep r hc op
  refine ⟨b', _, e, c', by simp only [onBucket, hb, e], ?_⟩
  intro x hx
  rcases List.mem_or_eq_of_mem_set hx with hx | rfl
  · exact h x hx
  · exact ⟨by omega, L', r'⟩

/-- Each bucket evolves exactly as if it received its own operations alone. -/
theorem run_buckets (xs : List (Nat × CacheOp K V)) : ∀ (c : ShardedCache K V), Good c →
    (∀ x ∈ xs, x.1 < c.buckets.length) →
    ∃ c' rs, c.run xs = some (c', rs) ∧ rs.length = xs.length ∧ c'.buckets.length = c.buckets.length ∧ Good c' ∧
      ∀ j b, c.buckets[j]? = some b → ∃ b', c'.buckets[j]? = some b' ∧ b'.capacity = b.capacity ∧
        b.run ((xs.filter fun x => x.1 = j).map (·.2)) =
          some (b', ((xs.zip rs).filter fun x => x.1.1 = j).map (·.2)) := by
  induction xs with
  | nil =>
    intro c h _
    exact ⟨c, [], rfl, rfl, rfl, h, fun j b hb => ⟨b, hb, rfl, rfl⟩⟩
  | cons x xs ih =>
    intro c h hx
    obtain ⟨i, op⟩ := x
    have hi : i < c.buckets.length := hx (i, op) (by simp)
    have hb := List.getElem?_eq_getElem hi
    obtain ⟨b1, r, e1, c1, e2, g⟩ := onBucket_good h hb op
    obtain ⟨c', rs, e3, l3, l4, g', h3⟩ := ih { c with buckets := c.buckets.set i b1 } g
      (fun y hy => by simpa using hx y (by simp [hy]))
    refine ⟨c', r :: rs, by simp only [run, e2, e3], by simp [l3], by simpa using l4, g', ?_⟩
    intro j b hj
    by_cases hij : i = j
    · subst hij
      obtain ⟨b', hb', hcap, hrun⟩ := h3 i b1 (by simp [hi])
      rw [hb] at hj
      simp only [Option.some.injEq] at hj
      subst hj
      refine ⟨b', hb', by omega, ?_⟩
      simp only [List.filter_cons, List.zip_cons_cons, decide_true, if_true, List.map_cons, LRU.run, e1, hrun]
    · obtain ⟨b', hb', hcap, hrun⟩ := h3 j b (by simpa [List.getElem?_set, hij] using hj)
      refine ⟨b', hb', hcap, ?_⟩
      simpa [List.filter_cons, hij] using hrun

theorem sum_replicate (n x : Nat) : (List.replicate n x).sum = n * x := by
  induction n with
  | zero => simp
  | succ n ih => simp [List.replicate_succ, ih, Nat.succ_mul]; omega

theorem init_good {cap exp : Nat} {c : ShardedCache K V} (h : init cap exp = some c) :
    Good c ∧ c.buckets.length = 2 ^ exp ∧ (c.buckets.map (·.capacity)).sum = cap ∧ c.exp = exp ∧
    ∀ b ∈ c.buckets, b = LRU.init b.capacity := by
  unfold init at h
  split at h
  · rename_i hc
    simp only at h
    split at h
    · rename_i hl
      simp only [Option.some.injEq] at h
      subst h
      have hpos : 0 < 2 ^ exp := hc.2
      have hper : cap >>> exp = cap / 2 ^ exp := Nat.shiftRight_eq_div_pow _ _
      have hper1 : 0 < cap >>> exp := by
        rw [hper]; exact Nat.div_pos (by omega) hpos
      have hmul : (2 ^ exp - 1) * (cap >>> exp) ≤ cap := by
        rw [hper]
        calc (2 ^ exp - 1) * (cap / 2 ^ exp) ≤ 2 ^ exp * (cap / 2 ^ exp) := Nat.mul_le_mul_right _ (by omega)
          _ ≤ cap := Nat.mul_div_le _ _
      refine ⟨?_, by simp; omega, ?_, rfl, ?_⟩
      · intro b hb
        rcases List.mem_append.mp hb with hb | hb
        · obtain ⟨_, rfl⟩ := List.mem_replicate.mp hb
          exact ⟨hper1, [], LRU.rep_init _⟩
        · simp only [List.mem_singleton] at hb; subst hb
          exact ⟨hl, [], LRU.rep_init _⟩
      · simp only [List.map_append, List.map_replicate, List.sum_append, sum_replicate, List.map_cons, List.map_nil,
          List.sum_cons, List.sum_nil, LRU.init]
        omega
      · intro b hb
        rcases List.mem_append.mp hb with hb | hb
        · obtain ⟨_, rfl⟩ := List.mem_replicate.mp hb; rfl
        · simp only [List.mem_singleton] at hb; subst hb; rfl
    · simp at h
  · simp at h

end ShardedCache

/-- C23: routing: every key (and hint) goes to one of the buckets, chosen by the hint if it is not
negative and by the hash of the key otherwise. -/
theorem C23_routing (hash : K → UInt64) (exp : Nat) (k : K) (hint : Int) :
    ShardedCache.bucketIndex hash exp k hint < 2 ^ exp ∧
    ShardedCache.bucketIndex hash exp k hint = (if hint < 0 then (hash k).toNat else hint.toNat) % 2 ^ exp := by
  have key : ∀ n : Nat, n &&& (2 ^ exp - 1) = n % 2 ^ exp := fun n => Nat.and_two_pow_sub_one_eq_mod n exp
  have e : ShardedCache.bucketIndex hash exp k hint = (if hint < 0 then (hash k).toNat else hint.toNat) % 2 ^ exp := by
    unfold ShardedCache.bucketIndex
    by_cases h : hint < 0
    · have : ¬ hint ≥ 0 := by omega
      simp [h, key, this]
    · have : hint ≥ 0 := by omega
      simp [h, key, this]
  exact ⟨by rw [e]; exact Nat.mod_lt _ (Nat.two_pow_pos exp), e⟩

/-- C23: for every schedule, every bucket behaves as an LRU cache of its own that receives exactly
the operations routed to it, in their order, and the capacities add up to the requested capacity. -/
theorem C23_independent (cap exp : Nat) (hc : 2 ^ exp < cap) (xs : List (Nat × CacheOp K V))
    (hx : ∀ x ∈ xs, x.1 < 2 ^ exp) :
    ∃ c c' rs, (ShardedCache.init cap exp : Option (ShardedCache K V)) = some c ∧ c.run xs = some (c', rs) ∧
      rs.length = xs.length ∧ c'.buckets.length = 2 ^ exp ∧ (c'.buckets.map (·.capacity)).sum = cap ∧
      (c'.buckets.map LRU.size).sum ≤ cap ∧
      ∀ j < 2 ^ exp, ∃ capj b, 0 < capj ∧ c'.buckets[j]? = some b ∧
        (LRU.init capj : LRU K V).run ((xs.filter fun x => x.1 = j).map (·.2)) =
          some (b, ((xs.zip rs).filter fun x => x.1.1 = j).map (·.2)) := by
  have hpos : 0 < 2 ^ exp := Nat.two_pow_pos exp
  have hper : cap >>> exp = cap / 2 ^ exp := Nat.shiftRight_eq_div_pow _ _
  have hleft : cap - (2 ^ exp - 1) * (cap >>> exp) > 0 := by
    have hp1 : 0 < cap >>> exp := by rw [hper]; exact Nat.div_pos (by omega) hpos
    have h1 : 2 ^ exp * (cap >>> exp) ≤ cap := by rw [hper]; exact Nat.mul_div_le _ _
    rw [Nat.sub_one_mul]; omega
  obtain ⟨c, hinit⟩ : ∃ c : ShardedCache K V, ShardedCache.init cap exp = some c := by
    unfold ShardedCache.init
    rw [if_pos ⟨hc, hpos⟩]
    simp only
    rw [if_pos hleft]
    exact ⟨_, rfl⟩
  obtain ⟨g, hlen, hsum, _, hb0⟩ := ShardedCache.init_good hinit
  obtain ⟨c', rs, e, l1, l2, g', hb⟩ := ShardedCache.run_buckets xs c g (fun x h => by rw [hlen]; exact hx x h)
  have hcaps : c'.buckets.map (·.capacity) = c.buckets.map (·.capacity) := by
    apply List.ext_getElem?
    intro j
    rw [List.getElem?_map, List.getElem?_map]
    cases hj : c.buckets[j]? with
    | none =>
      have : c'.buckets[j]? = none := by
        rw [List.getElem?_eq_none_iff] at hj ⊢; omega
      simp [this]
    | some b =>
      obtain ⟨b', h1, h2, _⟩ := hb j b hj
      simp [h1, h2]
  have hsize : ∀ (j : Nat) (b : LRU K V), c.buckets[j]? = some b → ∃ b' : LRU K V, c'.buckets[j]? = some b' ∧ b'.size ≤ b'.capacity := by
    intro j b hj
    obtain ⟨b', h1, h2, h3⟩ := hb j b hj
    have e0 := hb0 b (List.mem_of_getElem? hj)
    have hp : 0 < b.capacity := (g b (List.mem_of_getElem? hj)).1
    obtain ⟨s, rs', h4, h5, _⟩ := C22_history (K := K) (V := V) b.capacity hp ((xs.filter fun x => x.1 = j).map (·.2))
    rw [← e0, h3] at h4
    simp only [Option.some.injEq, Prod.mk.injEq] at h4
    exact ⟨b', h1, by rw [h2, h4.1]; exact h5⟩
  refine ⟨c, c', rs, hinit, e, l1, by omega, by rw [hcaps, hsum], ?_, ?_⟩
  · rw [← hsum, ← hcaps]
    have : ∀ l : List (LRU K V), (∀ b ∈ l, b.size ≤ b.capacity) → (l.map LRU.size).sum ≤ (l.map (·.capacity)).sum := by
      intro l
      induction l with
      | nil => simp
      | cons b l ih =>
        intro h
        have h1 := h b (by simp)
        have h2 := ih fun x hx => h x (by simp [hx])
        simp only [List.map_cons, List.sum_cons]; omega
    apply this
    intro b hbm
    obtain ⟨j, hj⟩ := List.getElem?_of_mem hbm
    have hj' : j < c.buckets.length := by
      have := (List.getElem?_eq_some_iff.mp hj).1; omega
    obtain ⟨b', h1, h2⟩ := hsize j _ (List.getElem?_eq_getElem hj')
    rw [hj] at h1; simp only [Option.some.injEq] at h1; subst h1; exact h2
  · intro j hj
    have hj' : j < c.buckets.length := by omega
    have hjb := List.getElem?_eq_getElem hj'
    obtain ⟨b', h1, h2, h3⟩ := hb j _ hjb
    refine ⟨_, b', (g _ (List.getElem_mem hj')).1, h1, ?_⟩
    rw [hb0 _ (List.getElem_mem hj')] at h3
    exact h3

/-- C23: the total counters: after any schedule `total()` and `hits()` are the sums, over the
buckets, of the lookups and of the successful lookups routed to the bucket since its last `clear`. -/
theorem C23_counters (cap exp : Nat) (hc : 2 ^ exp < cap) (xs : List (Nat × CacheOp K V))
    (hx : ∀ x ∈ xs, x.1 < 2 ^ exp) :
    ∃ c c' rs, (ShardedCache.init cap exp : Option (ShardedCache K V)) = some c ∧ c.run xs = some (c', rs) ∧
      c'.total = ((List.range (2 ^ exp)).map fun j => lookups (historyOf ((xs.filter fun x => x.1 = j).map (·.2))
        (((xs.zip rs).filter fun x => x.1.1 = j).map (·.2)))).sum ∧
      c'.hits = ((List.range (2 ^ exp)).map fun j => found (historyOf ((xs.filter fun x => x.1 = j).map (·.2))
        (((xs.zip rs).filter fun x => x.1.1 = j).map (·.2)))).sum := by
  obtain ⟨c, c', rs, hi, e, _, hl, _, _, hb⟩ := C23_independent cap exp hc xs hx
  refine ⟨c, c', rs, hi, e, ?_, ?_⟩
  all_goals
    unfold_projs
    first | unfold ShardedCache.total | unfold ShardedCache.hits
    congr 1
    apply List.ext_getElem?
    intro j
    by_cases hj : j < 2 ^ exp
    · obtain ⟨capj, b, hp, hbj, hr⟩ := hb j hj
      obtain ⟨s, rs', hr', ht, hh⟩ := C22_counters capj hp ((xs.filter fun x => x.1 = j).map (·.2))
      rw [hr'] at hr
      simp only [Option.some.injEq, Prod.mk.injEq] at hr
      obtain ⟨rfl, rfl⟩ := hr
      simp [hbj, hj, ht, hh]
    · simp [List.getElem?_eq_none_iff.mpr (show c'.buckets.length ≤ j by omega), hj]

namespace ShardedCache

/-- Whether an operation looks a key up. -/
def IsLookup : CacheOp K V → Bool
  | .get _ => true
  | .putIfAbsent _ _ => true
  | _ => false

/-- Whether an operation looked a key up and, by its result, found it. -/
def IsHit : CacheOp K V × CacheRes V → Bool
  | (op, .value _) => IsLookup op
  | _ => false

theorem lookups_eq (h : History K V) (hn : ∀ x ∈ h, x.1 ≠ .clear) :
    lookups h = h.countP (fun x => IsLookup x.1) ∧ found h = h.countP IsHit := by
  induction h with
  | nil => exact ⟨rfl, rfl⟩
  | cons x h ih =>
    obtain ⟨h1, h2⟩ := ih (fun y hy => hn y (by simp [hy]))
    have hx := hn x (by simp)
    obtain ⟨op, r⟩ := x
    cases op <;> cases r <;> simp_all [lookups, found, IsLookup, IsHit, List.countP_cons]

theorem sum_filter {α : Type} (p : α → Bool) (f : α → Nat) (n : Nat) (l : List α) (h : ∀ x ∈ l, f x < n) :
    ((List.range n).map fun j => (l.filter fun x => f x = j).countP p).sum = l.countP p := by
  induction l with
  | nil => simp [ShardedCache.sum_replicate]
  | cons x l ih =>
    have hx := h x (by simp)
    have ih := ih (fun y hy => h y (by simp [hy]))
    have key : ∀ m, ((List.range m).map fun j => ((x :: l).filter fun x => f x = j).countP p).sum =
        ((List.range m).map fun j => (l.filter fun x => f x = j).countP p).sum +
          (if f x < m ∧ p x then 1 else 0) := by
      intro m
      induction m with
      | zero => simp
      | succ m ihm =>
        rw [List.range_succ]
        simp only [List.map_append, List.sum_append, List.map_cons, List.map_nil, List.sum_cons, List.sum_nil, ihm]
        by_cases h1 : f x = m <;> by_cases h2 : p x <;> by_cases h3 : f x < m <;>
          simp [List.filter_cons, h1, h2, h3, List.countP_cons] <;> first | omega | (split <;> omega)
    rw [key n, ih, List.countP_cons]
    by_cases h2 : p x <;> simp [hx, h2]

theorem zip_filter {α β : Type} (q : α → Bool) : ∀ (xs : List α) (rs : List β), rs.length = xs.length →
    (xs.filter q).zip (((xs.zip rs).filter fun x => q x.1).map (·.2)) = (xs.zip rs).filter fun x => q x.1
  | [], _, _ => by simp
  | x :: xs, [], h => by simp at h
  | x :: xs, r :: rs, h => by
    have ih := zip_filter q xs rs (by simpa using h)
    by_cases hq : q x <;> simp [List.filter_cons, hq, ih]

theorem bucket_history (xs : List (Nat × CacheOp K V)) (rs : List (CacheRes V)) (hl : rs.length = xs.length) (j : Nat) :
    historyOf ((xs.filter fun x => x.1 = j).map (·.2)) (((xs.zip rs).filter fun x => x.1.1 = j).map (·.2)) =
      (((xs.zip rs).filter fun x => x.1.1 = j).map fun x => (x.1.2, x.2)).reverse := by
  have h := zip_filter (fun x : Nat × CacheOp K V => decide (x.1 = j)) xs rs hl
  unfold historyOf
  congr 1
  rw [List.zip_map_left, h]
  rfl

end ShardedCache

/-- C23: in a schedule without `clear`, `total()` is the number of lookups in the schedule and
`hits()` the number of those that returned a value, whatever the buckets they went to. -/
theorem C23_counters_exact (cap exp : Nat) (hc : 2 ^ exp < cap) (xs : List (Nat × CacheOp K V))
    (hx : ∀ x ∈ xs, x.1 < 2 ^ exp) (hn : ∀ x ∈ xs, x.2 ≠ .clear) :
    ∃ c c' rs, (ShardedCache.init cap exp : Option (ShardedCache K V)) = some c ∧ c.run xs = some (c', rs) ∧
      c'.total = xs.countP (fun x => ShardedCache.IsLookup x.2) ∧
      c'.hits = ((xs.map (·.2)).zip rs).countP ShardedCache.IsHit := by
  obtain ⟨c, c', rs, hi, e, ht, hh⟩ := C23_counters cap exp hc xs hx
  obtain ⟨d, d', rs', hi', e', hl, _⟩ := C23_independent cap exp hc xs hx
  rw [hi] at hi'; simp only [Option.some.injEq] at hi'; subst hi'
  rw [e] at e'; simp only [Option.some.injEq, Prod.mk.injEq] at e'; obtain ⟨rfl, rfl⟩ := e'
  have hj : ∀ j, lookups (historyOf ((xs.filter fun x => x.1 = j).map (·.2))
        (((xs.zip rs).filter fun x => x.1.1 = j).map (·.2))) =
        ((xs.zip rs).filter fun x => x.1.1 = j).countP (fun x => ShardedCache.IsLookup x.1.2) ∧
      found (historyOf ((xs.filter fun x => x.1 = j).map (·.2))
        (((xs.zip rs).filter fun x => x.1.1 = j).map (·.2))) =
        ((xs.zip rs).filter fun x => x.1.1 = j).countP (fun x => ShardedCache.IsHit (x.1.2, x.2)) := by
    intro j
    rw [ShardedCache.bucket_history xs rs hl j]
    have := ShardedCache.lookups_eq (((xs.zip rs).filter fun x => x.1.1 = j).map fun x => (x.1.2, x.2)).reverse (by
      intro x hx
      simp only [List.mem_reverse, List.mem_map, List.mem_filter] at hx
      obtain ⟨y, ⟨hy, _⟩, rfl⟩ := hx
      exact hn _ (List.of_mem_zip hy).1)
    rw [this.1, this.2, List.countP_reverse, List.countP_reverse, List.countP_map, List.countP_map]
    exact ⟨rfl, rfl⟩
  have hlt : ∀ x ∈ xs.zip rs, x.1.1 < 2 ^ exp := fun x h => hx _ (List.of_mem_zip h).1
  refine ⟨c, c', rs, hi, e, ?_, ?_⟩
  · rw [ht]
    simp only [fun j => (hj j).1]
    rw [ShardedCache.sum_filter _ (fun x : (Nat × CacheOp K V) × CacheRes V => x.1.1) _ _ hlt]
    have : xs = (xs.zip rs).map (·.1) := by rw [List.map_fst_zip (by omega)]
    conv => rhs; rw [this, List.countP_map]
    rfl
  · rw [hh]
    simp only [fun j => (hj j).2]
    rw [ShardedCache.sum_filter _ (fun x : (Nat × CacheOp K V) × CacheRes V => x.1.1) _ _ hlt, List.zip_map_left, List.countP_map]
    rfl

/-- C23: `evicts()`: in every step after any schedule, evictions plus entries of the whole cache
grow by one exactly if the step adds a key its bucket did not hold; an eviction by hand that finds
its key adds one; nothing else but `clear` changes it. -/
theorem C23_evicts (cap exp : Nat) (hc : 2 ^ exp < cap) (xs : List (Nat × CacheOp K V))
    (hx : ∀ x ∈ xs, x.1 < 2 ^ exp) (i : Nat) (hi : i < 2 ^ exp) (op : CacheOp K V) :
    ∃ c c' rs c'' r b b', (ShardedCache.init cap exp : Option (ShardedCache K V)) = some c ∧
      c.run xs = some (c', rs) ∧ c'.onBucket i op = some (c'', r) ∧
      c'.buckets[i]? = some b ∧ c''.buckets = c'.buckets.set i b' ∧ CountsEvictions b op b' ∧
      c''.evicts + b.evicts = c'.evicts + b'.evicts := by
  obtain ⟨c, _, _, hin, _⟩ := C23_independent cap exp hc xs hx
  obtain ⟨g, hlen, _, _, _⟩ := ShardedCache.init_good hin
  obtain ⟨c', rs, e, _, l, g', _⟩ := ShardedCache.run_buckets xs c g (fun x h => by rw [hlen]; exact hx x h)
  have hb := List.getElem?_eq_getElem (show i < c'.buckets.length by omega)
  obtain ⟨b', r, e1, _, e2, g2⟩ := ShardedCache.onBucket_good g' hb op
  obtain ⟨hcap, L, hr⟩ := g' _ (List.mem_of_getElem? hb)
  have hev := LRU.step_evicts hr hcap op e1
  have hsum : ∀ (l : List (LRU K V)) (i : Nat) (b b' : LRU K V), l[i]? = some b →
      ((l.set i b').map (·.evicts)).sum + b.evicts = (l.map (·.evicts)).sum + b'.evicts := by
    intro l
    induction l with
    | nil => intro i b b' h; simp at h
    | cons x l ih =>
      intro i b b' h
      cases i with
      | zero => simp at h; subst h; simp only [List.set_cons_zero, List.map_cons, List.sum_cons]; omega
      | succ i =>
        simp at h
        have := ih i b b' h
        simp only [List.set_cons_succ, List.map_cons, List.sum_cons]
        omega
  have hs := hsum c'.buckets i _ b' hb
  refine ⟨c, c', rs, _, r, _, b', hin, e, e2, hb, rfl, hev, hs⟩

/-- C23: two schedules in which every bucket sees the same operations in the same order leave the
same cache behind. -/
theorem C23_schedules (cap exp : Nat) (hc : 2 ^ exp < cap) (xs ys : List (Nat × CacheOp K V))
    (hx : ∀ x ∈ xs, x.1 < 2 ^ exp) (hy : ∀ x ∈ ys, x.1 < 2 ^ exp)
    (h : ∀ j, (xs.filter fun x => x.1 = j) = (ys.filter fun x => x.1 = j)) (c : ShardedCache K V)
    (hi : ShardedCache.init cap exp = some c) :
    (c.run xs).map (·.1.buckets) = (c.run ys).map (·.1.buckets) := by
  obtain ⟨g, hlen, _, _, _⟩ := ShardedCache.init_good hi
  obtain ⟨c1, rs1, e1, _, l1, _, hb1⟩ := ShardedCache.run_buckets xs c g (fun x h => by rw [hlen]; exact hx x h)
  obtain ⟨c2, rs2, e2, _, l2, _, hb2⟩ := ShardedCache.run_buckets ys c g (fun x h => by rw [hlen]; exact hy x h)
  rw [e1, e2]
  simp only [Option.map_some, Option.some.injEq]
  apply List.ext_getElem?
  intro j
  cases hj : c.buckets[j]? with
  | none =>
    rw [List.getElem?_eq_none_iff] at hj
    rw [List.getElem?_eq_none_iff.mpr (by omega), List.getElem?_eq_none_iff.mpr (by omega)]
  | some b =>
    obtain ⟨b1, h1, _, r1⟩ := hb1 j b hj
    obtain ⟨b2, h2, _, r2⟩ := hb2 j b hj
    rw [h j, r2] at r1
    simp only [Option.some.injEq, Prod.mk.injEq] at r1
    rw [h1, h2, r1.1]

/-- C23: `putIfAbsent` returns the value already there and leaves it, or inserts and reports so. -/
theorem C23_putIfAbsent (cap : Nat) (hc : 0 < cap) (ops : List (CacheOp K V)) (k : K) (v : V) :
    ∃ s rs s' r, (LRU.init cap : LRU K V).run ops = some (s, rs) ∧ s.step (.putIfAbsent k v) = some (s', r) ∧
      ((∃ w, r = .value w ∧ (s.step (.get k)).map (·.2) = some (.value w) ∧ (s'.step (.get k)).map (·.2) = some (.value w)) ∨
       (r = .inserted ∧ s.contains k = false ∧ (s'.step (.get k)).map (·.2) = some (.value v))) := by
  obtain ⟨s, L, e, r, a, c⟩ := LRU.run_rep (LRU.rep_init (K := K) (V := V) cap) hc ops
  have hcs : 0 < s.capacity := by rw [c]; exact hc
  obtain ⟨s', L', e', r', a', c'⟩ := LRU.step_rep r hcs (.putIfAbsent k v)
  obtain ⟨s1, L1, e1, _, _, _⟩ := LRU.step_rep r hcs (.get k)
  obtain ⟨s2, L2, e2, _, _, _⟩ := LRU.step_rep r' (by omega) (.get k)
  refine ⟨s, _, s', _, e, e', ?_⟩
  cases hv : (LRU.abs L).value k with
  | some w =>
    left
    refine ⟨w, by simp [Recency.step, hv], by simp [e1, Recency.step, hv], ?_⟩
    have : (LRU.abs L').value k = some w := by
      rw [a']; simp only [Recency.step, hv]; exact Recency.value_cons_self _ _ _
    simp [e2, Recency.step, this]
  | none =>
    right
    refine ⟨by simp [Recency.step, hv], ?_, ?_⟩
    · unfold LRU.contains; rw [r.find_none (LRU.none_of_value hv)]; rfl
    · have : (LRU.abs L').value k = some v := by
        rw [a']; simp only [Recency.step, hv, Recency.put]
        split <;> exact Recency.value_cons_self _ _ _
      simp [e2, Recency.step, this]

example : ∃ c c' rs, (ShardedCache.init 5 2 : Option (ShardedCache Nat Nat)) = some c ∧
    c.run [(0, .insert 4 1), (1, .putIfAbsent 5 2), (0, .get 4)] = some (c', rs) ∧
    rs = [.unit, .inserted, .value 1] := ⟨_, _, _, rfl, rfl, rfl⟩

example : ∃ c c' rs, (ShardedCache.init 5 2 : Option (ShardedCache Nat Nat)) = some c ∧
    c.run [(0, .insert 4 1), (1, .putIfAbsent 5 2), (0, .get 4), (0, .insert 8 1), (2, .get 4)] = some (c', rs) ∧
    c'.total = 3 ∧ c'.hits = 1 ∧ c'.evicts = 1 := ⟨_, _, _, rfl, rfl, rfl, rfl, rfl⟩

end Nebula
