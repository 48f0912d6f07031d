import Mathlib.Data.List.Perm.Subperm
import Mathlib.Data.List.Nodup
import Verif.Cache.Spec
/-!
# Refinement of the LRU cache to the recency list
-/
namespace Nebula
open Spec
variable {K V : Type} [DecidableEq K]

/-! ## The recency list -/
namespace Spec.Recency

theorem value_some {l : Recency K V} {k : K} {v : V} (h : l.value k = some v) :
    ∃ A B, l = A ++ (k, v) :: B ∧ ∀ a ∈ A, a.1 ≠ k := by
  unfold value at h
  induction l with
  | nil => simp at h
  | cons x l ih =>
    obtain ⟨k', w⟩ := x
    rw [List.lookup_cons] at h
    by_cases e : k = k'
    · subst e
      simp at h; subst h
      exact ⟨[], l, rfl, by simp⟩
    · have : (k == k') = false := by simpa using e
      simp only [this] at h
      obtain ⟨A, B, rfl, hA⟩ := ih h
      refine ⟨(k', w) :: A, B, rfl, ?_⟩
      intro a ha
      rcases List.mem_cons.mp ha with rfl | ha
      · exact fun h => e h.symm
      · exact hA a ha

theorem value_none {l : Recency K V} {k : K} : l.value k = none ↔ ∀ a ∈ l, a.1 ≠ k := by
  unfold value
  induction l with
  | nil => simp
  | cons x l ih =>
    obtain ⟨k', w⟩ := x
    rw [List.lookup_cons]
    by_cases e : k = k'
    · subst e; simp
    · have : (k == k') = false := by simpa using e
      simp only [this, ih, List.mem_cons, forall_eq_or_imp]
      exact ⟨fun h => ⟨fun h => e h.symm, h⟩, fun h => h.2⟩

theorem value_split {A B : Recency K V} {k : K} {v : V} (h : ∀ a ∈ A, a.1 ≠ k) :
    value (A ++ (k, v) :: B) k = some v := by
  unfold value
  induction A with
  | nil => simp
  | cons x A ih =>
    obtain ⟨k', w⟩ := x
    have e : (k == k') = false := by
      have := h (k', w) (by simp)
      simpa using fun h => this h.symm
    simp only [List.cons_append, List.lookup_cons, e]
    exact ih fun a ha => h a (by simp [ha])

theorem without_split {A B : Recency K V} {k : K} {v : V} (hA : ∀ a ∈ A, a.1 ≠ k) (hB : ∀ a ∈ B, a.1 ≠ k) :
    without (A ++ (k, v) :: B) k = A ++ B := by
  unfold without
  rw [List.filter_append, List.filter_cons]
  simp only [ne_eq, not_true, decide_false]
  rw [List.filter_eq_self.mpr, List.filter_eq_self.mpr]
  · simp
  · intro a ha; simpa using hB a ha
  · intro a ha; simpa using hA a ha

theorem without_none {l : Recency K V} {k : K} (h : l.value k = none) : l.without k = l := by
  unfold without
  rw [List.filter_eq_self]
  intro a ha
  simpa using value_none.mp h a ha

end Spec.Recency

/-! ## Refinement -/
namespace LRU

/-- `L` lists (node, key, value) in list order; the state is made of its parts. -/
structure Rep (s : LRU K V) (L : List (Nat × K × V)) : Prop where
  list : s.list = L.map fun e => (e.1, e.2.1)
  map : s.map.Perm (L.map fun e => (e.2.1, e.2.2, e.1))
  keys : (L.map fun e => e.2.1).Nodup
  ids : (L.map fun e => e.1).Nodup
  fresh : ∀ e ∈ L, e.1 < s.next

theorem Rep.find_some {s : LRU K V} {L : List (Nat × K × V)} (h : Rep s L) {k : K} {v : V} {i : Nat}
    (hm : (i, k, v) ∈ L) : s.find k = some (k, v, i) := by
  have hmem : (k, v, i) ∈ s.map := h.map.mem_iff.mpr (List.mem_map.mpr ⟨_, hm, rfl⟩)
  have hk : (s.map.map (·.1)).Nodup := by
    have := (h.map.map (·.1)).nodup_iff.mpr
    apply this
    rw [List.map_map]
    exact h.keys
  unfold find
  cases hf : s.map.find? (fun e => e.1 = k) with
  | none =>
    rw [List.find?_eq_none] at hf
    have := hf _ hmem
    simp at this
  | some e =>
    have h1 := List.mem_of_find?_eq_some hf
    have h2 := List.find?_some hf
    simp only [decide_eq_true_eq] at h2
    exact congrArg some (List.inj_on_of_nodup_map hk h1 hmem (by simpa using h2))

theorem Rep.find_none {s : LRU K V} {L : List (Nat × K × V)} (h : Rep s L) {k : K}
    (hm : ∀ e ∈ L, e.2.1 ≠ k) : s.find k = none := by
  unfold find
  rw [List.find?_eq_none]
  intro e he
  obtain ⟨x, hx, rfl⟩ := List.mem_map.mp (h.map.mem_iff.mp he)
  simpa using hm x hx

theorem Rep.size {s : LRU K V} {L : List (Nat × K × V)} (h : Rep s L) : s.size = L.length := by
  unfold LRU.size; rw [h.map.length_eq]; simp

/-- The abstraction. -/
def abs (L : List (Nat × K × V)) : Recency K V := L.map fun e => e.2

theorem split_of_value {L : List (Nat × K × V)} {k : K} {v : V} (h : (abs L).value k = some v) :
    ∃ A B i, L = A ++ (i, k, v) :: B := by
  obtain ⟨A, B, e, _⟩ := Recency.value_some h
  unfold abs at e
  obtain ⟨A', R, rfl, h1, h2⟩ := List.map_eq_append_iff.mp e
  obtain ⟨x, B', rfl, h3, h4⟩ := List.map_eq_cons_iff.mp h2
  obtain ⟨i, p⟩ := x
  simp only at h3; subst h3
  exact ⟨A', B', i, rfl⟩

theorem none_of_value {L : List (Nat × K × V)} {k : K} (h : (abs L).value k = none) : ∀ e ∈ L, e.2.1 ≠ k := by
  intro e he
  exact Recency.value_none.mp h e.2 (List.mem_map.mpr ⟨e, he, rfl⟩)

/-- Facts about a representation split at an entry. -/
theorem split_facts {A B : List (Nat × K × V)} {i : Nat} {k : K} {v : V}
    (hk : ((A ++ (i, k, v) :: B).map fun e => e.2.1).Nodup) (hi : ((A ++ (i, k, v) :: B).map fun e => e.1).Nodup) :
    (∀ e ∈ A, e.2.1 ≠ k) ∧ (∀ e ∈ B, e.2.1 ≠ k) ∧ (∀ e ∈ A, e.1 ≠ i) ∧ (∀ e ∈ B, e.1 ≠ i) := by
  simp only [List.map_append, List.map_cons, List.nodup_append, List.nodup_cons, List.mem_map, List.mem_cons] at hk hi
  obtain ⟨_, ⟨hk1, _⟩, hk2⟩ := hk
  obtain ⟨_, ⟨hi1, _⟩, hi2⟩ := hi
  refine ⟨?_, ?_, ?_, ?_⟩
  · intro e he h; exact hk2 _ ⟨e, he, rfl⟩ k (.inl rfl) h
  · intro e he h; exact hk1 ⟨e, he, h⟩
  · intro e he h; exact hi2 _ ⟨e, he, rfl⟩ i (.inl rfl) h
  · intro e he h; exact hi1 ⟨e, he, h⟩

theorem find_node {A B : List (Nat × K × V)} {i : Nat} {k : K} {v : V} (hA : ∀ e ∈ A, e.1 ≠ i) :
    ((A ++ (i, k, v) :: B).map fun e => (e.1, e.2.1)).find? (fun n => n.1 = i) = some (i, k) := by
  induction A with
  | nil => simp
  | cons x A ih =>
    have : x.1 ≠ i := hA x (by simp)
    simp only [List.cons_append, List.map_cons, List.find?_cons, this, decide_false]
    exact ih fun e he => hA e (by simp [he])

theorem filter_node {A B : List (Nat × K × V)} {i : Nat} {k : K} {v : V} (hA : ∀ e ∈ A, e.1 ≠ i) (hB : ∀ e ∈ B, e.1 ≠ i) :
    ((A ++ (i, k, v) :: B).map fun e => (e.1, e.2.1)).filter (fun n => n.1 ≠ i) =
      (A ++ B).map fun e => (e.1, e.2.1) := by
  rw [List.map_append, List.map_cons, List.filter_append, List.filter_cons]
  simp only [ne_eq, not_true, decide_false]
  rw [List.filter_eq_self.mpr, List.filter_eq_self.mpr]
  · simp
  · intro a ha; obtain ⟨e, he, rfl⟩ := List.mem_map.mp ha; simpa using hB e he
  · intro a ha; obtain ⟨e, he, rfl⟩ := List.mem_map.mp ha; simpa using hA e he

theorem filter_key {A B : List (Nat × K × V)} {i : Nat} {k : K} {v : V} (hA : ∀ e ∈ A, e.2.1 ≠ k) (hB : ∀ e ∈ B, e.2.1 ≠ k) :
    ((A ++ (i, k, v) :: B).map fun e => (e.2.1, e.2.2, e.1)).filter (fun x => x.1 ≠ k) =
      (A ++ B).map fun e => (e.2.1, e.2.2, e.1) := by
  rw [List.map_append, List.map_cons, List.filter_append, List.filter_cons]
  simp only [ne_eq, not_true, decide_false]
  rw [List.filter_eq_self.mpr, List.filter_eq_self.mpr]
  · simp
  · intro a ha; obtain ⟨e, he, rfl⟩ := List.mem_map.mp ha; simpa using hB e he
  · intro a ha; obtain ⟨e, he, rfl⟩ := List.mem_map.mp ha; simpa using hA e he

/-- What a lookup does to the representation. -/
theorem get_rep {s : LRU K V} {L : List (Nat × K × V)} (h : Rep s L) (k : K) :
    ((abs L).value k = none → s.get k = some ({ s with total := s.total + 1 }, none)) ∧
    (∀ v, (abs L).value k = some v → ∃ s' L', s.get k = some (s', some v) ∧ Rep s' L' ∧
      abs L' = (k, v) :: (abs L).without k ∧ s'.capacity = s.capacity ∧ s'.total = s.total + 1 ∧
      s'.hits = s.hits + 1 ∧ s'.evicts = s.evicts) := by
  constructor
  · intro hv
    unfold get
    rw [h.find_none (none_of_value hv)]
  · intro v hv
    obtain ⟨A, B, i, rfl⟩ := split_of_value hv
    obtain ⟨k1, k2, i1, i2⟩ := split_facts h.keys h.ids
    have hf := h.find_some (k := k) (v := v) (i := i) (by simp)
    have hn := find_node (B := B) (k := k) (v := v) i1
    have habs : (abs (A ++ (i, k, v) :: B)).without k = abs A ++ abs B := by
      unfold abs
      rw [List.map_append, List.map_cons]
      apply Recency.without_split
      · intro a ha; obtain ⟨e, he, rfl⟩ := List.mem_map.mp ha; exact k1 e he
      · intro a ha; obtain ⟨e, he, rfl⟩ := List.mem_map.mp ha; exact k2 e he
    have hp : ((i, k, v) :: (A ++ B)).Perm (A ++ (i, k, v) :: B) := List.perm_middle.symm
    refine ⟨{ s with total := s.total + 1, hits := s.hits + 1, list := (i, k) :: (A ++ B).map fun e => (e.1, e.2.1) },
      (i, k, v) :: (A ++ B), ?_, ?_, ?_, rfl, rfl, rfl, rfl⟩
    · unfold get
      rw [hf]
      simp only [h.list, hn]
      simp only [ne_eq, not_true, if_false]
      split
      · rename_i hh
        split at hh
        · simp at hh
        · simp [splice, hn] at hh
      · rename_i l hh
        split at hh
        · rename_i hhead
          simp only [Option.some.injEq] at hh
          cases A with
          | nil => simp at hh; simp [hh]
          | cons x A =>
            simp only [List.cons_append, List.map_cons, List.head?_cons, Option.some.injEq, Prod.mk.injEq] at hhead
            exact absurd hhead.1 (i1 x (by simp))
        · simp only [splice, hn, Option.some.injEq] at hh
          rw [filter_node i1 i2] at hh
          rw [← hh]
    · constructor
      · simp
      · exact h.map.trans (hp.map _).symm
      · exact (hp.map _).nodup_iff.mpr h.keys
      · exact (hp.map _).nodup_iff.mpr h.ids
      · intro e he; exact h.fresh e (hp.mem_iff.mp he)
    · rw [habs]; simp [abs]

theorem evictLast_rep {s : LRU K V} {L : List (Nat × K × V)} (h : Rep s L) (hne : L ≠ []) :
    ∃ s', s.evictLast = some s' ∧ Rep s' L.dropLast ∧ s'.capacity = s.capacity ∧ s'.total = s.total ∧
      s'.hits = s.hits ∧ s'.evicts = s.evicts + 1 ∧ s'.next = s.next := by
  obtain ⟨A, x, rfl⟩ : ∃ A x, L = A ++ [x] := ⟨L.dropLast, L.getLast hne, (List.dropLast_append_getLast hne).symm⟩
  obtain ⟨i, k, v⟩ := x
  obtain ⟨k1, k2, i1, i2⟩ := split_facts h.keys h.ids
  unfold evictLast
  have hl : s.list.getLast? = some (i, k) := by rw [h.list]; simp
  simp only [hl]
  refine ⟨_, rfl, ?_, rfl, rfl, rfl, rfl, rfl⟩
  rw [List.dropLast_concat]
  constructor
  · simp [h.list]
  · have := h.map.filter (fun x => x.1 ≠ k)
    rw [filter_key k1 k2] at this
    simpa using this
  · have := h.keys; rw [List.map_append] at this; exact this.of_append_left
  · have := h.ids; rw [List.map_append] at this; exact this.of_append_left
  · intro e he; exact h.fresh e (by simp [he])

/-- What an insertion does to the representation. -/
theorem insert_rep {s : LRU K V} {L : List (Nat × K × V)} (h : Rep s L) (hc : 0 < s.capacity) (k : K) (v : V) :
    ∃ s' L', s.insert k v = some s' ∧ Rep s' L' ∧ abs L' = (abs L).put s.capacity k v ∧
      s'.capacity = s.capacity ∧ s'.total = s.total ∧ s'.hits = s.hits ∧
      s'.evicts + L'.length = s.evicts + L.length + (if ((abs L).value k).isSome then 0 else 1) := by
  cases hv : (abs L).value k with
  | none =>
    have hnone := none_of_value hv
    have hf := h.find_none hnone
    have main : ∀ (s0 : LRU K V) (L0 : List (Nat × K × V)), Rep s0 L0 → (∀ e ∈ L0, e.2.1 ≠ k) →
        Rep { s0 with list := (s0.next, k) :: s0.list, map := (k, v, s0.next) :: s0.map, next := s0.next + 1 }
          ((s0.next, k, v) :: L0) := by
      intro s0 L0 h0 hk
      constructor
      · simp [h0.list]
      · exact h0.map.cons _
      · simp only [List.map_cons, List.nodup_cons, List.mem_map]
        exact ⟨fun ⟨e, he, h⟩ => hk e he h, h0.keys⟩
      · simp only [List.map_cons, List.nodup_cons, List.mem_map]
        exact ⟨fun ⟨e, he, h⟩ => by have := h0.fresh e he; omega, h0.ids⟩
      · intro e he
        rcases List.mem_cons.mp he with rfl | he
        · exact Nat.lt_succ_self _
        · exact Nat.lt_succ_of_lt (h0.fresh e he)
    unfold insert
    rw [hf]
    have hsz := h.size
    by_cases hfull : s.size ≥ s.capacity
    · have hne : L ≠ [] := by
        rintro rfl
        simp at hsz; omega
      obtain ⟨s1, e1, r1, c1, t1, hi1, ev1, _⟩ := evictLast_rep h hne
      simp only [hfull, if_true, e1]
      refine ⟨_, _, rfl, main s1 _ r1 fun e he => hnone e (List.dropLast_subset _ he), ?_, c1, t1, hi1, by
        have : 0 < L.length := List.length_pos_iff.mpr hne
        simp [ev1]; omega⟩
      have : s.capacity ≤ (abs L).length := by simp [abs]; omega
      simp only [Recency.put, hv, this, if_true]
      simp [abs, List.map_dropLast]
    · simp only [hfull, if_false]
      refine ⟨_, _, rfl, main s L h hnone, ?_, rfl, rfl, rfl, by simp; omega⟩
      have : ¬ s.capacity ≤ (abs L).length := by simp [abs]; omega
      simp only [Recency.put, hv, this, if_false]
      simp [abs]
  | some w =>
    obtain ⟨A, B, i, rfl⟩ := split_of_value hv
    obtain ⟨k1, k2, i1, i2⟩ := split_facts h.keys h.ids
    have hf := h.find_some (k := k) (v := w) (i := i) (by simp)
    have hn := find_node (B := B) (k := k) (v := w) i1
    have habs : (abs (A ++ (i, k, w) :: B)).without k = abs A ++ abs B := by
      unfold abs
      rw [List.map_append, List.map_cons]
      apply Recency.without_split
      · intro a ha; obtain ⟨e, he, rfl⟩ := List.mem_map.mp ha; exact k1 e he
      · intro a ha; obtain ⟨e, he, rfl⟩ := List.mem_map.mp ha; exact k2 e he
    have hp : ((i, k, v) :: (A ++ B)).Perm (A ++ (i, k, v) :: B) := List.perm_middle.symm
    have hp' : ((i, k, w) :: (A ++ B)).Perm (A ++ (i, k, w) :: B) := List.perm_middle.symm
    have hs : splice s.list i = some ((i, k) :: (A ++ B).map fun e => (e.1, e.2.1)) := by
      unfold splice
      rw [h.list, hn]
      simp only [filter_node i1 i2]
    refine ⟨{ s with map := s.map.map fun x => if x.1 = k then (x.1, v, x.2.2) else x
                     list := (i, k) :: (A ++ B).map fun e => (e.1, e.2.1) }, (i, k, v) :: (A ++ B), by
      unfold insert; rw [hf]; simp only [hs], ?_, ?_, rfl, rfl, rfl, by simp; omega⟩
    · constructor
      · simp
      · have := h.map.map (fun x => if x.1 = k then (x.1, v, x.2.2) else x)
        refine this.trans ?_
        have e : ((A ++ (i, k, w) :: B).map fun e => (e.2.1, e.2.2, e.1)).map
            (fun x => if x.1 = k then (x.1, v, x.2.2) else x) = (A ++ (i, k, v) :: B).map fun e => (e.2.1, e.2.2, e.1) := by
          rw [List.map_map]
          have ea : ∀ C : List (Nat × K × V), (∀ e ∈ C, e.2.1 ≠ k) →
              C.map ((fun x : K × V × Nat => if x.1 = k then (x.1, v, x.2.2) else x) ∘ fun e => (e.2.1, e.2.2, e.1)) =
              C.map fun e => (e.2.1, e.2.2, e.1) := by
            intro C hC
            apply List.map_congr_left
            intro e he
            simp [hC e he]
          rw [List.map_append, List.map_cons, ea A k1, ea B k2, List.map_append, List.map_cons]
          simp
        rw [e]
        exact (hp.map _).symm
      · have := (hp'.map fun e => e.2.1).nodup_iff.mpr h.keys
        simpa using this
      · have := (hp'.map fun e => e.1).nodup_iff.mpr h.ids
        simpa using this
      · intro e he
        rcases List.mem_cons.mp he with rfl | he
        · exact h.fresh (i, k, w) (by simp)
        · exact h.fresh e (by
            rcases List.mem_append.mp he with he | he <;> simp [he])
    · simp only [Recency.put, hv, habs]
      simp [abs]

theorem evict_rep {s : LRU K V} {L : List (Nat × K × V)} (h : Rep s L) (k : K) :
    ∃ s' L', s.evict k = some s' ∧ Rep s' L' ∧ abs L' = (abs L).without k ∧
      s'.capacity = s.capacity ∧ s'.total = s.total ∧ s'.hits = s.hits ∧
      L'.length + (if ((abs L).value k).isSome then 1 else 0) = L.length ∧
      s'.evicts = s.evicts + (if ((abs L).value k).isSome then 1 else 0) := by
  cases hv : (abs L).value k with
  | none =>
    refine ⟨s, L, ?_, h, (Recency.without_none hv).symm, rfl, rfl, rfl, by simp, by simp⟩
    unfold evict
    rw [h.find_none (none_of_value hv)]
  | some w =>
    obtain ⟨A, B, i, rfl⟩ := split_of_value hv
    obtain ⟨k1, k2, i1, i2⟩ := split_facts h.keys h.ids
    have hf := h.find_some (k := k) (v := w) (i := i) (by simp)
    have hn := find_node (B := B) (k := k) (v := w) i1
    refine ⟨{ s with list := ((A ++ (i, k, w) :: B).map fun e => (e.1, e.2.1)).filter fun n => n.1 ≠ i
                     map := s.map.filter fun x => x.1 ≠ k
                     evicts := s.evicts + 1 }, A ++ B, by
      unfold evict; rw [hf]; simp only [h.list, hn], ?_, ?_, rfl, rfl, rfl, by simp; omega, by simp⟩
    · have hsub : (A ++ B).Sublist (A ++ (i, k, w) :: B) := (List.Sublist.refl A).append (List.sublist_cons_self _ _)
      constructor
      · exact filter_node i1 i2
      · have := h.map.filter (fun x => x.1 ≠ k)
        rw [filter_key k1 k2] at this
        exact this
      · exact h.keys.sublist (hsub.map _)
      · exact h.ids.sublist (hsub.map _)
      · intro e he; exact h.fresh e (hsub.subset he)
    · unfold abs
      rw [List.map_append, List.map_append, List.map_cons]
      symm
      apply Recency.without_split
      · intro a ha; obtain ⟨e, he, rfl⟩ := List.mem_map.mp ha; exact k1 e he
      · intro a ha; obtain ⟨e, he, rfl⟩ := List.mem_map.mp ha; exact k2 e he

/-- One operation refines the recency list. -/
theorem step_rep {s : LRU K V} {L : List (Nat × K × V)} (h : Rep s L) (hc : 0 < s.capacity) (op : CacheOp K V) :
    ∃ s' L', s.step op = some (s', ((abs L).step s.capacity op).2) ∧ Rep s' L' ∧
      abs L' = ((abs L).step s.capacity op).1 ∧ s'.capacity = s.capacity := by
  cases op with
  | contains k =>
    refine ⟨s, L, ?_, h, rfl, rfl⟩
    have : s.contains k = ((abs L).value k).isSome := by
      unfold contains
      cases hv : (abs L).value k with
      | none => rw [h.find_none (none_of_value hv)]; rfl
      | some v =>
        obtain ⟨A, B, i, rfl⟩ := split_of_value hv
        rw [h.find_some (k := k) (v := v) (i := i) (by simp)]; rfl
    simp [step, Recency.step, this]
  | insert k v =>
    obtain ⟨s', L', e, r, a, c, _⟩ := insert_rep h hc k v
    exact ⟨s', L', by simp [step, e, Recency.step], r, a, c⟩
  | get k =>
    obtain ⟨g1, g2⟩ := get_rep h k
    cases hv : (abs L).value k with
    | none =>
      refine ⟨{ s with total := s.total + 1 }, L, ?_, ⟨h.list, h.map, h.keys, h.ids, h.fresh⟩, ?_, rfl⟩
      · simp [step, g1 hv, Recency.step, hv]
      · simp [Recency.step, hv]
    | some v =>
      obtain ⟨s', L', e, r, a, c, _⟩ := g2 v hv
      exact ⟨s', L', by simp [step, e, Recency.step, hv], r, by simp [a, Recency.step, hv], c⟩
  | putIfAbsent k v =>
    obtain ⟨g1, g2⟩ := get_rep h k
    cases hv : (abs L).value k with
    | none =>
      have h' : Rep { s with total := s.total + 1 } L := ⟨h.list, h.map, h.keys, h.ids, h.fresh⟩
      obtain ⟨s', L', e, r, a, c, _⟩ := insert_rep h' hc k v
      exact ⟨s', L', by simp [step, g1 hv, e, Recency.step, hv], r, by simp [a, Recency.step, hv], c⟩
    | some w =>
      obtain ⟨s', L', e, r, a, c, _⟩ := g2 w hv
      exact ⟨s', L', by simp [step, e, Recency.step, hv], r, by simp [a, Recency.step, hv], c⟩
  | evict k =>
    obtain ⟨s', L', e, r, a, c, _⟩ := evict_rep h k
    exact ⟨s', L', by simp [step, e, Recency.step], r, a, c⟩
  | clear =>
    refine ⟨s.clear, [], by simp [step, Recency.step], ⟨rfl, List.Perm.refl _, by simp, by simp, by simp⟩, rfl, rfl⟩

theorem run_rep {s : LRU K V} {L : List (Nat × K × V)} (h : Rep s L) (hc : 0 < s.capacity) (ops : List (CacheOp K V)) :
    ∃ s' L', s.run ops = some (s', (Recency.run s.capacity (abs L) ops).2) ∧ Rep s' L' ∧
      abs L' = (Recency.run s.capacity (abs L) ops).1 ∧ s'.capacity = s.capacity := by
  induction ops generalizing s L with
  | nil => exact ⟨s, L, rfl, h, rfl, rfl⟩
  | cons op ops ih =>
    obtain ⟨s1, L1, e1, r1, a1, c1⟩ := step_rep h hc op
    obtain ⟨s2, L2, e2, r2, a2, c2⟩ := ih r1 (by omega)
    rw [a1, c1] at a2 e2
    refine ⟨s2, L2, ?_, r2, ?_, by omega⟩
    · simp only [run, e1, e2, Recency.run]
    · simp only [Recency.run, a2]

theorem Rep.contains {s : LRU K V} {L : List (Nat × K × V)} (h : Rep s L) (k : K) :
    s.contains k = ((abs L).value k).isSome := by
  unfold LRU.contains
  cases hv : (abs L).value k with
  | none => rw [h.find_none (none_of_value hv)]; rfl
  | some v =>
    obtain ⟨A, B, i, rfl⟩ := split_of_value hv
    rw [h.find_some (k := k) (v := v) (i := i) (by simp)]; rfl

theorem step_counters {s : LRU K V} {L : List (Nat × K × V)} (h : Rep s L) (hc : 0 < s.capacity) (op : CacheOp K V)
    {s' : LRU K V} {res : CacheRes V} (e : s.step op = some (s', res)) (H : History K V)
    (ht : s.total = lookups H) (hh : s.hits = found H) :
    s'.total = lookups ((op, res) :: H) ∧ s'.hits = found ((op, res) :: H) := by
  cases op with
  | contains k => simp only [step, Option.some.injEq, Prod.mk.injEq] at e; obtain ⟨rfl, rfl⟩ := e; exact ⟨ht, hh⟩
  | insert k v =>
    obtain ⟨s1, L1, e1, _, _, _, t, hi, _⟩ := insert_rep h hc k v
    simp only [step, e1, Option.map_some, Option.some.injEq, Prod.mk.injEq] at e
    obtain ⟨rfl, rfl⟩ := e
    exact ⟨by rw [t, ht]; rfl, by rw [hi, hh]; rfl⟩
  | get k =>
    obtain ⟨g1, g2⟩ := get_rep h k
    cases hv : (abs L).value k with
    | none =>
      simp only [step, g1 hv, Option.some.injEq, Prod.mk.injEq] at e
      obtain ⟨rfl, rfl⟩ := e
      exact ⟨by simp [lookups, ht], by simp [found, hh]⟩
    | some v =>
      obtain ⟨s1, L1, e1, _, _, _, t, hi, _⟩ := g2 v hv
      simp only [step, e1, Option.some.injEq, Prod.mk.injEq] at e
      obtain ⟨rfl, rfl⟩ := e
      exact ⟨by simp [lookups, t, ht], by simp [found, hi, hh]⟩
  | putIfAbsent k v =>
    obtain ⟨g1, g2⟩ := get_rep h k
    cases hv : (abs L).value k with
    | none =>
      have h' : Rep { s with total := s.total + 1 } L := ⟨h.list, h.map, h.keys, h.ids, h.fresh⟩
      obtain ⟨s1, L1, e1, _, _, _, t, hi, _⟩ := insert_rep h' hc k v
      simp only [step, g1 hv, e1, Option.map_some, Option.some.injEq, Prod.mk.injEq] at e
      obtain ⟨rfl, rfl⟩ := e
      exact ⟨by simp [lookups, t, ht], by simp [found, hi, hh]⟩
    | some v =>
      obtain ⟨s1, L1, e1, _, _, _, t, hi, _⟩ := g2 v hv
      simp only [step, e1, Option.some.injEq, Prod.mk.injEq] at e
      obtain ⟨rfl, rfl⟩ := e
      exact ⟨by simp [lookups, t, ht], by simp [found, hi, hh]⟩
  | evict k =>
    obtain ⟨s1, L1, e1, _, _, _, t, hi, _⟩ := evict_rep h k
    simp only [step, e1, Option.map_some, Option.some.injEq, Prod.mk.injEq] at e
    obtain ⟨rfl, rfl⟩ := e
    exact ⟨by rw [t, ht]; rfl, by rw [hi, hh]; rfl⟩
  | clear =>
    simp only [step, Option.some.injEq, Prod.mk.injEq] at e
    obtain ⟨rfl, rfl⟩ := e
    exact ⟨rfl, rfl⟩

theorem length_touch {s : LRU K V} {L L' : List (Nat × K × V)} (h : Rep s L) {k : K} {v : V}
    (hv : (abs L).value k = some v) (a : abs L' = (k, v) :: (abs L).without k) : L'.length = L.length := by
  obtain ⟨A, B, i, rfl⟩ := split_of_value hv
  obtain ⟨k1, k2, _, _⟩ := split_facts h.keys h.ids
  have habs : (abs (A ++ (i, k, v) :: B)).without k = abs A ++ abs B := by
    unfold abs
    rw [List.map_append, List.map_cons]
    apply Recency.without_split
    · intro a ha; obtain ⟨e, he, rfl⟩ := List.mem_map.mp ha; exact k1 e he
    · intro a ha; obtain ⟨e, he, rfl⟩ := List.mem_map.mp ha; exact k2 e he
  rw [habs] at a
  have := congrArg List.length a
  simp [abs] at this
  simp; omega

theorem step_evicts {s : LRU K V} {L : List (Nat × K × V)} (h : Rep s L) (hc : 0 < s.capacity) (op : CacheOp K V)
    {s' : LRU K V} {res : CacheRes V} (e : s.step op = some (s', res)) :
    CountsEvictions s op s' := by
  cases op with
  | contains k => simp only [step, Option.some.injEq, Prod.mk.injEq] at e; obtain ⟨rfl, rfl⟩ := e; exact ⟨rfl, rfl⟩
  | insert k v =>
    obtain ⟨s1, L1, e1, r, _, _, _, _, ev⟩ := insert_rep h hc k v
    simp only [step, e1, Option.map_some, Option.some.injEq, Prod.mk.injEq] at e
    obtain ⟨rfl, rfl⟩ := e
    simp only [CountsEvictions, r.size, h.size, h.contains]; exact ev
  | get k =>
    obtain ⟨g1, g2⟩ := get_rep h k
    cases hv : (abs L).value k with
    | none =>
      simp only [step, g1 hv, Option.some.injEq, Prod.mk.injEq] at e
      obtain ⟨rfl, rfl⟩ := e
      exact ⟨rfl, rfl⟩
    | some v =>
      obtain ⟨s1, L1, e1, r, a, _, _, _, ev⟩ := g2 v hv
      simp only [step, e1, Option.some.injEq, Prod.mk.injEq] at e
      obtain ⟨rfl, rfl⟩ := e
      refine ⟨ev, ?_⟩
      rw [r.size, h.size]
      exact length_touch h hv a
  | putIfAbsent k v =>
    obtain ⟨g1, g2⟩ := get_rep h k
    cases hv : (abs L).value k with
    | none =>
      have h' : Rep { s with total := s.total + 1 } L := ⟨h.list, h.map, h.keys, h.ids, h.fresh⟩
      obtain ⟨s1, L1, e1, r, _, _, _, _, ev⟩ := insert_rep h' hc k v
      simp only [step, g1 hv, e1, Option.map_some, Option.some.injEq, Prod.mk.injEq] at e
      obtain ⟨rfl, rfl⟩ := e
      simp only [CountsEvictions, r.size, h.size, h.contains]; exact ev
    | some v =>
      obtain ⟨s1, L1, e1, r, a, _, _, _, ev⟩ := g2 v hv
      simp only [step, e1, Option.some.injEq, Prod.mk.injEq] at e
      obtain ⟨rfl, rfl⟩ := e
      simp only [CountsEvictions, r.size, h.size, h.contains, ev, length_touch h hv a, hv]
      simp
  | evict k =>
    obtain ⟨s1, L1, e1, r, _, _, _, _, l, ev⟩ := evict_rep h k
    simp only [step, e1, Option.map_some, Option.some.injEq, Prod.mk.injEq] at e
    obtain ⟨rfl, rfl⟩ := e
    simp only [CountsEvictions, r.size, h.size, h.contains]; exact ⟨l, ev⟩
  | clear =>
    simp only [step, Option.some.injEq, Prod.mk.injEq] at e
    obtain ⟨rfl, rfl⟩ := e
    exact ⟨rfl, rfl, rfl, rfl⟩

end LRU
end Nebula
