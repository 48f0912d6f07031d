import Verif.Storage.ClusterSpec
import Verif.Part.Props
/-! # Properties of the partitioning of storage requests (C48) -/
namespace Nebula
namespace Storage
open AMap

theorem leadersFrom_some (leader : Int → Option HostAddr) : ∀ (n : Nat) (p : Int) (m : AMap Int HostAddr),
    (∀ q, p ≤ q → q < p + n → ∃ h, leader q = some h) →
    ∃ m', leadersFrom leader m p n = some m' ∧ ∀ q, m'.find q = if p ≤ q ∧ q < p + n then leader q else m.find q
  | 0, p, m, _ => ⟨m, rfl, fun q => by rw [if_neg (by omega)]⟩
  | n + 1, p, m, hl => by
    obtain ⟨h, hp⟩ := hl p (by omega) (by omega)
    obtain ⟨m', e, hm⟩ := leadersFrom_some leader n (p + 1) (m.set p h) (fun q h1 h2 => hl q (by omega) (by omega))
    refine ⟨m', by simp only [leadersFrom, hp]; exact e, fun q => ?_⟩
    rw [hm q, find_set]
    by_cases h1 : p = q
    · subst h1; rw [if_neg (by omega), if_pos rfl, if_pos (by omega), hp]
    · rw [if_neg h1]
      by_cases h2 : p + 1 ≤ q ∧ q < p + 1 + n
      · rw [if_pos h2, if_pos (by omega)]
      · rw [if_neg h2, if_neg (by omega)]

theorem leadersFrom_none (leader : Int → Option HostAddr) : ∀ (n : Nat) (p : Int) (m : AMap Int HostAddr) (q : Int),
    p ≤ q → q < p + n → leader q = none → leadersFrom leader m p n = none
  | 0, p, m, q, h1, h2, _ => by omega
  | n + 1, p, m, q, h1, h2, hq => by
    simp only [leadersFrom]
    by_cases h : p = q
    · subst h; rw [hq]
    · cases leader p with
      | none => rfl
      | some h => exact leadersFrom_none leader n (p + 1) _ q (by omega) (by omega) hq

theorem sentTo_update {α : Type} (m : Clusters α) (h : HostAddr) (p : Int) (x : α) (h' : HostAddr) (p' : Int) :
    sentTo (m.update h [] fun l => l.update p [] fun v => v ++ [x]) h' p' =
      if h = h' ∧ p = p' then sentTo m h' p' ++ [x] else sentTo m h' p' := by
  unfold sentTo
  rw [find_update]
  by_cases e : h = h'
  · subst e
    rw [if_pos rfl, Option.getD_some, find_update]
    by_cases e2 : p = p'
    · subst e2; simp
    · simp [e2]
  · simp [e]

/-- Every listed host has parts and every listed part has ids. -/
def NoEmpty {α : Type} (m : Clusters α) : Prop := m.NodupKeys ∧ ∀ h l, m.find h = some l → l.NodupKeys ∧ l ≠ [] ∧ ∀ p v, l.find p = some v → v ≠ []

theorem set_ne_nil {K V : Type} [DecidableEq K] (m : AMap K V) (k : K) (v : V) : m.set k v ≠ [] := by
  cases m with
  | nil => simp [AMap.set]
  | cons a m => obtain ⟨a, b⟩ := a; simp only [AMap.set]; split <;> simp

theorem noEmpty_update {α : Type} {m : Clusters α} (hm : NoEmpty m) (h : HostAddr) (p : Int) (x : α) :
    NoEmpty (m.update h [] fun l => l.update p [] fun v => v ++ [x]) := by
  refine ⟨nodup_update hm.1 _ _ _, fun h' l hl => ?_⟩
  rw [find_update] at hl
  split at hl
  · rename_i e; subst e
    cases hl
    have hn : ((m.find h).getD []).NodupKeys := by
      cases hf : m.find h with
      | none => exact nodup_nil
      | some l => exact (hm.2 h l hf).1
    refine ⟨nodup_update hn _ _ _, set_ne_nil _ _ _, fun p' v hv => ?_⟩
    rw [find_update] at hv
    split at hv
    · cases hv; simp
    · cases hf : m.find h with
      | none => rw [hf] at hv; cases hv
      | some l => rw [hf] at hv; exact (hm.2 h l hf).2.2 p' v hv
  · exact hm.2 h' l hl

theorem flatMap_set {K V β : Type} [DecidableEq K] (g : K × V → List β) : ∀ (m : AMap K V) (k : K) (v : V) (x : β), m.NodupKeys →
    (g (k, v)).Perm (((m.find k).map fun w => g (k, w)).getD [] ++ [x]) →
    ((m.set k v).flatMap g).Perm (m.flatMap g ++ [x])
  | [], k, v, x, _, h => by simpa [AMap.set, find] using h
  | (k', w) :: m, k, v, x, hn, h => by
    have hn' : k' ∉ m.map Prod.fst ∧ NodupKeys m := by simpa [NodupKeys, List.map_cons, List.nodup_cons] using hn
    simp only [AMap.set]
    by_cases e : k' = k
    · subst e
      simp only [find, if_true, Option.map_some, Option.getD_some] at h
      rw [if_pos rfl, List.flatMap_cons, List.flatMap_cons]
      refine (h.append_right _).trans ?_
      rw [List.append_assoc, List.append_assoc]
      exact List.perm_append_comm.append_left _
    · rw [if_neg e, List.flatMap_cons, List.flatMap_cons, List.append_assoc]
      simp only [find, if_neg e] at h
      exact (flatMap_set g m k v x hn'.2 h).append_left _

theorem allSent_update {α : Type} {m : Clusters α} (hm : NoEmpty m) (h : HostAddr) (p : Int) (x : α) :
    (allSent (m.update h [] fun l => l.update p [] fun v => v ++ [x])).Perm (allSent m ++ [x]) := by
  unfold allSent
  refine flatMap_set _ m h _ x hm.1 ?_
  have hn : ((m.find h).getD []).NodupKeys := by
    cases hf : m.find h with
    | none => exact nodup_nil
    | some l => exact (hm.2 h l hf).1
  have e : ((m.find h).map fun w => List.flatMap Prod.snd (h, w).2).getD [] = ((m.find h).getD []).flatMap Prod.snd := by
    cases m.find h <;> rfl
  rw [e]
  refine flatMap_set Prod.snd _ p _ x hn ?_
  cases ((m.find h).getD []).find p <;> simp

theorem clusterLoop_some {α : Type} {n : Int} (h0 : 0 < n) (h1 : n < 2 ^ 31) (leaders : AMap Int HostAddr) (f : α → Bytes) :
    ∀ (ids : List α) (m : Clusters α), NoEmpty m →
    ∃ m', clusterLoop n leaders f m ids = .ok m' ∧ NoEmpty m' ∧ (allSent m').Perm (allSent m ++ ids) ∧
      ∀ h p, sentTo m' h p = sentTo m h p ++ ids.filter (fun id => partId n (f id) = some p ∧ (leaders.find p).getD ⟨[], 0⟩ = h)
  | [], m, hm => ⟨m, rfl, hm, by simp, fun h p => by simp⟩
  | id :: ids, m, hm => by
    obtain ⟨q, hq, _, _⟩ := C35_range h0 h1 (f id)
    obtain ⟨m', e, a, b, c⟩ := clusterLoop_some h0 h1 leaders f ids _ (noEmpty_update hm ((leaders.find q).getD ⟨[], 0⟩) q id)
    refine ⟨m', by simp only [clusterLoop, hq]; exact e, a, ?_, fun h p => ?_⟩
    · refine b.trans (((allSent_update hm _ q id).append_right ids).trans ?_)
      simp
    · rw [c h p, sentTo_update, List.filter_cons]
      by_cases hp : q = p
      · subst hp
        by_cases hh : (leaders.find q).getD ⟨[], 0⟩ = h
        · simp [hh, hq]
        · simp [hh]
      · simp [hp, hq]

/-- C48: if the space is known and every part has a leader, the ids sent to host `h` for part `p` are exactly those whose partition is
`p`, in the order of the request, if `h` is the leader of `p`, and none otherwise.  Every id is sent exactly once, and no host and no
part is addressed with an empty list. -/
theorem C48_partition {α : Type} {n : Int} (h0 : 0 < n) (h1 : n < 2 ^ 31) (leader : Int → Option HostAddr)
    (hl : ∀ p, 1 ≤ p → p ≤ n → ∃ h, leader p = some h) (f : α → Bytes) (ids : List α) :
    ∃ m, clusterIds (some n) leader f ids = .ok m ∧
      (∀ h p, sentTo m h p = ids.filter fun id => partId n (f id) = some p ∧ leader p = some h) ∧
      (allSent m).Perm ids ∧
      (∀ h l, m.find h = some l → l ≠ [] ∧ ∀ p v, l.find p = some v → v ≠ []) := by
  obtain ⟨ls, e, hm⟩ := leadersFrom_some leader n.toNat 1 [] (fun q a b => hl q (by omega) (by omega))
  obtain ⟨m, e2, a, b, c⟩ := clusterLoop_some h0 h1 ls f ids [] ⟨nodup_nil, by intro h l h'; cases h'⟩
  refine ⟨m, by simp only [clusterIds, e]; exact e2, fun h p => ?_, by simpa [allSent] using b, fun h l hf => (a.2 h l hf).2⟩
  rw [c h p]
  have e3 : sentTo ([] : Clusters α) h p = [] := rfl
  rw [e3, List.nil_append]
  apply List.filter_congr
  intro id _
  obtain ⟨q, hq, hq1, hq2⟩ := C35_range h0 h1 (f id)
  rw [hq]
  by_cases hp : q = p
  · subst hp
    rw [hm q, if_pos (by omega)]
    obtain ⟨h', hh'⟩ := hl q hq1 hq2
    simp [hh']
  · simp [hp]

/-- C48: if the space is unknown or a part has no known leader, the request fails as a whole. -/
theorem C48_unknown {α : Type} (leader : Int → Option HostAddr) (f : α → Bytes) (ids : List α) :
    clusterIds none leader f ids = .error ∧
    ∀ (n p : Int), 1 ≤ p → p ≤ n → leader p = none → clusterIds (some n) leader f ids = .error := by
  refine ⟨rfl, fun n p h1 h2 hp => ?_⟩
  simp only [clusterIds, leadersFrom_none leader n.toNat 1 [] p h1 (by omega) hp]

/-- C48 is violated for a space without partitions: any request with an id ends the process. -/
theorem C48_no_parts_violated {α : Type} (leader : Int → Option HostAddr) (f : α → Bytes) (id : α) (ids : List α) :
    clusterIds (some 0) leader f (id :: ids) = .abort := by
  simp [clusterIds, leadersFrom, clusterLoop, partId]

theorem hostPartsFrom_some (leader : Int → Option HostAddr) : ∀ (n : Nat) (p : Int) (m : AMap HostAddr (List Int)),
    (∀ q, p ≤ q → q < p + n → ∃ h, leader q = some h) →
    ∃ m', hostPartsFrom leader m p n = some m' ∧ ∀ h, ∃ l, (m'.find h).getD [] = (m.find h).getD [] ++ l ∧ l.Pairwise (· < ·) ∧
      ∀ q, q ∈ l ↔ p ≤ q ∧ q < p + n ∧ leader q = some h
  | 0, p, m, _ => ⟨m, rfl, fun h => ⟨[], by simp, by simp, fun q => by simp; omega⟩⟩
  | n + 1, p, m, hl => by
    obtain ⟨h, hp⟩ := hl p (by omega) (by omega)
    obtain ⟨m', e, hm⟩ := hostPartsFrom_some leader n (p + 1) (m.update h [] fun l => l ++ [p]) (fun q h1 h2 => hl q (by omega) (by omega))
    refine ⟨m', by simp only [hostPartsFrom, hp]; exact e, fun h' => ?_⟩
    obtain ⟨l, h1, h2, h3⟩ := hm h'
    by_cases e : h = h'
    · subst e
      refine ⟨p :: l, ?_, ?_, fun q => ?_⟩
      · rw [h1, find_update, if_pos rfl]; simp
      · rw [List.pairwise_cons]
        exact ⟨fun q hq => by have := (h3 q).1 hq; omega, h2⟩
      · rw [List.mem_cons, h3 q]
        constructor
        · rintro (rfl | ⟨a, b, c⟩)
          · exact ⟨by omega, by omega, hp⟩
          · exact ⟨by omega, by omega, c⟩
        · rintro ⟨a, b, c⟩
          by_cases h4 : q = p
          · exact .inl h4
          · exact .inr ⟨by omega, by omega, c⟩
    · refine ⟨l, ?_, h2, fun q => ?_⟩
      · rw [h1, find_update, if_neg e]
      · rw [h3 q]
        constructor
        · rintro ⟨a, b, c⟩; exact ⟨by omega, by omega, c⟩
        · rintro ⟨a, b, c⟩
          refine ⟨?_, by omega, c⟩
          have : q ≠ p := by rintro rfl; rw [hp] at c; cases c; exact e rfl
          omega

/-- C48: `getHostParts` gives every host exactly the parts it leads, in ascending order. -/
theorem C48_host_parts {n : Int} (leader : Int → Option HostAddr) (hl : ∀ p, 1 ≤ p → p ≤ n → ∃ h, leader p = some h) :
    ∃ m, hostParts (some n) leader = .ok m ∧
      ∀ h, ((m.find h).getD []).Pairwise (· < ·) ∧ ∀ p, p ∈ (m.find h).getD [] ↔ 1 ≤ p ∧ p ≤ n ∧ leader p = some h := by
  obtain ⟨m, e, hm⟩ := hostPartsFrom_some leader n.toNat 1 [] (fun q a b => hl q (by omega) (by omega))
  refine ⟨m, by simp only [hostParts, e], fun h => ?_⟩
  obtain ⟨l, h1, h2, h3⟩ := hm h
  have : (m.find h).getD [] = l := by simpa [find] using h1
  rw [this]
  refine ⟨h2, fun p => ?_⟩
  rw [h3 p]
  constructor
  · rintro ⟨a, b, c⟩; exact ⟨a, by omega, c⟩
  · rintro ⟨a, b, c⟩; exact ⟨a, by omega, c⟩

/-- Two parts led by two hosts; the hypotheses of `C48_partition` hold. -/
example : let a : HostAddr := ⟨[97], 1⟩; let b : HostAddr := ⟨[98], 1⟩
    let leader : Int → Option HostAddr := fun p => if p = 1 then some a else if p = 2 then some b else none
    (∀ p, 1 ≤ p → p ≤ 2 → ∃ h, leader p = some h) ∧
    (match clusterIds (some 2) leader id [[0, 0, 0, 0, 0, 0, 0, 0], [1, 0, 0, 0, 0, 0, 0, 0], [2, 0, 0, 0, 0, 0, 0, 0]] with
      | .ok m => (sentTo m a 1, sentTo m b 2)
      | _ => ([], [])) = ([[0, 0, 0, 0, 0, 0, 0, 0], [2, 0, 0, 0, 0, 0, 0, 0]], [[1, 0, 0, 0, 0, 0, 0, 0]]) := by
  refine ⟨?_, by decide +kernel⟩
  intro p h1 h2
  by_cases h : p = 1
  · exact ⟨⟨[97], 1⟩, by simp [h]⟩
  · exact ⟨⟨[98], 1⟩, by have : p = 2 := by omega
                         simp [this]⟩

end Storage
end Nebula
