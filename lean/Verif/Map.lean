/-!
# `std::unordered_map` as a list of pairs

The order of the list stands for the (unspecified) iteration order.  Every key occurs once in a map
built by these operations (`NodupKeys`).
-/
namespace Nebula

abbrev AMap (K V : Type) := List (K × V)

namespace AMap
variable {K V : Type} [DecidableEq K]

/-- `find(k)`: the value, `none` for `end()`. -/
def find : AMap K V → K → Option V
  | [], _ => none
  | (k', v) :: m, k => if k' = k then some v else find m k

/-- `m[k] = v`. -/
def set : AMap K V → K → V → AMap K V
  | [], k, v => [(k, v)]
  | (k', v') :: m, k, v => if k' = k then (k, v) :: m else (k', v') :: set m k v

/-- `m.emplace(k, v)`: nothing happens if the key is present. -/
def emplace (m : AMap K V) (k : K) (v : V) : AMap K V := match m.find k with
  | some _ => m
  | none => m.set k v

/-- `m[k]` as a reference that is then updated by `f`; `d` is the default value. -/
def update (m : AMap K V) (k : K) (d : V) (f : V → V) : AMap K V := m.set k (f ((m.find k).getD d))

/-- `m.erase(k)`. -/
def erase : AMap K V → K → AMap K V
  | [], _ => []
  | (k', v') :: m, k => if k' = k then m else (k', v') :: erase m k

/-- Every key occurs once. -/
def NodupKeys (m : AMap K V) : Prop := (m.map Prod.fst).Nodup

theorem find_set (m : AMap K V) (k k' : K) (v : V) : (m.set k v).find k' = if k = k' then some v else m.find k' := by
  induction m with
  | nil => simp [set, find]
  | cons p m ih =>
    obtain ⟨a, b⟩ := p
    simp only [set]
    split
    · rename_i h; subst h
      simp only [find]
      split <;> rfl
    · rename_i h
      simp only [find, ih]
      split
      · rename_i h2; subst h2; simp [Ne.symm h]
      · rfl

theorem find_update (m : AMap K V) (k k' : K) (d : V) (f : V → V) :
    (m.update k d f).find k' = if k = k' then some (f ((m.find k).getD d)) else m.find k' := find_set _ _ _ _

theorem find_emplace (m : AMap K V) (k k' : K) (v : V) :
    (m.emplace k v).find k' = if k = k' then some ((m.find k).getD v) else m.find k' := by
  unfold emplace
  cases h : m.find k with
  | none => simp only [find_set]; rfl
  | some w =>
    by_cases e : k = k'
    · subst e; simp [h]
    · simp [e]

theorem keys_set (m : AMap K V) (k : K) (v : V) :
    (m.set k v).map Prod.fst = if k ∈ m.map Prod.fst then m.map Prod.fst else m.map Prod.fst ++ [k] := by
  induction m with
  | nil => simp [set]
  | cons p m ih =>
    obtain ⟨a, b⟩ := p
    simp only [set, List.map_cons, List.mem_cons]
    split
    · rename_i h; subst h; simp
    · rename_i h
      simp only [List.map_cons, ih]
      by_cases hk : k ∈ m.map Prod.fst
      · simp [hk]
      · simp [hk, Ne.symm h]

theorem mem_keys_iff (m : AMap K V) (k : K) : k ∈ m.map Prod.fst ↔ ∃ v, m.find k = some v := by
  induction m with
  | nil => simp [find]
  | cons p m ih =>
    obtain ⟨a, b⟩ := p
    simp only [List.map_cons, List.mem_cons, find]
    by_cases h : a = k
    · simp [h]
    · simp only [h, if_false, ih]; simp [Ne.symm h]

theorem find_none_iff (m : AMap K V) (k : K) : m.find k = none ↔ k ∉ m.map Prod.fst := by
  rw [mem_keys_iff]
  cases m.find k <;> simp

theorem nodup_set {m : AMap K V} (h : m.NodupKeys) (k : K) (v : V) : (m.set k v).NodupKeys := by
  unfold NodupKeys
  rw [keys_set]
  split
  · exact h
  · rename_i hk
    rw [List.nodup_append]
    exact ⟨h, by simp, by intro a ha b hb; simp at hb; subst hb; rintro rfl; exact hk ha⟩

theorem nodup_update {m : AMap K V} (h : m.NodupKeys) (k : K) (d : V) (f : V → V) : (m.update k d f).NodupKeys := nodup_set h _ _

theorem nodup_emplace {m : AMap K V} (h : m.NodupKeys) (k : K) (v : V) : (m.emplace k v).NodupKeys := by
  unfold emplace; split
  · exact h
  · exact nodup_set h _ _

theorem nodup_nil : NodupKeys ([] : AMap K V) := List.nodup_nil

theorem find_erase {m : AMap K V} (h : m.NodupKeys) (k k' : K) : (m.erase k).find k' = if k = k' then none else m.find k' := by
  induction m with
  | nil => simp [erase, find]
  | cons p m ih =>
    obtain ⟨a, b⟩ := p
    have hn : a ∉ m.map Prod.fst ∧ NodupKeys m := by simpa [NodupKeys, List.map_cons, List.nodup_cons] using h
    simp only [erase]
    split
    · rename_i e; subst e
      simp only [find]
      split
      · rename_i e2; subst e2; exact (find_none_iff m a).2 hn.1
      · rfl
    · rename_i e
      simp only [find, ih hn.2]
      split
      · rename_i e2; subst e2; simp [Ne.symm e]
      · rfl

theorem erase_keys (m : AMap K V) (k : K) : ((m.erase k).map Prod.fst) = (m.map Prod.fst).erase k := by
  induction m with
  | nil => rfl
  | cons p m ih =>
    obtain ⟨a, b⟩ := p
    simp only [erase, List.map_cons, List.erase_cons]
    by_cases h : a = k
    · simp [h]
    · simp [h, ih]

theorem nodup_erase {m : AMap K V} (h : m.NodupKeys) (k : K) : (m.erase k).NodupKeys := by
  unfold NodupKeys; rw [erase_keys]; exact h.erase k

theorem find_mem {m : AMap K V} {k : K} {v : V} (h : m.find k = some v) : (k, v) ∈ m := by
  induction m with
  | nil => cases h
  | cons p m ih =>
    obtain ⟨a, b⟩ := p
    simp only [find] at h
    split at h
    · rename_i e; subst e; cases h; exact List.mem_cons_self
    · exact List.mem_cons_of_mem _ (ih h)

theorem mem_find {m : AMap K V} (h : m.NodupKeys) {k : K} {v : V} (hm : (k, v) ∈ m) : m.find k = some v := by
  induction m with
  | nil => cases hm
  | cons p m ih =>
    obtain ⟨a, b⟩ := p
    have hn : a ∉ m.map Prod.fst ∧ NodupKeys m := by simpa [NodupKeys, List.map_cons, List.nodup_cons] using h
    simp only [find]
    rcases List.mem_cons.1 hm with e | hm
    · cases e; simp
    · have : a ≠ k := by rintro rfl; exact hn.1 (List.mem_map.2 ⟨_, hm, rfl⟩)
      simp [this, ih hn.2 hm]

end AMap
end Nebula
