import Verif.Fs.ClusterId
/-! # C64: persisting the cluster id -/
namespace Nebula
namespace Fs

theorem leBytes_length : ∀ k n, (leBytes k n).length = k
  | 0, _ => rfl
  | k + 1, n => by rw [leBytes, List.length_cons, leBytes_length k]

theorem leNum_leBytes : ∀ k n, n < 256 ^ k → leNum (leBytes k n) = n
  | 0, n, h => by simp at h; subst h; rfl
  | k + 1, n, h => by
    rw [leBytes, leNum, leNum_leBytes k (n / 256) (by rw [Nat.pow_succ] at h; omega)]
    have : (UInt8.ofNat (n % 256)).toNat = n % 256 := by
      rw [UInt8.toNat_ofNat']; omega
    rw [this]; omega

theorem get_id (id : UInt64) : getClusterIdFromFile (some (leBytes 8 id.toNat)) = id := by
  unfold getClusterIdFromFile
  have hl := leBytes_length 8 id.toNat
  dsimp only
  rw [List.take_of_length_le (by omega), if_pos hl, leNum_leBytes 8 _ (by have := id.toNat_lt; omega)]
  exact UInt64.ofNat_toNat

/-- A crash: the file is in a state it had during the call, or the file has lost its data but not its size
(the data had not reached the disk). -/
def AfterCrash (states : List IdFile) (s : IdFile) : Prop :=
  s ∈ states ∨ ∃ b, some b ∈ states.tail ∧ s = some (List.replicate b.length 0)

/-- The state after the call. -/
def Persisted.final (p : Persisted) : IdFile := p.states.getLast?.getD none

/-- **C64.** After a successful call the id is read back, whatever was in the file before. -/
theorem C64_read_back (sys : Sys) (file : IdFile) (id : UInt64) (h : (persistInFile sys file id).ok = true) :
    getClusterIdFromFile (persistInFile sys file id).final = id := by
  revert h
  unfold persistInFile Persisted.final
  dsimp only
  split
  · intro h; cases h
  · split
    · intro h; cases h
    · split
      · intro h; cases h
      · intro h
        have h8 := of_decide_eq_true h
        rw [h8, List.take_of_length_le (by rw [leBytes_length]; omega)]
        exact get_id id

theorem leNum_zeros : ∀ n, leNum (List.replicate n 0) = 0
  | 0 => rfl
  | n + 1 => by rw [List.replicate_succ, leNum, leNum_zeros n]; rfl

theorem get_short {s : Bytes} (h : s.length < 8) : getClusterIdFromFile (some s) = 0 := by
  unfold getClusterIdFromFile
  dsimp only
  rw [if_neg]
  rw [List.length_take]; omega

theorem get_zeros (n : Nat) : getClusterIdFromFile (some (List.replicate n 0)) = 0 := by
  unfold getClusterIdFromFile
  dsimp only
  rw [List.take_replicate, leNum_zeros]
  split <;> rfl

/-- **C64.** After a crash at any point (or a failed call), reading gives the old id, the new id, or none. -/
theorem C64_crash (sys : Sys) (file : IdFile) (id : UInt64) (s : IdFile) (h : AfterCrash (persistInFile sys file id).states s) :
    getClusterIdFromFile s = getClusterIdFromFile file ∨ getClusterIdFromFile s = id ∨ getClusterIdFromFile s = 0 := by
  have hst : ∀ s ∈ (persistInFile sys file id).states, getClusterIdFromFile s = getClusterIdFromFile file ∨ getClusterIdFromFile s = id ∨ getClusterIdFromFile s = 0 := by
    have hrem : getClusterIdFromFile (if sys.removeOk then none else file) = getClusterIdFromFile file ∨
        getClusterIdFromFile (if sys.removeOk then none else file) = 0 := by split; right; rfl; left; rfl
    have hempty : getClusterIdFromFile (some []) = 0 := rfl
    have hlast : ∀ n, getClusterIdFromFile (some ((leBytes 8 id.toNat).take (min n 8))) = id ∨
        getClusterIdFromFile (some ((leBytes 8 id.toNat).take (min n 8))) = 0 := by
      intro n
      by_cases h8 : min n 8 = 8
      · left; rw [h8, List.take_of_length_le (by rw [leBytes_length]; omega)]; exact get_id id
      · right; apply get_short; rw [List.length_take, leBytes_length]; omega
    unfold persistInFile
    dsimp only
    split
    · intro s hs; rw [List.mem_singleton.1 hs]; exact Or.inl rfl
    · split
      · intro s hs
        simp only [List.mem_cons, List.not_mem_nil, or_false] at hs
        rcases hs with rfl | rfl
        · exact Or.inl rfl
        · rcases hrem with e | e
          · exact Or.inl e
          · exact Or.inr (Or.inr e)
      · split
        · intro s hs
          simp only [List.mem_cons, List.not_mem_nil, or_false] at hs
          rcases hs with rfl | rfl | rfl
          · exact Or.inl rfl
          · rcases hrem with e | e
            · exact Or.inl e
            · exact Or.inr (Or.inr e)
          · exact Or.inr (Or.inr hempty)
        · rename_i n hn
          intro s hs
          simp only [List.mem_cons, List.not_mem_nil, or_false] at hs
          rcases hs with rfl | rfl | rfl | rfl
          · exact Or.inl rfl
          · rcases hrem with e | e
            · exact Or.inl e
            · exact Or.inr (Or.inr e)
          · exact Or.inr (Or.inr hempty)
          · exact Or.inr (hlast n)
  rcases h with h | ⟨b, _, rfl⟩
  · exact hst s h
  · exact Or.inr (Or.inr (get_zeros _))

/-- **C64.** A failed call reports failure exactly if the id was not written completely; the id read then is not
the new one, unless it was there before (or is 0). -/
theorem C64_failed (sys : Sys) (file : IdFile) (id : UInt64) (h : (persistInFile sys file id).ok = false) :
    getClusterIdFromFile (persistInFile sys file id).final = getClusterIdFromFile file ∨
    getClusterIdFromFile (persistInFile sys file id).final = 0 := by
  revert h
  unfold persistInFile Persisted.final
  dsimp only
  split
  · intro _; exact Or.inl rfl
  · split
    · intro _
      show getClusterIdFromFile (if sys.removeOk then none else file) = _ ∨ _
      split
      · exact Or.inr rfl
      · exact Or.inl rfl
    · split
      · intro _; exact Or.inr rfl
      · rename_i n _
        intro h
        right
        have h8 : ¬min n 8 = 8 := of_decide_eq_false h
        show getClusterIdFromFile (some _) = 0
        apply get_short; rw [List.length_take, leBytes_length]; omega

example : (persistInFile ⟨true, true, true, some 8⟩ (some (leBytes 8 7)) 42).ok = true ∧
    (persistInFile ⟨true, true, true, some 8⟩ (some (leBytes 8 7)) 42).states =
      [some [7, 0, 0, 0, 0, 0, 0, 0], none, some [], some [42, 0, 0, 0, 0, 0, 0, 0]] := by decide +kernel

/-- **C64 violated** in a stronger reading: a crash (or a failed write) can lose the id that was there. -/
theorem C64_lost_violated : ∃ s, AfterCrash (persistInFile ⟨true, true, true, some 8⟩ (some (leBytes 8 7)) 42).states s ∧
    getClusterIdFromFile (some (leBytes 8 7)) = 7 ∧ getClusterIdFromFile s = 0 :=
  ⟨none, Or.inl (by decide +kernel), by decide +kernel, rfl⟩

end Fs
end Nebula
