import Verif.Worker.Timers
/-! # Properties of the thread pool (C33) -/
namespace Nebula

theorem PoolSt.call_spec {s s' : PoolSt} {op : PoolOp} {r : Nat × Option (Nat × Nat)} (h : s.call op = some (s', r)) :
    s.nrThreads ≠ 0 ∧ r.1 = s.nextThread % s.nrThreads ∧ s'.nrThreads = s.nrThreads ∧ s'.nextThread = (s.nextThread + 1) % 2 ^ 64 ∧
      (∀ i, s'.timerIds i = if op ≠ .addTask ∧ i = r.1 then (s.timerIds i + 1) % 2 ^ 64 else s.timerIds i) ∧
      r.2 = if op = .addRepeatTask then some (poolTimerId r.1 (timerId (s.timerIds r.1)), timerId (s.timerIds r.1)) else none := by
  unfold PoolSt.call PoolSt.pick at h
  by_cases h0 : s.nrThreads = 0
  · simp [h0] at h
  · simp only [h0, if_false, Option.map_some] at h
    cases op <;> simp at h <;> obtain ⟨rfl, rfl⟩ := h <;> simp [h0]

/-- C33: calls go to the workers in turn (2^64 of them at least, whatever they are). -/
theorem C33_round_robin {n : Nat} {ops : List PoolOp} {s : PoolSt} {rs : List (Nat × Option (Nat × Nat))}
    (h : (PoolSt.start n).calls ops = some (s, rs)) (hl : ops.length ≤ 2 ^ 64) : rs.map (·.1) = (List.range ops.length).map (· % n) := by
  suffices H : ∀ (s0 : PoolSt), s0.calls ops = some (s, rs) → s0.nextThread + ops.length ≤ 2 ^ 64 →
      rs.map (·.1) = (List.range' s0.nextThread ops.length).map (· % s0.nrThreads) by
    have := H _ h (by simpa [PoolSt.start] using hl)
    simpa [PoolSt.start, List.range_eq_range'] using this
  clear h hl
  induction ops generalizing rs with
  | nil => intro s0 h _; simp [PoolSt.calls] at h; simp [← h.2]
  | cons op ops ih =>
    intro s0 h hl
    simp only [PoolSt.calls, Option.bind_eq_some_iff, Option.map_eq_some_iff] at h
    obtain ⟨⟨s1, r⟩, h1, ⟨s2, rs'⟩, h2, he⟩ := h
    simp at he
    obtain ⟨rfl, rfl⟩ := he
    obtain ⟨_, hr, hn, ht, -⟩ := PoolSt.call_spec h1
    simp only [List.length_cons] at hl
    by_cases hlast : ops = []
    · subst hlast
      simp [PoolSt.calls] at h2
      simp [← h2.2, hr]
    · have hpos : 0 < ops.length := List.length_pos_iff.2 hlast
      rw [Nat.mod_eq_of_lt (by omega)] at ht
      have := ih (rs := rs') s1 h2 (by omega)
      simp [List.range'_succ, this, hr, ht, hn]

/-- C33: a pool with at least one thread takes every call. -/
theorem C33_total (s : PoolSt) (h : s.nrThreads ≠ 0) (op : PoolOp) : ∃ r, s.call op = some r := by
  unfold PoolSt.call PoolSt.pick
  simp [h]

/-- C33 violated: `start(0)` succeeds, and then every call divides by zero. -/
theorem C33_zero_violated (op : PoolOp) : (PoolSt.start 0).call op = none := rfl

/-- C33: with up to 2^16 workers, the id of a repeated task leads `purgeTimerTask` to the worker and the timer
it came from. -/
theorem C33_purge {idx id : Nat} (hi : idx < 2 ^ 16) (hd : id < 2 ^ 48) : poolPurge (poolTimerId idx id) = (idx, id) := by
  unfold poolPurge poolTimerId
  have h1 : (idx <<< 48) % 2 ^ 64 = 2 ^ 48 * idx := by
    rw [Nat.shiftLeft_eq, Nat.mod_eq_of_lt (by omega)]; omega
  rw [h1, ← Nat.two_pow_add_eq_or_of_lt hd]
  refine Prod.ext ?_ ?_
  · simp only [Nat.shiftRight_eq_div_pow]; omega
  · simp only [Nat.and_two_pow_sub_one_eq_mod]; omega

/-- C33: what a call returns leads back to the worker that got it. -/
theorem C33_returned {s s' : PoolSt} {idx id lid : Nat} (h : s.call .addRepeatTask = some (s', idx, some (id, lid))) (hn : s.nrThreads ≤ 2 ^ 16) :
    poolPurge id = (idx, lid) ∧ lid = timerId (s.timerIds idx) := by
  obtain ⟨h0, hr, -, -, -, h2⟩ := PoolSt.call_spec h
  simp at hr h2
  obtain ⟨rfl, rfl⟩ := h2
  have : idx < s.nrThreads := by rw [hr]; exact Nat.mod_lt _ (by omega)
  exact ⟨C33_purge (by omega) (Nat.mod_lt _ (by decide)), rfl⟩

/-- C33: no two repeated tasks get the same id (up to 2^16 workers and 2^48 calls). -/
theorem C33_distinct {n : Nat} {ops : List PoolOp} {s : PoolSt} {rs : List (Nat × Option (Nat × Nat))}
    (h : (PoolSt.start n).calls ops = some (s, rs)) (hn : n ≤ 2 ^ 16) (hl : ops.length ≤ 2 ^ 48) :
    (rs.filterMap fun r => r.2.map (·.1)).Nodup := by
  suffices H : ∀ (s0 : PoolSt), s0.calls ops = some (s, rs) → s0.nrThreads ≤ 2 ^ 16 → (∀ i, s0.timerIds i + ops.length ≤ 2 ^ 48) →
      (rs.filterMap fun r => r.2.map (·.1)).Nodup ∧
      ∀ id ∈ rs.filterMap (fun r => r.2.map (·.1)), ∃ idx lid, id = poolTimerId idx lid ∧ idx < 2 ^ 16 ∧ s0.timerIds idx ≤ lid ∧ lid < 2 ^ 48 by
    exact (H _ h hn (by intro i; simpa [PoolSt.start] using hl)).1
  clear h hl hn
  induction ops generalizing rs with
  | nil => intro s0 h _ _; simp [PoolSt.calls] at h; simp [h.2]
  | cons op ops ih =>
    intro s0 h hn hl
    simp only [PoolSt.calls, Option.bind_eq_some_iff, Option.map_eq_some_iff] at h
    obtain ⟨⟨s1, r⟩, h1, ⟨s2, rs'⟩, h2, he⟩ := h
    simp at he
    obtain ⟨rfl, rfl⟩ := he
    obtain ⟨h0, hr, hnn, -, ht, h3⟩ := PoolSt.call_spec h1
    simp only [List.length_cons] at hl
    have hidx : r.1 < 2 ^ 16 := by
      have : r.1 < s0.nrThreads := by rw [hr]; exact Nat.mod_lt _ (by omega)
      omega
    have ht' : ∀ i, s1.timerIds i = if op ≠ .addTask ∧ i = r.1 then s0.timerIds i + 1 else s0.timerIds i := by
      intro i; rw [ht i]; have := hl i; split
      · rw [Nat.mod_eq_of_lt (by omega)]
      · rfl
    have hl1 : ∀ i, s1.timerIds i + ops.length ≤ 2 ^ 48 := by
      intro i; rw [ht' i]; have := hl i; split <;> omega
    obtain ⟨hnd, hmem⟩ := ih (rs := rs') s1 h2 (by omega) hl1
    have hge : ∀ i, s0.timerIds i ≤ s1.timerIds i := by intro i; rw [ht' i]; split <;> omega
    by_cases hop : op = .addRepeatTask
    · rw [if_pos hop] at h3
      have hlr := hl r.1
      have htid : timerId (s0.timerIds r.1) = s0.timerIds r.1 := Nat.mod_eq_of_lt (by omega)
      rw [htid] at h3
      have hfm : ((r :: rs').filterMap fun r => r.2.map (·.1)) = poolTimerId r.1 (s0.timerIds r.1) :: rs'.filterMap fun r => r.2.map (·.1) := by
        simp [h3]
      rw [hfm]
      constructor
      · rw [List.nodup_cons]
        refine ⟨?_, hnd⟩
        intro hm
        obtain ⟨idx, lid, he, hi, hlo, hlt⟩ := hmem _ hm
        have e1 := C33_purge hidx (show s0.timerIds r.1 < 2 ^ 48 by omega)
        have e2 := C33_purge hi hlt
        rw [he, e2] at e1
        simp at e1
        rw [e1.1, ht'] at hlo
        simp [hop] at hlo
        omega
      · intro id hid
        rcases List.mem_cons.1 hid with rfl | hid
        · exact ⟨r.1, _, rfl, hidx, Nat.le_refl _, by omega⟩
        · obtain ⟨idx, lid, he, hi, hlo, hlt⟩ := hmem _ hid
          exact ⟨idx, lid, he, hi, Nat.le_trans (hge idx) hlo, hlt⟩
    · rw [if_neg hop] at h3
      have hfm : ((r :: rs').filterMap fun r => r.2.map (·.1)) = rs'.filterMap fun r => r.2.map (·.1) := by simp [h3]
      rw [hfm]
      refine ⟨hnd, ?_⟩
      intro id hid
      obtain ⟨idx, lid, he, hi, hlo, hlt⟩ := hmem _ hid
      exact ⟨idx, lid, he, hi, Nat.le_trans (hge idx) hlo, hlt⟩

/-- C33 violated: with more than 2^16 workers, worker 2^16 hands out the ids of worker 0. -/
theorem C33_many_workers_violated (id : Nat) : poolTimerId (2 ^ 16) id = poolTimerId 0 id := by
  unfold poolTimerId
  have h1 : ((2 : Nat) ^ 16) <<< 48 % 2 ^ 64 = 0 := by decide
  have h2 : (0 : Nat) <<< 48 % 2 ^ 64 = 0 := by decide
  rw [h1, h2]

/-- Three workers, five calls: two repeated tasks on worker 0 and one on worker 1. -/
example : ∃ s, (PoolSt.start 3).calls [.addRepeatTask, .addRepeatTask, .addTask, .addRepeatTask, .addDelayTask] =
    some (s, [(0, some (0, 0)), (1, some (2 ^ 48, 0)), (2, none), (0, some (1, 1)), (1, none)]) := ⟨_, by rfl⟩

end Nebula
