import Verif.Collect.Model
/-! # Properties of `collectNSucceeded` (C29) -/
namespace Nebula
variable {V : Type}

/-! ## Specification: read off the completions alone -/

/-- How many of the completions succeeded. -/
def successes (eval : Nat → V → Bool) (done : List (Nat × Outcome V)) : Nat :=
  done.countP fun p => match p.2 with
    | .value v => eval p.1 v
    | .exception => false

/-- The values that arrived, with their index, in order of completion. -/
def arrived (done : List (Nat × Outcome V)) : List (Nat × V) :=
  done.filterMap fun p => match p.2 with
    | .value v => some (p.1, v)
    | .exception => none

/-- Enough has happened: `n` successes or all futures completed. -/
def enough (n total : Nat) (eval : Nat → V → Bool) (done : List (Nat × Outcome V)) : Prop :=
  n ≤ successes eval done ∨ total ≤ done.length

/-! ## Proofs -/

theorem successes_snoc (eval : Nat → V → Bool) (done : List (Nat × Outcome V)) (p : Nat × Outcome V) :
    successes eval (done ++ [p]) = successes eval done + successes eval [p] := by
  unfold successes; rw [List.countP_append]

theorem arrived_snoc (done : List (Nat × Outcome V)) (p : Nat × Outcome V) :
    arrived (done ++ [p]) = arrived done ++ arrived [p] := by
  unfold arrived; rw [List.filterMap_append]

theorem successes_one (eval : Nat → V → Bool) (p : Nat × Outcome V) : successes eval [p] ≤ 1 := by
  unfold successes; exact Nat.le_trans List.countP_le_length (by simp)

/-- Before and after fulfilment. -/
def CollectCtx.At (n total : Nat) (eval : Nat → V → Bool) (done : List (Nat × Outcome V)) (c : CollectCtx V) : Prop :=
  match c.promise with
  | none => ¬ enough n total eval done ∧ c.results = arrived done ∧ c.numCompleted = done.length ∧
      c.nSucceeded = successes eval done ∧ c.nTotal = total
  | some rs => ∃ p q, done = p ++ q ∧ enough n total eval p ∧ (∀ p', p' <+: p → p' ≠ p → ¬ enough n total eval p') ∧
      rs = arrived p ∧ successes eval p ≤ n

theorem prefix_of_snoc {α : Type} {p l : List α} {x : α} (h : p <+: l ++ [x]) (hne : p ≠ l ++ [x]) : p <+: l := by
  obtain ⟨q, hq⟩ := h
  rcases List.eq_nil_or_concat q with rfl | ⟨q', y, rfl⟩
  · exact absurd (by simpa using hq) hne
  · rw [List.concat_eq_append, ← List.append_assoc] at hq
    exact ⟨q', (List.append_inj' hq rfl).1⟩

theorem enough_mono {n total : Nat} {eval : Nat → V → Bool} {p l : List (Nat × Outcome V)} (h : p <+: l)
    (he : enough n total eval p) : enough n total eval l := by
  obtain ⟨q, rfl⟩ := h
  rcases he with h | h
  · left; unfold successes at *; rw [List.countP_append]; omega
  · right; simp; omega

theorem CollectCtx.complete_at {n total : Nat} {eval : Nat → V → Bool} {done : List (Nat × Outcome V)} {c : CollectCtx V}
    (h : c.At n total eval done) (i : Nat) (o : Outcome V) :
    ∃ c', c.complete n eval i o = some c' ∧ c'.At n total eval (done ++ [(i, o)]) := by
  unfold CollectCtx.complete
  cases hp : c.promise with
  | some rs =>
    refine ⟨c, by simp, ?_⟩
    unfold CollectCtx.At at h ⊢
    rw [hp] at h ⊢
    obtain ⟨p, q, h1, h2⟩ := h
    exact ⟨p, q ++ [(i, o)], by rw [h1, List.append_assoc], h2⟩
  | none =>
    unfold CollectCtx.At at h
    rw [hp] at h
    obtain ⟨hne, hr, hn, hs, ht⟩ := h
    simp only [Option.isSome_none, Bool.false_eq_true, if_false]
    have hlt : successes eval done < n := by
      rcases Nat.lt_or_ge (successes eval done) n with h | h
      · exact h
      · exact absurd (.inl h) hne
    have hle : successes eval (done ++ [(i, o)]) ≤ n := by
      rw [successes_snoc]; have := successes_one eval (i, o); omega
    have hlen : done.length < total := by
      rcases Nat.lt_or_ge done.length total with h | h
      · exact h
      · exact absurd (.inr h) hne
    -- the context after counting
    have hcount : (c.count eval i o).results = arrived (done ++ [(i, o)]) ∧ (c.count eval i o).nSucceeded = successes eval (done ++ [(i, o)]) ∧
        (c.count eval i o).numCompleted = done.length ∧ (c.count eval i o).nTotal = total ∧ (c.count eval i o).promise = none := by
      rw [arrived_snoc, successes_snoc]
      cases o with
      | exception => exact ⟨by simpa [arrived, CollectCtx.count] using hr, by simpa [successes, CollectCtx.count] using hs, hn, ht, hp⟩
      | value v =>
        refine ⟨by simp [arrived, CollectCtx.count] at hr ⊢; exact hr, ?_, hn, ht, hp⟩
        simp only [successes, List.countP_cons, List.countP_nil, CollectCtx.count] at hs ⊢
        rw [hs]; split <;> rename_i hv <;> simp [hv]
    obtain ⟨e1, e2, e3, e4⟩ := hcount
    generalize c.count eval i o = c1 at e1 e2 e3 e4 ⊢
    simp only [e3, e4.1, e2, e4.2]
    by_cases hd : done.length + 1 = total ∨ successes eval (done ++ [(i, o)]) = n
    · rw [if_pos hd]
      refine ⟨_, rfl, ?_⟩
      unfold CollectCtx.At
      simp only
      refine ⟨done ++ [(i, o)], [], by simp, ?_, ?_, e1, hle⟩
      · rcases hd with h | h
        · right; simp; omega
        · left; omega
      · intro p' hp' hne' he'
        exact hne (enough_mono (prefix_of_snoc hp' hne') he')
    · rw [if_neg hd]
      refine ⟨_, rfl, ?_⟩
      unfold CollectCtx.At
      simp only [e4.2]
      refine ⟨?_, e1, by simp, trivial, trivial⟩
      rintro (h | h)
      · exact hd (.inr (by omega))
      · exact hd (.inl (by simp at h; omega))

theorem CollectCtx.run_at {n total : Nat} {eval : Nat → V → Bool} (l : List (Nat × Outcome V)) :
    ∀ {done : List (Nat × Outcome V)} {c : CollectCtx V}, c.At n total eval done →
    ∃ c', c.run n eval l = some c' ∧ c'.At n total eval (done ++ l) := by
  induction l with
  | nil => intro done c h; exact ⟨c, rfl, by simpa using h⟩
  | cons a l ih =>
    intro done c h
    obtain ⟨i, o⟩ := a
    obtain ⟨c1, h1, h2⟩ := CollectCtx.complete_at h i o
    obtain ⟨c2, h3, h4⟩ := ih h2
    exact ⟨c2, by simp [CollectCtx.run, h1, h3], by simpa using h4⟩

/-- The start of a collection that is neither empty nor short of futures. -/
theorem collect_start {n total : Nat} (eval : Nat → V → Bool) (hn : 0 < n) (ht : n ≤ total) :
    ∃ c, CollectStart.start V n total = .running c ∧ c.At n total eval [] := by
  refine ⟨⟨[], 0, 0, none, total⟩, ?_, ?_⟩
  · unfold CollectStart.start; rw [if_neg (by omega), if_neg (by omega)]
  · unfold CollectCtx.At
    simp only
    refine ⟨?_, rfl, rfl, rfl, trivial⟩
    rintro (h | h)
    · simp [successes] at h; omega
    · simp at h; omega

/-- C29: for every order of completion and every way the futures end, no callback fulfils the promise
twice, and the promise is fulfilled exactly when `n` futures succeeded or all completed. -/
theorem C29_fulfilled {n total : Nat} (eval : Nat → V → Bool) (hn : 0 < n) (ht : n ≤ total) (done : List (Nat × Outcome V)) :
    ∃ c0 c, CollectStart.start V n total = .running c0 ∧ c0.run n eval done = some c ∧
      (c.promise.isSome ↔ enough n total eval done) := by
  obtain ⟨c0, h0, h1⟩ := collect_start eval hn ht
  obtain ⟨c, h2, h3⟩ := CollectCtx.run_at done h1
  refine ⟨c0, c, h0, h2, ?_⟩
  unfold CollectCtx.At at h3
  cases hp : c.promise with
  | none => rw [hp] at h3; simpa using h3.1
  | some rs =>
    rw [hp] at h3
    obtain ⟨p, q, h4, h5, _⟩ := h3
    simp only [Option.isSome_some, true_iff]
    exact enough_mono ⟨q, by simpa using h4.symm⟩ h5

/-- C29: the value is what had arrived, tagged with the index, when enough had happened for the first
time: the completions split into those before, of which every proper beginning was not enough, and those
after, which are ignored. If all completed without `n` successes, it is all that arrived; otherwise it
contains exactly `n` successful results. -/
theorem C29_value {n total : Nat} (eval : Nat → V → Bool) (hn : 0 < n) (ht : n ≤ total) (done : List (Nat × Outcome V))
    {c0 c : CollectCtx V} (h0 : CollectStart.start V n total = .running c0) (h1 : c0.run n eval done = some c)
    {rs : List (Nat × V)} (h2 : c.promise = some rs) :
    ∃ p q, done = p ++ q ∧ enough n total eval p ∧ (∀ p', p' <+: p → p' ≠ p → ¬ enough n total eval p') ∧
      rs = arrived p ∧
      ((rs.countP fun r => eval r.1 r.2) = n ∨ (total ≤ p.length ∧ (rs.countP fun r => eval r.1 r.2) < n)) := by
  obtain ⟨c0', h0', h3⟩ := collect_start eval hn ht
  rw [h0] at h0'; cases h0'
  obtain ⟨c', h4, h5⟩ := CollectCtx.run_at done h3
  rw [h1] at h4; cases h4
  unfold CollectCtx.At at h5
  rw [h2] at h5
  obtain ⟨p, q, e1, e2, e3, e4, e5⟩ := h5
  refine ⟨p, q, by simpa using e1, e2, e3, e4, ?_⟩
  have hc : (rs.countP fun r => eval r.1 r.2) = successes eval p := by
    rw [e4]; clear e1 e2 e3 e4 e5
    induction p with
    | nil => rfl
    | cons a p ih =>
      obtain ⟨i, o⟩ := a
      cases o with
      | exception => simpa [arrived, successes] using ih
      | value v => simp only [arrived, successes, List.filterMap_cons, List.countP_cons] at ih ⊢; rw [ih]
  rcases e2 with h | h
  · left; omega
  · rcases Nat.lt_or_ge (successes eval p) n with h' | h'
    · right; omega
    · left; omega

/-- C29: nothing to wait for, or not enough futures to ever succeed, is answered at once. -/
theorem C29_immediate (n total : Nat) : (CollectStart.start V n total = .empty ↔ n = 0) ∧
    (CollectStart.start V n total = .notEnough ↔ n ≠ 0 ∧ total < n) := by
  unfold CollectStart.start
  by_cases h : n = 0
  · simp [h]
  · by_cases h2 : total < n <;> simp [h, h2]

/-- C29 violated: the list is not one of succeeded results: a result that arrived before and did not
succeed is in it, although `n` results succeeded. -/
theorem C29_only_succeeded_violated : ∃ (c0 c : CollectCtx Nat) (rs : List (Nat × Nat)),
    CollectStart.start Nat 1 2 = .running c0 ∧ c0.run 1 (fun _ v => v = 1) [(1, .value 0), (0, .value 1)] = some c ∧
    c.promise = some rs ∧ (1, 0) ∈ rs := by
  refine ⟨_, _, _, rfl, rfl, rfl, ?_⟩
  decide

example : ∃ (c0 c : CollectCtx Nat), CollectStart.start Nat 2 3 = .running c0 ∧
    c0.run 2 (fun _ _ => true) [(2, .value 5), (0, .exception), (1, .value 7)] = some c ∧ c.promise = some [(2, 5), (1, 7)] := by
  refine ⟨_, _, rfl, rfl, rfl⟩

end Nebula
