import Verif.Logging.Model
/-! # C147: the logging macros -/
namespace Nebula
namespace Logging

/-! ## Specification -/

/-- The counts of the messages sent. -/
def sent (es : List Effect) : List Int := es.filterMap fun
  | .message _ c => some c
  | _ => none

/-- Messages of this severity are wanted. -/
def Enabled (debug : Bool) (min : Int) (s : Severity) : Prop := min ≤ s.num debug

instance (debug : Bool) (min : Int) (s : Severity) : Decidable (Enabled debug min s) := inferInstanceAs (Decidable (_ ≤ _))

/-! ## Lemmas -/

theorem gt_iff (debug : Bool) (min : Int) (s : Severity) : minLevelGt debug min s = !decide (Enabled debug min s) := by
  unfold minLevelGt Enabled
  by_cases h : min ≤ s.num debug
  · simp [h]
  · simp [h]; omega

theorem sent_emit {debug : Bool} {min : Int} {s : Severity} {c : Int} (h : Enabled debug min s) : sent (emit debug min s c) = [c] := by
  unfold emit
  rw [if_neg (by unfold Enabled at h; omega)]
  split <;> simp [sent]

theorem log_of_enabled {debug : Bool} {min : Int} {s : Severity} (h : Enabled debug min s) :
    ∃ s', log debug min s = .operands :: .message s' 0 :: if s.num debug = 3 then [.abort] else [] := by
  have hg : minLevelGt debug min s = false := by rw [gt_iff]; simp [h]
  have he : ∀ {s : Severity}, Enabled debug min s → emit debug min s 0 = .operands :: .message s 0 :: if s.num debug = 3 then [.abort] else [] := by
    intro s h; unfold emit; rw [if_neg (by unfold Enabled at h; omega)]
  have hf : Enabled debug min .fatal → emitFatal min = [.operands, .message .fatal 0, .abort] := by
    intro h; unfold emitFatal; rw [if_neg (by simp only [Enabled, Severity.num] at h; omega)]; rfl
  cases s with
  | fatal => exact ⟨.fatal, by simp [log, compact, hf h, Severity.num]⟩
  | dfatal =>
    cases debug with
    | true => exact ⟨.fatal, by simp [log, hg, compact, hf h, Severity.num]⟩
    | false => exact ⟨.error, by simp [log, hg, compact, he (s := .error) h, Severity.num]⟩
  | info => exact ⟨.info, by simp [log, hg, compact, he h]⟩
  | warning => exact ⟨.warning, by simp [log, hg, compact, he h]⟩
  | error => exact ⟨.error, by simp [log, hg, compact, he h]⟩

theorem sent_append (a b : List Effect) : sent (a ++ b) = sent a ++ sent b := by simp [sent]

/-! ## Single statements -/

/-- **C147 (levels).** `LOG` of a severity other than FATAL does nothing if the level is above the severity, not even evaluating the operands, and otherwise evaluates
them and sends one message; `LOG(FATAL)` evaluates its operands at every level. The process ends exactly after FATAL, and in debug builds after a DFATAL that is sent. -/
theorem C147_log (debug : Bool) (min : Int) (s : Severity) :
    (s ≠ .fatal → ¬Enabled debug min s → log debug min s = []) ∧
    (Enabled debug min s → Effect.operands ∈ log debug min s ∧ sent (log debug min s) = [0]) ∧
    Effect.operands ∈ log debug min .fatal ∧
    (Effect.abort ∈ log debug min s ↔ s = .fatal ∨ (s = .dfatal ∧ debug = true ∧ Enabled debug min s)) := by
  refine ⟨?_, ?_, ?_, ?_⟩
  · intro hs he
    have : minLevelGt debug min s = true := by rw [gt_iff]; simp [he]
    cases s <;> simp_all [log]
  · intro he
    obtain ⟨s', h⟩ := log_of_enabled he
    rw [h]
    split <;> simp [sent]
  · simp [log, compact, emitFatal]
  · by_cases he : Enabled debug min s
    · obtain ⟨s', h⟩ := log_of_enabled he
      rw [h]
      cases s <;> cases debug <;> simp [Severity.num, he]
    · have hg : minLevelGt debug min s = true := by rw [gt_iff]; simp [he]
      cases s <;> simp [log, hg, he, compact, emitFatal]

/-- **C147 (levels).** `PLOG` and `SYSLOG` do the same for all severities; a FATAL one ends the process only if it is sent. -/
theorem C147_plog (debug : Bool) (min : Int) (s : Severity) :
    (¬Enabled debug min s → plog debug min s = []) ∧
    (Enabled debug min s → Effect.operands ∈ plog debug min s ∧ sent (plog debug min s) = [0]) ∧
    (Effect.abort ∈ plog debug min s ↔ s.num debug = 3 ∧ Enabled debug min s) := by
  by_cases he : Enabled debug min s
  · have hg : minLevelGt debug min s = false := by rw [gt_iff]; simp [he]
    refine ⟨fun h => absurd he h, fun _ => ?_, ?_⟩
    · refine ⟨by simp [plog, hg, emit], ?_⟩
      simp only [plog, hg, Bool.false_eq_true, if_false]
      exact sent_emit he
    · simp only [plog, hg, Bool.false_eq_true, if_false, emit]
      rw [if_neg (by unfold Enabled at he; omega)]
      split <;> simp [*]
  · have hg : minLevelGt debug min s = true := by rw [gt_iff]; simp [he]
    simp [plog, hg, he]

/-- **C147 (conditions).** `LOG_IF(s, c)` evaluates the condition once, at every level, and then is `LOG(s)` if it holds and nothing otherwise. For FATAL this needs
a level of at most FATAL. -/
theorem C147_if_partial (debug : Bool) (min : Int) (s : Severity) (c : Bool) (hs : s = .fatal → min ≤ 3) :
    logIf debug min s c = .condition :: (if c then log debug min s else []) ∧ plogIf debug min s c = .condition :: (if c then plog debug min s else []) := by
  constructor
  · cases c with
    | false => simp [logIf]
    | true =>
      cases s with
      | fatal =>
        have hg : minLevelGt debug min .fatal = false := by rw [gt_iff]; simp [Enabled, Severity.num, hs rfl]
        simp [logIf, hg, log]
      | _ => simp [logIf, log]
  · cases c <;> simp [plogIf, plog]

/-- **C147 violated:** above the level FATAL, `LOG_IF(FATAL, true)` and `PLOG(FATAL)` let the process go on, while `LOG(FATAL)` ends it. -/
theorem C147_fatal_violated (debug : Bool) (min : Int) (h : 3 < min) :
    Effect.abort ∈ log debug min .fatal ∧ logIf debug min .fatal true = [.condition] ∧ plog debug min .fatal = [] := by
  have hg : minLevelGt debug min .fatal = true := by simp [minLevelGt, Severity.num, h]
  exact ⟨by simp [log, compact, emitFatal], by simp [logIf, hg], by simp [plog, hg]⟩

/-- **C147 (debugging).** In debug builds the `D` macros are the others, in release builds they do nothing: the condition is not evaluated either. -/
theorem C147_debug (min : Int) (s : Severity) (c : Bool) : dlog true min s = log true min s ∧ dlogIf true min s c = logIf true min s c ∧
    dlog false min s = [] ∧ dlogIf false min s c = [] := ⟨rfl, rfl, rfl, rfl⟩

/-! ## Counting statements -/

/-- The counter that goes round after `k` executions. -/
def modAfter (n : Int) (k : Nat) : Int := if k = 0 then 0 else ((k : Int) - 1) % n + 1

theorem count_spec {n : Int} (hn : 0 < n) (k : Nat) (hk : k + 1 ≤ 2147483647) :
    ∃ es, Site.count ⟨k, modAfter n k⟩ n = some (⟨((k + 1 : Nat) : Int), modAfter n (k + 1)⟩, es) ∧ (es = [.number] ∨ es = [.number, .number]) := by
  have h0 := Int.emod_nonneg ((k : Int) - 1) (show n ≠ 0 by omega)
  have h1 := Int.emod_lt_of_pos ((k : Int) - 1) hn
  have hm : 0 ≤ modAfter n k ∧ modAfter n k ≤ k ∧ modAfter n k ≤ n := by
    unfold modAfter
    split
    · omega
    · refine ⟨by omega, ?_, by omega⟩
      have : ((k : Int) - 1) % n ≤ (k : Int) - 1 := by
        rw [show (k : Int) - 1 = ((k - 1 : Nat) : Int) by omega]
        obtain ⟨m, rfl⟩ := Int.eq_ofNat_of_zero_le (Int.le_of_lt hn)
        exact_mod_cast Nat.mod_le _ _
      omega
  have e1 : int32 ((k : Int) + 1) = some ((k : Int) + 1) := by unfold int32; rw [if_pos (by omega)]
  have e2 : int32 (modAfter n k + 1) = some (modAfter n k + 1) := by unfold int32; rw [if_pos (by omega)]
  have hnext : modAfter n (k + 1) = if modAfter n k + 1 > n then modAfter n k + 1 - n else modAfter n k + 1 := by
    unfold modAfter
    rw [if_neg (by omega)]
    by_cases hz : k = 0
    · subst hz
      simp only [if_true]
      rw [if_neg (by omega)]
      simp
    · rw [if_neg hz]
      rw [show ((k + 1 : Nat) : Int) - 1 = ((k : Int) - 1) + 1 by omega]
      generalize (k : Int) - 1 = j at *
      by_cases hj : j % n + 1 = n
      · rw [if_pos (by omega)]
        have : (j + 1) % n = 0 := by rw [Int.add_emod, show j % n = n - 1 by omega]
                                     by_cases h2 : n = 1
                                     · subst h2; simp
                                     · rw [Int.emod_eq_of_lt (by omega : (0:Int) ≤ 1) (by omega)]; simp
        omega
      · rw [if_neg (by omega)]
        have : (j + 1) % n = j % n + 1 := by
          have h3 : (j + 1) % n = (j % n + 1) % n := by rw [Int.emod_add_emod]
          rw [h3, Int.emod_eq_of_lt (by omega) (by omega)]
        omega
  unfold Site.count
  simp only [e1, e2, Option.bind_some]
  by_cases hgt : modAfter n k + 1 > n
  · rw [if_pos hgt] at hnext
    have e3 : int32 (modAfter n k + 1 - n) = some (modAfter n k + 1 - n) := by unfold int32; rw [if_pos (by omega)]
    rw [if_pos hgt, e3, hnext]
    exact ⟨[.number, .number], by simp, Or.inr rfl⟩
  · rw [if_neg hgt] at hnext
    rw [if_neg hgt, hnext]
    exact ⟨[.number], by simp, Or.inl rfl⟩

theorem mod_one {n : Int} (hn : 0 < n) (k : Nat) : modAfter n (k + 1) = 1 ↔ n ∣ (k : Int) := by
  unfold modAfter
  rw [if_neg (by omega), show ((k + 1 : Nat) : Int) - 1 = k by omega, Int.dvd_iff_emod_eq_zero]
  omega

/-- Effects of `k` executions, by a relation for each. -/
theorem history_spec {step : Run → Site → Option (Site × List Effect)} {site : Nat → Site} {good : Nat → Run → List Effect → Prop} {limit : Nat}
    (hstep : ∀ k r, k < limit → ∃ es, step r (site k) = some (site (k + 1), es) ∧ good k r es) :
    ∀ (rs : List Run) (i : Nat), i + rs.length ≤ limit → ∃ ess, history step (site i) rs = some (site (i + rs.length), ess) ∧ ess.length = rs.length ∧
      ∀ (k : Nat) (r : Run), rs[k]? = some r → ∃ es, ess[k]? = some es ∧ good (i + k) r es := by
  intro rs
  induction rs with
  | nil => intro i _; exact ⟨[], rfl, rfl, by simp⟩
  | cons r rs ih =>
    intro i hi
    simp only [List.length_cons] at hi
    obtain ⟨es, h1, h2⟩ := hstep i r (by omega)
    obtain ⟨ess, h3, h4, h5⟩ := ih (i + 1) (by omega)
    refine ⟨es :: ess, ?_, by simp [h4], ?_⟩
    · simp only [history, h1, Option.bind_some, h3, Option.map_some, List.length_cons]
      rw [show i + 1 + rs.length = i + (rs.length + 1) by omega]
    · intro k r' hr'
      cases k with
      | zero => simp at hr'; subst hr'; exact ⟨es, rfl, h2⟩
      | succ k =>
        obtain ⟨es', h6, h7⟩ := h5 k r' (by simpa using hr')
        exact ⟨es', by simpa using h6, by rwa [show i + 1 + k = i + (k + 1) by omega] at h7⟩

/-- The site after `k` executions. -/
def siteAfter (n : Int) (k : Nat) : Site := ⟨k, modAfter n k⟩

theorem sent_numbers {es : List Effect} (h : es = [.number] ∨ es = [.number, .number]) : sent es = [] ∧ Effect.operands ∉ es ∧ Effect.condition ∉ es := by
  rcases h with rfl | rfl <;> simp [sent]

/-- **C147 (sampling).** Of the executions of `LOG_EVERY_N(s, n)`, counted from 0, those whose number is a multiple of `n` send a message, with the count of
executions, if the level allows it at that time, and no other does; nor are the operands evaluated otherwise. Executions at a level that does not allow it count too. -/
theorem C147_every (debug : Bool) (sev : Severity) {n : Int} (hn : 0 < n) (rs : List Run) (hl : rs.length ≤ 2147483647) :
    ∃ s ess, history (fun r => logEveryN debug r.min sev n) .init rs = some (s, ess) ∧ ess.length = rs.length ∧
      ∀ (k : Nat) (r : Run), rs[k]? = some r → ∃ es, ess[k]? = some es ∧
        (Enabled debug r.min sev ∧ n ∣ (k : Int) → sent es = [(k : Int) + 1] ∧ Effect.operands ∈ es) ∧
        (¬(Enabled debug r.min sev ∧ n ∣ (k : Int)) → sent es = [] ∧ Effect.operands ∉ es) := by
  obtain ⟨ess, h1, h2, h3⟩ := history_spec (step := fun r => logEveryN debug r.min sev n) (site := siteAfter n) (limit := 2147483647)
    (good := fun k r es => (Enabled debug r.min sev ∧ n ∣ (k : Int) → sent es = [(k : Int) + 1] ∧ Effect.operands ∈ es) ∧
        (¬(Enabled debug r.min sev ∧ n ∣ (k : Int)) → sent es = [] ∧ Effect.operands ∉ es)) (by
    intro k r hk
    obtain ⟨es, h1, h2⟩ := count_spec hn k (by omega)
    obtain ⟨a, b, _⟩ := sent_numbers h2
    refine ⟨es ++ if !minLevelGt debug r.min sev && modAfter n (k + 1) == 1 then emit debug r.min sev ((k + 1 : Nat) : Int) else [],
      by simp only [logEveryN, siteAfter, h1, Option.map_some], ?_, ?_⟩
    · rintro ⟨he, hd⟩
      have hg : minLevelGt debug r.min sev = false := by rw [gt_iff]; simp [he]
      simp only [hg, Bool.not_false, (mod_one hn k).2 hd, beq_self_eq_true, Bool.and_self, if_true, sent_append, a, sent_emit he]
      refine ⟨by simp, List.mem_append_right _ (by simp [emit])⟩
    · intro hnot
      rw [if_neg]
      · simp [a, b]
      · simp only [Bool.and_eq_true, Bool.not_eq_true', beq_iff_eq, not_and]
        intro hg hm
        exact hnot ⟨by rw [gt_iff] at hg; simpa using hg, (mod_one hn k).1 hm⟩) rs 0 (by omega)
  exact ⟨_, ess, h1, h2, fun k r hr => by simpa using h3 k r hr⟩

/-- **C147 (sampling with a condition).** `LOG_IF_EVERY_N(s, c, n)` sends where `LOG_EVERY_N(s, n)` would and the condition holds; the condition is evaluated exactly
if the level allows the message. -/
theorem C147_if_every (debug : Bool) (sev : Severity) {n : Int} (hn : 0 < n) (rs : List Run) (hl : rs.length ≤ 2147483647) :
    ∃ s ess, history (fun r => logIfEveryN debug r.min sev r.cond n) .init rs = some (s, ess) ∧ ess.length = rs.length ∧
      ∀ (k : Nat) (r : Run), rs[k]? = some r → ∃ es, ess[k]? = some es ∧
        (Enabled debug r.min sev ∧ r.cond = true ∧ n ∣ (k : Int) → sent es = [(k : Int) + 1] ∧ Effect.operands ∈ es) ∧
        (¬(Enabled debug r.min sev ∧ r.cond = true ∧ n ∣ (k : Int)) → sent es = [] ∧ Effect.operands ∉ es) ∧
        (Effect.condition ∈ es ↔ Enabled debug r.min sev) := by
  obtain ⟨ess, h1, h2, h3⟩ := history_spec (step := fun r => logIfEveryN debug r.min sev r.cond n) (site := siteAfter n) (limit := 2147483647)
    (good := fun k r es => (Enabled debug r.min sev ∧ r.cond = true ∧ n ∣ (k : Int) → sent es = [(k : Int) + 1] ∧ Effect.operands ∈ es) ∧
        (¬(Enabled debug r.min sev ∧ r.cond = true ∧ n ∣ (k : Int)) → sent es = [] ∧ Effect.operands ∉ es) ∧
        (Effect.condition ∈ es ↔ Enabled debug r.min sev)) (by
    intro k r hk
    obtain ⟨es, h1, h2⟩ := count_spec hn k (by omega)
    obtain ⟨a, b, c⟩ := sent_numbers h2
    refine ⟨es ++ if minLevelGt debug r.min sev then [] else
      .condition :: if r.cond && modAfter n (k + 1) == 1 then emit debug r.min sev ((k + 1 : Nat) : Int) else [],
      by simp only [logIfEveryN, siteAfter, h1, Option.map_some], ?_, ?_, ?_⟩
    · rintro ⟨he, hc, hd⟩
      have hg : minLevelGt debug r.min sev = false := by rw [gt_iff]; simp [he]
      simp only [hg, Bool.false_eq_true, if_false, hc, (mod_one hn k).2 hd, beq_self_eq_true, Bool.and_self, if_true, sent_append, a]
      refine ⟨?_, List.mem_append_right _ (by simp [emit])⟩
      have := sent_emit (c := ((k + 1 : Nat) : Int)) he
      simp only [sent, List.filterMap_cons] at this ⊢
      simpa using this
    · intro hnot
      by_cases he : Enabled debug r.min sev
      · have hg : minLevelGt debug r.min sev = false := by rw [gt_iff]; simp [he]
        simp only [hg, Bool.false_eq_true, if_false]
        rw [if_neg]
        · simp [a, b, sent_append, sent]
          simpa [sent] using a
        · simp only [Bool.and_eq_true, beq_iff_eq, not_and]
          intro hc hm
          exact hnot ⟨he, hc, (mod_one hn k).1 hm⟩
      · have hg : minLevelGt debug r.min sev = true := by rw [gt_iff]; simp [he]
        simp [hg, a, b]
    · by_cases he : Enabled debug r.min sev
      · have hg : minLevelGt debug r.min sev = false := by rw [gt_iff]; simp [he]
        simp [hg, he]
      · have hg : minLevelGt debug r.min sev = true := by rw [gt_iff]; simp [he]
        simp [hg, he, c]) rs 0 (by omega)
  exact ⟨_, ess, h1, h2, fun k r hr => by simpa using h3 k r hr⟩

/-- The counter of `LOG_FIRST_N` after `k` executions. -/
def firstAfter (n : Int) (k : Nat) : Int := if (k : Int) ≤ n then k else if 0 ≤ n then n + 1 else 0

/-- **C147 (the first ones).** The first `n` executions of `LOG_FIRST_N(s, n)` send a message if the level allows it at that time, later ones never do, however many
there are. -/
theorem C147_first (debug : Bool) (sev : Severity) {n : Int} (hn : n < 2147483647) (rs : List Run) :
    ∃ s ess, history (fun r => logFirstN debug r.min sev n) .init rs = some (s, ess) ∧ ess.length = rs.length ∧
      ∀ (k : Nat) (r : Run), rs[k]? = some r → ∃ es, ess[k]? = some es ∧
        (Enabled debug r.min sev ∧ (k : Int) < n → sent es = [(k : Int) + 1] ∧ Effect.operands ∈ es) ∧
        (¬(Enabled debug r.min sev ∧ (k : Int) < n) → sent es = [] ∧ Effect.operands ∉ es) := by
  obtain ⟨ess, h1, h2, h3⟩ := history_spec (step := fun r => logFirstN debug r.min sev n) (site := fun k => ⟨firstAfter n k, 0⟩)
    (limit := rs.length)
    (good := fun k r es => (Enabled debug r.min sev ∧ (k : Int) < n → sent es = [(k : Int) + 1] ∧ Effect.operands ∈ es) ∧
        (¬(Enabled debug r.min sev ∧ (k : Int) < n) → sent es = [] ∧ Effect.operands ∉ es)) (by
    intro k r _
    by_cases hk : (k : Int) ≤ n
    · have e1 : int32 ((k : Int) + 1) = some ((k : Int) + 1) := by unfold int32; rw [if_pos (by omega)]
      refine ⟨.number :: if minLevelGt debug r.min sev then [] else .number :: if (k : Int) + 1 ≤ n then emit debug r.min sev ((k : Int) + 1) else [],
        ?_, ?_, ?_⟩
      · have h0 : firstAfter n k = k := if_pos hk
        have h1 : firstAfter n (k + 1) = (k : Int) + 1 := by unfold firstAfter; split <;> (try split) <;> omega
        simp only [logFirstN, h0, h1]
        rw [if_pos hk, e1, Option.map_some]
      · rintro ⟨he, hd⟩
        have hg : minLevelGt debug r.min sev = false := by rw [gt_iff]; simp [he]
        simp only [hg, Bool.false_eq_true, if_false]
        rw [if_pos (by omega)]
        have := sent_emit (c := (k : Int) + 1) he
        refine ⟨?_, by simp [emit]⟩
        simp only [sent, List.filterMap_cons] at this ⊢
        exact this
      · intro hnot
        by_cases he : Enabled debug r.min sev
        · have hg : minLevelGt debug r.min sev = false := by rw [gt_iff]; simp [he]
          simp only [hg, Bool.false_eq_true, if_false]
          rw [if_neg (fun h => hnot ⟨he, by omega⟩)]
          simp [sent]
        · have hg : minLevelGt debug r.min sev = true := by rw [gt_iff]; simp [he]
          simp [hg, sent]
    · refine ⟨.number :: if minLevelGt debug r.min sev then [] else [.number], ?_, ?_, ?_⟩
      · have h1 : firstAfter n (k + 1) = firstAfter n k := by
          unfold firstAfter; rw [if_neg hk, if_neg (by omega)]
        have h0 : ¬(firstAfter n k ≤ n) := by unfold firstAfter; rw [if_neg hk]; split <;> omega
        simp only [logFirstN, h1]
        rw [if_neg h0, Option.map_some, if_neg h0]
      · rintro ⟨_, hd⟩; omega
      · intro _
        split <;> simp [sent]) rs 0 (by omega)
  refine ⟨⟨firstAfter n (0 + rs.length), 0⟩, ess, ?_, h2, fun k r hr => by simpa using h3 k r hr⟩
  rw [← h1]
  have h0 : firstAfter n 0 = 0 := by unfold firstAfter; split <;> (try split) <;> omega
  rw [h0]; rfl

/-- **C147 violated (overflow):** the 2147483648th execution of `LOG_EVERY_N` is undefined. -/
theorem C147_overflow_violated (debug : Bool) (sev : Severity) {n : Int} (rs : List Run) (hl : rs.length = 2147483648) :
    history (fun r => logEveryN debug r.min sev n) .init rs = none := by
  have key : ∀ (rs : List Run) (s : Site) (k : Nat), s.occ = k → 2147483647 < k + rs.length → k ≤ 2147483647 →
      history (fun r => logEveryN debug r.min sev n) s rs = none := by
    intro rs
    induction rs with
    | nil => intro s k _ h1 h2; simp at h1; omega
    | cons r rs ih =>
      intro s k hs h1 h2
      simp only [List.length_cons] at h1
      simp only [history, logEveryN, Site.count]
      by_cases hk : k = 2147483647
      · have : int32 (s.occ + 1) = none := by unfold int32; rw [if_neg (by omega)]
        simp [this]
      · have e1 : int32 (s.occ + 1) = some (s.occ + 1) := by unfold int32; rw [if_pos (by omega)]
        rw [e1]
        cases hm : int32 (s.mod + 1) with
        | none => simp
        | some m =>
          simp only [Option.bind_some]
          split
          · cases hm' : int32 (m - n) with
            | none => simp
            | some m' =>
              simp only [Option.map_some, Option.bind_some]
              rw [ih ⟨s.occ + 1, m'⟩ (k + 1) (by simp [hs]) (by omega) (by omega)]; rfl
          · simp only [Option.map_some, Option.bind_some]
            rw [ih ⟨s.occ + 1, m⟩ (k + 1) (by simp [hs]) (by omega) (by omega)]; rfl
  exact key rs .init 0 rfl (by omega) (by omega)

/-- **C147 violated (numbers):** the number given to `LOG_EVERY_N` is evaluated twice in the executions that go round. -/
theorem C147_number_violated (debug : Bool) (sev : Severity) (r : Run) (hr : ¬Enabled debug r.min sev) :
    history (fun r => logEveryN debug r.min sev 1) .init [r, r] = some (⟨2, 1⟩, [[.number], [.number, .number]]) := by
  have hg : minLevelGt debug r.min sev = true := by rw [gt_iff]; simp [hr]
  simp [history, logEveryN, Site.count, Site.init, int32, hg]

/-- **C147 violated (numbers):** with a negative number `LOG_EVERY_N` never sends anything. -/
theorem C147_negative_violated (debug : Bool) (sev : Severity) {n : Int} (hn : n < 0) (rs : List Run) (s : Site) (ess : List (List Effect))
    (h : history (fun r => logEveryN debug r.min sev n) .init rs = some (s, ess)) : ∀ es ∈ ess, sent es = [] := by
  have key : ∀ (rs : List Run) (s t : Site) (ess : List (List Effect)), 0 ≤ s.mod → history (fun r => logEveryN debug r.min sev n) s rs = some (t, ess) →
      ∀ es ∈ ess, sent es = [] := by
    intro rs
    induction rs with
    | nil => intro s t ess _ h; simp [history] at h; obtain ⟨_, rfl⟩ := h; simp
    | cons r rs ih =>
      intro s t ess hs h
      simp only [history, logEveryN, Site.count] at h
      cases e1 : int32 (s.occ + 1) with
      | none => simp [e1] at h
      | some o =>
        cases e2 : int32 (s.mod + 1) with
        | none => simp [e1, e2] at h
        | some m =>
          have hm : m = s.mod + 1 := by unfold int32 at e2; split at e2 <;> simp at e2; omega
          simp only [e1, e2, Option.bind_some] at h
          rw [if_pos (by omega)] at h
          cases e3 : int32 (m - n) with
          | none => simp [e3] at h
          | some m' =>
            have hm' : m' = m - n := by unfold int32 at e3; split at e3 <;> simp at e3; omega
            simp only [e3, Option.map_some, Option.bind_some] at h
            cases e4 : history (fun r => logEveryN debug r.min sev n) ⟨o, m'⟩ rs with
            | none => simp [e4] at h
            | some x =>
              obtain ⟨t', l⟩ := x
              simp only [e4, Option.map_some, Option.some.injEq, Prod.mk.injEq] at h
              obtain ⟨_, rfl⟩ := h
              intro es hes
              rcases List.mem_cons.1 hes with rfl | hes
              · rw [if_neg (by simp; intro _; omega)]; simp [sent]
              · exact ih _ _ _ (by show 0 ≤ m'; omega) e4 es hes
  exact key rs .init s ess (by decide) h

/-- **C147 violated (conditions):** the executions in which the condition does not hold are counted too, so that `LOG_IF_EVERY_N` may never send anything although the condition
holds again and again: here in every second execution, for `n = 2`. -/
theorem C147_if_every_violated (debug : Bool) (sev : Severity) (min : Int) (m : Nat) (hm : 2 * m ≤ 2147483647) :
    ∃ s ess, history (fun r => logIfEveryN debug r.min sev r.cond 2) .init ((List.range (2 * m)).map fun i => ⟨min, i % 2 == 1⟩) = some (s, ess) ∧
      ess.length = 2 * m ∧ ∀ es ∈ ess, sent es = [] := by
  obtain ⟨s, ess, h1, h2, h3⟩ := C147_if_every debug sev (n := 2) (by omega) ((List.range (2 * m)).map fun i => (⟨min, i % 2 == 1⟩ : Run)) (by simp [hm])
  refine ⟨s, ess, h1, by simpa using h2, ?_⟩
  intro es hes
  obtain ⟨k, hk, rfl⟩ := List.mem_iff_getElem.1 hes
  have hk' : k < 2 * m := by rw [h2] at hk; simpa using hk
  obtain ⟨es', h4, _, h5, _⟩ := h3 k ⟨min, k % 2 == 1⟩ (by rw [List.getElem?_map, List.getElem?_range hk']; rfl)
  rw [List.getElem?_eq_getElem hk] at h4
  cases h4
  refine (h5 ?_).1
  rintro ⟨_, h6, h7⟩
  simp at h6
  omega

/-- **C147 violated (threads):** two threads that execute `LOG_EVERY_N` for the first time, with `n` of 2 or more, may send no message at all. -/
theorem C147_threads_violated {n : Int} (hn : 2 ≤ n) :
    ∃ schedule s, threads n schedule (.init, .occ, .occ) = (s, .done false, .done false) ∧ s.occ = 2 :=
  ⟨[false, false, true, true, false, true], ⟨2, 2⟩, by
    have t1 : tstep n .init .occ = (⟨1, 0⟩, .mod) := rfl
    have t2 : tstep n ⟨1, 0⟩ .mod = (⟨1, 1⟩, .check) := by
      have : ¬((0 : Int) + 1 > n) := by omega
      simp only [tstep]; rw [if_neg this]; rfl
    have t3 : tstep n ⟨1, 1⟩ .occ = (⟨2, 1⟩, .mod) := rfl
    have t4 : tstep n ⟨2, 1⟩ .mod = (⟨2, 2⟩, .check) := by
      have : ¬((1 : Int) + 1 > n) := by omega
      simp only [tstep]; rw [if_neg this]; rfl
    have t5 : tstep n ⟨2, 2⟩ .check = (⟨2, 2⟩, .done false) := rfl
    simp only [threads, t1, t2, t3, t4, t5], rfl⟩

/-- The hypotheses are met: five executions with `n = 2`, the third at a level that is too high: the first and the fifth send. -/
example : (history (fun r => logEveryN true r.min .warning 2) .init [⟨0, true⟩, ⟨0, true⟩, ⟨2, true⟩, ⟨0, true⟩, ⟨1, true⟩]).map (fun x => x.2.map sent) =
    some [[1], [], [], [], [5]] := by decide +kernel

end Logging
end Nebula
