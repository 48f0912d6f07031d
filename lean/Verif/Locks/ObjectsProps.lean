import Verif.Locks.Objects
import Verif.Locks.Lemmas

/-!
# C134: threads that share the other objects of the library do not race and do not block each other

As C133: for every member the functions that break its locking, a proof that nothing races on the member as
long as none of them runs, and for each of them an execution that does.
-/
namespace Nebula.Locks.Objects

/-- The functions that access a member without the protection the others rely on.  The lists of counters are
not protected at all (counters have to be registered before they are used), nor is the start of a worker;
`failedParts`, `responses` and `hostLatency` are declared not to be thread-safe. -/
def culprit : Var → Fn → Bool
  | .nameMap, .readAllValue _ => true
  | .seriesList, .registerStats => true
  | .histoList, .registerHisto => true
  | .tally i, .cacheCounts n => decide (i < n)
  | .objects, .poolEmpty => true
  | .latchCount, .latchIsReady => true
  | .events, .workerStart => true
  | .thread, .workerStart => true
  | .thread, .workerWait => true
  | .failedParts, .failedParts => true
  | .responses, .responses => true
  | .hostLatency, .hostLatency => true
  | _, _ => false

/-- How each member is protected (a device of the proof). -/
private def discipline : Var → Discipline Lock
  | .nameMap => .locked .names
  | .seriesList | .histoList => .frozen
  | .values c => .locked (.counter c)
  | .bucket i | .tally i => .locked (.bucket i)
  | .objects => .locked .pool
  | .latchCount => .locked .latch
  | .barrierCount => .locked .barrier
  | .tasks | .timers | .purges => .locked .worker
  | .active => .owned
  | .events | .thread => .frozen
  | .result | .failedParts | .maxLatency | .responses | .hostLatency => .locked .answer

/-- No lock is taken while another is held. -/
private def rank : Lock → Nat := fun _ => 0

private theorem ordered_all {cs : List OCode} {h} (a : ∀ c ∈ cs, c.ordered rank h = true) : (all cs).ordered rank h = true := by
  induction cs with
  | nil => rfl
  | cons c cs ih =>
    simp only [all, Code.ordered, Bool.and_eq_true]
    exact ⟨a c (List.mem_cons_self ..), ih fun c' h' => a c' (List.mem_cons_of_mem _ h')⟩

private theorem keeps_all {d : Discipline Lock} {o : Bool} {v : Var} {cs : List OCode} {h}
    (a : ∀ c ∈ cs, c.keeps d o v h = true) : (all cs).keeps d o v h = true := by
  induction cs with
  | nil => rfl
  | cons c cs ih =>
    simp only [all, Code.keeps, Bool.and_eq_true]
    exact ⟨a c (List.mem_cons_self ..), ih fun c' h' => a c' (List.mem_cons_of_mem _ h')⟩

private theorem ordered (f : Fn) : (body f).ordered rank [] = true := by
  cases f
  case readAllValue cs =>
    simp only [body, readAllValue, Code.ordered, rd, Bool.true_and]
    refine ordered_all fun c h => ?_
    obtain ⟨x, _, rfl⟩ := List.mem_map.mp h
    rfl
  case cacheClear n =>
    refine ordered_all fun c h => ?_
    obtain ⟨x, _, rfl⟩ := List.mem_map.mp h
    rfl
  case cacheCounts n =>
    refine ordered_all fun c h => ?_
    obtain ⟨x, _, rfl⟩ := List.mem_map.mp h
    rfl
  all_goals rfl

private theorem keeps_counter (v : Var) (c : Counter) : (useCounter c).keeps (discipline v) false v [] = true := by
  cases v <;> cases c <;>
    simp [useCounter, Code.keeps, rd, wr, opt, locking, all, Counter.list, discipline, Discipline.allows]
  all_goals (rename_i x _; rcases x with x | x <;> simp [eq_comm, Classical.em, or_comm])

private theorem keeps_bucket (v : Var) (i : Nat) (c : OCode)
    (h : c = Objects.cacheContains i ∨ c = cacheChange i ∨ c = Objects.cacheGet i ∨
      c = locking (.bucket i) (all [wr (.bucket i), wr (.tally i)])) :
    c.keeps (discipline v) false v [] = true := by
  rcases h with rfl | rfl | rfl | rfl <;> cases v <;>
    simp [Objects.cacheContains, cacheChange, Objects.cacheGet, Code.keeps, rd, wr, opt, locking, all, discipline,
      Discipline.allows]
  all_goals (rename_i j; by_cases e : i = j <;> simp [e])

private theorem keeps (v : Var) (f : Fn) (h : culprit v f = false) :
    (body f).keeps (discipline v) (own f) v [] = true := by
  cases f
  case addValue c => exact keeps_counter v c
  case readById c => exact keeps_counter v c
  case readByName c =>
    simp only [body, own, useByName, Code.keeps, opt, keeps_counter, Bool.and_true]
    cases v <;> simp [reading, rd, Code.keeps, discipline, Discipline.allows]
  case readAllValue cs =>
    simp only [body, own, readAllValue, Code.keeps, Bool.and_eq_true]
    have hn : (rd .nameMap).keeps (discipline v) false v [] = true := by
      cases v <;> simp [rd, Code.keeps] <;> simp [culprit] at h
    refine ⟨hn, keeps_all fun c hc => ?_⟩
    obtain ⟨x, _, rfl⟩ := List.mem_map.mp hc
    simp only [Code.keeps, hn, keeps_counter, Bool.and_self]
  case cacheContains i => exact keeps_bucket v i _ (.inl rfl)
  case cacheInsert i => exact keeps_bucket v i _ (.inr (.inl rfl))
  case cacheEvict i => exact keeps_bucket v i _ (.inr (.inl rfl))
  case cacheGet i => exact keeps_bucket v i _ (.inr (.inr (.inl rfl)))
  case cachePutIfAbsent i => exact keeps_bucket v i _ (.inr (.inr (.inl rfl)))
  case cacheClear n =>
    refine keeps_all fun c hc => ?_
    obtain ⟨x, _, rfl⟩ := List.mem_map.mp hc
    exact keeps_bucket v x _ (.inr (.inr (.inr rfl)))
  case cacheCounts n =>
    refine keeps_all fun c hc => ?_
    obtain ⟨x, hx, rfl⟩ := List.mem_map.mp hc
    have hx := List.mem_range.mp hx
    cases v <;> simp [rd, Code.keeps, own]
    rename_i j
    simp only [culprit, decide_eq_false_iff_not] at h
    left
    omega
  all_goals
    revert h
    cases v <;> simp [culprit, body, own, Objects.registerStats, Objects.registerHisto, notify, onNotify, onTimer,
      purgeTimerInternal, Code.keeps, rd, wr, opt, locking, all, discipline, Discipline.allows]

/-- Whatever functions any number of threads run, in whatever order their steps interleave: no two threads
are at the same member at once, one of them writing, unless one of the functions that break the locking of
that member is among those that run. -/
theorem C134_no_race_partial {uses : Fn → Prop} {v : Var} (h : ∀ f, uses f → culprit v f = false)
    {s : State Lock Var} (r : Reach objects uses s) : ¬ RaceOn v s :=
  no_race (rank := rank) (d := discipline v) ordered (fun f hf => keeps v f (h f hf)) r

/-- Once the counters are registered and the worker is started, with the members that say they are not
thread-safe left alone and nobody asking a cache for its tallies, a pool whether it is empty or a latch
whether it is ready, nothing races at all. -/
theorem C134_in_use {s : State Lock Var}
    (r : Reach objects (fun f => f ∉ [.registerStats, .registerHisto, .poolEmpty, .latchIsReady, .workerStart,
      .workerWait, .failedParts, .responses, .hostLatency] ∧ (∀ n, f ≠ .cacheCounts n)) s) (v : Var) : ¬ RaceOn v s := by
  by_cases hv : v = .nameMap
  · subst hv
    refine no_race (rank := rank) (d := Discipline.frozen) ordered (fun f hf => ?_) r
    obtain ⟨h1, h2⟩ := hf
    cases f
    case readAllValue cs =>
      simp only [objects, body, own, readAllValue, Code.keeps, Bool.and_eq_true]
      refine ⟨by decide, keeps_all fun c hc => ?_⟩
      obtain ⟨x, _, rfl⟩ := List.mem_map.mp hc
      cases x <;> simp [Code.keeps, rd, wr, useCounter, opt, locking, all, Counter.list, Discipline.allows]
    case cacheClear n =>
      refine keeps_all fun c hc => ?_
      obtain ⟨x, _, rfl⟩ := List.mem_map.mp hc
      simp [Code.keeps, locking, all, wr]
    case cacheCounts n => exact absurd rfl (h2 n)
    all_goals first
      | (exfalso; exact h1 (by decide))
      | (rename_i c; rcases c with c | c <;>
          simp [objects, body, Objects.cacheContains, cacheChange, Objects.cacheGet, own, useCounter, useByName, Code.keeps, rd, wr, opt, locking, reading, all, Counter.list,
            Discipline.allows])
      | simp [objects, body, own, Objects.cacheContains, cacheChange, Objects.cacheGet, notify, onNotify, onTimer,
          purgeTimerInternal, Code.keeps, rd, wr, opt, locking, all]
  · refine C134_no_race_partial (fun f hf => ?_) r
    obtain ⟨h1, h2⟩ := hf
    cases f <;> cases v <;> first
      | rfl
      | exact absurd rfl hv
      | exact absurd rfl (h2 _)
      | (exfalso; exact h1 (by decide))

private theorem sw {v : Var} {f g : Fn} (h : ∃ s, Reach objects (fun x => x = g ∨ x = f) s ∧ RaceOn v s) :
    ∃ g s, Reach objects (fun x => x = f ∨ x = g) s ∧ RaceOn v s := by
  obtain ⟨s, r, q⟩ := h
  have : (fun x : Fn => x = g ∨ x = f) = (fun x => x = f ∨ x = g) := by
    funext x; exact propext ⟨Or.symm, Or.symm⟩
  exact ⟨g, s, this ▸ r, q⟩

private theorem trace_reads (vs : List Var) : ((all (vs.map rd)).trace []).1 = vs.map (fun v => .acc .rd v)
    ∧ ((all (vs.map rd)).trace []).2 = [] := by
  induction vs with
  | nil => exact ⟨rfl, rfl⟩
  | cons v vs ih => simp [all, Code.trace, rd] at ih ⊢; exact ih

private theorem upto_reads (vs : List Var) : ∀ {i : Nat} (h : i < vs.length),
    upto (L := Lock) [] [] (vs.map (fun v => Act.acc Mode.rd v)) i =
      some ([], .acc .rd vs[i] :: (vs.drop (i + 1)).map (fun v => .acc .rd v)) := by
  induction vs with
  | nil => intro i h; simp at h
  | cons v vs ih =>
    intro i h
    cases i with
    | zero => rfl
    | succ i =>
      have := ih (i := i) (by simpa using h)
      simpa [upto] using this

/-- Each of these functions does race on its member, with some one other function (or another call of
itself). -/
theorem C134_race_violated {v : Var} {f : Fn} (h : culprit v f = true) :
    ∃ g s, Reach objects (fun x => x = f ∨ x = g) s ∧ RaceOn v s := by
  cases v <;> cases f <;> first | (exfalso; revert h; simp [culprit]; done) | skip
  case nameMap.readAllValue cs =>
    exact sw (race_of_racy (S := objects) (i := 1) (j := 2) Fn.registerStats [] 2 (Fn.readAllValue cs) [] 0 (by decide) (by simp [objects, own]) (by simp [objects, own]) (by rfl))
  case seriesList.registerStats =>
    exact ⟨_, race_of_racy (S := objects) (i := 1) (j := 2) Fn.registerStats [false] 2 (Fn.addValue (.series 0)) [] 0 (by decide) (by decide) (by decide) (by decide)⟩
  case histoList.registerHisto =>
    exact ⟨_, race_of_racy (S := objects) (i := 1) (j := 2) Fn.registerHisto [false] 2 (Fn.addValue (.histo 0)) [] 0 (by decide) (by decide) (by decide) (by decide)⟩
  case tally.cacheCounts i n =>
    have hi : i < n := by simpa [culprit] using h
    refine sw (race_of_racy (S := objects) (i := 1) (j := 2) (Fn.cacheGet i) [] 1 (Fn.cacheCounts n) [] i (by decide)
      (by simp [objects, own]) (by simp [objects, own]) ?_)
    have t : ((objects.body (Fn.cacheCounts n)).trace []).1 = ((List.range n).map Var.tally).map (fun v => .acc .rd v) := by
      have := (trace_reads ((List.range n).map Var.tally)).1
      rw [List.map_map] at this
      exact this
    have u := upto_reads ((List.range n).map Var.tally) (i := i) (by simpa using hi)
    simp only [racy, t, u]
    simp [objects, body, Objects.cacheGet, locking, Code.trace, all, wr, rd, opt, upto]
  case objects.poolEmpty =>
    exact sw (race_of_racy (S := objects) (i := 1) (j := 2) Fn.poolAdd [] 1 Fn.poolEmpty [] 0 (by decide) (by decide) (by decide) (by decide))
  case latchCount.latchIsReady =>
    exact sw (race_of_racy (S := objects) (i := 1) (j := 2) Fn.latchDown [] 2 Fn.latchIsReady [] 0 (by decide) (by decide) (by decide) (by decide))
  case events.workerStart =>
    exact ⟨_, race_of_racy (S := objects) (i := 1) (j := 2) Fn.workerStart [] 0 Fn.addTask [] 3 (by decide) (by decide) (by decide) (by decide)⟩
  case thread.workerStart =>
    exact ⟨_, race_of_racy (S := objects) (i := 1) (j := 2) Fn.workerStart [] 1 Fn.workerWait [] 0 (by decide) (by decide) (by decide) (by decide)⟩
  case thread.workerWait =>
    exact ⟨_, race_of_racy (S := objects) (i := 1) (j := 2) Fn.workerWait [] 1 Fn.workerWait [] 0 (by decide) (by decide) (by decide) (by decide)⟩
  case failedParts.failedParts =>
    exact sw (race_of_racy (S := objects) (i := 1) (j := 2) Fn.emplaceFailedPart [] 1 Fn.failedParts [] 0 (by decide) (by decide) (by decide) (by decide))
  case responses.responses =>
    exact sw (race_of_racy (S := objects) (i := 1) (j := 2) Fn.addResponse [] 1 Fn.responses [] 0 (by decide) (by decide) (by decide) (by decide))
  case hostLatency.hostLatency =>
    exact sw (race_of_racy (S := objects) (i := 1) (j := 2) Fn.setLatency [] 3 Fn.hostLatency [] 0 (by decide) (by decide) (by decide) (by decide))

/-- No execution gets stuck on a lock: whatever any number of threads are in the middle of, they can all be
brought to an end, with every lock given back. -/
theorem C134_no_deadlock {s : State Lock Var} (r : Reach objects (fun _ => True) s) :
    ∃ s', Steps s s' ∧ Quiet s' :=
  can_finish (rank := rank) (B := 1) (fun _ => Nat.zero_lt_one) ordered r

/-! ## The hypotheses are met -/

/-- A thread that counts into a series while another walks all counters: the second waits for the first. -/
example : ∃ s, Reach objects (fun f => f ∉ [.registerStats, .registerHisto, .poolEmpty, .latchIsReady, .workerStart,
      .workerWait, .failedParts, .responses, .hostLatency] ∧ (∀ n, f ≠ .cacheCounts n)) s
    ∧ (Mode.wr, Lock.counter (.series 3)) ∈ s.held 1
    ∧ ∃ t, s.todo 2 = .acq .wr (.counter (.series 3)) :: t := by
  have r1 : Reach objects (fun f => f ∉ [.registerStats, .registerHisto, .poolEmpty, .latchIsReady, .workerStart,
      .workerWait, .failedParts, .responses, .hostLatency] ∧ (∀ n, f ≠ .cacheCounts n)) _ :=
    .start (i := 1) (f := .addValue (.series 3)) .init ⟨by decide, fun _ => by simp⟩ (by decide) rfl (run_trace _ [])
  have r2 := reach_upto (i := 1) (j := 2) 2 r1 (fun k h1 _ => by rw [put_held, if_neg h1]; rfl)
    (by decide) (h' := [(.wr, .counter (.series 3))]) (t' := (((body (.addValue (.series 3))).trace []).1).drop 2) (by decide +kernel)
  have r3 := Reach.start (S := objects) (i := 2) (f := .readAllValue [.series 3]) r2 ⟨by decide, fun _ => by simp⟩
    (by decide) rfl (run_trace _ [])
  have r4 := reach_upto (i := 2) (j := 1) 3 r3 (fun k h1 h2 => by
      rw [put_held, if_neg h1, put_held, if_neg h2, put_held, if_neg h2]; rfl)
    (by decide) (h' := []) (t' := (((body (.readAllValue [.series 3])).trace []).1).drop 3) (by decide +kernel)
  exact ⟨_, r4, by decide, _, rfl⟩

example : culprit .nameMap .registerStats = false ∧ culprit .nameMap (.readByName (.histo 2)) = false
    ∧ culprit (.tally 5) (.cacheCounts 5) = false := by decide

end Nebula.Locks.Objects
