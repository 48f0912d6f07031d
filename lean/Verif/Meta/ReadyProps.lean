import Verif.Meta.Ready
import Verif.Meta.UsersProps
/-! # C104: waiting for the meta service -/
namespace Nebula
namespace Meta

section
variable {R F P S I L D H : Type}

/-- The client after some attempts in a row, whatever they do. -/
def afterAttempts (att : Nat → Attempt R F P S I L D H) : Nat → UClient R F P S I L D H
  | 0 => freshClient
  | n + 1 => (attempt (att n) (afterAttempts att n)).1

/-- No attempt ends the process (see C80 for when one does). -/
def NoCrash (att : Nat → Attempt R F P S I L D H) : Prop := ∀ n, (attempt (att n) (afterAttempts att n)).2 ≠ .crashed

/-- `n` is the number of the first attempt after which the client is ready (counted from 1). -/
def FirstReady (att : Nat → Attempt R F P S I L D H) (n : Nat) : Prop :=
  0 < n ∧ (afterAttempts att n).ready = true ∧ ∀ m, m < n → (afterAttempts att m).ready = false

theorem loop_step {count : Int} {att : Nat → Attempt R F P S I L D H} {running : Nat → Bool} (hc : NoCrash att) (fuel : Nat) (tries : Int) (i : Nat) :
    waitLoop count att running (fuel + 1) tries i (afterAttempts att i) =
      if (afterAttempts att (i + 1)).ready = false ∧ (count = -1 ∨ tries > 0) ∧ running i = true then
        waitLoop count att running fuel (tries - 1) (i + 1) (afterAttempts att (i + 1))
      else some (.left (i + 1) (afterAttempts att (i + 1))) := by
  rw [waitLoop]
  have hn := hc i
  have he : afterAttempts att (i + 1) = (attempt (att i) (afterAttempts att i)).1 := rfl
  generalize ha : attempt (att i) (afterAttempts att i) = r at hn he
  obtain ⟨c', e⟩ := r
  dsimp only at he hn
  rw [he]
  cases e with
  | crashed => exact absurd rfl hn
  | done => dsimp only; congr 1; simp
  | failed => dsimp only; congr 1; simp

/-- The loop from the `i`-th attempt on, if it ends at attempt `n`: all attempts before leave the client not ready, with tries left and running. -/
theorem loop_ends {count : Int} {att : Nat → Attempt R F P S I L D H} {running : Nat → Bool} (hc : NoCrash att) : ∀ (k i : Nat) (tries : Int),
    (∀ j, i ≤ j → j < i + k → (afterAttempts att (j + 1)).ready = false ∧ (count = -1 ∨ tries - ((j - i : Nat) : Int) > 0) ∧ running j = true) →
    ¬ ((afterAttempts att (i + k + 1)).ready = false ∧ (count = -1 ∨ tries - (k : Int) > 0) ∧ running (i + k) = true) →
    waitLoop count att running (k + 1) tries i (afterAttempts att i) = some (.left (i + k + 1) (afterAttempts att (i + k + 1)))
  | 0, i, tries, _, hend => by
    rw [loop_step hc, if_neg (by simpa using hend)]
  | k + 1, i, tries, hgo, hend => by
    rw [loop_step hc, if_pos (by simpa using hgo i (Nat.le_refl i) (by omega))]
    have := loop_ends (count := count) (running := running) hc k (i + 1) (tries - 1) (fun j h1 h2 => by
        obtain ⟨g1, g2, g3⟩ := hgo j (by omega) (by omega)
        refine ⟨g1, ?_, g3⟩
        rcases g2 with g2 | g2
        · exact .inl g2
        · refine .inr ?_
          omega) (by
        rw [show i + 1 + k = i + (k + 1) by omega]
        intro h
        apply hend
        refine ⟨h.1, ?_, h.2.2⟩
        rcases h.2.1 with g | g
        · exact .inl g
        · refine .inr ?_
          push_cast
          omega)
    rw [this]
    rw [show i + 1 + k = i + (k + 1) by omega]

theorem loop_more {count : Int} {att : Nat → Attempt R F P S I L D H} {running : Nat → Bool} : ∀ (f g : Nat) (tries : Int) (i : Nat)
    (c : UClient R F P S I L D H) (w), waitLoop count att running f tries i c = some w → waitLoop count att running (f + g) tries i c = some w
  | 0, g, tries, i, c, w, h => by simp [waitLoop] at h
  | f + 1, g, tries, i, c, w, h => by
    rw [show f + 1 + g = (f + g) + 1 by omega]
    rw [waitLoop] at h ⊢
    generalize attempt (att i) c = r at h ⊢
    obtain ⟨c', e⟩ := r
    cases e with
    | crashed => exact h
    | done =>
      dsimp only at h ⊢
      split
      · rename_i hc; rw [if_pos hc] at h; exact loop_more f g _ _ _ _ h
      · rename_i hc; rw [if_neg hc] at h; exact h
    | failed =>
      dsimp only at h ⊢
      split
      · rename_i hc; rw [if_pos hc] at h; exact loop_more f g _ _ _ _ h
      · rename_i hc; rw [if_neg hc] at h; exact h

theorem first_or_not (att : Nat → Attempt R F P S I L D H) : ∀ n : Nat, (∃ m, m ≤ n ∧ FirstReady att m) ∨ ∀ m, m ≤ n → (afterAttempts att m).ready = false
  | 0 => .inr fun m hm => by obtain rfl : m = 0 := by omega
                             rfl
  | n + 1 => by
    rcases first_or_not att n with ⟨m, h1, h2⟩ | h
    · exact .inl ⟨m, by omega, h2⟩
    · cases hr : (afterAttempts att (n + 1)).ready with
      | true => exact .inl ⟨n + 1, Nat.le_refl _, by omega, hr, fun m hm => h m (by omega)⟩
      | false =>
        refine .inr fun m hm => ?_
        by_cases e : m = n + 1
        · rw [e]; exact hr
        · exact h m (by omega)

/-- **C104 (bounded).** With a count of retries the wait ends.  It makes attempts until one leaves the client ready, but at most one more than the count,
and the result says whether the client is ready. -/
theorem C104_bounded {count : Nat} {att : Nat → Attempt R F P S I L D H} (hc : NoCrash att) (fuel : Nat) (hf : count < fuel) :
    (∀ n, FirstReady att n → n ≤ count + 1 → waitForReady count att (fun _ => true) true fuel = some (some (n, true))) ∧
    ((∀ n, FirstReady att n → count + 1 < n) → waitForReady count att (fun _ => true) true fuel = some (some (count + 1, false))) := by
  constructor
  · intro n hn hle
    obtain ⟨hp, hr, hb⟩ := hn
    have h := loop_ends (count := count) (running := fun _ => true) hc (n - 1) 0 count (fun j _ h2 =>
      ⟨hb (j + 1) (by omega), .inr (by omega), rfl⟩) (by rw [show 0 + (n - 1) + 1 = n by omega, hr]; simp)
    have h := loop_more _ (fuel - (n - 1 + 1)) _ _ _ _ h
    rw [show n - 1 + 1 + (fuel - (n - 1 + 1)) = fuel by omega] at h
    unfold waitForReady
    rw [show (freshClient : UClient R F P S I L D H) = afterAttempts att 0 from rfl, h]
    simp [show n - 1 + 1 = n by omega, hr]
  · intro hn
    have hnr : ∀ m, m ≤ count + 1 → (afterAttempts att m).ready = false := by
      rcases first_or_not att (count + 1) with ⟨m, h1, h2⟩ | h
      · have := hn m h2; omega
      · exact h
    have h := loop_ends (count := count) (running := fun _ => true) hc count 0 count (fun j _ h2 =>
      ⟨hnr (j + 1) (by omega), .inr (by omega), rfl⟩) (by
        rintro ⟨_, h, _⟩
        rcases h with h | h <;> omega)
    have h := loop_more _ (fuel - (count + 1)) _ _ _ _ h
    rw [show count + 1 + (fuel - (count + 1)) = fuel by omega] at h
    unfold waitForReady
    rw [show (freshClient : UClient R F P S I L D H) = afterAttempts att 0 from rfl, h]
    simp [hnr (count + 1) (Nat.le_refl _)]

/-- **C104 (without bound).** With a count of -1 the wait goes on until the client is ready: it ends iff some attempt makes it so, with the first. -/
theorem C104_forever {att : Nat → Attempt R F P S I L D H} (hc : NoCrash att) :
    (∀ n, FirstReady att n → ∀ fuel, n ≤ fuel → waitForReady (-1) att (fun _ => true) true fuel = some (some (n, true))) ∧
    ((∀ n, (afterAttempts att n).ready = false) → ∀ fuel, waitForReady (-1) att (fun _ => true) true fuel = none) := by
  constructor
  · intro n hn fuel hf
    obtain ⟨hp, hr, hb⟩ := hn
    have h := loop_ends (count := -1) (running := fun _ => true) hc (n - 1) 0 (-1) (fun j _ h2 =>
      ⟨hb (j + 1) (by omega), .inl rfl, rfl⟩) (by rw [show 0 + (n - 1) + 1 = n by omega, hr]; simp)
    have h := loop_more _ (fuel - (n - 1 + 1)) _ _ _ _ h
    rw [show n - 1 + 1 + (fuel - (n - 1 + 1)) = fuel by omega] at h
    unfold waitForReady
    rw [show (freshClient : UClient R F P S I L D H) = afterAttempts att 0 from rfl, h]
    simp [show n - 1 + 1 = n by omega, hr]
  · intro hn fuel
    have : ∀ (f i : Nat) (t : Int), waitLoop (-1) att (fun _ => true) f t i (afterAttempts att i) = none := by
      intro f
      induction f with
      | zero => intro i t; rfl
      | succ f ih => intro i t; rw [loop_step hc, if_pos ⟨hn _, .inl rfl, rfl⟩]; exact ih _ _
    unfold waitForReady
    rw [show (freshClient : UClient R F P S I L D H) = afterAttempts att 0 from rfl, this]
    rfl

/-- **C104 (stopped).** Once the client has been told to stop the wait ends after the attempt that is being made, whatever the count, and fails. -/
theorem C104_stopped {count : Int} {att : Nat → Attempt R F P S I L D H} (hc : NoCrash att) (running : Nat → Bool) (i : Nat)
    (hs : ∀ j, i ≤ j → running j = false) (fuel : Nat) (hf : i < fuel) :
    ∃ n, n ≤ i + 1 ∧ waitForReady count att running false fuel = some (some (n, false)) := by
  have : ∀ (f k : Nat) (t : Int), k ≤ i → i - k < f → ∃ n, n ≤ i + 1 ∧ ∃ c, waitLoop count att running f t k (afterAttempts att k) = some (.left n c) := by
    intro f
    induction f with
    | zero => intro k t _ h; omega
    | succ f ih =>
      intro k t hk hlt
      rw [loop_step hc]
      split
      · rename_i h
        have hki : k ≠ i := by
          rintro rfl
          rw [hs k (Nat.le_refl k)] at h
          exact absurd h.2.2 (by simp)
        exact ih (k + 1) (t - 1) (by omega) (by omega)
      · exact ⟨k + 1, by omega, _, rfl⟩
  obtain ⟨n, hn, c, e⟩ := this fuel 0 count (by omega) (by omega)
  refine ⟨n, hn, ?_⟩
  unfold waitForReady
  rw [show (freshClient : UClient R F P S I L D H) = afterAttempts att 0 from rfl, e]
  rfl

/-- **C104 (an attempt).** An attempt of a client that is not ready makes it ready iff the heartbeat was answered, or ended with "leader changed", and
the refresh completed. -/
theorem C104_attempt (a : Attempt R F P S I L D H) (c : UClient R F P S I L D H) (hr : c.ready = false) :
    (attempt a c).1.ready = true ↔ a.beat ≠ .failed ∧ (loadAll a.users a.rest c).2.2 = .done := by
  have h80 := C80_all_or_nothing { a.rest with users := loadUsers a.users } c
  have main : ((loadAll a.users a.rest c).2.1.ready = true ↔ (loadAll a.users a.rest c).2.2 = .done) := by
    constructor
    · intro h
      apply Classical.byContradiction
      intro hd
      have := (h80.1 hd).2
      rw [loadAll] at h
      rw [this, hr] at h
      cases h
    · exact h80.2.2
  unfold attempt cstep
  cases hb : a.beat with
  | failed => simp
  | ok => simpa using main
  | leaderChanged => simpa using main

/-- The server answers every request of a refresh, with schemas listed as promised. -/
structure Healthy (a : Attempt R F P S I L D H) : Prop where
  beat : a.beat ≠ .failed
  users : ∃ l, a.users.list = some l ∧ (l.map Prod.fst).Nodup ∧ ∀ x ∈ l, a.users.roles x.1 ≠ none
  ftClients : a.rest.ftClients ≠ none
  ftIndexes : a.rest.ftIndexes ≠ none
  spaces : ∃ sps, a.rest.spaces = some sps ∧ ∀ sp ∈ sps, a.rest.parts sp.1 ≠ none ∧
    (∃ l, a.rest.tags sp.1 = some l ∧ Listing l) ∧ (∃ l, a.rest.edges sp.1 = some l ∧ Listing l) ∧
    a.rest.tagIndexes sp.1 ≠ none ∧ a.rest.edgeIndexes sp.1 ≠ none ∧ a.rest.listeners sp.1 ≠ none ∧ a.rest.desc sp.2 ≠ none
  hosts : a.rest.hosts ≠ none

theorem healthy_space {U : Type} {a : Answers U F P S I L D H} {sp : Int × Bytes} (c : Client U F P S I L D H) (s : Snapshot P S I L D H)
    (h : a.parts sp.1 ≠ none ∧ (∃ l, a.tags sp.1 = some l ∧ Listing l) ∧ (∃ l, a.edges sp.1 = some l ∧ Listing l) ∧
      a.tagIndexes sp.1 ≠ none ∧ a.edgeIndexes sp.1 ≠ none ∧ a.listeners sp.1 ≠ none ∧ a.desc sp.2 ≠ none) :
    ∃ seen c' s', loadSpaceData a c s sp = (seen, c', some s', .done) := by
  obtain ⟨h1, ⟨lt, ht, hlt⟩, ⟨le, he, hle⟩, h4, h5, h6, h7⟩ := h
  obtain ⟨p, hp⟩ := Option.ne_none_iff_exists'.1 h1
  obtain ⟨ti, hti⟩ := Option.ne_none_iff_exists'.1 h4
  obtain ⟨ei, hei⟩ := Option.ne_none_iff_exists'.1 h5
  obtain ⟨ls, hls⟩ := Option.ne_none_iff_exists'.1 h6
  obtain ⟨d, hd⟩ := Option.ne_none_iff_exists'.1 h7
  obtain ⟨m, mm, e1, _⟩ := C57_tags sp.1 s.tagMaps hlt
  obtain ⟨m', mm', e2, _⟩ := C57_edges sp.1 s.edgeMaps hle
  unfold loadSpaceData
  simp only [hp, ht, he, e1, e2, hti, hei, hls, hd]
  exact ⟨_, _, _, rfl⟩

theorem healthy_spaces {U : Type} {a : Answers U F P S I L D H} : ∀ (sps : List (Int × Bytes)) (c : Client U F P S I L D H) (s : Snapshot P S I L D H),
    (∀ sp ∈ sps, a.parts sp.1 ≠ none ∧ (∃ l, a.tags sp.1 = some l ∧ Listing l) ∧ (∃ l, a.edges sp.1 = some l ∧ Listing l) ∧
      a.tagIndexes sp.1 ≠ none ∧ a.edgeIndexes sp.1 ≠ none ∧ a.listeners sp.1 ≠ none ∧ a.desc sp.2 ≠ none) →
    ∃ seen c' s', loadSpacesData a c s sps = (seen, c', some s', .done)
  | [], c, s, _ => ⟨_, _, _, rfl⟩
  | sp :: sps, c, s, h => by
    obtain ⟨sn, c', s', e⟩ := healthy_space c s (h sp (by simp))
    obtain ⟨sn', c'', s'', e'⟩ := healthy_spaces sps c' s' fun q hq => h q (by simp [hq])
    refine ⟨sn ++ sn', c'', s'', ?_⟩
    rw [loadSpacesData, e]
    dsimp only
    rw [e']

/-- **C104 (a healthy server).** If the server answers every request the client is ready after that attempt. -/
theorem C104_healthy {a : Attempt R F P S I L D H} (h : Healthy a) (c : UClient R F P S I L D H) : (attempt a c).1.ready = true ∧ (attempt a c).2 = .done := by
  obtain ⟨hb, ⟨l, hl, hn, hr⟩, hf, hg, ⟨sps, hs, hsp⟩, hh⟩ := h
  obtain ⟨u, hu, _⟩ := loadUsers_some hl hn hr
  obtain ⟨f, hf⟩ := Option.ne_none_iff_exists'.1 hf
  obtain ⟨g, hg⟩ := Option.ne_none_iff_exists'.1 hg
  obtain ⟨ho, hh⟩ := Option.ne_none_iff_exists'.1 hh
  have main : (loadAll a.users a.rest c).2.1.ready = true ∧ (loadAll a.users a.rest c).2.2 = .done := by
    unfold loadAll loadData
    simp only [hu, hf, hg, hs]
    obtain ⟨sn, c', s', e⟩ := healthy_spaces (a := { a.rest with users := some u }) sps
      { c with users := some u, ftClients := some f, ftIndexes := some g } emptySnapshot hsp
    simp only [hf, hg, hs] at e
    rw [e]
    simp only [hh]
    exact ⟨trivial, trivial⟩
  unfold attempt cstep
  cases e : a.beat with
  | failed => exact absurd e hb
  | ok => exact main
  | leaderChanged => exact main

end

/-! ## Stopping -/

/-- **C104 (stop).** If `stop` is only called after the wait has returned, nothing crashes, and the worker is gone in the end. -/
theorem C104_stop_after {x : SState2} (w : List SEvent) (s : List SEvent) (hw : ∀ e ∈ w, e = .wait) (hs : ∀ e ∈ s, e = .stop)
    (y : SState2) (ok : Bool) (h1 : Exec SStep .start w y) (hret : y.w = .returned ok) (h2 : Exec SStep y s x) :
    x.w = .returned ok ∧ (x.s = .returned → x.bg = .none ∧ x.isRunning = false) := by
  have pw : y.s = .before := by
    refine Exec.preserved (P := fun z => z.s = .before) (Q := fun e => e = .wait) ?_ h1 hw rfl
    intro a e b ha he st
    subst he
    cases st <;> exact ha
  refine Exec.preserved (P := fun z => z.w = .returned ok ∧ (z.s = .flag → z.bg = .none) ∧ (z.s = .returned → z.bg = .none ∧ z.isRunning = false))
    (Q := fun e => e = .stop) ?_ h2 hs ⟨hret, by rw [pw]; exact (fun e => by cases e), by rw [pw]; exact (fun e => by cases e)⟩ |> fun h => ⟨h.1, h.2.2⟩
  rintro a e b ⟨ha, hb, hc⟩ he st
  subst he
  cases st with
  | stopIf hp =>
    refine ⟨ha, ?_, ?_⟩
    · dsimp only; split
      · rename_i e; exact fun _ => e
      · exact (fun e => by cases e)
    · dsimp only; split <;> exact (fun e => by cases e)
  | stopWorker hp => exact ⟨ha, (fun e => by cases e), (fun e => by cases e)⟩
  | waitWorker hp => exact ⟨ha, (fun e => by cases e), (fun e => by cases e)⟩
  | resetWorker hp => exact ⟨ha, fun _ => rfl, (fun e => by cases e)⟩
  | setFlag hp => exact ⟨ha, (fun e => by cases e), fun _ => ⟨hb hp, rfl⟩⟩

/-- **C104 (stop, violated).** A `stop` called while another thread waits can make that thread use the worker after it was destroyed: `stop` takes
away the worker before it says that the client does not run.  So does waiting again after a stop. -/
theorem C104_stop_violated :
    (∃ h x, Exec SStep .start h x ∧ x.w = .crashed ∧ x.s = .flag) ∧
    (∃ y h x, Exec SStep .start [.stop, .stop, .stop, .stop, .stop] y ∧ y.w = .before ∧ y.s = .returned ∧ Exec SStep y h x ∧ x.w = .crashed) := by
  constructor
  · refine ⟨[.wait, .wait, .stop, .stop, .stop, .stop, .wait, .wait], _,
      .cons (.enter rfl) (.cons (.leave rfl) (.cons (.stopIf rfl) (.cons (.stopWorker rfl) (.cons (.waitWorker rfl) (.cons (.resetWorker rfl)
        (.cons (.yes rfl rfl) (.cons (.startBad rfl ?_) .nil))))))), rfl, rfl⟩
    decide
  · refine ⟨_, [.wait, .wait, .wait, .wait], _, .cons (.stopIf rfl) (.cons (.stopWorker rfl) (.cons (.waitWorker rfl) (.cons (.resetWorker rfl)
      (.cons (.setFlag rfl) .nil)))), rfl, rfl, .cons (.enter rfl) (.cons (.leave rfl) (.cons (.yes rfl rfl) (.cons (.startBad rfl ?_) .nil))), rfl⟩
    decide

/-! ## Examples -/

def sampleAttempts (n : Nat) : Attempt Nat Nat Nat Nat Nat Nat Nat Nat :=
  ⟨if n < 2 then .failed else .ok, sampleUsers, sampleRest (if n < 3 then none else some 1)⟩

example : NoCrash sampleAttempts := by
  intro n
  have key : ∀ c : UClient Nat Nat Nat Nat Nat Nat Nat Nat, (attempt (sampleAttempts n) c).2 ≠ .crashed := by
    intro c
    unfold sampleAttempts
    by_cases h1 : n < 2
    · rw [if_pos h1]; exact (fun e => by cases e)
    · rw [if_neg h1]
      by_cases h2 : n < 3
      · rw [if_pos h2]; exact (fun e => by cases e)
      · rw [if_neg h2]; exact (fun e => by cases e)
  exact key _

example : waitForReady 5 sampleAttempts (fun _ => true) true 6 = some (some (4, true)) ∧
    waitForReady 2 sampleAttempts (fun _ => true) true 3 = some (some (3, false)) ∧
    waitForReady (-1) sampleAttempts (fun _ => true) true 4 = some (some (4, true)) ∧
    waitForReady (-1) sampleAttempts (fun i => decide (i < 1)) false 2 = some (some (2, false)) := by decide +kernel

example : Healthy (sampleAttempts 3) where
  beat := by decide
  users := ⟨_, rfl, by decide +kernel, fun x _ => by simp only [sampleAttempts, sampleUsers]; split <;> simp⟩
  ftClients := by decide
  ftIndexes := by decide
  spaces := by
    refine ⟨_, rfl, fun sp _ => ⟨(by simp [sampleAttempts, sampleRest]), ⟨[], rfl, ?_⟩, ⟨[], rfl, ?_⟩, (by simp [sampleAttempts, sampleRest]),
      (by simp [sampleAttempts, sampleRest]), (by simp [sampleAttempts, sampleRest]), (by simp [sampleAttempts, sampleRest])⟩⟩ <;>
    exact ⟨by simp, by simp, by simp, by simp⟩
  hosts := by decide

end Meta
end Nebula
