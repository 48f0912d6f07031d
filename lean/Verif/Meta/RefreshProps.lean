import Verif.Meta.Refresh
/-! # C81: the cache is up to date when the client has seen the last change -/
namespace Nebula
namespace Meta

variable {K V : Type} [DecidableEq K]

structure RInv (s : RState K V) : Prop where
  order : s.localTime ≤ s.metadTime ∧ s.metadTime ≤ s.time
  busy : ∀ got, s.phase = .busy got → s.metadTime = s.time → ∀ k v, got k = some v → v = s.data k
  fresh : s.localTime = s.time → s.cache = some s.data

theorem rstep_inv {s s' : RState K V} {e : REvent K V} (hi : RInv s) (h : RStep (· < ·) s e s') : RInv s' := by
  obtain ⟨⟨o1, o2⟩, hb, hf⟩ := hi
  cases h with
  | change hl =>
    refine ⟨⟨o1, by dsimp only; omega⟩, ?_, ?_⟩
    · intro got _ he; dsimp only at he; omega
    · intro he; dsimp only at he; omega
  | heartbeat hp =>
    refine ⟨⟨by dsimp only; omega, Int.le_refl _⟩, ?_, hf⟩
    intro got hg _ k v hv
    dsimp only at hg
    cases hg
    cases hv
  | noHeartbeat hp =>
    refine ⟨⟨o1, o2⟩, ?_, hf⟩
    intro got hg _ k v hv
    dsimp only at hg
    cases hg
    cases hv
  | @read got k hp =>
    refine ⟨⟨o1, o2⟩, ?_, hf⟩
    intro got' hg he j v hv
    dsimp only at hg he ⊢
    cases hg
    by_cases e : j = k
    · subst e; simp at hv; exact hv.symm
    · have hv' : (if j = k then some (s.data k) else got j) = some v := hv
      rw [if_neg e] at hv'; exact hb got hp he j v hv'
  | skip hp hn => exact ⟨⟨o1, o2⟩, (by intro got hg; cases hg), hf⟩
  | loaded hp hc =>
    refine ⟨⟨Int.le_refl _, o2⟩, (by intro got hg; cases hg), ?_⟩
    intro he
    dsimp only at he ⊢
    congr 1; funext k
    exact hb _ hp he k _ (hc k)
  | halfLoaded hp hc =>
    refine ⟨⟨o1, o2⟩, (by intro got hg; cases hg), ?_⟩
    intro he
    dsimp only at he ⊢
    congr 1; funext k
    exact hb _ hp (by omega) k _ (hc k)
  | failed hp => exact ⟨⟨o1, o2⟩, (by intro got hg; cases hg), hf⟩

theorem reach_inv {t : Int} {d : K → V} {h : List (REvent K V)} {s : RState K V} (ht : 0 < t) (r : Exec (RStep (· < ·)) (RState.start t d) h s) :
    RInv s := by
  refine Exec.invariant (P := fun _ s => RInv s) ?_ (fun _ _ _ _ _ hi hs => rstep_inv hi hs) r
  exact ⟨⟨Int.le_refl _, by dsimp only [RState.start]; omega⟩, (by intro got hg; cases hg), (by intro he; dsimp only [RState.start] at he; omega)⟩

/-- **C81.** Whatever the interleaving of changes, heartbeats and requests: whenever the time recorded with the cache is that of the server's
last change, the cache is what the server has, although a refresh reads the data one by one. -/
theorem C81_up_to_date {t : Int} {d : K → V} {h : List (REvent K V)} {s : RState K V} (ht : 0 < t)
    (r : Exec (RStep (· < ·)) (RState.start t d) h s) : s.localTime = s.time → s.cache = some s.data := (reach_inv ht r).fresh

/-- An event of the client, and not a failure. -/
def REvent.Good : REvent K V → Prop
  | .read _ | .skip | .loaded => True
  | _ => False

/-- **C81.** A round of the background thread that begins with an answered heartbeat, in which no request fails and during which the server does
not change, ends with the server's data in the cache. -/
theorem C81_round {t : Int} {d : K → V} {h k : List (REvent K V)} {s s' : RState K V} (ht : 0 < t)
    (r : Exec (RStep (· < ·)) (RState.start t d) h s) (r2 : Exec (RStep (· < ·)) s (.heartbeat :: k) s') (hk : ∀ e ∈ k, e.Good) (hidle : s'.phase = .idle) :
    s'.cache = some s.data ∧ s'.data = s.data := by
  have hs' : RInv s' := reach_inv ht (r.append r2)
  cases r2 with
  | cons st r3 =>
    rename_i s1
    have h1 : s1.metadTime = s1.time ∧ s1.data = s.data ∧ ∃ got, s1.phase = .busy got := by
      cases st; exact ⟨rfl, rfl, _, rfl⟩
    -- as long as the thread is busy; afterwards the times agree
    have hP : (s'.metadTime = s'.time ∧ s'.data = s.data) ∧ (s'.phase = .idle → ¬ s'.localTime < s'.metadTime) := by
      refine Exec.preserved (P := fun x : RState K V => (x.metadTime = x.time ∧ x.data = s.data) ∧ (x.phase = .idle → ¬ x.localTime < x.metadTime))
        (Q := REvent.Good) ?_ r3 hk ⟨⟨h1.1, h1.2.1⟩, ?_⟩
      · intro a e b ha he hstep
        cases hstep with
        | change => cases he
        | heartbeat => cases he
        | noHeartbeat => cases he
        | read hp => exact ⟨ha.1, (by intro hx; cases hx)⟩
        | skip hp hn => exact ⟨ha.1, fun _ => hn⟩
        | loaded hp hc => exact ⟨ha.1, fun _ => by dsimp only; omega⟩
        | halfLoaded => cases he
        | failed => cases he
      · intro hx; obtain ⟨got, hg⟩ := h1.2.2; rw [hg] at hx; cases hx
    have hlt := hP.2 hidle
    have := hs'.order
    refine ⟨?_, hP.1.2⟩
    rw [hs'.fresh (by omega), hP.1.2]

/-- A round during which the server changes: the cache gets a mixture, and the next round repairs it. -/
example : ∃ h s, Exec (RStep (K := Bool) (V := Nat) (· < ·)) (RState.start 5 fun _ => 1) h s ∧ s.phase = .idle ∧
    s.localTime = 5 ∧ s.time = 6 ∧ s.cache = some (fun b => if b then 2 else 1) ∧ s.data = (fun _ => 2) := by
  refine ⟨[.heartbeat, .read false, .change 6 (fun _ => 2), .read true, .loaded], _,
    .cons (.heartbeat rfl) (.cons (.read rfl) (.cons (.change (by decide)) (.cons (.read rfl) (.cons (.loaded (c := fun b => if b then 2 else 1) rfl ?_) .nil)))),
    rfl, rfl, rfl, rfl, rfl⟩
  intro k; cases k <;> rfl

/-- A complete round. -/
example : ∃ s', Exec (RStep (K := Unit) (V := Nat) (· < ·)) (RState.start 5 fun _ => 1) [.heartbeat, .read (), .loaded] s' ∧ s'.phase = .idle :=
  ⟨_, .cons (.heartbeat rfl) (.cons (.read rfl) (.cons (.loaded (c := fun _ => 1) rfl (fun _ => rfl)) .nil)), rfl⟩

/-- **C81, what is needed of the server's times.** If two changes can have the same time (of milliseconds), a change may stay unseen: the
recorded time is that of the last change, the data are not. -/
theorem C81_same_time_violated : ∃ h s, Exec (RStep (K := Unit) (V := Nat) (· ≤ ·)) (RState.start 5 fun _ => 1) h s ∧ s.localTime = s.time ∧
    s.phase = .idle ∧ s.cache = some (fun _ => 1) ∧ s.data = (fun _ => 2) :=
  ⟨[.heartbeat, .read (), .loaded, .change 5 (fun _ => 2), .heartbeat, .skip], _,
    .cons (.heartbeat rfl) (.cons (.read rfl) (.cons (.loaded (c := fun _ => 1) rfl (fun _ => rfl)) (.cons (.change (by decide))
      (.cons (.heartbeat rfl) (.cons (.skip rfl (by decide)) .nil))))), rfl, rfl, rfl, rfl⟩

end Meta
end Nebula
