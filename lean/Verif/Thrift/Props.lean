import Verif.Thrift.Model
/-! # The clients of a thread (C110) -/
namespace Nebula
namespace Thrift

/-- Usable at the time of a call. -/
def Usable (w : World) (c : Conn) : Prop := w.good c.id = true ∧ w.up c.id = true

/-- The managers there can be. -/
structure Ok (g : Mgr) : Prop where
  nodup : g.map.NodupKeys
  entry : ∀ k c, g.map.find k = some c → c.addr = k.1 ∧ c.evb = k.2 ∧ c.id < g.next

theorem ok_new : Ok Mgr.new := ⟨AMap.nodup_nil, fun k c h => by cases h⟩

theorem lookup_cases (w : World) (m : AMap (Host × Nat) Conn) (h : Host) (evb : Nat) :
    (∃ c, m.find (h, evb) = some c ∧ Usable w c ∧ lookup w m h evb = (some c, m)) ∨
    (m.find (h, evb) = none ∧ lookup w m h evb = (none, m)) ∨
    (∃ c, m.find (h, evb) = some c ∧ ¬ Usable w c ∧ lookup w m h evb = (none, m.erase (h, evb))) := by
  unfold lookup
  cases hf : m.find (h, evb) with
  | none => exact .inr (.inl ⟨rfl, rfl⟩)
  | some c =>
    dsimp only
    by_cases hg : w.good c.id = true
    · by_cases hu : w.up c.id = true
      · exact .inl ⟨c, rfl, ⟨hg, hu⟩, by simp [hg, hu]⟩
      · exact .inr (.inr ⟨c, rfl, fun h => hu h.2, by simp [hg, hu]⟩)
    · exact .inr (.inr ⟨c, rfl, fun h => hg h.1, by simp [hg]⟩)

/-- What a call gives: a usable connection of the map, or a new one, for which an old one was erased. -/
theorem client_cases (w : World) {g : Mgr} (hg : Ok g) (h : Host) (evb : Option Nat) (compat : Bool) (timeout : Nat) :
    (∃ c, g.map.find (h, evb.getD w.ownEvb) = some c ∧ Usable w c ∧ client w g h evb compat timeout = (c, g)) ∨
    (∃ m : AMap (Host × Nat) Conn, (∀ k, m.find k = if (h, evb.getD w.ownEvb) = k then none else g.map.find k) ∧ m.NodupKeys ∧
      (∀ c, g.map.find (h, evb.getD w.ownEvb) = some c → ¬ Usable w c) ∧
      client w g h evb compat timeout = (⟨g.next, resolved w h, evb.getD w.ownEvb, compat, timeout⟩,
        ⟨m.emplace (resolved w h, evb.getD w.ownEvb) ⟨g.next, resolved w h, evb.getD w.ownEvb, compat, timeout⟩, g.next + 1⟩)) := by
  unfold client
  dsimp only
  generalize evb.getD w.ownEvb = e
  rcases lookup_cases w g.map h e with ⟨c, h1, h2, h3⟩ | ⟨h1, h3⟩ | ⟨c, h1, h2, h3⟩
  · rw [h3]; exact .inl ⟨c, h1, h2, rfl⟩
  · rw [h3]
    refine .inr ⟨g.map, fun k => ?_, hg.nodup, fun c hc => (by rw [h1] at hc; cases hc), rfl⟩
    split
    · next hk => rw [← hk, h1]
    · rfl
  · rw [h3]
    refine .inr ⟨g.map.erase (h, e), fun k => AMap.find_erase hg.nodup _ _, AMap.nodup_erase hg.nodup _, fun c' hc => ?_, rfl⟩
    rw [h1] at hc; cases hc; exact h2

theorem ok_client (w : World) {g : Mgr} (hg : Ok g) (h : Host) (evb : Option Nat) (compat : Bool) (timeout : Nat) : Ok (client w g h evb compat timeout).2 := by
  rcases client_cases w hg h evb compat timeout with ⟨c, _, _, e⟩ | ⟨m, hm, hn, _, e⟩
  · rw [e]; exact hg
  · rw [e]
    refine ⟨AMap.nodup_emplace hn _ _, fun k c hc => ?_⟩
    have hold : ∀ c', m.find k = some c' → c'.addr = k.1 ∧ c'.evb = k.2 ∧ c'.id < g.next + 1 := by
      intro c' hc'
      rw [hm] at hc'
      split at hc'
      · cases hc'
      · obtain ⟨a, b, d⟩ := hg.entry k c' hc'
        exact ⟨a, b, by omega⟩
    rw [AMap.find_emplace] at hc
    cases hmk : m.find k with
    | some c' =>
      simp only [hmk] at hc
      split at hc
      · next hk => rw [hk, hmk] at hc; simp at hc; subst hc; exact hold _ hmk
      · cases hc; exact hold _ hmk
    | none =>
      split at hc
      · next hk => subst hk; rw [hmk] at hc; simp at hc; subst hc; exact ⟨rfl, rfl, Nat.lt_succ_self _⟩
      · rw [hmk] at hc; cases hc

theorem ok_run : ∀ (cs : List Call) {g : Mgr}, Ok g → Ok (run g cs).2
  | [], _, h => h
  | c :: cs, _, h => ok_run cs (ok_client c.w h c.host c.evb c.compat c.timeout)

theorem run_append : ∀ (a b : List Call) (g : Mgr), run g (a ++ b) = ((run g a).1 ++ (run (run g a).2 b).1, (run (run g a).2 b).2)
  | [], b, g => rfl
  | c :: a, b, g => by
    simp only [List.cons_append, run, run_append a b]

theorem next_mono (w : World) {g : Mgr} (hg : Ok g) (h : Host) (evb : Option Nat) (compat : Bool) (timeout : Nat) :
    g.next ≤ (client w g h evb compat timeout).2.next ∧ (client w g h evb compat timeout).1.id < (client w g h evb compat timeout).2.next := by
  rcases client_cases w hg h evb compat timeout with ⟨c, hc, _, e⟩ | ⟨m, _, _, _, e⟩
  · rw [e]; exact ⟨Nat.le_refl _, (hg.entry _ _ hc).2.2⟩
  · rw [e]; exact ⟨Nat.le_succ _, Nat.lt_succ_self _⟩

theorem results_below : ∀ (cs : List Call) {g : Mgr}, Ok g → g.next ≤ (run g cs).2.next ∧ ∀ c ∈ (run g cs).1, c.id < (run g cs).2.next
  | [], _, _ => ⟨Nat.le_refl _, by simp [run]⟩
  | c :: cs, g, hg => by
    obtain ⟨h1, h2⟩ := next_mono c.w hg c.host c.evb c.compat c.timeout
    obtain ⟨h3, h4⟩ := results_below cs (ok_client c.w hg c.host c.evb c.compat c.timeout)
    simp only [run]
    refine ⟨Nat.le_trans h1 h3, fun x hx => ?_⟩
    rcases List.mem_cons.1 hx with rfl | hx
    · exact Nat.lt_of_lt_of_le h2 h3
    · exact h4 x hx

/-- **C110 (the right connection).** After any calls of a thread, a call gets a connection for the event base it asks for, to the address it asks for or what its host
name resolves to; the connection is usable at that moment, or it is a new one, which no call before got, made with the options asked for. -/
theorem C110_client (before : List Call) (c : Call) {x : Conn} {g : Mgr} (hx : client c.w (run .new before).2 c.host c.evb c.compat c.timeout = (x, g)) :
    x.evb = c.evb.getD c.w.ownEvb ∧ (x.addr = c.host ∨ x.addr = resolved c.w c.host) ∧
    (Usable c.w x ∨ ((∀ y ∈ (run .new before).1, y.id ≠ x.id) ∧ x.compat = c.compat ∧ x.timeout = c.timeout ∧ x.addr = resolved c.w c.host)) := by
  have hg := ok_run before ok_new
  rcases client_cases c.w hg c.host c.evb c.compat c.timeout with ⟨y, h1, h2, e⟩ | ⟨m, _, _, _, e⟩
  · rw [hx] at e
    obtain ⟨rfl, _⟩ := Prod.mk.inj e
    obtain ⟨a, b, _⟩ := hg.entry _ _ h1
    exact ⟨b, .inl a, .inl h2⟩
  · rw [hx] at e
    obtain ⟨rfl, _⟩ := Prod.mk.inj e
    refine ⟨rfl, .inr rfl, .inr ⟨fun y hy hid => ?_, rfl, rfl, rfl⟩⟩
    have := (results_below before ok_new).2 y hy
    rw [hid] at this
    exact Nat.lt_irrefl _ this

/-- A usable connection of the map stays there. -/
theorem keep (w : World) {g : Mgr} (hg : Ok g) (h : Host) (evb : Option Nat) (compat : Bool) (timeout : Nat) {k : Host × Nat} {x : Conn} (hk : g.map.find k = some x)
    (hu : Usable w x) : (client w g h evb compat timeout).2.map.find k = some x := by
  rcases client_cases w hg h evb compat timeout with ⟨c, _, _, e⟩ | ⟨m, hm, _, hbad, e⟩
  · rw [e]; exact hk
  · rw [e]
    have hne : (h, evb.getD w.ownEvb) ≠ k := by
      rintro rfl
      exact hbad x hk hu
    have hmk : m.find k = some x := by rw [hm, if_neg hne, hk]
    dsimp only
    rw [AMap.find_emplace]
    split
    · next hk' => rw [hk', hmk]; rfl
    · exact hmk

theorem keep_run : ∀ (cs : List Call) {g : Mgr} {k : Host × Nat} {x : Conn}, Ok g → g.map.find k = some x → (∀ c ∈ cs, Usable c.w x) → (run g cs).2.map.find k = some x
  | [], _, _, _, _, h, _ => h
  | c :: cs, g, k, x, hg, h, hu =>
    keep_run cs (ok_client c.w hg c.host c.evb c.compat c.timeout) (keep c.w hg c.host c.evb c.compat c.timeout h (hu c (by simp))) (fun c' hc' => hu c' (by simp [hc']))

/-- **C110 (reuse).** A connection to an IP address is reused: whatever a thread called before, once a call for an IP address and an event base got a connection, every later
call for the same address and event base gets the same one, as long as it is usable at all calls since. -/
theorem C110_reuse (before between : List Call) (c d : Call) (hip : c.w.isIp c.host.host = true) (hh : d.host = c.host)
    (he : d.evb.getD d.w.ownEvb = c.evb.getD c.w.ownEvb) {x : Conn} {g : Mgr} (hx : client c.w (run .new before).2 c.host c.evb c.compat c.timeout = (x, g))
    (hb : ∀ b ∈ between, Usable b.w x) (hd : Usable d.w x) :
    (client d.w (run g between).2 d.host d.evb d.compat d.timeout).1 = x := by
  have hg0 := ok_run before ok_new
  have hg : Ok g := by have := ok_client c.w hg0 c.host c.evb c.compat c.timeout; rwa [hx] at this
  have hin : g.map.find (c.host, c.evb.getD c.w.ownEvb) = some x := by
    rcases client_cases c.w hg0 c.host c.evb c.compat c.timeout with ⟨y, h1, _, e⟩ | ⟨m, hm, _, _, e⟩
    · rw [hx] at e
      obtain ⟨rfl, rfl⟩ := Prod.mk.inj e
      exact h1
    · rw [hx] at e
      obtain ⟨rfl, rfl⟩ := Prod.mk.inj e
      have hr : resolved c.w c.host = c.host := by unfold resolved; rw [if_pos hip]
      dsimp only
      rw [hr, AMap.find_emplace, if_pos rfl, hm, if_pos rfl]
      rfl
  have hin2 := keep_run between hg hin hb
  have hg2 := ok_run between hg
  rcases client_cases d.w hg2 d.host d.evb d.compat d.timeout with ⟨y, h1, _, e⟩ | ⟨m, _, _, hbad, e⟩
  · rw [hh, he, hin2] at h1
    cases h1
    rw [e]
  · rw [hh, he] at hbad
    exact absurd hd (hbad x hin2)

theorem names_run (w : World) (name ip : Bytes) (port : Nat) (hn : w.isIp name = false) (hr : w.resolve name = some ip) (hne : ip ≠ name) (evb : Option Nat) (compat : Bool)
    (timeout : Nat) : ∀ (n : Nat) (g : Mgr), Ok g → g.map.find (⟨name, port⟩, evb.getD w.ownEvb) = none →
      (run g (List.replicate n ⟨w, ⟨name, port⟩, evb, compat, timeout⟩)).1.map (·.id) = List.range' g.next n
  | 0, _, _, _ => rfl
  | n + 1, g, hg, hf => by
    rw [List.replicate_succ, run]
    rcases client_cases w hg ⟨name, port⟩ evb compat timeout with ⟨y, h1, _, _⟩ | ⟨m, hm, _, _, e⟩
    · rw [hf] at h1; cases h1
    · have hres : resolved w ⟨name, port⟩ = ⟨ip, port⟩ := by unfold resolved; rw [hn, hr]; rfl
      have hg' := ok_client w hg ⟨name, port⟩ evb compat timeout
      dsimp only
      rw [e] at hg' ⊢
      dsimp only at hg' ⊢
      rw [List.map_cons, names_run w name ip port hn hr hne evb compat timeout n _ hg' ?_, List.range'_succ]
      dsimp only
      rw [AMap.find_emplace, hres, if_neg (by intro h; exact hne (by injection h with h _; injection h)), hm, if_pos rfl]

/-- **C110 (host names, violated).** Connections to a host name are never reused: every call makes a new one, however usable the old ones are. -/
theorem C110_names_violated (w : World) (name ip : Bytes) (port : Nat) (hn : w.isIp name = false) (hr : w.resolve name = some ip) (hne : ip ≠ name) (evb : Option Nat)
    (compat : Bool) (timeout n : Nat) :
    (run .new (List.replicate n ⟨w, ⟨name, port⟩, evb, compat, timeout⟩)).1.map (·.id) = List.range n := by
  rw [names_run w name ip port hn hr hne evb compat timeout n .new ok_new rfl, List.range_eq_range']; rfl

/-- A world in which all is well, with the host name "meta". -/
def exWorld : World := ⟨fun h => h != ascii "meta", fun _ => some (ascii "10.0.0.1"), fun _ => true, fun _ => true, 7⟩

/-- **C110 (options, violated).** A call that asks for another timeout or for the old protocol gets the connection made with the options of the first call. -/
theorem C110_options_violated :
    let a : Call := ⟨exWorld, ⟨ascii "10.0.0.1", 45500⟩, none, false, 100⟩
    let b : Call := { a with compat := true, timeout := 5000 }
    (run .new [a, b]).1.map (fun x => (x.compat, x.timeout)) = [(false, 100), (false, 100)] := by
  decide +kernel

/-- The hypotheses can be met: the connection is broken at the third call and replaced, and the replacement is reused. -/
example :
    let a : Call := ⟨exWorld, ⟨ascii "10.0.0.1", 45500⟩, none, false, 100⟩
    let other : Call := ⟨exWorld, ⟨ascii "meta", 45500⟩, some 7, false, 0⟩
    let down : Call := { a with w := { exWorld with up := fun i => i != 0 } }
    (run .new [a, other, a, down, a, a]).1.map (·.id) = [0, 1, 0, 2, 2, 2] := by
  decide +kernel

example : exWorld.isIp (ascii "meta") = false ∧ exWorld.resolve (ascii "meta") = some (ascii "10.0.0.1") ∧ ascii "10.0.0.1" ≠ ascii "meta" := by decide +kernel

end Thrift
end Nebula
