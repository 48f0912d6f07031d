import Verif.Signal.Model
/-!
# C111: signals reach the handlers that were installed
-/
namespace Nebula
namespace Signal

variable {H : Type}

/-! ## Specification -/

/-- What an observation puts in place. -/
def installOf : Obs H → Option (Nat × H)
  | .installed s h => some (s, h)
  | _ => none

/-- What has been put in place, oldest first. -/
def installs (t : List (Obs H)) : List (Nat × H) := t.filterMap installOf

/-- The handler a signal was given last. -/
def latest (t : List (Obs H)) (s : Nat) : Option H := ((installs t).reverse.find? (·.1 == s)).map (·.2)

/-- A handler for the signal is just being put in place: the system calls us already, the table is not written. -/
def InWindow (st : St H) (s : Nat) : Prop := ∃ all done rest h, st.pc = .table all done s rest h

/-! ## Invariant -/

theorem installs_append (t u : List (Obs H)) : installs (t ++ u) = installs t ++ installs u := by simp [installs]

theorem latest_other (t : List (Obs H)) (o : Obs H) (ho : installOf o = none) (s : Nat) : latest (t ++ [o]) s = latest t s := by
  have : installs (t ++ [o]) = installs t := by simp [installs, ho]
  simp [latest, this]

theorem latest_installed (t : List (Obs H)) (s u : Nat) (h : H) : latest (t ++ [.installed s h]) u = if u = s then some h else latest t u := by
  have : installs (t ++ [.installed s h]) = installs t ++ [(s, h)] := by simp [installs, installOf]
  simp only [latest, this, List.reverse_append, List.reverse_cons, List.reverse_nil, List.nil_append, List.cons_append, List.find?_cons]
  by_cases e : u = s
  · subst e; simp
  · have : (s == u) = false := by simp [Ne.symm e]
    simp [this, e]

/-- What has happened since the call: `done` is in place. -/
def Since (t : List (Obs H)) (all done : List Nat) (h : H) : Prop :=
  ∃ pre mid, t = pre ++ .called all h :: mid ∧ installs mid = done.map (·, h) ∧ ∀ o ∈ mid, (∃ s h, o = .installed s h) ∨ (∃ h i, o = .ran h i)

/-- Every return tells what the call has put in place: all of the list, or a proper part from the front. -/
def Returns (t : List (Obs H)) : Prop :=
  ∀ pre post all h ok, t = pre ++ .returned all h ok :: post → ∃ done rest, all = done ++ rest ∧ (ok = true ↔ rest = []) ∧ Since pre all done h

structure Core (st : St H) : Prop where
  table : ∀ s, st.table s = latest st.trace s
  dfl : ∀ s, s ≠ SIGPIPE → s ≠ SIGHUP → st.act s ≠ .ign
  ign : st.inited = true → st.act SIGPIPE ≠ .dfl ∧ st.act SIGHUP ≠ .dfl
  fresh : st.inited = false → ∀ s, latest st.trace s = none
  returns : Returns st.trace

def AtPc (st : St H) : Prop :=
  match st.pc with
    | .idle => True
    | .initPipe all done s rest h => st.inited = false ∧ all = done ++ s :: rest ∧ Since st.trace all done h
    | .initHup all done s rest h => st.inited = false ∧ st.act SIGPIPE ≠ .dfl ∧ all = done ++ s :: rest ∧ Since st.trace all done h
    | .act all done s rest h => st.inited = true ∧ allowed s ∧ all = done ++ s :: rest ∧ Since st.trace all done h
    | .table all done s rest h => st.inited = true ∧ allowed s ∧ all = done ++ s :: rest ∧ Since st.trace all done h

structure Inv (st : St H) : Prop extends Core st where
  hook : ∀ s, st.act s = .hook ↔ (latest st.trace s).isSome = true ∨ InWindow st s
  pc : AtPc st

theorem returns_snoc {t : List (Obs H)} (h : Returns t) {o : Obs H} (ho : ∀ all h ok, o ≠ .returned all h ok) : Returns (t ++ [o]) := by
  intro pre post all h' ok e
  rcases List.eq_nil_or_concat post with rfl | ⟨post', x, rfl⟩
  · have := List.append_inj_right' e rfl
    injection this with this
    exact absurd this (ho _ _ _)
  · rw [List.concat_eq_append, ← List.cons_append, ← List.append_assoc] at e
    exact h _ post' _ _ _ (List.append_inj_left' e rfl)

theorem returns_ret {t : List (Obs H)} (h : Returns t) {all done rest : List Nat} {h0 : H} {ok : Bool} (ha : all = done ++ rest) (hok : ok = true ↔ rest = [])
    (hs : Since t all done h0) : Returns (t ++ [.returned all h0 ok]) := by
  intro pre post all' h' ok' e
  rcases List.eq_nil_or_concat post with rfl | ⟨post', x, rfl⟩
  · have e1 := List.append_inj_right' e rfl
    have e2 := List.append_inj_left' e rfl
    injection e1 with e1
    injection e1 with a b c
    subst a b c e2
    exact ⟨done, rest, ha, hok, hs⟩
  · rw [List.concat_eq_append, ← List.cons_append, ← List.append_assoc] at e
    exact h _ post' _ _ _ (List.append_inj_left' e rfl)

theorem since_ran {t : List (Obs H)} {all done : List Nat} {h h' : H} {i : Info} (hs : Since t all done h) : Since (t ++ [.ran h' i]) all done h := by
  obtain ⟨pre, mid, rfl, h1, h2⟩ := hs
  refine ⟨pre, mid ++ [.ran h' i], by simp, by rw [installs_append, h1]; simp [installs, installOf], ?_⟩
  intro o ho
  rcases List.mem_append.1 ho with ho | ho
  · exact h2 o ho
  · rw [List.mem_singleton.1 ho]; exact .inr ⟨_, _, rfl⟩

theorem since_installed {t : List (Obs H)} {all done : List Nat} {h : H} {s : Nat} (hs : Since t all done h) : Since (t ++ [.installed s h]) all (done ++ [s]) h := by
  obtain ⟨pre, mid, rfl, h1, h2⟩ := hs
  refine ⟨pre, mid ++ [.installed s h], by simp, by rw [installs_append, h1]; simp [installs, installOf], ?_⟩
  intro o ho
  rcases List.mem_append.1 ho with ho | ho
  · exact h2 o ho
  · rw [List.mem_singleton.1 ho]; exact .inl ⟨_, _, rfl⟩

/-- The same but for the trace, where a handler ran. -/
theorem core_ran {st : St H} (h : Core st) (h' : H) (i : Info) : Core { st with trace := st.trace ++ [.ran h' i] } where
  table s := by rw [latest_other _ _ rfl]; exact h.table s
  dfl := h.dfl
  ign := h.ign
  fresh hf s := by rw [latest_other _ _ rfl]; exact h.fresh hf s
  returns := returns_snoc h.returns (by intro _ _ _ e; cases e)

theorem next_inv {st : St H} (h : Core st) (hook : ∀ s, st.act s = .hook ↔ (latest st.trace s).isSome = true) {all done rest : List Nat} {h0 : H}
    (ha : all = done ++ rest) (hs : Since st.trace all done h0) (hd : (next st all done rest h0).dead = none) : Inv (next st all done rest h0) := by
  have nw : ∀ (pc : Pc H), (∀ all done s rest h, pc ≠ .table all done s rest h) → ∀ s, ¬ InWindow { st with pc := pc } s := by
    rintro pc hpc s ⟨a, b, c, d, e⟩; exact hpc _ _ _ _ _ e
  cases rest with
  | nil =>
    refine { table := fun s => ?_, dfl := h.dfl, ign := h.ign, fresh := fun hf s => ?_, returns := returns_ret h.returns ha (by simp) hs, hook := fun s => ?_, pc := trivial }
    · show st.table s = latest (st.trace ++ _) s
      rw [latest_other _ _ rfl]; exact h.table s
    · show latest (st.trace ++ _) s = none
      rw [latest_other _ _ rfl]; exact h.fresh hf s
    · show st.act s = .hook ↔ (latest (st.trace ++ _) s).isSome = true ∨ _
      rw [latest_other _ _ rfl, hook s]
      refine ⟨.inl, ?_⟩
      rintro (h | ⟨a, b, c, d, e⟩)
      · exact h
      · cases e
  | cons s rest =>
    unfold next at hd ⊢
    by_cases hi : st.inited = false
    · dsimp only at hd ⊢
      rw [if_pos hi] at hd ⊢
      refine { table := h.table, dfl := h.dfl, ign := fun hh => h.ign hh, fresh := h.fresh, returns := h.returns, hook := fun u => ?_, pc := ⟨hi, ha, hs⟩ }
      rw [show ({ st with pc := Pc.initPipe all done s rest h0 } : St H).act = st.act from rfl, hook u]
      refine ⟨.inl, ?_⟩
      rintro (h | h)
      · exact h
      · exact absurd h (nw _ (by intro _ _ _ _ _ e; cases e) u)
    · by_cases hal : allowed s
      · simp only [if_neg hi, if_pos hal] at hd ⊢
        refine { table := h.table, dfl := h.dfl, ign := h.ign, fresh := h.fresh, returns := h.returns, hook := fun u => ?_, pc := ⟨by simpa using hi, hal, ha, hs⟩ }
        rw [show ({ st with pc := Pc.act all done s rest h0 } : St H).act = st.act from rfl, hook u]
        refine ⟨.inl, ?_⟩
        rintro (h | h)
        · exact h
        · exact absurd h (nw _ (by intro _ _ _ _ _ e; cases e) u)
      · simp [hi, hal] at hd

/-- A run of handlers. -/
theorem inv_ran {st : St H} (h : Inv st) (h' : H) (i : Info) : Inv { st with trace := st.trace ++ [.ran h' i] } := by
  refine { core_ran h.toCore h' i with hook := fun s => ?_, pc := ?_ }
  · show st.act s = .hook ↔ (latest (st.trace ++ _) s).isSome = true ∨ InWindow st s
    rw [latest_other _ _ rfl]; exact h.hook s
  · have := h.pc
    unfold AtPc at this ⊢
    dsimp only at this ⊢
    revert this
    cases st.pc <;> dsimp only
    · exact id
    · rintro ⟨a, b, c⟩; exact ⟨a, b, since_ran c⟩
    · rintro ⟨a, b, c, d⟩; exact ⟨a, b, c, since_ran d⟩
    · rintro ⟨a, b, c, d⟩; exact ⟨a, b, c, since_ran d⟩
    · rintro ⟨a, b, c, d⟩; exact ⟨a, b, c, since_ran d⟩

theorem general_some {st : St H} {i : Info} {h : H} (e : st.table i.sig = some h) : general st i = { st with trace := st.trace ++ [.ran h i] } := by simp [general, e]
theorem general_none {st : St H} {i : Info} (e : st.table i.sig = none) : general st i = { st with dead := some .badCall } := by simp [general, e]

theorem deliver_inv {st : St H} (h : Inv st) (i : Info) (hd : (deliver st i).dead = none) : Inv (deliver st i) := by
  unfold deliver at hd ⊢
  cases ha : st.act i.sig with
  | ign => exact h
  | dfl =>
    simp only [ha] at hd ⊢
    split
    · exact h
    · next hs => simp [hs] at hd
  | hook =>
    simp only [ha] at hd ⊢
    unfold doHandle at hd ⊢
    cases ht : st.table i.sig with
    | none =>
      have e := general_none ht
      have e2 : fatal st i = { st with dead := some .badCall } := by simp [fatal, ht]
      simp only [e, e2] at hd
      revert hd
      split <;> simp
    | some h0 =>
      by_cases hf : isFatal i.sig
      · have e2 : fatal st i = setAct { st with trace := st.trace ++ [.ran h0 i] } i.sig .dfl := by simp [fatal, ht]
        have e3 : general (fatal st i) i = { fatal st i with trace := (fatal st i).trace ++ [.ran h0 i] } := general_some (by rw [e2]; exact ht)
        simp only [hf, if_true, e3] at hd
        revert hd
        split
        · next hh => intro hd; rw [hd] at hh; cases hh
        · next hh =>
          simp at hh
          simp [hh]
      · simp only [if_neg hf]
        split
        · have e := general_some ht
          have hx := inv_ran h h0 i
          split
          · rw [e]; exact hx
          · rw [e]
            have e' : general { st with trace := st.trace ++ [.ran h0 i] } i = _ := general_some (show ({ st with trace := st.trace ++ [.ran h0 i] } : St H).table i.sig = some h0 from ht)
            rw [e']; exact inv_ran hx h0 i
        · rw [general_some ht]; exact inv_ran h h0 i

theorem step_inv {st st' : St H} (h : Inv st) {e : Ev H} (hs : step st e = some st') (hd : st'.dead = none) : Inv st' := by
  unfold step at hs
  split at hs
  · cases hs
  have noWin : ∀ {st : St H} (_ : Inv st), (∀ s, ¬ InWindow st s) → ∀ s, st.act s = .hook ↔ (latest st.trace s).isSome = true := by
    intro st h hw s
    rw [h.hook s]
    exact ⟨fun h => h.elim id (fun h => absurd h (hw s)), .inl⟩
  have setNo : ∀ {st : St H} {s : Nat} {a : Action}, a ≠ .hook → (∀ u, st.act u = .hook ↔ (latest st.trace u).isSome = true) → latest st.trace s = none →
      ∀ u, (setAct st s a).act u = .hook ↔ (latest st.trace u).isSome = true := by
    intro st s a ha hh hl u
    simp only [setAct]
    by_cases e : u = s
    · subst e; simp [ha, hl]
    · simp only [if_neg e]; exact hh u
  have hp := h.pc
  cases e with
  | call sigs h0 =>
    cases hpc : st.pc with
    | idle =>
      simp only [hpc, Option.some.injEq] at hs
      subst hs
      refine next_inv ?_ ?_ rfl ?_ hd
      refine { table := fun s => ?_, dfl := h.dfl, ign := h.ign, fresh := fun hf s => ?_, returns := returns_snoc h.returns (by intro _ _ _ e; cases e) }
      · show st.table s = latest (st.trace ++ _) s
        rw [latest_other _ _ rfl]; exact h.table s
      · show latest (st.trace ++ _) s = none
        rw [latest_other _ _ rfl]; exact h.fresh hf s
      · intro s
        show st.act s = .hook ↔ (latest (st.trace ++ _) s).isSome = true
        rw [latest_other _ _ rfl]
        exact noWin h (by rintro s ⟨_, _, _, _, e⟩; rw [hpc] at e; cases e) s
      · exact ⟨st.trace, [], rfl, by simp [installs], by simp⟩
    | _ => simp [hpc] at hs
  | sys ok =>
    cases ok with
    | true =>
      cases hpc : st.pc with
      | idle => simp [hpc] at hs
      | table _ _ _ _ _ => simp [hpc] at hs
      | initPipe all done s rest h0 =>
        simp only [hpc, Option.some.injEq] at hs
        subst hs
        simp only [AtPc, hpc] at hp
        obtain ⟨hi, ha, hsn⟩ := hp
        have nw : ∀ s, ¬ InWindow st s := by rintro s ⟨_, _, _, _, e⟩; rw [hpc] at e; cases e
        refine { table := h.table, dfl := fun u h1 h2 => ?_, ign := fun hh => ?_, fresh := h.fresh, returns := h.returns, hook := fun u => ?_, pc := ⟨hi, ?_, ha, hsn⟩ }
        · simp only [setAct, if_neg h1]; exact h.dfl u h1 h2
        · rw [show ({ setAct st SIGPIPE .ign with pc := Pc.initHup all done s rest h0 } : St H).inited = st.inited from rfl, hi] at hh; cases hh
        · have := setNo (by decide : Action.ign ≠ .hook) (noWin h nw) (h.fresh hi SIGPIPE) u
          refine this.trans ⟨.inl, ?_⟩
          rintro (h | ⟨_, _, _, _, e⟩)
          · exact h
          · cases e
        · simp [setAct]
      | initHup all done s rest h0 =>
        simp only [hpc, Option.some.injEq] at hs
        subst hs
        simp only [AtPc, hpc] at hp
        obtain ⟨hi, hpi, ha, hsn⟩ := hp
        have nw : ∀ s, ¬ InWindow st s := by rintro s ⟨_, _, _, _, e⟩; rw [hpc] at e; cases e
        refine next_inv ?_ ?_ ha ?_ hd
        refine { table := h.table, dfl := fun u h1 h2 => ?_, ign := fun hh => ⟨?_, ?_⟩, fresh := fun hh => ?_, returns := h.returns }
        · simp only [setAct, if_neg h2]; exact h.dfl u h1 h2
        · show (if SIGPIPE = SIGHUP then Action.ign else st.act SIGPIPE) ≠ .dfl
          rw [if_neg (by decide)]; exact hpi
        · simp [setAct]
        · cases hh
        · exact setNo (by decide : Action.ign ≠ .hook) (noWin h nw) (h.fresh hi SIGHUP)
        · exact hsn
      | act all done s rest h0 =>
        simp only [hpc, Option.some.injEq] at hs
        subst hs
        simp only [AtPc, hpc] at hp
        obtain ⟨hi, hal, ha, hsn⟩ := hp
        have nw : ∀ s, ¬ InWindow st s := by rintro s ⟨_, _, _, _, e⟩; rw [hpc] at e; cases e
        refine { table := h.table, dfl := fun u h1 h2 => ?_, ign := fun hh => ?_, fresh := h.fresh, returns := h.returns, hook := fun u => ?_, pc := ⟨hi, hal, ha, hsn⟩ }
        · by_cases e : u = s
          · simp [setAct, e]
          · simp only [setAct, if_neg e]; exact h.dfl u h1 h2
        · obtain ⟨i1, i2⟩ := h.ign hi
          constructor
          · by_cases e : SIGPIPE = s
            · simp [setAct, e]
            · simp only [setAct, if_neg e]; exact i1
          · by_cases e : SIGHUP = s
            · simp [setAct, e]
            · simp only [setAct, if_neg e]; exact i2
        · by_cases e : u = s
          · subst e
            simp only [setAct, if_true, true_iff]
            exact .inr ⟨_, _, _, _, rfl⟩
          · simp only [setAct, if_neg e]
            refine (noWin h nw u).trans ⟨.inl, ?_⟩
            rintro (h | ⟨_, _, _, _, e'⟩)
            · exact h
            · injection e' with _ _ e'
              exact absurd e'.symm e
    | false =>
      have key : ∀ all done s rest (h0 : H), (∀ s, ¬ InWindow st s) → all = done ++ s :: rest → Since st.trace all done h0 → Inv (fail st all h0) := by
        intro all done s rest h0 nw ha hsn
        refine { table := fun s => ?_, dfl := h.dfl, ign := h.ign, fresh := fun hf s => ?_, returns := returns_ret h.returns ha (by simp) hsn, hook := fun s => ?_, pc := trivial }
        · show st.table s = latest (st.trace ++ _) s
          rw [latest_other _ _ rfl]; exact h.table s
        · show latest (st.trace ++ _) s = none
          rw [latest_other _ _ rfl]; exact h.fresh hf s
        · show st.act s = .hook ↔ (latest (st.trace ++ _) s).isSome = true ∨ _
          rw [latest_other _ _ rfl]
          refine (noWin h nw s).trans ⟨.inl, ?_⟩
          rintro (h | ⟨_, _, _, _, e⟩)
          · exact h
          · cases e
      cases hpc : st.pc with
      | idle => simp [hpc] at hs
      | table _ _ _ _ _ => simp [hpc] at hs
      | initPipe all done s rest h0 =>
        simp only [hpc, Option.some.injEq] at hs
        subst hs
        simp only [AtPc, hpc] at hp
        exact key all done s rest h0 (by rintro s ⟨_, _, _, _, e⟩; rw [hpc] at e; cases e) hp.2.1 hp.2.2
      | initHup all done s rest h0 =>
        simp only [hpc, Option.some.injEq] at hs
        subst hs
        simp only [AtPc, hpc] at hp
        exact key all done s rest h0 (by rintro s ⟨_, _, _, _, e⟩; rw [hpc] at e; cases e) hp.2.2.1 hp.2.2.2
      | act all done s rest h0 =>
        simp only [hpc, Option.some.injEq] at hs
        subst hs
        simp only [AtPc, hpc] at hp
        exact key all done s rest h0 (by rintro s ⟨_, _, _, _, e⟩; rw [hpc] at e; cases e) hp.2.2.1 hp.2.2.2
  | write =>
    cases hpc : st.pc with
    | table all done s rest h0 =>
      simp only [hpc, Option.some.injEq] at hs
      subst hs
      simp only [AtPc, hpc] at hp
      obtain ⟨hi, hal, ha, hsn⟩ := hp
      have hw : ∀ u, InWindow st u ↔ u = s := by
        intro u
        constructor
        · rintro ⟨_, _, _, _, e⟩; rw [hpc] at e; injection e with _ _ e; exact e.symm
        · rintro rfl; exact ⟨_, _, _, _, hpc⟩
      refine next_inv ?_ ?_ (by simpa using ha) ?_ hd
      refine { table := fun u => ?_, dfl := h.dfl, ign := h.ign, fresh := fun hf => ?_, returns := returns_snoc h.returns (by intro _ _ _ e; cases e) }
      · show (if u = s then some h0 else st.table u) = latest (st.trace ++ _) u
        rw [latest_installed, h.table u]
      · rw [show ({ st with table := _, trace := _ } : St H).inited = st.inited from rfl, hi] at hf; cases hf
      · intro u
        show st.act u = .hook ↔ (latest (st.trace ++ _) u).isSome = true
        rw [latest_installed, h.hook u, hw u]
        by_cases e : u = s <;> simp [e]
      · exact since_installed hsn
    | _ => simp [hpc] at hs
  | deliver i =>
    have : (if 1 ≤ i.sig ∧ i.sig ≤ 64 ∧ i.sig ≠ SIGKILL ∧ i.sig ≠ SIGSTOP then some (deliver st i) else none) = some st' := by
      revert hs
      cases st.pc <;> exact id
    split at this
    · injection this with this
      subst this
      exact deliver_inv h i hd
    · cases this

theorem reach_inv {st : St H} (h : Reach st) (hd : st.dead = none) : Inv st := by
  induction h with
  | init =>
    exact { table := fun s => rfl, dfl := fun s _ _ => by simp [init], ign := fun h => (by cases h), fresh := fun _ s => rfl, returns := fun pre post all h ok e => (by
      simp [init] at e), hook := fun s => by simp [init, latest, installs, InWindow], pc := trivial }
  | @step st st' e hr hs ih =>
    refine step_inv (ih ?_) hs hd
    unfold step at hs
    split at hs
    · cases hs
    · next hh => simpa using hh

theorem fatal_mem {s : Nat} (h : isFatal s) : s ∈ [4, 6, 7, 8, 11] := by rcases h with h | h | h | h | h <;> rw [h] <;> decide
theorem not_fatal_mem {s : Nat} (hf : ¬ isFatal s) (hc : s ≠ SIGCHLD) : s ∉ [4, 6, 7, 8, 11, 17] := by
  intro h
  simp only [List.mem_cons, List.not_mem_nil, or_false] at h
  rcases h with h | h | h | h | h | h
  all_goals first | exact hc h | exact hf (by rw [h]; decide)

/-! ## Theorems -/

/-- **C111 (a signal runs its handler).** Whatever has been installed, failed or arrived before, and even while other handlers are being installed: a signal other than SIGCHLD (17) and the
fatal ones (illegal instruction 4, abort 6, bus error 7, floating point 8, segment 11) runs the handler that was installed for it last, once, with the signal's number and the sender's pid and uid, and nothing else changes. -/
theorem C111_general {st : St H} (hr : Reach st) (hd : st.dead = none) (i : Info) (hn : i.sig ∉ [4, 6, 7, 8, 11, 17]) {h : H} (hl : latest st.trace i.sig = some h) :
    deliver st i = { st with trace := st.trace ++ [.ran h i] } := by
  have hf : ¬ isFatal i.sig := fun h => hn (by rcases h with h | h | h | h | h <;> rw [h] <;> decide)
  have hc : i.sig ≠ SIGCHLD := fun h => hn (by rw [h]; decide)
  have hi := reach_inv hr hd
  have ht : st.table i.sig = some h := by rw [hi.table, hl]
  have ha : st.act i.sig = .hook := (hi.hook _).2 (.inl (by rw [hl]; rfl))
  simp only [deliver, ha, doHandle, if_neg hf, if_neg hc]
  exact general_some ht

/-- **C111 (fatal signals).** A fatal signal runs the handler installed last and then ends the process by that signal. -/
theorem C111_fatal {st : St H} (hr : Reach st) (hd : st.dead = none) (i : Info) (hn : i.sig ∈ [4, 6, 7, 8, 11]) {h : H} (hl : latest st.trace i.sig = some h) :
    (deliver st i).dead = some (.signal i.sig) ∧ ∃ more, (deliver st i).trace = st.trace ++ .ran h i :: more ∧ ∀ o ∈ more, o = .ran h i := by
  have hf : isFatal i.sig := by
    simp only [List.mem_cons, List.not_mem_nil, or_false] at hn
    rcases hn with h | h | h | h | h <;> rw [h] <;> decide
  have hi := reach_inv hr hd
  have ht : st.table i.sig = some h := by rw [hi.table, hl]
  have ha : st.act i.sig = .hook := (hi.hook _).2 (.inl (by rw [hl]; rfl))
  have e2 : fatal st i = setAct { st with trace := st.trace ++ [.ran h i] } i.sig .dfl := by simp [fatal, ht]
  have e3 : general (setAct { st with trace := st.trace ++ [.ran h i] } i.sig .dfl) i =
      { setAct { st with trace := st.trace ++ [.ran h i] } i.sig .dfl with trace := (st.trace ++ [.ran h i]) ++ [.ran h i] } := general_some ht
  have e4 : deliver st i = { setAct { st with trace := st.trace ++ [.ran h i] } i.sig .dfl with trace := (st.trace ++ [.ran h i]) ++ [.ran h i], dead := some (.signal i.sig) } := by
    simp only [deliver, ha, doHandle, if_pos hf, e2]
    rw [if_neg (by simp [setAct, hd]), e3, if_neg (by simp [setAct, hd])]
  rw [e4]
  exact ⟨rfl, [.ran h i], by simp, by simp⟩

/-- **C111 (ignored signals).** Once anything has been installed, SIGPIPE and SIGHUP do nothing, unless they have handlers of their own or are just getting one. -/
theorem C111_ignored {st : St H} (hr : Reach st) (hd : st.dead = none) {s0 : Nat} {h0 : H} (hsome : latest st.trace s0 = some h0) (i : Info) (hs : i.sig = SIGPIPE ∨ i.sig = SIGHUP)
    (hl : latest st.trace i.sig = none) (hw : ¬ InWindow st i.sig) : deliver st i = st := by
  have hi := reach_inv hr hd
  have hin : st.inited = true := by
    cases h : st.inited with
    | true => rfl
    | false => rw [hi.fresh h s0] at hsome; cases hsome
  have hn : st.act i.sig ≠ .hook := by
    rw [ne_eq, hi.hook]
    rintro (h | h)
    · rw [hl] at h; cases h
    · exact hw h
  have : st.act i.sig = .ign := by
    obtain ⟨h1, h2⟩ := hi.ign hin
    cases ha : st.act i.sig with
    | ign => rfl
    | hook => exact absurd ha hn
    | dfl => rcases hs with hs | hs <;> rw [hs] at ha <;> contradiction
  simp [deliver, this]

/-- **C111 (other signals).** A signal that was never installed, other than SIGPIPE and SIGHUP, has its default effect. -/
theorem C111_default {st : St H} (hr : Reach st) (hd : st.dead = none) (i : Info) (hs : i.sig ≠ SIGPIPE ∧ i.sig ≠ SIGHUP) (hl : latest st.trace i.sig = none) (hw : ¬ InWindow st i.sig) :
    (survives i.sig → deliver st i = st) ∧ (¬ survives i.sig → deliver st i = { st with dead := some (.signal i.sig) }) := by
  have hi := reach_inv hr hd
  have : st.act i.sig = .dfl := by
    cases ha : st.act i.sig with
    | dfl => rfl
    | ign => exact absurd ha (hi.dfl _ hs.1 hs.2)
    | hook =>
      rcases (hi.hook _).1 ha with h | h
      · rw [hl] at h; cases h
      · exact absurd h hw
  constructor <;> intro h <;> simp [deliver, this, h]

/-- **C111 (installing a list).** A call of `install` that returns success has put its handler in place for every signal of the list and for nothing else; one that returns an error has
done so for a proper part from the front of the list and for nothing else. -/
theorem C111_list {st : St H} (hr : Reach st) (hd : st.dead = none) {pre post : List (Obs H)} {all : List Nat} {h : H} {ok : Bool} (e : st.trace = pre ++ .returned all h ok :: post) :
    ∃ before during done rest, pre = before ++ .called all h :: during ∧ all = done ++ rest ∧ (ok = true ↔ rest = []) ∧ installs during = done.map (·, h) ∧
      (∀ o ∈ during, (∃ s h, o = .installed s h) ∨ (∃ h i, o = .ran h i)) := by
  obtain ⟨done, rest, h1, h2, before, during, h3, h4, h5⟩ := (reach_inv hr hd).returns _ _ _ _ _ e
  exact ⟨before, during, done, rest, h3, h1, h2, h4, h5⟩

theorem find_map (h : H) (l : List Nat) (s : Nat) (hs : s ∈ l) : ((l.map (·, h)).find? (·.1 == s)).map (·.2) = some h := by
  induction l with
  | nil => simp at hs
  | cons a l ih =>
    simp only [List.map_cons, List.find?_cons]
    by_cases e : a = s
    · subst e; simp
    · have e' : (a == s) = false := by simp [e]
      rw [e']
      exact ih ((List.mem_cons.1 hs).resolve_left (fun h => e h.symm))

/-- **C111 (successful calls).** When a call has just returned success, every signal of its list has that handler. -/
theorem C111_installed {st : St H} (hr : Reach st) (hd : st.dead = none) {pre : List (Obs H)} {all : List Nat} {h : H} (e : st.trace = pre ++ [.returned all h true]) (s : Nat)
    (hs : s ∈ all) : latest st.trace s = some h := by
  obtain ⟨before, during, done, rest, h1, h2, h3, h4, h5⟩ := C111_list hr hd e
  have hrest := h3.1 rfl
  subst hrest
  rw [List.append_nil] at h2
  subst h2
  have hin : installs st.trace = installs before ++ all.map (·, h) := by
    rw [e, h1]
    rw [List.append_assoc, installs_append, List.cons_append]
    show _ ++ installs (during ++ _) = _
    rw [installs_append, h4]
    simp [installs, installOf]
  unfold latest
  rw [hin, List.reverse_append, List.find?_append, ← List.map_reverse]
  have := find_map h all.reverse s (by simpa using hs)
  cases hx : (all.reverse.map (·, h)).find? (·.1 == s) with
  | none => rw [hx] at this; cases this
  | some x => rw [hx] at this; simpa using this

/-- **C111 (numbers that are refused).** Asking for a signal that cannot be handled ends the process, once SIGPIPE and SIGHUP have been set: 0, numbers above 64, SIGKILL and SIGSTOP. -/
theorem C111_refused {st : St H} (hd : st.dead = none) (hi : st.inited = true) (hp : st.pc = .idle) (s : Nat) (h : H) (hs : s = 0 ∨ 64 < s ∨ s = 9 ∨ s = 19) :
    ∃ st', step st (.call [s] h) = some st' ∧ st'.dead = some .check := by
  have hs : ¬ allowed s := by unfold allowed SIGKILL SIGSTOP; omega
  refine ⟨_, by simp only [step, hd, hp]; rfl, ?_⟩
  simp [next, hi, hs]

/-- **C111 (numbers that are accepted).** Every other number is accepted: if the system does not refuse, the handler is in place when the call returns. -/
theorem C111_accepted {st : St H} (hd : st.dead = none) (hi : st.inited = true) (hp : st.pc = .idle) (s : Nat) (h : H) (hs : 1 ≤ s ∧ s ≤ 64 ∧ s ≠ 9 ∧ s ≠ 19) :
    ∃ s1 s2 s3, step st (.call [s] h) = some s1 ∧ step s1 (.sys true) = some s2 ∧ step s2 .write = some s3 ∧ s3.dead = none ∧ s3.pc = .idle ∧
      latest s3.trace s = some h := by
  have hs : allowed s := by unfold allowed SIGKILL SIGSTOP; omega
  have e1 : step st (.call [s] h) = some { st with trace := st.trace ++ [.called [s] h], pc := .act [s] [] s [] h } := by
    simp [step, hd, hp, next, hi, hs]
  obtain ⟨s2, e2, h2⟩ : ∃ s2, step { st with trace := st.trace ++ [.called [s] h], pc := .act [s] [] s [] h } (.sys true) = some s2 ∧
      s2.dead = none ∧ s2.pc = .table [s] [] s [] h := ⟨_, by simp only [step, hd]; rfl, rfl, rfl⟩
  have e3 : step s2 .write = some { s2 with
      table := fun t => if t = s then some h else s2.table t
      pc := .idle
      trace := s2.trace ++ [.installed s h] ++ [.returned [s] h true] } := by simp [step, h2.1, h2.2, next]
  refine ⟨_, _, _, e1, e2, e3, h2.1, rfl, ?_⟩
  unfold latest
  rw [installs_append, installs_append, show installs [Obs.returned [s] h true] = [] from rfl, show installs [Obs.installed s h] = [(s, h)] from rfl]
  simp

/-- **C111 (no empty handler).** A signal ends the process for lack of a handler only if it arrives while its first handler is being put in place. -/
theorem C111_handler_partial {st : St H} (hr : Reach st) (hd : st.dead = none) (i : Info) (h : (deliver st i).dead = some .badCall) : InWindow st i.sig ∧ latest st.trace i.sig = none := by
  have hi := reach_inv hr hd
  cases hl : latest st.trace i.sig with
  | none =>
    refine ⟨Classical.byContradiction fun hw => ?_, rfl⟩
    have hn : st.act i.sig ≠ .hook := by
      rw [ne_eq, hi.hook]
      rintro (h | h)
      · rw [hl] at h; cases h
      · exact hw h
    unfold deliver at h
    revert h
    cases ha : st.act i.sig with
    | hook => exact absurd ha hn
    | ign => simp [hd]
    | dfl => dsimp only; split <;> simp [hd]
  | some h0 =>
    exfalso
    by_cases hf : isFatal i.sig
    · rw [(C111_fatal hr hd i (fatal_mem hf) hl).1] at h; cases h
    · by_cases hc : i.sig = SIGCHLD
      · have ht : st.table i.sig = some h0 := by rw [hi.table, hl]
        have ha : st.act i.sig = .hook := (hi.hook _).2 (.inl (by rw [hl]; rfl))
        have e' : general { st with trace := st.trace ++ [.ran h0 i] } i = { st with trace := (st.trace ++ [.ran h0 i]) ++ [.ran h0 i] } := general_some ht
        simp only [deliver, ha, doHandle, if_neg hf, if_pos hc, general_some ht] at h
        rw [if_neg (by simp [hd]), e'] at h
        simp [hd] at h
      · rw [C111_general hr hd i (not_fatal_mem hf hc) hl] at h
        simp [hd] at h

/-- **C111 fails for SIGCHLD:** the handler runs twice for one signal. -/
theorem C111_once_violated {st : St H} (hr : Reach st) (hd : st.dead = none) (i : Info) (hc : i.sig = SIGCHLD) {h : H} (hl : latest st.trace i.sig = some h) :
    deliver st i = { st with trace := st.trace ++ [.ran h i, .ran h i] } := by
  have hi := reach_inv hr hd
  have ht : st.table i.sig = some h := by rw [hi.table, hl]
  have ha : st.act i.sig = .hook := (hi.hook _).2 (.inl (by rw [hl]; rfl))
  have e' : general { st with trace := st.trace ++ [.ran h i] } i = { st with trace := (st.trace ++ [.ran h i]) ++ [.ran h i] } := general_some ht
  have hf : ¬ isFatal i.sig := by rw [hc]; decide
  simp only [deliver, ha, doHandle, if_neg hf, if_pos hc, general_some ht]
  rw [if_neg (by simp [hd]), e']
  simp

/-- **C111 fails while a handler is being installed:** the signal is sent to us before the handler is in the table, and ends the process. -/
theorem C111_window_violated (h : H) (p u : Nat) : ∃ st : St H, Reach st ∧ st.dead = none ∧ (deliver st ⟨15, p, u⟩).dead = some .badCall := by
  let s1 : St H := next { init H with trace := [.called [15] h] } [15] [] [15] h
  have r1 : Reach s1 := .step .init (e := .call [15] h) rfl
  have r2 : Reach { setAct s1 SIGPIPE .ign with pc := .initHup [15] [] 15 [] h } := .step r1 (e := .sys true) rfl
  have r3 : Reach (next { setAct { setAct s1 SIGPIPE .ign with pc := .initHup [15] [] 15 [] h } SIGHUP .ign with inited := true } [15] [] [15] h) := .step r2 (e := .sys true) rfl
  have r4 := Reach.step r3 (e := .sys true) rfl
  exact ⟨_, r4, rfl, rfl⟩

/-! ## The hypotheses can be met -/

/-- A handler `7` for SIGTERM and SIGINT is in place, then the system refuses one for SIGCHLD. -/
example : ∃ st : St Nat, Reach st ∧ st.dead = none ∧ latest st.trace 15 = some 7 ∧ latest st.trace 2 = some 7 ∧ latest st.trace 17 = none ∧ ¬ InWindow st 13 := by
  have r1 : Reach (init Nat) := .init
  have r2 := Reach.step r1 (e := .call [15, 2, 17] 7) rfl
  have r3 := Reach.step r2 (e := .sys true) rfl
  have r4 := Reach.step r3 (e := .sys true) rfl
  have r5 := Reach.step r4 (e := .sys true) rfl
  have r6 := Reach.step r5 (e := .write) rfl
  have r7 := Reach.step r6 (e := .sys true) rfl
  have r8 := Reach.step r7 (e := .write) rfl
  have r9 := Reach.step r8 (e := .sys false) rfl
  refine ⟨_, r9, rfl, by decide, by decide, by decide, ?_⟩
  rintro ⟨_, _, _, _, e⟩
  cases e

end Signal
end Nebula
