import Verif.Pool.Model
/-!
# C112: a pool deletes every object once
-/
namespace Nebula
namespace ObjPool

structure Inv (st : St) : Prop where
  split : st.added = st.deleted ++ st.held
  lock : ∀ t, st.lock = some t ↔ (∃ o, st.pc t = .adding o) ∨ st.pc t = .clearing ∨ st.pc t = .inside

theorem setPc_same (st : St) (t : Nat) (p : Pc) : setPc st t p t = p := by simp [setPc]
theorem setPc_other (st : St) {t u : Nat} (h : u ≠ t) (p : Pc) : setPc st t p u = st.pc u := by simp [setPc, h]

theorem step_inv {st st' : St} (h : Inv st) (hs : Step st st') : Inv st' := by
  have only : ∀ {t u : Nat}, ((∃ o, st.pc t = .adding o) ∨ st.pc t = .clearing ∨ st.pc t = .inside) →
      ((∃ o, st.pc u = .adding o) ∨ st.pc u = .clearing ∨ st.pc u = .inside) → u = t := by
    intro t u h1 h2
    have a := (h.lock t).2 h1
    have b := (h.lock u).2 h2
    rw [a] at b; injection b with b; exact b.symm
  cases hs with
  | callAdd t o hp =>
    refine ⟨h.split, fun u => ?_⟩
    by_cases e : u = t
    · subst e
      simp only [setPc_same]
      rw [h.lock, hp]; simp
    · simp only [setPc_other st e]; exact h.lock u
  | lockAdd t o hp hl =>
    refine ⟨h.split, fun u => ?_⟩
    by_cases e : u = t
    · subst e; simp [setPc_same]
    · simp only [setPc_other st e]
      rw [← h.lock u, hl]; simp [Ne.symm e]
  | add t o hp =>
    refine ⟨by simp [h.split], fun u => ?_⟩
    by_cases e : u = t
    · subst e; simp [setPc_same]
    · simp only [setPc_other st e]
      constructor
      · intro hh; cases hh
      · intro hh; exact absurd (only (.inl ⟨o, hp⟩) hh) e
  | callClear t hp =>
    refine ⟨h.split, fun u => ?_⟩
    by_cases e : u = t
    · subst e
      simp only [setPc_same]
      rw [h.lock, hp]; simp
    · simp only [setPc_other st e]; exact h.lock u
  | lockClear t hp hl =>
    refine ⟨h.split, fun u => ?_⟩
    by_cases e : u = t
    · subst e; simp [setPc_same]
    · simp only [setPc_other st e]
      rw [← h.lock u, hl]; simp [Ne.symm e]
  | delete t o os hp hh hu => exact ⟨by rw [h.split, hh]; simp, h.lock⟩
  | deleteInside t o os hp hh hu =>
    refine ⟨by rw [h.split, hh]; simp, fun u => ?_⟩
    by_cases e : u = t
    · subst e
      simp only [setPc_same]
      rw [h.lock, hp]; simp
    · simp only [setPc_other st e]; exact h.lock u
  | cleared t hp hh =>
    refine ⟨h.split, fun u => ?_⟩
    by_cases e : u = t
    · subst e; simp [setPc_same]
    · simp only [setPc_other st e]
      constructor
      · intro hh; cases hh
      · intro hh; exact absurd (only (.inr (.inl hp)) hh) e

theorem reach_inv {st : St} (h : Reach st) : Inv st := by
  induction h with
  | init => exact ⟨rfl, fun t => by simp [init]⟩
  | step _ hs ih => exact step_inv ih hs

/-- **C112 (nothing is deleted twice or too early).** At every moment, for all threads and interleavings, the objects added so far are those deleted so far followed by those still held,
in the order of their addition; so objects that were added once are deleted at most once, and only after they were added. -/
theorem C112_order {st : St} (h : Reach st) : st.deleted <+: st.added ∧ (st.added.Nodup → st.deleted.Nodup) ∧ ∀ o, st.deleted.count o ≤ st.added.count o := by
  have e := (reach_inv h).split
  refine ⟨⟨_, e.symm⟩, fun hn => ?_, fun o => ?_⟩
  · rw [e] at hn; exact (List.nodup_append.1 hn).1
  · rw [e, List.count_append]; omega

/-- **C112 (clear).** When `clear` returns, everything that was added before is deleted: also what other threads added until it returned. -/
theorem C112_clear {st st' : St} (h : Reach st) {t : Nat} (hp : st.pc t = .clearing) (hs : Step st st') (hp' : st'.pc t = .idle) : st'.deleted = st'.added ∧ empty st' = true := by
  have hi := reach_inv h
  have hlock := (hi.lock t).2 (.inr (.inl hp))
  have h' := (reach_inv (.step h hs)).split
  have mine : ∀ {u : Nat}, ((∃ o, st.pc u = .adding o) ∨ st.pc u = .clearing ∨ st.pc u = .inside) → u = t := by
    intro u hu
    have := (hi.lock u).2 hu
    rw [hlock] at this; injection this with this; exact this.symm
  have hheld : st'.held = [] := by
    cases hs with
    | cleared u _ hh => exact hh
    | callAdd u o hu =>
      have e : t ≠ u := by rintro rfl; rw [hp] at hu; cases hu
      rw [show ({ st with pc := setPc st u (.wantAdd o) } : St).pc t = setPc st u (.wantAdd o) t from rfl, setPc_other st e, hp] at hp'; cases hp'
    | callClear u hu =>
      have e : t ≠ u := by rintro rfl; rw [hp] at hu; cases hu
      rw [show ({ st with pc := setPc st u .wantClear } : St).pc t = setPc st u .wantClear t from rfl, setPc_other st e, hp] at hp'; cases hp'
    | lockAdd u o _ hl => rw [hlock] at hl; cases hl
    | lockClear u _ hl => rw [hlock] at hl; cases hl
    | add u o hu => have e := mine (.inl ⟨o, hu⟩); subst e; rw [hp] at hu; cases hu
    | delete u o os _ _ _ => rw [show ({ st with held := os, deleted := st.deleted ++ [o] } : St).pc t = st.pc t from rfl, hp] at hp'; cases hp'
    | deleteInside u o os hu _ _ =>
      have e := mine (.inr (.inl hu)); subst e
      simp [setPc] at hp'
  rw [hheld, List.append_nil] at h'
  exact ⟨h'.symm, by simp [empty, hheld]⟩

/-- While a thread clears, no other thread can add or clear: steps of others leave the pool alone. -/
theorem C112_exclusive {st : St} (h : Reach st) {t u : Nat} (hp : st.pc t = .clearing ∨ ∃ o, st.pc t = .adding o) (hu : st.pc u = .clearing ∨ ∃ o, st.pc u = .adding o) : u = t := by
  have hi := reach_inv h
  have a := (hi.lock t).2 (by rcases hp with hp | hp; exact .inr (.inl hp); exact .inl hp)
  have b := (hi.lock u).2 (by rcases hu with hp | hp; exact .inr (.inl hp); exact .inl hp)
  rw [a] at b; injection b with b; exact b.symm

/-- **C112 (end of the pool).** When the pool ends every object has been deleted, as often as it was added and in that order, if no destructor uses the pool. -/
theorem C112_destroy {st : St} (h : Reach st) (hu : ∀ o ∈ st.held, o.uses = false) : destroy st = some st.added := by
  have : st.held.all (fun o => !o.uses) = true := by
    rw [List.all_eq_true]; intro o ho; simp [hu o ho]
  rw [destroy, if_pos this, ← (reach_inv h).split]

/-- **C112 (empty).** `empty` tells whether everything that was added has been deleted. -/
theorem C112_empty {st : St} (h : Reach st) : empty st = true ↔ st.deleted = st.added := by
  have e := (reach_inv h).split
  rw [e]
  simp [empty]

/-- **C112 fails for objects that are added twice:** they are deleted twice. -/
theorem C112_twice_violated (o : Obj) (ho : o.uses = false) : ∃ st, Reach st ∧ destroy st = some [o, o] := by
  have r1 := Reach.step .init (.callAdd init 0 o rfl)
  have r2 := Reach.step r1 (.lockAdd _ 0 o rfl rfl)
  have r3 := Reach.step r2 (.add _ 0 o rfl)
  have r4 := Reach.step r3 (.callAdd _ 0 o rfl)
  have r5 := Reach.step r4 (.lockAdd _ 0 o rfl rfl)
  have r6 := Reach.step r5 (.add _ 0 o rfl)
  refine ⟨_, r6, ?_⟩
  simp [destroy, init, ho]

/-- Steps from a state. -/
inductive Later : St → St → Prop
  | refl (st) : Later st st
  | step {a b c} : Later a b → Step b c → Later a c

/-- **C112 fails for objects whose destructors use the pool:** `clear` never returns and no thread ever adds or clears again. -/
theorem C112_inside_violated {st : St} (h : Reach st) {t : Nat} (hp : st.pc t = .inside) :
    ∀ st', Later st st' → st'.pc t = .inside ∧ st'.held = st.held ∧ st'.deleted = st.deleted ∧ st'.added = st.added := by
  intro st' hl
  have : Reach st' ∧ st'.pc t = .inside ∧ st'.held = st.held ∧ st'.deleted = st.deleted ∧ st'.added = st.added := by
    induction hl with
    | refl => exact ⟨h, hp, rfl, rfl, rfl⟩
    | @step b c hb hs ih =>
      obtain ⟨hr, h1, h2, h3, h4⟩ := ih
      have hi := reach_inv hr
      have hlock : b.lock = some t := (hi.lock t).2 (.inr (.inr h1))
      refine ⟨.step hr hs, ?_⟩
      cases hs with
      | callAdd u o hu =>
        refine ⟨?_, h2, h3, h4⟩
        show setPc b u _ t = _
        rw [setPc_other b (by rintro rfl; rw [h1] at hu; cases hu)]; exact h1
      | callClear u hu =>
        refine ⟨?_, h2, h3, h4⟩
        show setPc b u _ t = _
        rw [setPc_other b (by rintro rfl; rw [h1] at hu; cases hu)]; exact h1
      | lockAdd u o hu hl => rw [hlock] at hl; cases hl
      | lockClear u hu hl => rw [hlock] at hl; cases hl
      | add u o hu =>
        have e := (hi.lock u).2 (.inl ⟨o, hu⟩)
        rw [hlock] at e; injection e with e; subst e; rw [h1] at hu; cases hu
      | delete u o os hu _ _ =>
        have e := (hi.lock u).2 (.inr (.inl hu))
        rw [hlock] at e; injection e with e; subst e; rw [h1] at hu; cases hu
      | deleteInside u o os hu _ _ =>
        have e := (hi.lock u).2 (.inr (.inl hu))
        rw [hlock] at e; injection e with e; subst e; rw [h1] at hu; cases hu
      | cleared u hu _ =>
        have e := (hi.lock u).2 (.inr (.inl hu))
        rw [hlock] at e; injection e with e; subst e; rw [h1] at hu; cases hu
  exact this.2

/-- Two threads add different objects, one clears; the third object stays. -/
example : ∃ st, Reach st ∧ st.deleted = [⟨1, 0, false⟩, ⟨2, 5, false⟩] ∧ st.held = [⟨3, 0, false⟩] ∧ st.added.Nodup := by
  have r1 := Reach.step .init (.callAdd init 0 ⟨1, 0, false⟩ rfl)
  have r2 := Reach.step r1 (.callAdd _ 1 ⟨2, 5, false⟩ rfl)
  have r3 := Reach.step r2 (.lockAdd _ 0 _ rfl rfl)
  have r4 := Reach.step r3 (.add _ 0 _ rfl)
  have r5 := Reach.step r4 (.lockAdd _ 1 _ rfl rfl)
  have r6 := Reach.step r5 (.add _ 1 _ rfl)
  have r7 := Reach.step r6 (.callClear _ 0 rfl)
  have r8 := Reach.step r7 (.lockClear _ 0 rfl rfl)
  have r9 := Reach.step r8 (.delete _ 0 _ _ rfl rfl rfl)
  have r10 := Reach.step r9 (.delete _ 0 _ _ rfl rfl rfl)
  have r11 := Reach.step r10 (.cleared _ 0 rfl rfl)
  have r12 := Reach.step r11 (.callAdd _ 1 ⟨3, 0, false⟩ rfl)
  have r13 := Reach.step r12 (.lockAdd _ 1 _ rfl rfl)
  have r14 := Reach.step r13 (.add _ 1 _ rfl)
  exact ⟨_, r14, rfl, rfl, by show [_, _, _].Nodup; decide⟩

/-- A thread stuck inside a destructor. -/
example : ∃ st t, Reach st ∧ st.pc t = .inside := by
  have r1 := Reach.step .init (.callAdd init 0 ⟨1, 0, true⟩ rfl)
  have r2 := Reach.step r1 (.lockAdd _ 0 _ rfl rfl)
  have r3 := Reach.step r2 (.add _ 0 _ rfl)
  have r4 := Reach.step r3 (.callClear _ 0 rfl)
  have r5 := Reach.step r4 (.lockClear _ 0 rfl rfl)
  have r6 := Reach.step r5 (.deleteInside _ 0 _ _ rfl rfl rfl)
  exact ⟨_, 0, r6, rfl⟩

end ObjPool
end Nebula
