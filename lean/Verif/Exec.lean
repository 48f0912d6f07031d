/-!
# Executions of labelled transition systems
-/
namespace Nebula

/-- `Exec Step s h s'`: from `s` the events `h` (oldest first) lead to `s'`. -/
inductive Exec {S E : Type} (Step : S → E → S → Prop) : S → List E → S → Prop
  | nil {s} : Exec Step s [] s
  | cons {s e s1 h s2} : Step s e s1 → Exec Step s1 h s2 → Exec Step s (e :: h) s2

namespace Exec
variable {S E : Type} {Step : S → E → S → Prop}

theorem append {s s1 s2 : S} {h k : List E} (a : Exec Step s h s1) (b : Exec Step s1 k s2) : Exec Step s (h ++ k) s2 := by
  induction a with
  | nil => exact b
  | cons st _ ih => exact .cons st (ih b)

theorem split {s s2 : S} {h k : List E} (a : Exec Step s (h ++ k) s2) : ∃ s1, Exec Step s h s1 ∧ Exec Step s1 k s2 := by
  induction h generalizing s with
  | nil => exact ⟨s, .nil, a⟩
  | cons e h ih =>
    cases a with
    | cons st r =>
      obtain ⟨s1, h1, h2⟩ := ih r
      exact ⟨s1, .cons st h1, h2⟩

theorem single {s s1 : S} {e : E} (a : Exec Step s [e] s1) : Step s e s1 := by
  cases a with
  | cons st r => cases r; exact st

theorem one {s s1 : S} {e : E} (a : Step s e s1) : Exec Step s [e] s1 := .cons a .nil

/-- A property of history and state that holds at the start and survives every step holds always. -/
theorem invariant {s0 : S} {P : List E → S → Prop} (h0 : P [] s0)
    (hs : ∀ h s e s', Exec Step s0 h s → P h s → Step s e s' → P (h ++ [e]) s') :
    ∀ {h s}, Exec Step s0 h s → P h s := by
  intro h s r
  suffices H : ∀ (k : List E) (h : List E) (s1 s2 : S), Exec Step s0 h s1 → P h s1 → Exec Step s1 k s2 → P (h ++ k) s2 by
    simpa using H h [] s0 s .nil h0 r
  intro k
  induction k with
  | nil => intro h s1 s2 _ p b; cases b; simpa using p
  | cons e k ih =>
    intro h s1 s2 a p b
    cases b with
    | cons st r =>
      have := ih (h ++ [e]) _ s2 (a.append (.one st)) (hs h s1 e _ a p st) r
      simpa using this

/-- A property of states that survives every step of an execution that satisfies `Q`. -/
theorem preserved {P : S → Prop} {Q : E → Prop} (hs : ∀ s e s', P s → Q e → Step s e s' → P s') :
    ∀ {s h s'}, Exec Step s h s' → (∀ e ∈ h, Q e) → P s → P s' := by
  intro s h s' r
  induction r with
  | nil => intro _ p; exact p
  | cons st _ ih => intro q p; exact ih (fun e he => q e (List.mem_cons_of_mem _ he)) (hs _ _ _ p (q _ List.mem_cons_self) st)

end Exec
end Nebula
