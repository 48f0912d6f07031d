import Verif.Regex.Props
/-!
# C149: the laws of patterns

Patterns put together from patterns: what the grammar makes of `p|q`, `(p)`, `(p)(q)`, `(p)*`, `(p)+` and `(p)?`.
-/
namespace Nebula
namespace Regex

/-! ## Expressions with the same language -/

def Same (a b : Re) : Prop := ∀ k u t, Matches a k u t ↔ Matches b k u t

theorem Same.rfl' (a : Re) : Same a a := fun _ _ _ => Iff.rfl
theorem Same.symm' {a b : Re} (h : Same a b) : Same b a := fun k u t => (h k u t).symm

theorem seq_mono {a b a' b' : Re} (h : ∀ k u t, Matches a k u t → Matches a' k u t) (h' : ∀ k u t, Matches b k u t → Matches b' k u t) {k u t}
    (hm : Matches (.seq a b) k u t) : Matches (.seq a' b') k u t := by
  cases hm with
  | seq h1 h2 => exact .seq (h _ _ _ h1) (h' _ _ _ h2)

theorem star_mono {a a' : Re} (h : ∀ k u t, Matches a k u t → Matches a' k u t) {r : Re} {k u t} (hm : Matches r k u t) (hr : r = .star a) : Matches (.star a') k u t := by
  induction hm with
  | stop => exact .stop
  | more h1 _ _ ih => cases hr; exact .more (h _ _ _ h1) (ih rfl)
  | _ => cases hr

theorem Same.seq {a b a' b' : Re} (h : Same a a') (h' : Same b b') : Same (.seq a b) (.seq a' b') := fun _ _ _ =>
  ⟨seq_mono (fun k u t => (h k u t).1) (fun k u t => (h' k u t).1), seq_mono (fun k u t => (h k u t).2) (fun k u t => (h' k u t).2)⟩

theorem Same.star {a a' : Re} (h : Same a a') : Same (.star a) (.star a') := fun _ _ _ =>
  ⟨fun hm => star_mono (fun k u t => (h k u t).1) hm rfl, fun hm => star_mono (fun k u t => (h k u t).2) hm rfl⟩

theorem matches_alt {a b : Re} {k u t} : Matches (.alt a b) k u t ↔ Matches a k u t ∨ Matches b k u t :=
  ⟨fun h => by cases h with | left h => exact .inl h | right h => exact .inr h, fun h => h.elim .left .right⟩

theorem matches_group {n : Nat} {a : Re} {k u t} : Matches (.group n a) k u t ↔ Matches a k u t :=
  ⟨fun h => by cases h; assumption, .group⟩

theorem matches_opt {a : Re} {k u t} : Matches (.opt a) k u t ↔ u = [] ∨ Matches a k u t := by
  constructor
  · intro h
    cases h with
    | none => exact .inl rfl
    | once h => exact .inr h
  · rintro (rfl | h)
    · exact .none
    · exact .once h

theorem Same.alt {a b a' b' : Re} (h : Same a a') (h' : Same b b') : Same (.alt a b) (.alt a' b') := fun k u t => by
  rw [matches_alt, matches_alt, h k u t, h' k u t]
theorem Same.opt {a a' : Re} (h : Same a a') : Same (.opt a) (.opt a') := fun k u t => by rw [matches_opt, matches_opt, h k u t]
theorem Same.group {n m : Nat} {a a' : Re} (h : Same a a') : Same (.group n a) (.group m a') := fun k u t => by rw [matches_group, matches_group, h k u t]
theorem Same.plus {a a' : Re} (h : Same a a') : Same a.plus a'.plus := h.seq h.star

/-- Nothing after an expression. -/
theorem matches_seq_empty {a : Re} {k u t} : Matches (.seq a .empty) k u t ↔ Matches a k u t := by
  constructor
  · intro h
    cases h with
    | seq h1 h2 => cases h2; simpa using h1
  · intro h
    have := Matches.seq (b := .empty) (v := []) (t := t) (by simpa using h) .empty
    simpa using this

/-! ## The grammar and what follows a pattern -/

/-- What can follow a pattern inside another: nothing, a bar, a closing parenthesis. -/
def Stop (e : Bytes) : Prop := e = [] ∨ (∃ t, e = 124 :: t) ∨ ∃ t, e = 41 :: t

theorem head_append_stop {s e : Bytes} (h : s.head? ≠ some 63) (he : Stop e) : (s ++ e).head? ≠ some 63 := by
  cases s with
  | nil => rcases he with rfl | ⟨t, rfl⟩ | ⟨t, rfl⟩ <;> simp
  | cons c s => simpa using h

theorem quant_ext {a a2 a' : Re} {s s' e : Bytes} (h : quant a s = some (a', s')) (he : Stop e) (hs : Same a2 a) :
    ∃ a2', quant a2 (s ++ e) = some (a2', s' ++ e) ∧ Same a2' a' := by
  unfold quant at h
  split at h
  · split at h
    · cases h
    · rename_i h63; cases h
      exact ⟨_, by rw [List.cons_append, quant, if_neg (head_append_stop h63 he)], hs.star⟩
  · split at h
    · cases h
    · rename_i h63; cases h
      exact ⟨_, by rw [List.cons_append, quant, if_neg (head_append_stop h63 he)], hs.plus⟩
  · split at h
    · cases h
    · rename_i h63; cases h
      exact ⟨_, by rw [List.cons_append, quant, if_neg (head_append_stop h63 he)], hs.opt⟩
  · cases h
  · rename_i n1 n2 n3 n4
    cases h
    refine ⟨a2, ?_, hs⟩
    cases s with
    | nil => rcases he with rfl | ⟨t, rfl⟩ | ⟨t, rfl⟩ <;> rfl
    | cons c s =>
      rw [List.cons_append]
      unfold quant
      split <;> rename_i heq
      · injection heq with h1 _; subst h1; exact absurd rfl (n1 s)
      · injection heq with h1 _; subst h1; exact absurd rfl (n2 s)
      · injection heq with h1 _; subst h1; exact absurd rfl (n3 s)
      · injection heq with h1 _; subst h1; exact absurd rfl (n4 s)
      · rfl

theorem ranges_ext : ∀ {f : Nat} {s : Bytes} {r : List (UInt8 × UInt8)} {s' : Bytes}, ranges f s = some (r, s') → ∀ {g : Nat} (e : Bytes), f ≤ g → ranges g (s ++ e) = some (r, s' ++ e)
  | 0, _, _, _, h, _, _, _ => by simp [ranges] at h
  | f + 1, [], _, _, h, _, _, _ => by simp [ranges] at h
  | f + 1, c :: s, r, s', h, g, e, hg => by
    obtain ⟨g, rfl⟩ : ∃ g', g = g' + 1 := ⟨g - 1, by omega⟩
    rw [ranges.eq_def] at h ⊢
    simp only [List.cons_append] at h ⊢
    by_cases h1 : c = 93
    · rw [if_pos h1] at h ⊢; cases h; rfl
    rw [if_neg h1] at h ⊢
    by_cases h2 : c = 92 ∨ c = 91
    · rw [if_pos h2] at h; cases h
    rw [if_neg h2] at h ⊢
    have rec' : ∀ {s : Bytes} {x : UInt8 × UInt8} , (ranges f s).map (fun r => (x :: r.1, r.2)) = some (r, s') →
        (ranges g (s ++ e)).map (fun r => (x :: r.1, r.2)) = some (r, s' ++ e) := by
      intro s x h
      obtain ⟨⟨r1, s1⟩, h3, h4⟩ := Option.map_eq_some_iff.1 h
      rw [ranges_ext h3 e (by omega)]
      cases h4; rfl
    split at h
    · rename_i d s1
      simp only [List.cons_append]
      by_cases h3 : d = 93
      · rw [if_pos h3] at h ⊢
        exact rec' h
      · rw [if_neg h3] at h ⊢
        by_cases h4 : d = 92 ∨ d = 91 ∨ d < c
        · rw [if_pos h4] at h; cases h
        · rw [if_neg h4] at h ⊢
          exact rec' h
    · rename_i hn
      split
      · rename_i s1 d s2 heq
        -- the next character is a `-`, and nothing followed it
        cases s with
        | nil => simp [ranges] at h; cases f <;> simp [ranges] at h
        | cons x s =>
          cases s with
          | nil =>
            injection heq with h3 _
            subst h3
            obtain ⟨⟨r1, s1⟩, h3, _⟩ := Option.map_eq_some_iff.1 h
            cases f with
            | zero => simp [ranges] at h3
            | succ f =>
              rw [ranges.eq_def] at h3
              simp at h3
              cases f <;> simp [ranges] at h3
          | cons y s =>
            injection heq with h3 h4
            injection h4 with h4 h5
            subst h3
            exact absurd rfl (hn y s)
      · exact rec' h

theorem simple_class {x : UInt8} (hx : x ≠ 94) (s : Bytes) : simple (91 :: x :: s) = (ranges (s.length + 2) (x :: s)).map fun r => (.cls ⟨false, r.1⟩, r.2) := by
  unfold simple
  split <;> rename_i heq
  case h_7 => injection heq with _ h; rw [← h]; rfl
  all_goals simp_all

theorem simple_ext {s : Bytes} {a : Re} {r : Bytes} (h : simple s = some (a, r)) (e : Bytes) : simple (s ++ e) = some (a, r ++ e) := by
  unfold simple at h
  split at h
  · cases h
  · cases h; rfl
  · cases h; rfl
  · cases h; rfl
  · rename_i c s1
    split at h
    · rename_i hc; cases h
      simp only [List.cons_append, simple]
      rw [if_pos hc]
    · cases h
  · rename_i s1
    obtain ⟨⟨r1, s2⟩, h3, h4⟩ := Option.map_eq_some_iff.1 h
    cases h4
    simp only [List.cons_append, simple]
    rw [ranges_ext h3 e (by simp)]
    rfl
  · rename_i s1 hn
    obtain ⟨⟨r1, s2⟩, h3, h4⟩ := Option.map_eq_some_iff.1 h
    cases h4
    cases s1 with
    | nil => simp [ranges] at h3
    | cons x s1 =>
      simp only [List.cons_append]
      rw [simple_class (by rintro rfl; exact hn s1 rfl), ← List.cons_append, ranges_ext h3 e (by simp)]
      rfl
  · split at h
    · cases h
    · rename_i hc
      cases h
      rw [List.cons_append, simple_plain (by simpa using hc)]

/-- A pattern and what follows it: with more steps, other numbers for the groups and something that can follow, the grammar gives the same. -/
theorem parse_ext : ∀ f : Nat,
    (∀ {k s a k' r}, disj f k s = some (a, k', r) → ∀ {g k2 e}, f ≤ g → Stop e → (r ≠ [] ∨ e.head? ≠ some 124) →
      ∃ a2 k2', disj g k2 (s ++ e) = some (a2, k2', r ++ e) ∧ Same a2 a) ∧
    (∀ {k s a k' r}, terms f k s = some (a, k', r) → ∀ {g k2 e}, f ≤ g → Stop e → ∃ a2 k2', terms g k2 (s ++ e) = some (a2, k2', r ++ e) ∧ Same a2 a) ∧
    (∀ {k s a k' r}, atom f k s = some (a, k', r) → ∀ {g k2 e}, f ≤ g → Stop e → ∃ a2 k2', atom g k2 (s ++ e) = some (a2, k2', r ++ e) ∧ Same a2 a)
  | 0 => ⟨fun h => by simp [disj] at h, fun h => by simp [terms] at h, fun h => by simp [atom] at h⟩
  | f + 1 => by
    obtain ⟨ihd, iht, iha⟩ := parse_ext f
    refine ⟨?_, ?_, ?_⟩
    · intro k s a k' r h g k2 e hg he hr
      obtain ⟨g, rfl⟩ : ∃ g', g = g' + 1 := ⟨g - 1, by omega⟩
      rw [disj] at h ⊢
      cases ht : terms f k s with
      | none => rw [ht] at h; cases h
      | some x =>
        obtain ⟨b, k1, s1⟩ := x
        rw [ht] at h
        obtain ⟨b2, k3, e1, e2⟩ := iht ht (g := g) (k2 := k2) (by omega) he
        rw [e1]
        simp only at h ⊢
        split at h
        · rename_i s2
          cases hd : disj f k1 s2 with
          | none => rw [hd] at h; cases h
          | some y =>
            obtain ⟨c, k4, r2⟩ := y
            rw [hd] at h
            cases h
            obtain ⟨c2, k5, e3, e4⟩ := ihd hd (g := g) (k2 := k3) (by omega) he hr
            simp only [List.cons_append, e3]
            exact ⟨_, _, rfl, e2.alt e4⟩
        · rename_i hn
          cases h
          split
          · rename_i s2 heq
            cases r with
            | nil =>
              rcases hr with hr | hr
              · exact absurd rfl hr
              · exact absurd (by simp only [List.nil_append] at heq; rw [heq]; rfl) hr
            | cons c r => injection heq with h1 _; subst h1; exact absurd rfl (hn r)
          · exact ⟨_, _, rfl, e2⟩
    · intro k s a k' r h g k2 e hg he
      obtain ⟨g, rfl⟩ : ∃ g', g = g' + 1 := ⟨g - 1, by omega⟩
      cases s with
      | nil =>
        rw [terms] at h; cases h
        rcases he with rfl | ⟨t, rfl⟩ | ⟨t, rfl⟩
        · exact ⟨_, _, by rw [List.append_nil, terms], Same.rfl' _⟩
        · exact ⟨_, _, by rw [List.nil_append, terms, if_pos (.inl rfl)], Same.rfl' _⟩
        · exact ⟨_, _, by rw [List.nil_append, terms, if_pos (.inr rfl)], Same.rfl' _⟩
      | cons c s =>
        rw [terms] at h
        rw [List.cons_append, terms]
        by_cases hc : c = 124 ∨ c = 41
        · rw [if_pos hc] at h ⊢
          cases h
          exact ⟨_, _, rfl, Same.rfl' _⟩
        · rw [if_neg hc] at h ⊢
          cases ha : atom f k (c :: s) with
          | none => rw [ha] at h; cases h
          | some x =>
            obtain ⟨b, k1, s1⟩ := x
            rw [ha] at h
            simp only at h
            obtain ⟨b2, k3, e1, e2⟩ := iha ha (g := g) (k2 := k2) (by omega) he
            rw [List.cons_append] at e1
            rw [e1]
            simp only
            cases hq : quant b s1 with
            | none => rw [hq] at h; cases h
            | some y =>
              obtain ⟨b', s2⟩ := y
              rw [hq] at h
              simp only at h
              obtain ⟨b2', e3, e4⟩ := quant_ext hq he e2
              rw [e3]
              simp only
              cases ht : terms f k1 s2 with
              | none => rw [ht] at h; cases h
              | some z =>
                obtain ⟨d, k4, r2⟩ := z
                rw [ht] at h
                cases h
                obtain ⟨d2, k5, e5, e6⟩ := iht ht (g := g) (k2 := k3) (by omega) he
                rw [e5]
                exact ⟨_, _, rfl, e4.seq e6⟩
    · intro k s a k' r h g k2 e hg he
      obtain ⟨g, rfl⟩ : ∃ g', g = g' + 1 := ⟨g - 1, by omega⟩
      rw [atom.eq_def] at h ⊢
      simp only at h ⊢
      split at h
      · rename_i s1
        split at h
        · cases h
        · rename_i h63
          simp only [List.cons_append]
          rw [if_neg (head_append_stop h63 he)]
          cases hd : disj f (k + 1) s1 with
          | none => rw [hd] at h; cases h
          | some x =>
            obtain ⟨b, k1, r1⟩ := x
            rw [hd] at h
            simp only at h
            split at h
            · rename_i r2
              cases h
              obtain ⟨b2, k3, e1, e2⟩ := ihd hd (g := g) (k2 := k2 + 1) (by omega) he (.inl (by simp))
              rw [e1]
              exact ⟨_, _, rfl, e2.group⟩
            · cases h
      · rename_i hn
        obtain ⟨⟨b, r1⟩, h1, h2⟩ := Option.map_eq_some_iff.1 h
        cases h2
        have h3 := simple_ext h1 e
        split
        · rename_i s2 heq
          cases s with
          | nil => simp [simple] at h1
          | cons c s => injection heq with h4 _; subst h4; exact absurd rfl (hn s)
        · rw [h3]; exact ⟨_, _, rfl, Same.rfl' _⟩

/-! ## Patterns in groups -/

theorem parse_some {p : Bytes} {a : Re} (h : parse p = some a) : ∃ k, disj (2 * p.length + 2) 1 p = some (a, k, []) := by
  rw [parse] at h
  split at h
  · cases h; exact ⟨_, by assumption⟩
  · cases h

/-- A pattern does not begin with a question mark. -/
theorem parse_head {p : Bytes} {a : Re} (h : parse p = some a) : p.head? ≠ some 63 := by
  obtain ⟨k, hd⟩ := parse_some h
  intro h63
  cases p with
  | nil => cases h63
  | cons c p =>
    injection h63 with h63
    subst h63
    rw [show 2 * (63 :: p : Bytes).length + 2 = (2 * p.length + 1) + 1 + 1 + 1 by simp; omega, disj, terms] at hd
    simp [atom, simple, show special 63 = true by decide +kernel] at hd

theorem group_atom {p : Bytes} {a : Re} (h : parse p = some a) (g k : Nat) (hg : 2 * p.length + 3 ≤ g) (e : Bytes) :
    ∃ a2 k2, atom g k (40 :: (p ++ 41 :: e)) = some (.group k a2, k2, e) ∧ Same a2 a := by
  obtain ⟨k1, hd⟩ := parse_some h
  obtain ⟨g, rfl⟩ : ∃ g', g = g' + 1 := ⟨g - 1, by omega⟩
  obtain ⟨a2, k2, e1, e2⟩ := (parse_ext _).1 hd (g := g) (k2 := k + 1) (e := 41 :: e) (by omega) (.inr (.inr ⟨e, rfl⟩)) (.inr (by simp))
  refine ⟨a2, k2, ?_, e2⟩
  rw [atom.eq_def]
  simp only
  rw [if_neg (head_append_stop (parse_head h) (.inr (.inr ⟨e, rfl⟩))), e1]
  rfl

/-- `(p)` and a quantifier `q`. -/
theorem parse_group {p : Bytes} {a : Re} (h : parse p = some a) (q : Bytes) (f : Re → Re) (hf : ∀ b, quant b q = some (f b, [])) :
    ∃ b, parse (40 :: (p ++ 41 :: q)) = some (.seq (f b) .empty) ∧ Same b a := by
  have e : ∃ n, 2 * (40 :: (p ++ 41 :: q)).length + 2 = n + 1 + 1 ∧ 2 * p.length + 3 ≤ n := ⟨2 * p.length + 2 * q.length + 4, by simp; omega, by omega⟩
  obtain ⟨n, e, hn⟩ := e
  obtain ⟨a2, k2, e1, e2⟩ := group_atom h n 1 hn q
  refine ⟨.group 1 a2, ?_, fun k u t => by rw [matches_group, e2 k u t]⟩
  obtain ⟨n, rfl⟩ : ∃ n', n = n' + 1 := ⟨n - 1, by omega⟩
  rw [parse, e, disj, terms, if_neg (by decide), e1]
  simp only [hf]
  rw [terms]

theorem parse_group2 {p q : Bytes} {a b : Re} (h : parse p = some a) (h' : parse q = some b) :
    ∃ a2 b2, parse (40 :: (p ++ 41 :: 40 :: (q ++ [41]))) = some (.seq a2 (.seq b2 .empty)) ∧ Same a2 a ∧ Same b2 b := by
  have e : ∃ n, 2 * (40 :: (p ++ 41 :: 40 :: (q ++ [41]))).length + 2 = n + 1 + 1 + 1 ∧ 2 * p.length + 2 * q.length + 3 ≤ n :=
    ⟨2 * p.length + 2 * q.length + 7, by simp; omega, by omega⟩
  obtain ⟨n, e, hn⟩ := e
  obtain ⟨a2, k2, e1, e2⟩ := group_atom h (n + 1) 1 (by omega) (40 :: (q ++ [41]))
  obtain ⟨b2, k3, e3, e4⟩ := group_atom h' n k2 (by omega) []
  refine ⟨.group 1 a2, .group k2 b2, ?_, fun k u t => by rw [matches_group, e2 k u t], fun k u t => by rw [matches_group, e4 k u t]⟩
  obtain ⟨n, rfl⟩ : ∃ n', n = n' + 1 := ⟨n - 1, by omega⟩
  rw [parse, e, disj, terms, if_neg (by decide), e1]
  have hq : ∀ (a : Re) (s : Bytes), quant a (40 :: s) = some (a, 40 :: s) := fun _ _ => rfl
  simp only [hq]
  rw [terms, if_neg (by decide), e3]
  simp only [show ∀ a : Re, quant a [] = some (a, []) from fun _ => rfl]
  rw [terms]

theorem disj_either {q : Bytes} {b : Re} (hq : parse q = some b) : ∀ {f k p a k'}, disj f k p = some (a, k', []) → ∀ {G k2}, f + 2 * q.length + 2 ≤ G →
    ∃ c k3, disj G k2 (p ++ 124 :: q) = some (c, k3, []) ∧ ∀ k u t, Matches c k u t ↔ Matches a k u t ∨ Matches b k u t
  | 0, _, _, _, _, h, _, _, _ => by simp [disj] at h
  | f + 1, k, p, a, k', h, G, k2, hG => by
    obtain ⟨G, rfl⟩ : ∃ g', G = g' + 1 := ⟨G - 1, by omega⟩
    rw [disj] at h ⊢
    cases ht : terms f k p with
    | none => rw [ht] at h; cases h
    | some x =>
      obtain ⟨a1, k1, s1⟩ := x
      rw [ht] at h
      simp only at h
      obtain ⟨a2, k3, e1, e2⟩ := (parse_ext f).2.1 ht (g := G) (k2 := k2) (e := 124 :: q) (by omega) (.inr (.inl ⟨q, rfl⟩))
      rw [e1]
      simp only
      split at h
      · rename_i s2
        cases hd : disj f k1 s2 with
        | none => rw [hd] at h; cases h
        | some y =>
          obtain ⟨c, k4, r2⟩ := y
          rw [hd] at h
          cases h
          obtain ⟨c2, k5, e3, e4⟩ := disj_either hq hd (G := G) (k2 := k3) (by omega)
          simp only [List.cons_append, e3]
          exact ⟨_, _, rfl, fun k u t => by rw [matches_alt, matches_alt, e2 k u t, e4 k u t, or_assoc]⟩
      · cases h
        obtain ⟨k6, hd⟩ := parse_some hq
        obtain ⟨b2, k7, e5, e6⟩ := (parse_ext _).1 hd (g := G) (k2 := k3) (e := []) (by omega) (.inl rfl) (.inr (by simp))
        rw [List.append_nil] at e5
        simp only [List.nil_append, e5]
        exact ⟨_, _, rfl, fun k u t => by rw [matches_alt, e2 k u t, e6 k u t]⟩

theorem parse_either {p q : Bytes} {a b : Re} (h : parse p = some a) (h' : parse q = some b) :
    ∃ c, parse (p ++ 124 :: q) = some c ∧ ∀ k u t, Matches c k u t ↔ Matches a k u t ∨ Matches b k u t := by
  obtain ⟨k, hd⟩ := parse_some h
  obtain ⟨c, k3, e1, e2⟩ := disj_either h' hd (G := 2 * (p ++ 124 :: q).length + 2) (k2 := 1) (by simp; omega)
  exact ⟨c, by rw [parse, e1], e2⟩

/-! ## Patterns without anchors -/

/-- What holds of everything the grammar can build from the characters of a text. -/
theorem parse_ind {P : Re → Prop} (h0 : P .empty) (hchr : ∀ c, P (.chr c)) (hdot : P .dot) (hcls : ∀ c, P (.cls c)) (hseq : ∀ a b, P a → P b → P (.seq a b))
    (halt : ∀ a b, P a → P b → P (.alt a b)) (hstar : ∀ a, P a → P (.star a)) (hopt : ∀ a, P a → P (.opt a)) (hgroup : ∀ n a, P a → P (.group n a))
    {X : Bytes} (hbol : 94 ∈ X → P .bol) (heol : 36 ∈ X → P .eol) : ∀ f : Nat,
    (∀ {k s a k' r}, disj f k s = some (a, k', r) → s ⊆ X → P a ∧ r ⊆ X) ∧ (∀ {k s a k' r}, terms f k s = some (a, k', r) → s ⊆ X → P a ∧ r ⊆ X) ∧
    (∀ {k s a k' r}, atom f k s = some (a, k', r) → s ⊆ X → P a ∧ r ⊆ X)
  | 0 => ⟨fun h => by simp [disj] at h, fun h => by simp [terms] at h, fun h => by simp [atom] at h⟩
  | f + 1 => by
    obtain ⟨ihd, iht, iha⟩ := parse_ind h0 hchr hdot hcls hseq halt hstar hopt hgroup hbol heol f
    have hranges : ∀ {f : Nat} {s : Bytes} {r : List (UInt8 × UInt8)} {s' : Bytes}, ranges f s = some (r, s') → s' ⊆ s := by
      intro f
      induction f with
      | zero => intro s r s' h; simp [ranges] at h
      | succ f ih =>
        intro s r s' h
        cases s with
        | nil => simp [ranges] at h
        | cons c s =>
          have rec' : ∀ {s1 : Bytes} {x : UInt8 × UInt8}, (ranges f s1).map (fun r => (x :: r.1, r.2)) = some (r, s') → s1 ⊆ c :: s → s' ⊆ c :: s := by
            intro s1 x h hs
            obtain ⟨⟨r1, s2⟩, h3, h4⟩ := Option.map_eq_some_iff.1 h
            cases h4
            exact fun y hy => hs (ih h3 hy)
          rw [ranges.eq_def] at h
          simp only at h
          split at h
          · cases h; exact List.subset_cons_self ..
          · split at h
            · cases h
            · split at h
              · split at h
                · exact rec' h (List.subset_cons_self ..)
                · split at h
                  · cases h
                  · exact rec' h (fun y hy => by simp [hy])
              · exact rec' h (List.subset_cons_self ..)
    have hsimple : ∀ {s : Bytes} {a : Re} {r : Bytes}, simple s = some (a, r) → s ⊆ X → P a ∧ r ⊆ X := by
      intro s a r h hs
      unfold simple at h
      split at h
      · cases h
      · cases h; exact ⟨hdot, fun y hy => hs (by simp [hy])⟩
      · cases h; exact ⟨hbol (hs (by simp)), fun y hy => hs (by simp [hy])⟩
      · cases h; exact ⟨heol (hs (by simp)), fun y hy => hs (by simp [hy])⟩
      · split at h
        · cases h; exact ⟨hchr _, fun y hy => hs (by simp [hy])⟩
        · cases h
      · obtain ⟨⟨r1, s2⟩, h3, h4⟩ := Option.map_eq_some_iff.1 h
        cases h4
        exact ⟨hcls _, fun y hy => hs (by simp [hranges h3 hy])⟩
      · obtain ⟨⟨r1, s2⟩, h3, h4⟩ := Option.map_eq_some_iff.1 h
        cases h4
        exact ⟨hcls _, fun y hy => hs (by simp [hranges h3 hy])⟩
      · split at h
        · cases h
        · cases h; exact ⟨hchr _, fun y hy => hs (by simp [hy])⟩
    have hquant : ∀ {a a' : Re} {s s' : Bytes}, quant a s = some (a', s') → P a → s ⊆ X → P a' ∧ s' ⊆ X := by
      intro a a' s s' h ha hs
      unfold quant at h
      split at h
      · split at h
        · cases h
        · cases h; exact ⟨hstar _ ha, fun y hy => hs (by simp [hy])⟩
      · split at h
        · cases h
        · cases h; exact ⟨hseq _ _ ha (hstar _ ha), fun y hy => hs (by simp [hy])⟩
      · split at h
        · cases h
        · cases h; exact ⟨hopt _ ha, fun y hy => hs (by simp [hy])⟩
      · cases h
      · cases h; exact ⟨ha, hs⟩
    refine ⟨?_, ?_, ?_⟩
    · intro k s a k' r h hs
      rw [disj] at h
      cases ht : terms f k s with
      | none => rw [ht] at h; cases h
      | some x =>
        obtain ⟨b, k1, s1⟩ := x
        rw [ht] at h
        obtain ⟨p1, p2⟩ := iht ht hs
        simp only at h
        split at h
        · rename_i s2
          cases hd : disj f k1 s2 with
          | none => rw [hd] at h; cases h
          | some y =>
            obtain ⟨c, k4, r2⟩ := y
            rw [hd] at h
            cases h
            obtain ⟨p3, p4⟩ := ihd hd (fun y hy => p2 (by simp [hy]))
            exact ⟨halt _ _ p1 p3, p4⟩
        · cases h; exact ⟨p1, p2⟩
    · intro k s a k' r h hs
      cases s with
      | nil => rw [terms] at h; cases h; exact ⟨h0, hs⟩
      | cons c s =>
        rw [terms] at h
        split at h
        · cases h; exact ⟨h0, hs⟩
        · cases ha : atom f k (c :: s) with
          | none => rw [ha] at h; cases h
          | some x =>
            obtain ⟨b, k1, s1⟩ := x
            rw [ha] at h
            simp only at h
            obtain ⟨p1, p2⟩ := iha ha hs
            cases hq : quant b s1 with
            | none => rw [hq] at h; cases h
            | some y =>
              obtain ⟨b', s2⟩ := y
              rw [hq] at h
              simp only at h
              obtain ⟨p3, p4⟩ := hquant hq p1 p2
              cases ht : terms f k1 s2 with
              | none => rw [ht] at h; cases h
              | some z =>
                obtain ⟨d, k4, r2⟩ := z
                rw [ht] at h
                cases h
                obtain ⟨p5, p6⟩ := iht ht p4
                exact ⟨hseq _ _ p3 p5, p6⟩
    · intro k s a k' r h hs
      rw [atom.eq_def] at h
      simp only at h
      split at h
      · rename_i s1
        split at h
        · cases h
        · cases hd : disj f (k + 1) s1 with
          | none => rw [hd] at h; cases h
          | some x =>
            obtain ⟨b, k1, r1⟩ := x
            rw [hd] at h
            simp only at h
            obtain ⟨p1, p2⟩ := ihd hd (fun y hy => hs (by simp [hy]))
            split at h
            · cases h; exact ⟨hgroup _ _ p1, fun y hy => p2 (by simp [hy])⟩
            · cases h
      · obtain ⟨⟨b, r1⟩, h1, h2⟩ := Option.map_eq_some_iff.1 h
        cases h2
        exact hsimple h1 hs

/-- The language does not depend on what comes after. -/
def NoEol (a : Re) : Prop := ∀ k u t t', Matches a k u t → Matches a k u t'
/-- The language does not depend on what comes before. -/
def NoBol (a : Re) : Prop := ∀ k k' u t, Matches a k u t → Matches a k' u t

theorem noEol {p : Bytes} {a : Re} (h : parse p = some a) (hp : 36 ∉ p) : NoEol a := by
  obtain ⟨k, hd⟩ := parse_some h
  refine ((parse_ind (P := NoEol) (X := p) ?_ ?_ ?_ ?_ ?_ ?_ ?_ ?_ ?_ ?_ (fun h => absurd h hp) _).1 hd (fun y hy => hy)).1
  · intro k u t t' h; cases h; exact .empty
  · intro c k u t t' h; cases h; exact .chr
  · intro k u t t' h; cases h with | dot h1 h2 => exact .dot h1 h2
  · intro c k u t t' h; cases h with | cls h1 => exact .cls h1
  · intro a b ha hb k u t t' h
    cases h with
    | seq h1 h2 => exact .seq (ha _ _ _ _ h1) (hb _ _ _ _ h2)
  · intro a b ha hb k u t t' h
    rw [matches_alt] at h ⊢
    exact h.imp (ha _ _ _ _) (hb _ _ _ _)
  · intro a ha k u t t' h
    have : ∀ {r k u t}, Matches r k u t → r = .star a → Matches (.star a) k u t' := by
      intro r k u t h
      induction h with
      | stop => intro _; exact .stop
      | more h1 _ _ ih => intro hr; cases hr; exact .more (ha _ _ _ _ h1) (ih rfl)
      | _ => intro hr; cases hr
    exact this h rfl
  · intro a ha k u t t' h
    rw [matches_opt] at h ⊢
    exact h.imp id (ha _ _ _ _)
  · intro n a ha k u t t' h
    rw [matches_group] at h ⊢
    exact ha _ _ _ _ h
  · intro _ k u t t' h; cases h; exact .bol

theorem noBol {p : Bytes} {a : Re} (h : parse p = some a) (hp : 94 ∉ p) : NoBol a := by
  obtain ⟨k, hd⟩ := parse_some h
  refine ((parse_ind (P := NoBol) (X := p) ?_ ?_ ?_ ?_ ?_ ?_ ?_ ?_ ?_ (fun h => absurd h hp) ?_ _).1 hd (fun y hy => hy)).1
  · intro k k' u t h; cases h; exact .empty
  · intro c k k' u t h; cases h; exact .chr
  · intro k k' u t h; cases h with | dot h1 h2 => exact .dot h1 h2
  · intro c k k' u t h; cases h with | cls h1 => exact .cls h1
  · intro a b ha hb k k' u t h
    cases h with
    | seq h1 h2 => exact .seq (ha _ _ _ _ h1) (hb _ _ _ _ h2)
  · intro a b ha hb k k' u t h
    rw [matches_alt] at h ⊢
    exact h.imp (ha _ _ _ _) (hb _ _ _ _)
  · intro a ha k k' u t h
    have : ∀ {r k u t}, Matches r k u t → r = .star a → ∀ k', Matches (.star a) k' u t := by
      intro r k u t h
      induction h with
      | stop => intro _ _; exact .stop
      | more h1 _ _ ih => intro hr k'; cases hr; exact .more (ha _ _ _ _ h1) (ih rfl _)
      | _ => intro hr; cases hr
    exact this h rfl k'
  · intro a ha k k' u t h
    rw [matches_opt] at h ⊢
    exact h.imp id (ha _ _ _ _)
  · intro n a ha k k' u t h
    rw [matches_group] at h ⊢
    exact ha _ _ _ _ h
  · intro _ k k' u t h; cases h; exact .eol

/-- Iterations of an expression that looks at nothing but its own text. -/
theorem star_pieces {a : Re} (h1 : NoEol a) (h2 : NoBol a) {k u t} : Matches (.star a) k u t ↔ ∃ us : List Bytes, u = us.flatten ∧ ∀ v ∈ us, Matches a 0 v [] := by
  constructor
  · intro h
    have : ∀ {r k u t}, Matches r k u t → r = .star a → ∃ us : List Bytes, u = us.flatten ∧ ∀ v ∈ us, Matches a 0 v [] := by
      intro r k u t h
      induction h with
      | stop => intro _; exact ⟨[], rfl, fun v hv => by cases hv⟩
      | more h _ _ ih =>
        intro hr; cases hr
        obtain ⟨us, rfl, hu⟩ := ih rfl
        refine ⟨_ :: us, rfl, fun v hv => ?_⟩
        rcases List.mem_cons.1 hv with rfl | hv
        · exact h1 _ _ _ _ (h2 _ _ _ _ h)
        · exact hu v hv
      | _ => intro hr; cases hr
    exact this h rfl
  · rintro ⟨us, rfl, hu⟩
    induction us generalizing k with
    | nil => exact .stop
    | cons v us ih =>
      exact .more (h1 _ _ _ _ (h2 _ _ _ _ (hu v List.mem_cons_self))) (ih (fun w hw => hu w (List.mem_cons_of_mem _ hw)))

/-! ## The laws -/

/-- The library takes the pattern. -/
def Taken (p : Bytes) : Prop := ∀ a, Ops.reg stdRegex (.str a) (.str p) ≠ .null .badType

theorem taken_parse {p : Bytes} (h : Taken p) : ∃ r, parse p = some r := by
  cases hp : parse p with
  | some r => exact ⟨r, rfl⟩
  | none => exact absurd (by simp [Ops.reg, Ops.onStrings, Value.isBadNull, stdRegex, hp, Value.kNullBadType]) (h [])

theorem reg_iff {a p : Bytes} {r : Re} (h : parse p = some r) : Ops.reg stdRegex (.str a) (.str p) = .bool true ↔ Matches r 0 a [] := (C149_language a p h).1

theorem parse_taken {p : Bytes} {r : Re} (h : parse p = some r) : Taken p := fun a => by rw [reg_str a p h]; simp

/-- **C149 (alternatives).** `p|q` is a pattern if both are, and matches what `p` matches and what `q` matches. -/
theorem C149_either {p q : Bytes} (hp : Taken p) (hq : Taken q) : Taken (p ++ ascii "|" ++ q) ∧
    ∀ a, Ops.reg stdRegex (.str a) (.str (p ++ ascii "|" ++ q)) = .bool true ↔ Ops.reg stdRegex (.str a) (.str p) = .bool true ∨ Ops.reg stdRegex (.str a) (.str q) = .bool true := by
  obtain ⟨r, hr⟩ := taken_parse hp
  obtain ⟨s, hs⟩ := taken_parse hq
  obtain ⟨c, h1, h2⟩ := parse_either hr hs
  rw [show p ++ ascii "|" ++ q = p ++ 124 :: q by rw [show ascii "|" = [124] by decide +kernel]; simp]
  exact ⟨parse_taken h1, fun a => by rw [reg_iff h1, reg_iff hr, reg_iff hs, h2]⟩

/-- **C149 (parentheses).** `(p)` matches what `p` matches. -/
theorem C149_group {p : Bytes} (hp : Taken p) (a : Bytes) :
    Ops.reg stdRegex (.str a) (.str (ascii "(" ++ p ++ ascii ")")) = Ops.reg stdRegex (.str a) (.str p) := by
  obtain ⟨r, hr⟩ := taken_parse hp
  obtain ⟨b, h1, h2⟩ := parse_group hr [] id (fun _ => rfl)
  rw [show ascii "(" ++ p ++ ascii ")" = 40 :: (p ++ 41 :: []) by rw [show ascii "(" = [40] by decide +kernel, show ascii ")" = [41] by decide +kernel]; simp,
    reg_str a _ h1, reg_str a _ hr]
  have h3 := fullMatch_isSome (.seq b .empty) a
  have h4 := fullMatch_isSome r a
  rw [matches_seq_empty, h2] at h3
  exact congrArg Value.bool (Bool.eq_iff_iff.2 (h3.trans h4.symm))

/-- **C149 (sequences).** `(p)(q)` matches the texts made of one that `p` matches and one that `q` matches, if `p` has no `$` and `q` no `^`. -/
theorem C149_sequence {p q : Bytes} (hp : Taken p) (hq : Taken q) (h36 : 36 ∉ p) (h94 : 94 ∉ q) :
    Taken (ascii "(" ++ p ++ ascii ")(" ++ q ++ ascii ")") ∧
    ∀ a, Ops.reg stdRegex (.str a) (.str (ascii "(" ++ p ++ ascii ")(" ++ q ++ ascii ")")) = .bool true ↔
      ∃ u v, a = u ++ v ∧ Ops.reg stdRegex (.str u) (.str p) = .bool true ∧ Ops.reg stdRegex (.str v) (.str q) = .bool true := by
  obtain ⟨r, hr⟩ := taken_parse hp
  obtain ⟨s, hs⟩ := taken_parse hq
  obtain ⟨b, c, h1, h2, h3⟩ := parse_group2 hr hs
  rw [show ascii "(" ++ p ++ ascii ")(" ++ q ++ ascii ")" = 40 :: (p ++ 41 :: 40 :: (q ++ [41])) by
    rw [show ascii "(" = [40] by decide +kernel, show ascii ")(" = [41, 40] by decide +kernel, show ascii ")" = [41] by decide +kernel]; simp]
  refine ⟨parse_taken h1, fun a => ?_⟩
  rw [reg_iff h1]
  constructor
  · intro h
    generalize ht : ([] : Bytes) = t at h
    cases h with
    | seq h4 h5 =>
      subst ht
      rw [matches_seq_empty, h3] at h5
      rw [h2] at h4
      exact ⟨_, _, rfl, (reg_iff hr).2 (noEol hr h36 _ _ _ _ h4), (reg_iff hs).2 (noBol hs h94 _ _ _ _ h5)⟩
  · rintro ⟨u, v, rfl, h4, h5⟩
    rw [reg_iff hr] at h4
    rw [reg_iff hs] at h5
    exact .seq ((h2 _ _ _).2 (noEol hr h36 _ _ _ _ h4)) (matches_seq_empty.2 ((h3 _ _ _).2 (noBol hs h94 _ _ _ _ h5)))

/-- **C149 (repetition).** `(p)*` matches the texts made of any number of texts that `p` matches, and `(p)+` of at least one, if `p` has no `^` and `$`. -/
theorem C149_repeat {p : Bytes} (hp : Taken p) (h36 : 36 ∉ p) (h94 : 94 ∉ p) :
    Taken (ascii "(" ++ p ++ ascii ")*") ∧ Taken (ascii "(" ++ p ++ ascii ")+") ∧
    (∀ a, Ops.reg stdRegex (.str a) (.str (ascii "(" ++ p ++ ascii ")*")) = .bool true ↔
      ∃ us : List Bytes, a = us.flatten ∧ ∀ u ∈ us, Ops.reg stdRegex (.str u) (.str p) = .bool true) ∧
    (∀ a, Ops.reg stdRegex (.str a) (.str (ascii "(" ++ p ++ ascii ")+")) = .bool true ↔
      ∃ us : List Bytes, us ≠ [] ∧ a = us.flatten ∧ ∀ u ∈ us, Ops.reg stdRegex (.str u) (.str p) = .bool true) := by
  obtain ⟨r, hr⟩ := taken_parse hp
  obtain ⟨b, h1, h2⟩ := parse_group hr [42] .star (fun _ => rfl)
  obtain ⟨c, h3, h4⟩ := parse_group hr [43] .plus (fun _ => rfl)
  have n1 := noEol hr h36
  have n2 := noBol hr h94
  rw [show ascii "(" ++ p ++ ascii ")*" = 40 :: (p ++ 41 :: [42]) by rw [show ascii "(" = [40] by decide +kernel, show ascii ")*" = [41, 42] by decide +kernel]; simp,
    show ascii "(" ++ p ++ ascii ")+" = 40 :: (p ++ 41 :: [43]) by rw [show ascii "(" = [40] by decide +kernel, show ascii ")+" = [41, 43] by decide +kernel]; simp]
  refine ⟨parse_taken h1, parse_taken h3, fun a => ?_, fun a => ?_⟩
  · rw [reg_iff h1, matches_seq_empty, h2.star, star_pieces n1 n2]
    simp only [reg_iff hr]
  · rw [reg_iff h3, matches_seq_empty, h4.plus]
    simp only [reg_iff hr]
    constructor
    · intro h
      generalize ht : ([] : Bytes) = t at h
      cases h with
      | seq h5 h6 =>
        subst ht
        obtain ⟨us, rfl, hu⟩ := (star_pieces n1 n2).1 h6
        refine ⟨_ :: us, by simp, rfl, fun v hv => ?_⟩
        rcases List.mem_cons.1 hv with rfl | hv
        · exact n1 _ _ _ _ h5
        · exact hu v hv
    · rintro ⟨us, hne, rfl, hu⟩
      cases us with
      | nil => exact absurd rfl hne
      | cons v us =>
        exact .seq (n1 _ _ _ _ (hu v List.mem_cons_self)) ((star_pieces n1 n2).2 ⟨us, rfl, fun w hw => hu w (List.mem_cons_of_mem _ hw)⟩)

/-- **C149 (options).** `(p)?` matches what `p` matches, and the empty text. -/
theorem C149_option {p : Bytes} (hp : Taken p) : Taken (ascii "(" ++ p ++ ascii ")?") ∧
    ∀ a, Ops.reg stdRegex (.str a) (.str (ascii "(" ++ p ++ ascii ")?")) = .bool true ↔ a = [] ∨ Ops.reg stdRegex (.str a) (.str p) = .bool true := by
  obtain ⟨r, hr⟩ := taken_parse hp
  obtain ⟨b, h1, h2⟩ := parse_group hr [63] .opt (fun _ => rfl)
  rw [show ascii "(" ++ p ++ ascii ")?" = 40 :: (p ++ 41 :: [63]) by rw [show ascii "(" = [40] by decide +kernel, show ascii ")?" = [41, 63] by decide +kernel]; simp]
  refine ⟨parse_taken h1, fun a => ?_⟩
  rw [reg_iff h1, matches_seq_empty, h2.opt, matches_opt, reg_iff hr]

/-- A case that meets the hypotheses: `a|b*` and `[c-e]x`. -/
example : Taken (ascii "a|b*") ∧ Taken (ascii "[c-e]x") ∧ 36 ∉ ascii "a|b*" ∧ 94 ∉ ascii "[c-e]x" ∧ 94 ∉ ascii "a|b*" :=
  ⟨parse_taken (r := .alt (.seq (.chr 97) .empty) (.seq (.star (.chr 98)) .empty)) (by decide +kernel),
    parse_taken (r := .seq (.cls ⟨false, [(99, 101)]⟩) (.seq (.chr 120) .empty)) (by decide +kernel), by decide +kernel, by decide +kernel, by decide +kernel⟩

/-- And the law of sequences does not hold for anchors: `(a$)(b)` matches nothing. -/
example : Ops.reg stdRegex (.str (ascii "ab")) (.str (ascii "(a$)(b)")) = .bool false ∧ Ops.reg stdRegex (.str (ascii "a")) (.str (ascii "a$")) = .bool true := by
  simp only [Ops.reg, Ops.onStrings, Value.isBadNull]
  decide +kernel

end Regex
end Nebula
