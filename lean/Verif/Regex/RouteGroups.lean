import Verif.Regex.RoutesProps
/-!
# C157: counting the groups of a route
-/
namespace Nebula
namespace Regex
open Web (Item Answer normPath)

/-! ## Counting groups -/

theorem quant_marks {a b : Re} {s r : Bytes} (h : quant a s = some (b, r)) : b.marks = a.marks := by
  unfold quant at h
  split at h
  · split at h
    · cases h
    · cases h; rfl
  · split at h
    · cases h
    · cases h; simp [Re.plus, Re.marks]
  · split at h
    · cases h
    · cases h; rfl
  · cases h
  · cases h; rfl

theorem simple_marks {a : Re} {s r : Bytes} (h : simple s = some (a, r)) : a.marks = 0 := by
  unfold simple at h
  split at h
  · cases h
  · cases h; rfl
  · cases h; rfl
  · cases h; rfl
  · split at h
    · cases h; rfl
    · cases h
  · obtain ⟨x, _, e⟩ := Option.map_eq_some_iff.1 h; cases e; rfl
  · obtain ⟨x, _, e⟩ := Option.map_eq_some_iff.1 h; cases e; rfl
  · split at h
    · cases h
    · cases h; rfl

/-- The groups read between two counts. -/
def Counted (k : Nat) (a : Re) (k' : Nat) : Prop := k ≤ k' ∧ a.marks = if k' = k then 0 else k' - 1

theorem parse_marks : ∀ f : Nat, (∀ {k s a k' r}, disj f k s = some (a, k', r) → Counted k a k') ∧
    (∀ {k s a k' r}, terms f k s = some (a, k', r) → Counted k a k') ∧ (∀ {k s a k' r}, atom f k s = some (a, k', r) → Counted k a k')
  | 0 => ⟨fun h => by simp [disj] at h, fun h => by simp [terms] at h, fun h => by simp [atom] at h⟩
  | f + 1 => by
    obtain ⟨ihd, iht, iha⟩ := parse_marks f
    refine ⟨?_, ?_, ?_⟩
    · intro k s a k' r h
      rw [disj] at h
      cases ht : terms f k s with
      | none => rw [ht] at h; cases h
      | some x =>
        obtain ⟨b, k1, s1⟩ := x
        rw [ht] at h
        simp only at h
        have c1 := iht ht
        split at h
        · rename_i s2
          cases hd : disj f k1 s2 with
          | none => rw [hd] at h; cases h
          | some y =>
            obtain ⟨d, k2, r2⟩ := y
            rw [hd] at h
            cases h
            have c2 := ihd hd
            unfold Counted at *
            simp only [Re.marks, c1.2, c2.2]
            refine ⟨by omega, ?_⟩
            split <;> split <;> split <;> omega
        · cases h; exact c1
    · intro k s a k' r h
      cases s with
      | nil => rw [terms] at h; cases h; exact ⟨Nat.le_refl _, by simp [Re.marks]⟩
      | cons c s =>
        rw [terms] at h
        split at h
        · cases h; exact ⟨Nat.le_refl _, by simp [Re.marks]⟩
        · cases ha : atom f k (c :: s) with
          | none => rw [ha] at h; cases h
          | some x =>
            obtain ⟨b, k1, s1⟩ := x
            rw [ha] at h
            simp only at h
            have c1 := iha ha
            cases hq : quant b s1 with
            | none => rw [hq] at h; cases h
            | some y =>
              obtain ⟨b', s2⟩ := y
              rw [hq] at h
              simp only at h
              have hm := quant_marks hq
              cases ht : terms f k1 s2 with
              | none => rw [ht] at h; cases h
              | some z =>
                obtain ⟨d, k2, r2⟩ := z
                rw [ht] at h
                cases h
                have c2 := iht ht
                unfold Counted at *
                simp only [Re.marks, hm, c1.2, c2.2]
                refine ⟨by omega, ?_⟩
                split <;> split <;> split <;> omega
    · intro k s a k' r h
      rw [atom.eq_def] at h
      simp only at h
      split at h
      · rename_i s1
        split at h
        · cases h
        · cases hd : disj f (k + 1) s1 with
          | none => rw [hd] at h; cases h
          | some x =>
            obtain ⟨b, k1, r1⟩ := x
            rw [hd] at h
            simp only at h
            have c1 := ihd hd
            split at h
            · cases h
              unfold Counted at *
              simp only [Re.marks, c1.2]
              refine ⟨by omega, ?_⟩
              split <;> split <;> omega
            · cases h
      · obtain ⟨⟨b, r1⟩, h1, h2⟩ := Option.map_eq_some_iff.1 h
        cases h2
        exact ⟨Nat.le_refl _, by simp [simple_marks h1]⟩

/-- No literal opens a group or a class, or takes away the meaning of what follows. -/
def Loose (is : List Item) : Prop := ∀ c, Item.lit c ∈ is → c ≠ 40 ∧ c ≠ 91 ∧ c ≠ 92

theorem simple_loose {c : UInt8} (h : c ≠ 91 ∧ c ≠ 92) {s r : Bytes} {a : Re} (hs : simple (c :: s) = some (a, r)) : r = s := by
  unfold simple at hs
  split at hs
  · cases hs
  · rename_i h1; cases h1; cases hs; rfl
  · rename_i h1; cases h1; cases hs; rfl
  · rename_i h1; cases h1; cases hs; rfl
  · rename_i h1; cases h1; exact absurd rfl h.2
  · rename_i h1; cases h1; exact absurd rfl h.1
  · rename_i h1; cases h1; exact absurd rfl h.1
  · rename_i h1
    cases h1
    split at hs
    · cases hs
    · cases hs; rfl

theorem atom_loose {c : UInt8} (h : c ≠ 40 ∧ c ≠ 91 ∧ c ≠ 92) {f k k' : Nat} {s r : Bytes} {a : Re} (ha : atom f k (c :: s) = some (a, k', r)) : k' = k ∧ r = s := by
  cases f with
  | zero => simp [atom] at ha
  | succ f =>
    rw [atom.eq_def] at ha
    simp only at ha
    split at ha
    · rename_i h1; cases h1; exact absurd rfl h.1
    · obtain ⟨⟨b, r1⟩, h1, h2⟩ := Option.map_eq_some_iff.1 ha
      cases h2
      exact ⟨rfl, simple_loose h.2 h1⟩

theorem item_head {i : Item} {is : List Item} {c : UInt8} {t : Bytes} (h : itemText i ++ is.flatMap itemText = c :: t) (hc : c ≠ 40) :
    itemText i = [c] ∧ t = is.flatMap itemText := by
  cases i with
  | lit d => simp only [itemText, List.singleton_append, List.cons.injEq] at h; exact ⟨by rw [itemText, h.1], h.2.symm⟩
  | any => simp only [itemText, List.singleton_append, List.cons.injEq] at h; exact ⟨by rw [itemText, h.1], h.2.symm⟩
  | group =>
    rw [itemText, show ascii "([^/]+)" = 40 :: ascii "[^/]+)" by decide +kernel, List.cons_append, List.cons.injEq] at h
    exact absurd h.1.symm hc

/-- A quantifier is one literal or nothing. -/
theorem quant_loose {a b : Re} {is : List Item} {r : Bytes} (h : quant a (is.flatMap itemText) = some (b, r)) :
    r = is.flatMap itemText ∨ ∃ i is', is = i :: is' ∧ groupsOf is = groupsOf is' ∧ r = is'.flatMap itemText := by
  have step : ∀ c t, is.flatMap itemText = c :: t → c ≠ 40 → ∃ i is', is = i :: is' ∧ groupsOf is = groupsOf is' ∧ t = is'.flatMap itemText := by
    intro c t h hc
    cases is with
    | nil => simp at h
    | cons i is' =>
      rw [List.flatMap_cons] at h
      obtain ⟨h1, h2⟩ := item_head h hc
      refine ⟨i, is', rfl, ?_, h2⟩
      cases i with
      | lit d => simp [groupsOf]
      | any => simp [groupsOf]
      | group => exact absurd (congrArg List.length h1) (by simp [itemText, show (ascii "([^/]+)").length = 7 by decide +kernel])
  generalize hg : is.flatMap itemText = t at h
  unfold quant at h
  split at h
  · split at h
    · cases h
    · cases h; exact .inr (step _ _ hg (by decide))
  · split at h
    · cases h
    · cases h; exact .inr (step _ _ hg (by decide))
  · split at h
    · cases h
    · cases h; exact .inr (step _ _ hg (by decide))
  · cases h
  · cases h; exact .inl rfl

theorem loose_parse : ∀ (n : Nat) (is : List Item), is.length ≤ n → Loose is → ∀ (f k : Nat) (a : Re) (k' : Nat) (r : Bytes),
    (2 * (is.flatMap itemText).length + 1 ≤ f → terms f k (is.flatMap itemText) = some (a, k', r) →
      ∃ q is', is = q ++ is' ∧ r = is'.flatMap itemText ∧ k' = k + groupsOf q) := by
  intro n
  induction n with
  | zero =>
    intro is hl hp f k a k' r hf h
    obtain rfl : is = [] := List.length_eq_zero_iff.mp (by omega)
    obtain ⟨f, rfl⟩ : ∃ g, f = g + 1 := ⟨f - 1, by omega⟩
    simp only [List.flatMap_nil, terms, Option.some.injEq, Prod.mk.injEq] at h
    exact ⟨[], [], rfl, by simp [← h.2.2], by simp [groupsOf, ← h.2.1]⟩
  | succ n ih =>
    intro is hl hp f k a k' r hf h
    cases is with
    | nil =>
      obtain ⟨f, rfl⟩ : ∃ g, f = g + 1 := ⟨f - 1, by omega⟩
      simp only [List.flatMap_nil, terms, Option.some.injEq, Prod.mk.injEq] at h
      exact ⟨[], [], rfl, by simp [← h.2.2], by simp [groupsOf, ← h.2.1]⟩
    | cons i is =>
      have hp' : Loose is := fun c hc => hp c (List.mem_cons_of_mem _ hc)
      have hl' : is.length ≤ n := by simpa using hl
      rw [List.flatMap_cons, List.length_append] at hf
      -- what happens after the atom
      have cont : ∀ {b : Re} {g k1 : Nat}, 2 * (is.flatMap itemText).length + 1 ≤ g →
          (match quant b (is.flatMap itemText) with
            | none => none
            | some (a', s'') => match terms g k1 s'' with
              | none => none
              | some (b, k'', r) => some (.seq a' b, k'', r)) = some (a, k', r) →
          ∃ q is', is = q ++ is' ∧ r = is'.flatMap itemText ∧ k' = k1 + groupsOf q := by
        intro b g k1 hg h
        cases hq : quant b (is.flatMap itemText) with
        | none => rw [hq] at h; cases h
        | some y =>
          obtain ⟨b', s2⟩ := y
          rw [hq] at h
          simp only at h
          cases ht : terms g k1 s2 with
          | none => rw [ht] at h; cases h
          | some z =>
            obtain ⟨d, k2, r2⟩ := z
            rw [ht] at h
            cases h
            rcases quant_loose hq with e | ⟨j, js, e1, e2, e3⟩
            · rw [e] at ht
              exact ih is hl' hp' _ _ _ _ _ hg ht
            · rw [e3] at ht
              subst e1
              have hlen : (js.flatMap itemText).length ≤ ((j :: js).flatMap itemText).length := by simp
              obtain ⟨q, js', f1, f2, f3⟩ := ih js (by simp at hl'; omega) (fun c hc => hp' c (List.mem_cons_of_mem _ hc)) _ _ _ _ _ (by omega) ht
              refine ⟨j :: q, js', by rw [f1]; rfl, f2, ?_⟩
              have : groupsOf (j :: q) = groupsOf q := by
                cases j with
                | lit d => simp [groupsOf]
                | any => simp [groupsOf]
                | group => exact absurd e2 (by simp [groupsOf])
              rw [this, f3]
      have one : ∀ c, itemText i = [c] → (c ≠ 40 ∧ c ≠ 91 ∧ c ≠ 92) → groupsOf [i] = 0 → ∃ q is', i :: is = q ++ is' ∧ r = is'.flatMap itemText ∧ k' = k + groupsOf q := by
        intro c hi hc h0
        rw [hi] at hf
        rw [List.flatMap_cons, hi, List.singleton_append] at h
        obtain ⟨f, rfl⟩ : ∃ g, f = g + 1 := ⟨f - 1, by omega⟩
        rw [terms] at h
        split at h
        · cases h
          exact ⟨[], i :: is, rfl, by rw [List.flatMap_cons, hi]; rfl, by simp [groupsOf]⟩
        · cases ha : atom f k (c :: is.flatMap itemText) with
          | none => rw [ha] at h; cases h
          | some x =>
            obtain ⟨b, k1, s1⟩ := x
            obtain ⟨e1, e2⟩ := atom_loose hc ha
            subst e1 e2
            rw [ha] at h
            simp only at h
            obtain ⟨q, is', f1, f2, f3⟩ := cont (by simp only [List.length_cons, List.length_nil] at hf; omega) h
            refine ⟨i :: q, is', by rw [f1]; rfl, f2, ?_⟩
            have : groupsOf (i :: q) = groupsOf [i] + groupsOf q := by
              cases i <;> simp [groupsOf] <;> omega
            rw [this, h0, f3]; omega
      cases i with
      | lit c => exact one c rfl (hp c List.mem_cons_self) rfl
      | any => exact one 46 rfl (by decide) rfl
      | group =>
        rw [itemText, show (ascii "([^/]+)").length = 7 by decide +kernel] at hf
        obtain ⟨f, rfl⟩ : ∃ g, f = g + 6 + 1 := ⟨f - 7, by omega⟩
        have ha := atom_group f k (is.flatMap itemText)
        rw [List.flatMap_cons, itemText] at h
        rw [show ascii "([^/]+)" = 40 :: ascii "[^/]+)" by decide +kernel, List.cons_append] at ha h
        rw [terms, if_neg (by decide), ha] at h
        simp only at h
        obtain ⟨q, is', f1, f2, f3⟩ := cont (by omega) h
        refine ⟨.group :: q, is', by rw [f1]; rfl, f2, ?_⟩
        have : groupsOf (.group :: q) = groupsOf q + 1 := by simp [groupsOf]
        rw [this, f3]; omega

theorem groupsOf_append (a b : List Item) : groupsOf (a ++ b) = groupsOf a + groupsOf b := by simp [groupsOf]

theorem loose_disj : ∀ (n : Nat) (is : List Item), is.length ≤ n → Loose is → ∀ (f k : Nat) (a : Re) (k' : Nat) (r : Bytes),
    2 * (is.flatMap itemText).length + 2 ≤ f → disj f k (is.flatMap itemText) = some (a, k', r) →
      ∃ q is', is = q ++ is' ∧ r = is'.flatMap itemText ∧ k' = k + groupsOf q := by
  intro n
  induction n with
  | zero =>
    intro is hl hp f k a k' r hf h
    obtain rfl : is = [] := List.length_eq_zero_iff.mp (by omega)
    obtain ⟨f, rfl⟩ : ∃ g, f = g + 1 + 1 := ⟨f - 2, by simp at hf; omega⟩
    simp only [List.flatMap_nil, disj, terms, Option.some.injEq, Prod.mk.injEq] at h
    exact ⟨[], [], rfl, by simp [← h.2.2], by simp [groupsOf, ← h.2.1]⟩
  | succ n ih =>
    intro is hl hp f k a k' r hf h
    obtain ⟨f, rfl⟩ : ∃ g, f = g + 1 := ⟨f - 1, by omega⟩
    rw [disj] at h
    cases ht : terms f k (is.flatMap itemText) with
    | none => rw [ht] at h; cases h
    | some x =>
      obtain ⟨b, k1, s1⟩ := x
      rw [ht] at h
      simp only at h
      obtain ⟨q, js, e1, e2, e3⟩ := loose_parse _ is (Nat.le_refl _) hp f k b k1 s1 (by omega) ht
      split at h
      · rename_i s2
        cases hd : disj f k1 s2 with
        | none => rw [hd] at h; cases h
        | some y =>
          obtain ⟨d, k2, r2⟩ := y
          rw [hd] at h
          cases h
          cases js with
          | nil => simp at e2
          | cons j js =>
            rw [List.flatMap_cons] at e2
            obtain ⟨g1, g2⟩ := item_head e2.symm (by decide)
            subst g2
            have hlen : is.length = q.length + (js.length + 1) := by rw [e1]; simp
            have htl : (is.flatMap itemText).length = (q.flatMap itemText).length + (1 + (js.flatMap itemText).length) := by
              rw [e1, List.flatMap_append, List.flatMap_cons, g1]; simp; omega
            obtain ⟨q', js', f1, f2, f3⟩ := ih js (by omega) (fun c hc => hp c (by rw [e1]; simp [hc])) _ _ _ _ _ (by omega) hd
            refine ⟨q ++ j :: q', js', by rw [e1, f1]; simp, f2, ?_⟩
            have h0 : groupsOf (j :: q') = groupsOf q' := by
              cases j with
              | lit d => simp [groupsOf]
              | any => simp [groupsOf]
              | group => exact absurd (congrArg List.length g1) (by simp [itemText, show (ascii "([^/]+)").length = 7 by decide +kernel])
            rw [groupsOf_append, h0, f3, e3]; omega
      · cases h
        exact ⟨q, js, e1, e2, e3⟩

theorem bytes_text : ∀ l : Bytes, (l.map Item.lit).flatMap itemText = l
  | [] => rfl
  | c :: l => by rw [List.map_cons, List.flatMap_cons, bytes_text l]; rfl

theorem bytes_groups (l : Bytes) : groupsOf (l.map Item.lit) = 0 := by simp [groupsOf]

theorem pieces_text : ∀ ms : List Match, (ms.flatMap fun m => m.prefix_.map Item.lit ++ [Item.group]).flatMap itemText = ms.flatMap fun m => m.prefix_ ++ ascii "([^/]+)"
  | [] => rfl
  | m :: ms => by
    rw [List.flatMap_cons, List.flatMap_cons, List.flatMap_append, pieces_text ms, List.flatMap_append, bytes_text, List.flatMap_cons, List.flatMap_nil, List.append_nil, itemText]

theorem pieces_groups : ∀ ms : List Match, groupsOf (ms.flatMap fun m => m.prefix_.map Item.lit ++ [Item.group]) = ms.length
  | [] => rfl
  | m :: ms => by
    have h1 : groupsOf [Item.group] = 1 := rfl
    rw [List.flatMap_cons, groupsOf_append, groupsOf_append, bytes_groups, List.length_cons, pieces_groups ms, h1]; omega

theorem routeText_items {path text : Bytes} {names : List Bytes} (h : routeText path = some (text, names)) :
    ∃ is : List Item, is.flatMap itemText = text ∧ groupsOf is = names.length ∧ ∀ c, Item.lit c ∈ is → c ∈ path := by
  unfold routeText at h
  generalize parse (ascii ":([A-Za-z][A-Za-z_0-9]*)") = o at h
  cases o with
  | none => cases h
  | some tok =>
    rw [Option.map_some, Option.some.injEq, Prod.mk.injEq] at h
    refine ⟨(allMatches tok path).1.flatMap (fun m => m.prefix_.map Item.lit ++ [Item.group]) ++ (allMatches tok path).2.map Item.lit, ?_, ?_, ?_⟩
    · rw [List.flatMap_append, pieces_text, bytes_text, h.1]
    · rw [groupsOf_append, pieces_groups, bytes_groups, ← h.2, List.length_map]; omega
    · intro c hc
      apply matches_bytes (r := tok) path.length 0 path c
      rcases List.mem_append.mp hc with hc | hc
      · obtain ⟨m, hm, hc⟩ := List.mem_flatMap.mp hc
        refine List.mem_append.mpr (.inl (List.mem_flatMap.mpr ⟨m, hm, ?_⟩))
        simpa using hc
      · refine List.mem_append.mpr (.inr ?_)
        rw [List.mem_map] at hc
        obtain ⟨d, hd, e⟩ := hc
        cases e
        exact hd

theorem text_nil {is : List Item} (h : is.flatMap itemText = []) : is = [] := by
  cases is with
  | nil => rfl
  | cons j js =>
    exfalso
    rw [List.flatMap_cons] at h
    have hl := congrArg List.length h
    cases j <;> simp [itemText, show (ascii "([^/]+)").length = 7 by decide +kernel] at hl

/-- **C157 (groups).** A route without `(`, `[` and `\\` in its text has as many groups as parameters. -/
theorem C157_even {path : Bytes} {r : Re} {names : List Bytes} (h : compileRoute path = some (.expr r names)) (hp : ∀ c ∈ path, c ≠ 40 ∧ c ≠ 91 ∧ c ≠ 92) :
    names.length = r.marks := by
  have ⟨t, ht, h1⟩ : ∃ t, routeText path = some (t, names) ∧ parse t = some r := by
    unfold compileRoute at h
    split at h
    · cases h
    · split at h
      · generalize routeText path = o at h ⊢
        cases o with
        | none => cases h
        | some y =>
          obtain ⟨t, ns⟩ := y
          simp only at h
          split at h
          · obtain ⟨r', h1, h2⟩ := Option.map_eq_some_iff.1 h
            cases h2
            exact ⟨t, rfl, h1⟩
          · cases h
      · split at h <;> cases h
  obtain ⟨is, htext, hgr, hin⟩ := routeText_items ht
  obtain ⟨k, hd⟩ := parse_some h1
  have cm := (parse_marks _).1 hd
  rw [← htext] at hd
  obtain ⟨q, is', f1, f2, f3⟩ := loose_disj _ is (Nat.le_refl _) (fun c hc => hp c (hin c hc)) _ _ _ _ _ (Nat.le_refl _) hd
  rw [text_nil f2.symm, List.append_nil] at f1
  rw [← hgr, f1, cm.2, f3]
  split <;> omega

/-- **C157 (safe routes).** Routes without `$`, `(`, `[` and `\\` in their text, whatever else is in it, are safe: no request of a known method with a path ends the process. -/
theorem C157_plain_partial (xs : List AnyRoute) (hx : ∀ x ∈ xs, ∃ text, (∀ c ∈ text, c ≠ 36 ∧ c ≠ 40 ∧ c ≠ 91 ∧ c ≠ 92) ∧ compileRoute text = some x.pattern)
    (m : Nat) (path : Bytes) (hp : path ≠ []) : (dispatchAny xs (some m) path).isSome = true := by
  refine C157_safe_partial xs (fun x hm => ?_) m path hp
  obtain ⟨text, h1, h2⟩ := hx x hm
  exact ⟨fun r names e => C157_even (by rw [h2, e]) fun c hc => (h1 c hc).2, text, fun h => (h1 36 h).1 rfl, h2⟩

/-- Such routes: alternatives, an optional letter, an unlimited one and the root. -/
def plainTexts : List Bytes := [ascii "/tag/:id/edits?|/edge/:src/:dst", ascii "/a+/:b", ascii "/"]

example : (∀ t ∈ plainTexts, (∀ c ∈ t, c ≠ 36 ∧ c ≠ 40 ∧ c ≠ 91 ∧ c ≠ 92) ∧ (compileRoute t).isSome = true) ∧
    (compileRoute (ascii "/tag/:id/edits?|/edge/:src/:dst")).elim 0 (fun | .expr r _ => r.marks | _ => 0) = 3 := by decide +kernel

end Regex
end Nebula
