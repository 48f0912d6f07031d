import Verif.Net.Spec
/-! # Properties of the text forms of addresses (C58, C59) -/
namespace Nebula
namespace Net

theorem dropWhile_append_all {α : Type} {p : α → Bool} : ∀ (a b : List α), (∀ x ∈ a, p x = true) → (a ++ b).dropWhile p = b.dropWhile p
  | [], b, _ => rfl
  | x :: a, b, h => by
    rw [List.cons_append, List.dropWhile_cons, if_pos (h x List.mem_cons_self)]
    exact dropWhile_append_all a b fun y hy => h y (List.mem_cons_of_mem _ hy)

theorem dropWhile_stop {α : Type} {p : α → Bool} {l : List α} (h : ∀ x, l.head? = some x → p x = false) : l.dropWhile p = l := by
  cases l with
  | nil => rfl
  | cons x l => rw [List.dropWhile_cons, if_neg (by rw [h x rfl]; simp)]

theorem takeWhile_append_stop {α : Type} {p : α → Bool} (a b : List α) (ha : ∀ x ∈ a, p x = true) (hb : ∀ x, b.head? = some x → p x = false) :
    (a ++ b).takeWhile p = a := by
  rw [List.takeWhile_append_of_pos ha]
  cases b with
  | nil => simp
  | cons x b => rw [List.takeWhile_cons, if_neg (by rw [hb x rfl]; simp)]; simp

theorem split_front {α : Type} (p : α → Bool) (l : List α) : ∃ a b, l = a ++ b ∧ (∀ x ∈ a, p x = true) ∧ (∀ x, b.head? = some x → p x = false) ∧
    b = l.dropWhile p ∧ a = l.takeWhile p := by
  refine ⟨l.takeWhile p, l.dropWhile p, List.takeWhile_append_dropWhile.symm, ?_, ?_, rfl, rfl⟩
  · induction l with
    | nil => simp
    | cons x l ih =>
      intro y hy
      rw [List.takeWhile_cons] at hy
      split at hy
      · rename_i h; rcases List.mem_cons.1 hy with rfl | hy
        · exact h
        · exact ih y hy
      · cases hy
  · induction l with
    | nil => simp
    | cons x l ih =>
      intro y hy
      rw [List.dropWhile_cons] at hy
      split at hy
      · exact ih y hy
      · rename_i h; simp at hy; subst hy; simpa using h

theorem rtrim_append {a r : Bytes} (hr : ∀ x ∈ r, isTrim x = true) (ha : ∀ x, a.getLast? = some x → isTrim x = false) : rtrim (a ++ r) = a := by
  unfold rtrim
  rw [List.reverse_append, dropWhile_append_all _ _ (by intro x hx; exact hr x (List.mem_reverse.1 hx)), dropWhile_stop, List.reverse_reverse]
  intro x hx
  rw [List.head?_reverse] at hx
  exact ha x hx

theorem rtrim_split (s : Bytes) : ∃ r, s = rtrim s ++ r ∧ (∀ x ∈ r, isTrim x = true) ∧ (∀ x, (rtrim s).getLast? = some x → isTrim x = false) := by
  obtain ⟨a, b, h1, h2, h3, h4, h5⟩ := split_front isTrim s.reverse
  refine ⟨a.reverse, ?_, fun x hx => h2 x (List.mem_reverse.1 hx), ?_⟩
  · unfold rtrim
    rw [← h4, ← List.reverse_append, ← h1, List.reverse_reverse]
  · intro x hx
    unfold rtrim at hx
    rw [← h4, List.getLast?_reverse] at hx
    exact h3 x hx

theorem trim_isSpace {c : UInt8} (h : isTrim c = true) : isSpace c = true := by
  unfold isTrim at h
  unfold isSpace
  simp only [Bool.or_eq_true, beq_iff_eq] at h
  rcases h with ((rfl | rfl) | rfl) | rfl <;> decide

theorem digit_not_trim {c : UInt8} (h : isDigit c = true) : isTrim c = false := by
  cases ht : isTrim c with
  | false => rfl
  | true =>
    unfold isTrim at ht
    simp only [Bool.or_eq_true, beq_iff_eq] at ht
    rcases ht with ((rfl | rfl) | rfl) | rfl <;> revert h <;> decide

theorem digit_not_space {c : UInt8} (h : isDigit c = true) : isSpace c = false := by
  rw [isDigit_iff] at h
  cases hs : isSpace c with
  | false => rfl
  | true =>
    exfalso
    unfold isSpace at hs
    simp only [Bool.or_eq_true, beq_iff_eq, Bool.and_eq_true, decide_eq_true_eq] at hs
    rcases hs with rfl | ⟨h1, h2⟩
    · revert h; decide
    · have := UInt8.le_iff_toNat_le.1 h2
      have : (13 : UInt8).toNat = 13 := rfl
      omega

theorem isSpace_not_digit {c : UInt8} (h : isSpace c = true) : isDigit c = false := by
  cases hd : isDigit c with
  | false => rfl
  | true => rw [digit_not_space hd] at h; cases h

/-! ## Numbers -/

theorem toI32_core (u sp' ds : Bytes) (h : u = ds ++ sp') (hsp : ∀ c ∈ sp', isSpace c = true) (hds : ∀ c ∈ ds, isDigit c = true) :
    u.takeWhile isDigit = ds ∧ (u.dropWhile isDigit).all isSpace = true := by
  subst h
  have hh : ∀ x, sp'.head? = some x → isDigit x = false := fun x hx => isSpace_not_digit (hsp x (List.mem_of_head? hx))
  refine ⟨takeWhile_append_stop ds sp' hds hh, ?_⟩
  rw [dropWhile_append_all ds sp' hds, dropWhile_stop hh, List.all_eq_true]
  exact hsp

theorem toI32_numeral (s : Bytes) (v : Int) : toI32 s = some v ↔ Numeral s v := by
  constructor
  · intro h
    obtain ⟨sp, t, h1, h2, h3, h4, _⟩ := split_front isSpace s
    unfold toI32 at h
    rw [← h4] at h
    have main : ∀ (neg : Bool) (u sg : Bytes), t = sg ++ u → ((sg = [45] ∧ neg = true) ∨ ((sg = [] ∨ sg = [43]) ∧ neg = false)) →
        toI32Digits neg u = some v → Numeral s v := by
      intro neg u sg ht hs h
      unfold toI32Digits at h
      dsimp only at h
      by_cases hc : u.takeWhile isDigit = [] ∨ (if neg then -(digitsVal 0 (u.takeWhile isDigit) : Int) else digitsVal 0 (u.takeWhile isDigit)) < -2 ^ 31 ∨
          2 ^ 31 ≤ (if neg then -(digitsVal 0 (u.takeWhile isDigit) : Int) else digitsVal 0 (u.takeWhile isDigit)) ∨ (u.dropWhile isDigit).all isSpace = false
      · rw [if_pos hc] at h; cases h
      · rw [if_neg hc] at h
        rw [not_or, not_or, not_or] at hc
        obtain ⟨hc1, hc2, hc3, hc4⟩ := hc
        rw [Bool.not_eq_false, List.all_eq_true] at hc4
        obtain ⟨ds, r, g1, g2, _, g4, g5⟩ := split_front isDigit u
        rw [← g5] at hc1 hc2 hc3 h
        rw [← g4] at hc4
        have h := Option.some.inj h
        rw [h] at hc2 hc3
        refine ⟨sp, sg, ds, r, by rw [h1, ht, g1]; simp, h2, hc4, hc1, g2, by omega, by omega, ?_⟩
        rcases hs with ⟨rfl, rfl⟩ | ⟨hs, rfl⟩
        · exact .inl ⟨rfl, by simpa using h.symm⟩
        · exact .inr ⟨hs, by simpa using h.symm⟩
    have hsg : (t = [45] ++ (strtollSign t).2 ∧ (strtollSign t).1 = true) ∨ (t = [43] ++ (strtollSign t).2 ∧ (strtollSign t).1 = false) ∨
        (t = [] ++ (strtollSign t).2 ∧ (strtollSign t).1 = false) := by
      unfold strtollSign
      split
      · exact .inl ⟨rfl, rfl⟩
      · exact .inr (.inl ⟨rfl, rfl⟩)
      · exact .inr (.inr ⟨rfl, rfl⟩)
    rcases hsg with ⟨e1, e2⟩ | ⟨e1, e2⟩ | ⟨e1, e2⟩
    · exact main _ _ [45] e1 (.inl ⟨rfl, e2⟩) h
    · exact main _ _ [43] e1 (.inr ⟨.inr rfl, e2⟩) h
    · exact main _ _ [] e1 (.inr ⟨.inl rfl, e2⟩) h
  · rintro ⟨sp, sg, ds, sp', rfl, hsp, hsp', hne, hds, h1, h2, hs⟩
    have hd : (sp ++ sg ++ ds ++ sp').dropWhile isSpace = sg ++ ds ++ sp' := by
      rw [List.append_assoc, List.append_assoc, dropWhile_append_all _ _ hsp, ← List.append_assoc]
      apply dropWhile_stop
      intro x hx
      rcases hs with ⟨rfl, _⟩ | ⟨rfl | rfl, _⟩
      · simp at hx; subst hx; decide
      · cases ds with
        | nil => exact absurd rfl hne
        | cons d ds => simp at hx; subst hx; exact digit_not_space (hds _ List.mem_cons_self)
      · simp at hx; subst hx; decide
    obtain ⟨k1, k2⟩ := toI32_core (ds ++ sp') sp' ds rfl hsp' hds
    have key : ∀ neg : Bool, v = (if neg then -(digitsVal 0 ds : Int) else digitsVal 0 ds) → toI32Digits neg (ds ++ sp') = some v := by
      intro neg hv
      unfold toI32Digits
      simp only [k1, k2]
      rw [← hv, if_neg]
      rw [not_or, not_or, not_or]
      exact ⟨hne, by omega, by omega, by simp⟩
    unfold toI32
    rw [hd]
    rcases hs with ⟨rfl, hv⟩ | ⟨rfl | rfl, hv⟩
    · exact key true (by simpa using hv)
    · have hm : strtollSign ([] ++ ds ++ sp') = (false, ds ++ sp') := by
        cases ds with
        | nil => exact absurd rfl hne
        | cons d ds =>
          have hd' := hds d List.mem_cons_self
          exact strtollSign_digit (by rintro rfl; exact absurd hd' (by decide)) (by rintro rfl; exact absurd hd' (by decide))
      rw [hm]
      exact key false (by simpa using hv)
    · exact key false (by simpa using hv)

theorem numeral_intDec {p : Int} (h1 : -2 ^ 31 ≤ p) (h2 : p < 2 ^ 31) : Numeral (intDec p) p := by
  unfold intDec
  by_cases h : p < 0
  · rw [if_pos h]
    refine ⟨[], [45], natDec p.natAbs, [], by simp, by simp, by simp, natDec_ne_nil _, natDec_digits _, h1, h2, .inl ⟨rfl, ?_⟩⟩
    rw [digitsVal_natDec]; omega
  · rw [if_neg h]
    refine ⟨[], [], natDec p.natAbs, [], by simp, by simp, by simp, natDec_ne_nil _, natDec_digits _, h1, h2, .inr ⟨.inl rfl, ?_⟩⟩
    rw [digitsVal_natDec]; omega

/-! ## Entries -/

theorem parsePeer_denotes (e : Bytes) (h : HostAddr) : parsePeer e = some h ↔ Denotes e h := by
  constructor
  · intro hp
    unfold parsePeer at hp
    dsimp only at hp
    obtain ⟨sp, b, h1, h2, h3, h4, _⟩ := split_front isTrim e
    obtain ⟨r, r1, r2, _⟩ := rtrim_split (ltrim e)
    have hb : ltrim e = b := h4.symm
    split at hp
    · obtain ⟨a, c, c1, c2, c3, c4, c5⟩ := split_front (fun x : UInt8 => decide (x ≠ 58)) (trim e)
      rename_i hm
      split at hp
      · rename_i p hpp
        cases hp
        cases c with
        | nil =>
          exfalso
          rw [c1, List.append_nil] at hm
          have := c2 _ hm
          simp at this
        | cons x n =>
          have hx : x = 58 := by have := c3 x rfl; simpa using this
          subst hx
          rw [← c4] at hpp
          simp only [List.tail_cons] at hpp
          obtain ⟨s1, sg, ds, s2, g1, g2, g3, g4, g5, g6, g7, g8⟩ := (toI32_numeral _ _).1 hpp
          have hhost : (trim e).takeWhile (fun x => decide (x ≠ 58)) = a := c5.symm
          refine ⟨sp, n ++ r, ?_, h2, ?_, ?_, s1, sg, ds, s2 ++ r, by rw [g1]; simp, g2, ?_, g4, g5, g6, g7, g8⟩
          · have : e = sp ++ (trim e ++ r) := by
              have r1' : ltrim e = trim e ++ r := r1
              rw [← r1', hb, ← h1]
            rw [hhost]
            rw [this, c1]; simp
          · rw [hhost]; intro hm'; have := c2 _ hm'; simp at this
          · rw [hhost]
            intro y hy
            apply h3 y
            have hbt : b = trim e ++ r := by rw [← hb]; exact r1
            rw [hbt, c1]
            cases a with
            | nil => cases hy
            | cons z a => simpa using hy
          · intro y hy
            rcases List.mem_append.1 hy with hy | hy
            · exact g3 y hy
            · exact trim_isSpace (r2 y hy)
      · cases hp
    · cases hp
  · rintro ⟨sp, n, rfl, hsp, hno, hhead, s1, sg, ds, s2, rfl, g2, g3, g4, g5, g6, g7, g8⟩
    obtain ⟨r, r1, r2, r3⟩ := rtrim_split s2
    have hlt : ltrim (sp ++ h.host ++ 58 :: (s1 ++ sg ++ ds ++ s2)) = h.host ++ 58 :: (s1 ++ sg ++ ds ++ s2) := by
      unfold ltrim
      rw [List.append_assoc, dropWhile_append_all _ _ hsp]
      apply dropWhile_stop
      intro x hx
      cases hh : h.host with
      | nil => rw [hh] at hx; simp at hx; subst hx; decide
      | cons y l => rw [hh] at hx; simp at hx; subst hx; exact hhead y (by rw [hh]; rfl)
    have hrt : rtrim (h.host ++ 58 :: (s1 ++ sg ++ ds ++ s2)) = h.host ++ 58 :: (s1 ++ sg ++ ds ++ rtrim s2) := by
      have e : h.host ++ 58 :: (s1 ++ sg ++ ds ++ s2) = (h.host ++ 58 :: (s1 ++ sg ++ ds ++ rtrim s2)) ++ r := by
        conv => lhs; rw [r1]
        simp
      rw [e]
      apply rtrim_append r2
      intro x hx
      cases hs : (rtrim s2).getLast? with
      | some y =>
        have : (h.host ++ 58 :: (s1 ++ sg ++ ds ++ rtrim s2)).getLast? = some y := by
          rw [show h.host ++ 58 :: (s1 ++ sg ++ ds ++ rtrim s2) = (h.host ++ 58 :: (s1 ++ sg ++ ds)) ++ rtrim s2 by simp, List.getLast?_append, hs]; rfl
        rw [this] at hx; cases hx
        exact r3 x hs
      | none =>
        rw [List.getLast?_eq_none_iff] at hs
        have : (h.host ++ 58 :: (s1 ++ sg ++ ds ++ rtrim s2)).getLast? = ds.getLast? := by
          rw [hs, show h.host ++ 58 :: (s1 ++ sg ++ ds ++ []) = (h.host ++ 58 :: (s1 ++ sg)) ++ ds by simp, List.getLast?_append]
          cases hd : ds.getLast? with
          | none => rw [List.getLast?_eq_none_iff] at hd; exact absurd hd g4
          | some y => rfl
        rw [this] at hx
        exact digit_not_trim (g5 x (List.mem_of_getLast? hx))
    have ht : trim (sp ++ h.host ++ 58 :: (s1 ++ sg ++ ds ++ s2)) = h.host ++ 58 :: (s1 ++ sg ++ ds ++ rtrim s2) := by
      unfold trim; rw [hlt, hrt]
    have hall : ∀ x ∈ h.host, (fun x : UInt8 => decide (x ≠ 58)) x = true := by
      intro x hx; simp; rintro rfl; exact hno hx
    have hnum : toI32 (s1 ++ sg ++ ds ++ rtrim s2) = some h.port := by
      rw [toI32_numeral]
      refine ⟨s1, sg, ds, rtrim s2, rfl, g2, ?_, g4, g5, g6, g7, g8⟩
      intro c hc
      apply g3
      rw [r1]; exact List.mem_append_left _ hc
    unfold parsePeer
    dsimp only
    rw [ht, if_pos (by simp), dropWhile_append_all _ _ hall, takeWhile_append_stop _ _ hall (by intro x hx; simp at hx; subst hx; simp),
      dropWhile_stop (by intro x hx; simp at hx; subst hx; simp)]
    simp only [List.tail_cons, hnum]

theorem parsePeers_each : ∀ (es : List Bytes) (hs : List HostAddr), parsePeers es = some hs ↔ Each Denotes es hs
  | [], [] => by simp [parsePeers, Each]
  | [], h :: hs => by simp [parsePeers, Each]
  | e :: es, [] => by
    simp only [parsePeers, Each, iff_false]
    split
    · simp
    · split <;> simp
  | e :: es, h :: hs => by
    simp only [parsePeers, Each, ← parsePeer_denotes, ← parsePeers_each es hs]
    cases parsePeer e with
    | none => simp
    | some x => cases parsePeers es <;> simp

/-! ## Lists -/

theorem splitAll_append (c : UInt8) : ∀ (e s : Bytes), c ∉ e → splitAll c (e ++ c :: s) = e :: splitAll c s
  | [], s, _ => by simp [splitAll]
  | b :: e, s, h => by
    have hb : b ≠ c := by rintro rfl; exact h List.mem_cons_self
    simp only [List.cons_append, splitAll, if_neg hb, splitAll_append c e s fun hm => h (List.mem_cons_of_mem _ hm)]

theorem splitAll_single (c : UInt8) : ∀ (e : Bytes), c ∉ e → splitAll c e = [e]
  | [], _ => rfl
  | b :: e, h => by
    have hb : b ≠ c := by rintro rfl; exact h List.mem_cons_self
    simp only [splitAll, if_neg hb, splitAll_single c e fun hm => h (List.mem_cons_of_mem _ hm)]

theorem splitAll_join (c : UInt8) : ∀ (es : List Bytes), es ≠ [] → (∀ e ∈ es, c ∉ e) → splitAll c (join [c] es) = es
  | [], h, _ => absurd rfl h
  | [e], _, h => splitAll_single c e (h e List.mem_cons_self)
  | e :: f :: es, _, h => by
    have : join [c] (e :: f :: es) = e ++ c :: join [c] (f :: es) := by simp [join]
    rw [this, splitAll_append c _ _ (h e List.mem_cons_self), splitAll_join c (f :: es) (by simp) fun x hx => h x (List.mem_cons_of_mem _ hx)]

theorem join_splitAll (c : UInt8) : ∀ s : Bytes, splitAll c s ≠ [] ∧ join [c] (splitAll c s) = s ∧ ∀ e ∈ splitAll c s, c ∉ e
  | [] => by simp [splitAll, join]
  | b :: s => by
    obtain ⟨h1, h2, h3⟩ := join_splitAll c s
    simp only [splitAll]
    split
    · rename_i hb
      subst hb
      refine ⟨by simp, ?_, ?_⟩
      · cases hs : splitAll b s with
        | nil => exact absurd hs h1
        | cons t ts => rw [hs] at h2; simp [join, h2]
      · intro e he
        rcases List.mem_cons.1 he with rfl | he
        · simp
        · exact h3 e he
    · rename_i hb
      cases hs : splitAll c s with
      | nil => exact absurd hs h1
      | cons t ts =>
        rw [hs] at h2 h3
        refine ⟨by simp, ?_, ?_⟩
        · cases ts with
          | nil => simp only [join] at h2 ⊢; rw [h2]
          | cons u us => simp only [join] at h2 ⊢; rw [← h2]; simp
        · intro e he
          rcases List.mem_cons.1 he with rfl | he
          · simp only [List.mem_cons, not_or]
            exact ⟨fun h => hb h.symm, h3 t List.mem_cons_self⟩
          · exact h3 e (List.mem_cons_of_mem _ he)

/-- C58: a host list is accepted exactly if every non-empty entry between the commas consists of a name, a colon and a decimal port of 32 bits (with
blanks around name and port), and gives just these addresses; every text is such a list of entries. -/
theorem C58_accepts (s : Bytes) : (∃ es, es ≠ [] ∧ join [44] es = s ∧ ∀ e ∈ es, (44 : UInt8) ∉ e) ∧
    ∀ es, es ≠ [] → join [44] es = s → (∀ e ∈ es, (44 : UInt8) ∉ e) →
      ∀ hosts, toHosts s = some hosts ↔ Each Denotes (es.filter (· ≠ [])) hosts := by
  refine ⟨⟨splitAll 44 s, join_splitAll 44 s⟩, ?_⟩
  rintro es h1 rfl h2 hosts
  unfold toHosts splitNonEmpty
  rw [splitAll_join 44 es h1 h2]
  exact parsePeers_each _ _

/-- C58: an entry without a colon, or whose text after the first colon is not a number, is rejected, wherever it is in the list. -/
theorem C58_rejects (es : List Bytes) (hc : ∀ e ∈ es, (44 : UInt8) ∉ e) (e : Bytes) (he : e ∈ es) (hne : e ≠ [])
    (hbad : (58 : UInt8) ∉ e ∨ ∃ a b, e = a ++ 58 :: b ∧ (58 : UInt8) ∉ a ∧ ∀ v, ¬ Numeral b v) : toHosts (join [44] es) = none := by
  have hno : ∀ h, ¬ Denotes e h := by
    rintro h ⟨sp, n, rfl, hsp, h1, h2, hn⟩
    rcases hbad with hb | ⟨a, b, h3, h4, h5⟩
    · simp at hb
    · have h6 : (58 : UInt8) ∉ sp ++ h.host := by
        rw [List.mem_append, not_or]
        refine ⟨fun hm => ?_, h1⟩
        have := hsp _ hm
        revert this; decide
      have h7 : sp ++ h.host = a ∧ n = b := by
        have e1 : (sp ++ h.host ++ 58 :: n).takeWhile (fun x : UInt8 => decide (x ≠ 58)) = sp ++ h.host :=
          takeWhile_append_stop _ _ (by intro x hx; simp; rintro rfl; exact h6 hx) (by intro x hx; simp at hx; subst hx; simp)
        have e2 : (a ++ 58 :: b).takeWhile (fun x : UInt8 => decide (x ≠ 58)) = a :=
          takeWhile_append_stop _ _ (by intro x hx; simp; rintro rfl; exact h4 hx) (by intro x hx; simp at hx; subst hx; simp)
        rw [h3, e2] at e1
        subst e1
        refine ⟨rfl, ?_⟩
        have := List.append_cancel_left h3
        simpa using this
      obtain ⟨_, rfl⟩ := h7
      exact h5 _ hn
  cases ht : toHosts (join [44] es) with
  | none => rfl
  | some hosts =>
    exfalso
    have := ((C58_accepts _).2 es (by rintro rfl; cases he) rfl hc hosts).1 ht
    have hmem : e ∈ es.filter (· ≠ []) := List.mem_filter.2 ⟨he, by simpa using hne⟩
    have : ∀ (l : List Bytes) (m : List HostAddr), Each Denotes l m → ∀ x ∈ l, ∃ h, Denotes x h := by
      intro l
      induction l with
      | nil => intro m _ x hx; cases hx
      | cons a l ih =>
        intro m hm x hx
        cases m with
        | nil => cases hm
        | cons b m =>
          rcases List.mem_cons.1 hx with rfl | hx
          · exact ⟨b, hm.1⟩
          · exact ih m hm.2 x hx
    obtain ⟨h, hh⟩ := this _ _ ‹_› e hmem
    exact hno h hh

theorem toHostsStr_join (hosts : List HostAddr) :
    toHostsStr hosts = join [44, 32] (hosts.map fun h => cstr h.host ++ 58 :: intDec h.port) := by
  unfold toHostsStr
  have : ∀ (hs : List HostAddr) (s : Bytes), s ≠ [] →
      hs.foldl (fun s h => (if s.isEmpty then s else s ++ [44, 32]) ++ (cstr h.host ++ 58 :: intDec h.port)) s =
      join [44, 32] (s :: hs.map fun h => cstr h.host ++ 58 :: intDec h.port) := by
    intro hs
    induction hs with
    | nil => intro s _; rfl
    | cons h hs ih =>
      intro s hs'
      rw [List.foldl_cons, ih _ (by simp), if_neg (by simpa using hs')]
      cases hs with
      | nil => simp [join]
      | cons k ks => simp [join]
  cases hosts with
  | nil => rfl
  | cons h hs => rw [List.foldl_cons, this hs _ (by simp)]; rfl

/-- C58: parsing the printed form of a host list gives the list back. -/
theorem C58_roundtrip (hosts : List HostAddr) (hp : ∀ h ∈ hosts, PlainHost h.host ∧ -2 ^ 31 ≤ h.port ∧ h.port < 2 ^ 31) :
    toHosts (toHostsStr hosts) = some hosts := by
  rw [toHostsStr_join]
  cases hosts with
  | nil => rfl
  | cons h hs =>
    let f : HostAddr → Bytes := fun h => cstr h.host ++ 58 :: intDec h.port
    have hdig : ∀ p, (44 : UInt8) ∉ intDec p := by
      intro p hm
      unfold intDec at hm
      have : ∀ n, (44 : UInt8) ∉ natDec n := fun n hm => by have := natDec_digits n _ hm; revert this; decide
      split at hm
      · rcases List.mem_cons.1 hm with h | h
        · revert h; decide
        · exact this _ h
      · exact this _ hm
    have hcomma : ∀ x ∈ h :: hs, (44 : UInt8) ∉ f x := by
      intro x hx
      obtain ⟨⟨h0, h1, _⟩, _⟩ := hp x hx
      show (44 : UInt8) ∉ cstr x.host ++ 58 :: intDec x.port
      rw [cstr_of_no_nul h0]
      simp only [List.mem_append, List.mem_cons, not_or]
      exact ⟨h1, by decide, hdig _⟩
    have hjoin : join [44, 32] ((h :: hs).map f) = join [44] (f h :: hs.map fun x => 32 :: f x) := by
      have : ∀ (e : Bytes) (l : List Bytes), join [44, 32] (e :: l) = join [44] (e :: l.map fun x => 32 :: x) := by
        intro e l
        induction l generalizing e with
        | nil => rfl
        | cons a l ih =>
          have e1 : join [44, 32] (e :: a :: l) = e ++ [44, 32] ++ join [44, 32] (a :: l) := rfl
          have e2 : join [44] (e :: List.map (fun x => 32 :: x) (a :: l)) = e ++ [44] ++ join [44] ((32 :: a) :: l.map fun x => 32 :: x) := rfl
          rw [e1, e2, ih a]
          have e3 : join [44] ((32 :: a) :: l.map fun x => 32 :: x) = 32 :: join [44] (a :: l.map fun x => 32 :: x) := by
            cases l <;> simp [join]
          rw [e3]; simp
      rw [List.map_cons, this, List.map_map]; rfl
    have hd : ∀ x ∈ h :: hs, ∀ sp : Bytes, (∀ c ∈ sp, isTrim c = true) → Denotes (sp ++ f x) x := by
      intro x hx sp hsp
      obtain ⟨⟨h0, h1, h2, h3⟩, h4, h5⟩ := hp x hx
      refine ⟨sp, intDec x.port, ?_, hsp, h2, h3, numeral_intDec h4 h5⟩
      show sp ++ (cstr x.host ++ 58 :: intDec x.port) = _
      rw [cstr_of_no_nul h0]; simp
    show toHosts (join [44, 32] ((h :: hs).map f)) = _
    rw [((C58_accepts (join [44, 32] ((h :: hs).map f))).2 (f h :: hs.map fun x => 32 :: f x) (by simp) hjoin.symm ?_ (h :: hs))]
    · have hfil : (f h :: hs.map fun x => 32 :: f x).filter (· ≠ []) = f h :: hs.map fun x => 32 :: f x := by
        rw [List.filter_eq_self]
        intro e he
        rcases List.mem_cons.1 he with rfl | he
        · simp [f]
        · obtain ⟨x, _, rfl⟩ := List.mem_map.1 he; simp
      rw [hfil]
      refine ⟨by simpa using hd h List.mem_cons_self [] (by simp), ?_⟩
      have hd' : ∀ x ∈ hs, Denotes (32 :: f x) x := fun x hx => hd x (List.mem_cons_of_mem _ hx) [32] (by decide)
      clear hjoin hfil hcomma hp hd
      induction hs with
      | nil => trivial
      | cons a l ih => exact ⟨hd' a List.mem_cons_self, ih fun x hx => hd' x (List.mem_cons_of_mem _ hx)⟩
    · intro e he
      rcases List.mem_cons.1 he with rfl | he
      · exact hcomma h List.mem_cons_self
      · obtain ⟨x, hx, rfl⟩ := List.mem_map.1 he
        rw [List.mem_cons, not_or]
        exact ⟨by decide, hcomma x (List.mem_cons_of_mem _ hx)⟩

/-- C58 says nothing of names with colons (IPv6): the printed form of such an address is rejected. -/
theorem C58_colon_violated : toHosts (toHostsStr [⟨ascii "::1", 9559⟩]) = none := by decide +kernel

example : toHosts (ascii "a:1, b.c:-2,,d:3 ") = some [⟨ascii "a", 1⟩, ⟨ascii "b.c", -2⟩, ⟨ascii "d", 3⟩] ∧ toHosts (ascii "a:1,b") = none ∧
    PlainHost (ascii "b.c") := by
  refine ⟨by decide +kernel, by decide +kernel, by decide +kernel, by decide +kernel, by decide +kernel, ?_⟩
  intro c hc
  have : c = 98 := by simpa [ascii] using hc.symm
  subst this; decide

/-! ## C59 -/

theorem natDec_length {n : Nat} (h : n < 1000) : (natDec n).length ≤ 3 := by
  rw [natDec_eq]
  split
  · simp
  · rw [natDec_eq (n / 10)]
    split
    · simp
    · rw [natDec_eq (n / 10 / 10), if_pos (by omega)]; simp

theorem and_ff (x : UInt32) : (x &&& 0xFF).toNat = x.toNat % 256 := by
  rw [UInt32.toNat_and]
  have : (0xFF : UInt32).toNat = 2 ^ 8 - 1 := rfl
  rw [this, Nat.and_two_pow_sub_one_eq_mod]

/-- C59: every address is printed as its four bytes in decimal, highest first, and the text fits its buffer. -/
theorem C59_text (ip : UInt32) : intToIPv4 ip =
    some (dotted (ip.toNat / 2 ^ 24 % 256) (ip.toNat / 2 ^ 16 % 256) (ip.toNat / 2 ^ 8 % 256) (ip.toNat % 256)) := by
  have e1 : ∀ k : UInt32, k.toNat < 32 → ((ip >>> k) &&& 0xFF).toNat = ip.toNat / 2 ^ k.toNat % 256 := by
    intro k hk
    rw [and_ff, UInt32.toNat_shiftRight, Nat.shiftRight_eq_div_pow, Nat.mod_eq_of_lt hk]
  unfold intToIPv4 dotted
  simp only [and_ff ip, e1 8 (by decide), e1 16 (by decide), e1 24 (by decide), join]
  have l : ∀ n, (natDec (n % 256)).length ≤ 3 := fun n => natDec_length (by omega)
  have l1 := l ip.toNat
  have l2 := l (ip.toNat / 2 ^ 8)
  have l3 := l (ip.toNat / 2 ^ 16)
  have l4 := l (ip.toNat / 2 ^ 24)
  rw [if_pos]
  · simp
  · simp only [List.length_append, List.length_cons]
    have e8 : (8 : UInt32).toNat = 8 := rfl
    have e16 : (16 : UInt32).toNat = 16 := rfl
    have e24 : (24 : UInt32).toNat = 24 := rfl
    rw [e8, e16, e24]
    omega

/-- C59: the text determines the address. -/
theorem C59_injective {a b : UInt32} (h : intToIPv4 a = intToIPv4 b) : a = b := by
  rw [C59_text, C59_text] at h
  have h := Option.some.inj h
  unfold dotted at h
  have hno : ∀ n, (46 : UInt8) ∉ natDec n := fun n hm => by have := natDec_digits n _ hm; revert this; decide
  have hs := congrArg (splitAll 46) h
  rw [splitAll_join 46 _ (by simp) (by simp [hno]), splitAll_join 46 _ (by simp) (by simp [hno])] at hs
  simp only [List.cons.injEq, and_true] at hs
  obtain ⟨h1, h2, h3, h4⟩ := hs
  have h1 := natDec_inj h1
  have h2 := natDec_inj h2
  have h3 := natDec_inj h3
  have h4 := natDec_inj h4
  apply UInt32.toNat_inj.1
  have ha := a.toNat_lt
  have hb := b.toNat_lt
  omega

example : intToIPv4 0x7F0000FF = some (ascii "127.0.0.255") := by decide +kernel

end Net
end Nebula
