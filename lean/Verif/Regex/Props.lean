import Verif.Regex.UsesWeb
import Verif.Regex.Cache
import Verif.Regex.GlobSpec
import Verif.Expr.OpsProps
/-!
# C149: matching a text against a pattern
-/
namespace Nebula
namespace Regex
open EvalSpec (Evaluates)

/-! ## The patterns kept in the context -/

/-- The map has what the constructor gives. -/
def Kept {R : Type} (compile : Bytes → Option R) (c : AMap Bytes R) : Prop := ∀ p r, c.find p = some r → compile p = some r

theorem getRegex_kept {R : Type} {compile : Bytes → Option R} {c : AMap Bytes R} (h : Kept compile c) (p : Bytes) :
    (getRegex compile c p).1 = compile p ∧ Kept compile (getRegex compile c p).2 := by
  unfold getRegex
  cases hf : c.find p with
  | some r => exact ⟨(h p r hf).symm, h⟩
  | none =>
    cases hc : compile p with
    | none => exact ⟨rfl, h⟩
    | some r =>
      refine ⟨rfl, fun q e hq => ?_⟩
      simp only at hq
      rw [AMap.find_emplace, hf] at hq
      split at hq
      · rename_i heq
        subst heq; cases hq; exact hc
      · exact h q e hq

theorem regCached_kept {R : Type} {compile : Bytes → Option R} {match_ : R → Bytes → Option Bool} {c : AMap Bytes R} (h : Kept compile c) (l r : Value) :
    (regCached compile match_ c l r).1 = Ops.reg (fun p t => (compile p).bind fun e => match_ e t) l r ∧ Kept compile (regCached compile match_ c l r).2 := by
  unfold regCached Ops.reg Ops.onStrings
  by_cases hb : (l.isBadNull || r.isBadNull) = true
  · simp only [hb, if_true]; exact ⟨trivial, h⟩
  · simp only [hb]
    cases l <;> cases r <;> first | exact ⟨rfl, h⟩ | skip
    rename_i a b
    obtain ⟨h1, h2⟩ := getRegex_kept h b
    simp only [Bool.false_eq_true, if_false]
    rw [← h1]
    rcases hg : getRegex compile c b with ⟨o, c'⟩
    rw [hg] at h2
    cases o with
    | none => exact ⟨rfl, h2⟩
    | some e =>
      simp only [Option.bind_some]
      cases match_ e a <;> exact ⟨rfl, h2⟩

/-- **C149 (history).** Whatever was matched before in the same context, and whichever patterns were refused, the result of `text =~ pattern` is that
of a fresh expression: nothing kept from one pattern is used for another. -/
theorem C149_history {R : Type} (compile : Bytes → Option R) (match_ : R → Bytes → Option Bool) (before : List (Value × Value)) (l r : Value) :
    (regCached compile match_ (regHistory compile match_ [] before) l r).1 = Ops.reg (fun p t => (compile p).bind fun e => match_ e t) l r := by
  suffices h : ∀ (xs : List (Value × Value)) (c : AMap Bytes R), Kept compile c → Kept compile (regHistory compile match_ c xs) from
    (regCached_kept (h before [] (fun p e he => by cases he)) l r).1
  intro xs
  induction xs with
  | nil => intro c h; exact h
  | cons x xs ih => intro c h; exact ih _ (regCached_kept h x.1 x.2).2

example : (regCached (fun p => if p = ascii "(" then none else some p) (fun e t => some (e == t))
    (regHistory (fun p => if p = ascii "(" then none else some p) (fun e t => some (e == t)) [] [(.str (ascii "x"), .str (ascii "(")), (.str (ascii "x"), .str (ascii "y"))])
    (.str (ascii "y")) (.str (ascii "y"))).1 = .bool true := by
  rw [C149_history]
  simp only [Ops.reg, Ops.onStrings, Value.isBadNull]
  decide +kernel

/-! ## What is matched -/

theorem reg_str (a p : Bytes) {r : Re} (h : parse p = some r) : Ops.reg stdRegex (.str a) (.str p) = .bool (fullMatch r a).isSome := by
  simp [Ops.reg, Ops.onStrings, Value.isBadNull, stdRegex, h]

/-- **C149 (language).** `text =~ pattern` is true exactly if the whole text belongs to the language of the pattern. -/
theorem C149_language (a p : Bytes) {r : Re} (h : parse p = some r) :
    (Ops.reg stdRegex (.str a) (.str p) = .bool true ↔ Matches r 0 a []) ∧ (Ops.reg stdRegex (.str a) (.str p) = .bool false ↔ ¬ Matches r 0 a []) := by
  rw [reg_str a p h, ← fullMatch_isSome]
  cases (fullMatch r a).isSome <;> simp

/-- **C149 (evaluation).** An expression `l =~ r` whose operands evaluate to a text and a pattern evaluates to a boolean that tells whether the whole text belongs to the
language of the pattern, if the library takes patterns for what they mean; to BAD_TYPE if the library throws; and leaves everything else as the operands did. -/
theorem C149_evaluation {env : Env} {p : List Nat} {l r : Expr} {s s' : EState} {a b : Bytes} (h : Evaluates env p 0 [l, r] s [.str a, .str b] s') :
    (∀ e, parse b = some e → env.regex b a = stdRegex b a → ∃ x : Bool, (Expr.binary .reg l r).eval env p s = some (.bool x, s') ∧ (x = true ↔ Matches e 0 a [])) ∧
    (env.regex b a = none → (Expr.binary .reg l r).eval env p s = some (.null .badType, s')) := by
  rw [eval_binary h]
  constructor
  · intro e he hl
    refine ⟨(fullMatch e a).isSome, ?_, fullMatch_isSome e a⟩
    simp [Eval.binOp, Ops.reg, Ops.onStrings, Value.isBadNull, hl, stdRegex, he, Eval.pure]
  · intro hn
    simp [Eval.binOp, Ops.reg, Ops.onStrings, Value.isBadNull, hn, Value.kNullBadType, Eval.pure]

/-- **C149 (searching).** A search finds something exactly if a piece of the text belongs to the language of the pattern. -/
theorem C149_search (s p : Bytes) {r : Re} (h : parse p = some r) :
    (searchText p s).isSome = true ↔ ∃ pre u post, s = pre ++ u ++ post ∧ Matches r pre.length u post := by
  rw [searchText, h, Option.bind_some, search, searchFrom_isSome]
  simp

/-- What a search finds is a piece of the text, and the first place that has one. -/
theorem searchFrom_spec (r : Re) : ∀ (s : Bytes) (pos : Nat) (m : Match), searchFrom r pos s = some m →
    s = m.prefix_ ++ (m.text ++ m.suffix) ∧ Matches r (pos + m.prefix_.length) m.text m.suffix ∧
    ∀ pre u post, s = pre ++ (u ++ post) → Matches r (pos + pre.length) u post → m.prefix_.length ≤ pre.length := by
  have hat : ∀ pos s m, matchAt r pos s = some m → m.prefix_ = [] ∧ s = m.text ++ m.suffix ∧ Matches r pos m.text m.suffix := by
    intro pos s m h
    rw [matchAt] at h
    obtain ⟨t, ht, hm⟩ := Option.map_eq_some_iff.1 h
    obtain ⟨u, e1, e2, e3⟩ := run_sound r _ _ (List.mem_of_head? ht)
    simp only at e1 e3
    rw [← hm]
    have hu : s.take (s.length - t.rest.length) = u := by
      rw [e1]; simp
    simp only [hu]
    exact ⟨trivial, e1, e3⟩
  intro s
  induction s with
  | nil =>
    intro pos m h
    rw [searchFrom] at h
    obtain ⟨h1, h2, h3⟩ := hat _ _ _ h
    rw [h1]
    exact ⟨h2, h3, fun _ _ _ _ _ => Nat.zero_le _⟩
  | cons c s ih =>
    intro pos m h
    rw [searchFrom] at h
    cases hm : matchAt r pos (c :: s) with
    | some m' =>
      rw [hm] at h
      cases h
      obtain ⟨h1, h2, h3⟩ := hat _ _ _ hm
      rw [h1]
      exact ⟨h2, h3, fun _ _ _ _ _ => Nat.zero_le _⟩
    | none =>
      rw [hm] at h
      obtain ⟨m', h1, h2⟩ := Option.map_eq_some_iff.1 h
      obtain ⟨i1, i2, i3⟩ := ih (pos + 1) m' h1
      rw [← h2]
      refine ⟨by simp only [List.cons_append]; rw [← i1], by
        simp only [List.length_cons]; rw [show pos + (m'.prefix_.length + 1) = pos + 1 + m'.prefix_.length by omega]; exact i2, ?_⟩
      intro pre u post hs hmat
      cases pre with
      | nil =>
        exfalso
        have := (matchAt_isSome r pos (c :: s)).2 ⟨u, post, hs, hmat⟩
        rw [hm] at this; cases this
      | cons d pre =>
        rw [List.cons_append, List.cons.injEq] at hs
        have := i3 pre u post hs.2 (by rw [show pos + 1 + pre.length = pos + (d :: pre).length by simp; omega]; exact hmat)
        simp only [List.length_cons]; omega

/-- **C149 (the first place).** What a search finds is a piece of the text that belongs to the language, and no piece that belongs to it begins earlier. -/
theorem C149_first (s p : Bytes) {r : Re} (h : parse p = some r) {m : Match} (hm : searchText p s = some m) :
    s = m.prefix_ ++ (m.text ++ m.suffix) ∧ Matches r m.prefix_.length m.text m.suffix ∧
    ∀ pre u post, s = pre ++ (u ++ post) → Matches r pre.length u post → m.prefix_.length ≤ pre.length := by
  rw [searchText, h, Option.bind_some, search] at hm
  simpa using searchFrom_spec r s 0 m hm

/-! ## Wildcards -/

def globRe : List Glob → Re
  | [] => .empty
  | .lit c :: gs => .seq (.chr c) (globRe gs)
  | .one :: gs => .seq .dot (globRe gs)
  | .many :: gs => .seq (.star .dot) (globRe gs)

def PlainGlob (gs : List Glob) : Prop := ∀ c, Glob.lit c ∈ gs → PlainChar c

theorem special_iff (c : UInt8) : special c = false ↔ PlainChar c := by
  rw [special, PlainChar, List.contains_eq_mem, decide_eq_false_iff_not]

theorem glob_head (gs : List Glob) (hp : PlainGlob gs) : gs.flatMap Glob.text = [] ∨ ∃ c r, gs.flatMap Glob.text = c :: r ∧ (c = 46 ∨ special c = false) := by
  cases gs with
  | nil => exact .inl rfl
  | cons g gs =>
    right
    cases g with
    | lit c => exact ⟨c, _, rfl, .inr ((special_iff c).2 (hp c List.mem_cons_self))⟩
    | one => exact ⟨46, _, rfl, .inl rfl⟩
    | many => exact ⟨46, _, rfl, .inl rfl⟩

theorem quant_glob (a : Re) (gs : List Glob) (hp : PlainGlob gs) : quant a (gs.flatMap Glob.text) = some (a, gs.flatMap Glob.text) ∧
    quant a (42 :: gs.flatMap Glob.text) = some (.star a, gs.flatMap Glob.text) := by
  rcases glob_head gs hp with h | ⟨c, r, h, hc⟩
  · rw [h]; exact ⟨rfl, rfl⟩
  · rw [h]
    have h63 : c ≠ 63 := by
      rcases hc with rfl | hc
      · decide
      · exact special_ne hc (by decide +kernel)
    refine ⟨?_, by simp [quant, h63]⟩
    rcases hc with rfl | hc
    · rfl
    · exact quant_none (special_ne hc (by decide +kernel)) (special_ne hc (by decide +kernel)) (special_ne hc (by decide +kernel)) (special_ne hc (by decide +kernel))

theorem terms_glob : ∀ (gs : List Glob) (f k : Nat), PlainGlob gs → 2 * (gs.flatMap Glob.text).length + 1 ≤ f →
    terms f k (gs.flatMap Glob.text) = some (globRe gs, k, [])
  | [], f, k, _, hf => by
    obtain ⟨f, rfl⟩ : ∃ g, f = g + 1 := ⟨f - 1, by omega⟩
    rfl
  | g :: gs, f, k, hp, hf => by
    have hp' : PlainGlob gs := fun c hc => hp c (List.mem_cons_of_mem _ hc)
    rw [List.flatMap_cons, List.length_append] at hf
    have hl : 1 ≤ g.text.length := by cases g <;> simp [Glob.text]
    obtain ⟨f, rfl⟩ : ∃ g, f = g + 1 + 1 := ⟨f - 2, by omega⟩
    have ih := terms_glob gs (f + 1) k hp' (by omega)
    have hdot : ∀ s, atom (f + 1) k (46 :: s) = some (.dot, k, s) := fun s => by rw [atom]; rfl; intro s h; cases h
    cases g with
    | lit c =>
      have hc := (special_iff c).2 (hp c List.mem_cons_self)
      rw [List.flatMap_cons, Glob.text, List.singleton_append, terms, if_neg (by
        rintro (h | h) <;> exact special_ne hc (by decide +kernel) h), atom_plain hc]
      simp only [(quant_glob _ gs hp').1, ih]
      rfl
    | one =>
      rw [List.flatMap_cons, Glob.text, List.singleton_append, terms, if_neg (by decide), hdot]
      simp only [(quant_glob _ gs hp').1, ih]
      rfl
    | many =>
      rw [List.flatMap_cons, Glob.text, List.cons_append, List.singleton_append, terms, if_neg (by decide), hdot]
      simp only [(quant_glob _ gs hp').2, ih]
      rfl

theorem parse_glob (gs : List Glob) (hp : PlainGlob gs) : parse (gs.flatMap Glob.text) = some (globRe gs) := by
  rw [parse, disj, terms_glob gs _ _ hp (by omega)]

theorem star_dot_matches {r : Re} {u : Bytes} {k : Nat} {t : Bytes} (h : Matches r k u t) (hr : r = .star .dot) : OneLine u := by
  induction h with
  | stop => intro x hx; cases hx
  | more h1 _ _ ih2 =>
    cases hr
    intro x hx
    rcases List.mem_append.1 hx with hx | hx
    · cases h1 with
      | dot h h' => rw [List.mem_singleton] at hx; subst hx; exact ⟨h, h'⟩
    · exact ih2 rfl x hx
  | _ => cases hr

theorem matches_star_dot : ∀ {u : Bytes} {k : Nat} {t : Bytes}, OneLine u → Matches (.star .dot) k u t
  | [], _, _, _ => .stop
  | x :: _, _, _, h => .more (u := [x]) (.dot (h x List.mem_cons_self).1 (h x List.mem_cons_self).2)
      (matches_star_dot fun y hy => h y (List.mem_cons_of_mem _ hy))

theorem glob_matches : ∀ (gs : List Glob) (k : Nat) (u t : Bytes), Matches (globRe gs) k u t ↔ Stands gs u
  | [], k, u, t => by
    constructor
    · intro h; cases h; exact .nil
    · intro h; cases h; exact .empty
  | .lit c :: gs, k, u, t => by
    constructor
    · intro h
      cases h with
      | seq h1 h2 => cases h1; exact .lit ((glob_matches gs _ _ _).1 h2)
    · intro h
      cases h with
      | lit h => exact .seq (u := [c]) .chr ((glob_matches gs _ _ _).2 h)
  | .one :: gs, k, u, t => by
    constructor
    · intro h
      cases h with
      | seq h1 h2 => cases h1 with
        | dot a b => exact .one (fun x hx => by rw [List.mem_singleton] at hx; subst hx; exact ⟨a, b⟩) ((glob_matches gs _ _ _).1 h2)
    · intro h
      cases h with
      | @one c _ _ h1 h => exact .seq (u := [c]) (.dot (h1 c List.mem_cons_self).1 (h1 c List.mem_cons_self).2) ((glob_matches gs _ _ _).2 h)
  | .many :: gs, k, u, t => by
    constructor
    · intro h
      cases h with
      | seq h1 h2 => exact .many (star_dot_matches h1 rfl) ((glob_matches gs _ _ _).1 h2)
    · intro h
      cases h with
      | many h1 h => exact .seq (matches_star_dot h1) ((glob_matches gs _ _ _).2 h)

/-- **C149 (wildcards).** A pattern of plain characters, `.` and `.*` matches exactly the texts that the wildcard stands for. -/
theorem C149_wildcard (gs : List Glob) (hp : PlainGlob gs) (a : Bytes) :
    Ops.reg stdRegex (.str a) (.str (gs.flatMap Glob.text)) = .bool true ↔ Stands gs a := by
  rw [(C149_language a _ (parse_glob gs hp)).1, glob_matches]

theorem lits_text (w : Bytes) : (w.map Glob.lit).flatMap Glob.text = w := by
  induction w with
  | nil => rfl
  | cons c w ih => rw [List.map_cons, List.flatMap_cons, ih]; rfl

theorem plain_lits {w : Bytes} (h : ∀ c ∈ w, PlainChar c) : PlainGlob (w.map Glob.lit) := by
  intro c hc
  rw [List.mem_map] at hc
  obtain ⟨d, hd, e⟩ := hc
  cases e; exact h c hd

theorem stands_lits (w : Bytes) (gs : List Glob) (s : Bytes) : Stands (w.map Glob.lit ++ gs) s ↔ ∃ r, s = w ++ r ∧ Stands gs r := by
  induction w generalizing s with
  | nil => simp
  | cons c w ih =>
    constructor
    · intro h
      cases h with
      | lit h =>
        obtain ⟨r, e, hr⟩ := (ih _).1 h
        exact ⟨r, by rw [e]; rfl, hr⟩
    · rintro ⟨r, rfl, hr⟩
      exact .lit ((ih _).2 ⟨r, rfl, hr⟩)

theorem stands_many (gs : List Glob) (s : Bytes) : Stands (.many :: gs) s ↔ ∃ u r, s = u ++ r ∧ OneLine u ∧ Stands gs r := by
  constructor
  · intro h
    cases h with
    | many h1 h2 => exact ⟨_, _, rfl, h1, h2⟩
  · rintro ⟨u, r, rfl, h1, h2⟩; exact .many h1 h2

theorem stands_nil (s : Bytes) : Stands [] s ↔ s = [] := ⟨fun h => by cases h; rfl, fun h => by rw [h]; exact .nil⟩

/-- **C149 (plain patterns).** A pattern without characters of a meaning of their own matches exactly itself. -/
theorem C149_literal (w : Bytes) (h : ∀ c ∈ w, PlainChar c) (a : Bytes) : Ops.reg stdRegex (.str a) (.str w) = .bool true ↔ a = w := by
  have := C149_wildcard (w.map Glob.lit) (plain_lits h) a
  rw [lits_text] at this
  rw [this, show w.map Glob.lit = w.map Glob.lit ++ [] by simp, stands_lits]
  constructor
  · rintro ⟨r, rfl, hr⟩; rw [(stands_nil r).1 hr]; simp
  · rintro rfl; exact ⟨[], by simp, .nil⟩

/-- **C149 (containing).** `.*word.*` matches the texts that have the word, with no end of a line before or after it. -/
theorem C149_contains (w : Bytes) (h : ∀ c ∈ w, PlainChar c) (a : Bytes) :
    Ops.reg stdRegex (.str a) (.str (ascii ".*" ++ w ++ ascii ".*")) = .bool true ↔ ∃ u v, a = u ++ w ++ v ∧ OneLine u ∧ OneLine v := by
  have := C149_wildcard (.many :: (w.map Glob.lit ++ [.many])) (fun c hc => plain_lits h c (by
    simpa using hc)) a
  rw [List.flatMap_cons, List.flatMap_append, lits_text, List.flatMap_cons, List.flatMap_nil, List.append_nil] at this
  rw [show ascii ".*" = Glob.text .many by decide +kernel, List.append_assoc, this, stands_many]
  constructor
  · rintro ⟨u, r, rfl, hu, hr⟩
    obtain ⟨v, rfl, hv⟩ := (stands_lits w _ r).1 hr
    obtain ⟨v', e, rfl, hv', he⟩ := (stands_many [] v).1 hv
    rw [(stands_nil e).1 he]
    exact ⟨u, v', by simp, hu, hv'⟩
  · rintro ⟨u, v, rfl, hu, hv⟩
    exact ⟨u, w ++ v, by simp, hu, (stands_lits w _ _).2 ⟨v, rfl, (stands_many [] v).2 ⟨v, [], by simp, hv, .nil⟩⟩⟩

/-- **C149 (CONTAINS).** For a text of one line, `.*word.*` says what CONTAINS says. -/
theorem C149_contains_same (w : Bytes) (h : ∀ c ∈ w, PlainChar c) (a : Bytes) (ha : OneLine a) :
    Ops.reg stdRegex (.str a) (.str (ascii ".*" ++ w ++ ascii ".*")) = Ops.contains false (.str a) (.str w) := by
  have hb : ∀ b : Bool, (∃ x, Ops.reg stdRegex (.str a) (.str (ascii ".*" ++ w ++ ascii ".*")) = .bool x) := by
    intro _
    simp only [Ops.reg, Ops.onStrings, Value.isBadNull, stdRegex]
    have hp := parse_glob (.many :: (w.map Glob.lit ++ [.many])) (fun c hc => plain_lits h c (by simpa using hc))
    rw [List.flatMap_cons, List.flatMap_append, lits_text, List.flatMap_cons, List.flatMap_nil, List.append_nil] at hp
    rw [show ascii ".*" = Glob.text .many by decide +kernel, List.append_assoc, hp]
    exact ⟨_, rfl⟩
  obtain ⟨x, hx⟩ := hb true
  have h1 := C149_contains w h a
  rw [hx] at h1 ⊢
  have h2 : Ops.contains false (.str a) (.str w) = .bool (decide (w.length ≤ a.length) && (Ops.findSub w a 0).isSome) := by
    simp [Ops.contains, Ops.onStrings, Value.isBadNull]
  rw [h2]
  congr 1
  rw [Bool.eq_iff_iff, Bool.and_eq_true, decide_eq_true_eq, findSub_some]
  constructor
  · rintro rfl
    obtain ⟨u, v, rfl, _, _⟩ := h1.1 rfl
    exact ⟨by simp; omega, u, v, rfl⟩
  · rintro ⟨_, u, v, rfl⟩
    have : Value.bool x = .bool true := h1.2 ⟨u, v, rfl, fun c hc => ha c (by simp [hc]), fun c hc => ha c (by simp [hc])⟩
    cases this; rfl

/-- C149 fails for texts of several lines: `.*` does not match every text. -/
theorem C149_lines_violated : Ops.reg stdRegex (.str (97 :: 10 :: [98])) (.str (ascii ".*")) = .bool false ∧
    Ops.reg stdRegex (.str (97 :: 10 :: [98])) (.str (ascii ".*b.*")) = .bool false ∧ Ops.contains false (.str (97 :: 10 :: [98])) (.str (ascii "b")) = .bool true := by
  refine ⟨?_, ?_, ?_⟩
  · rw [reg_str _ _ (r := .seq (.star .dot) .empty) (by decide +kernel)]; decide +kernel
  · rw [reg_str _ _ (r := .seq (.star .dot) (.seq (.chr 98) (.seq (.star .dot) .empty))) (by decide +kernel)]; decide +kernel
  · simp only [Ops.contains, Ops.onStrings, Value.isBadNull]; decide +kernel

example : Stands [.lit 97, .many, .one] (ascii "abcd") ∧ (∀ c ∈ ascii "player_1", PlainChar c) ∧ OneLine (ascii "a player_1 b") :=
  ⟨.lit (.many (u := ascii "bc") (by unfold OneLine; decide +kernel) (.one (by unfold OneLine; decide +kernel) .nil)), by unfold PlainChar; decide +kernel, by unfold OneLine; decide +kernel⟩
example : parse (ascii "(a|b)+c?[x-z]*$") ≠ none := by decide +kernel
example : (matchText (ascii "(a|b)+c?[x-z]*$") (ascii "abacyy")).map (·.group 1) = some (ascii "a") := by decide +kernel
example : (searchText (ascii "[0-9]+") (ascii "ab12c345")).map (fun m => (m.prefix_, m.text)) = some (ascii "ab", ascii "12") := by decide +kernel

end Regex
end Nebula
