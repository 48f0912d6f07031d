import Verif.Expr.TextLemmas
/-!
# C120: the text of an expression tells which expression it is
-/
namespace Nebula
namespace Expr
variable (fmt : F64 → Bytes) (agg : Bytes → Bool)

/-- The reader finds the expression, if what follows ends it. -/
def R (t : Bytes) (e : Expr) : Prop := ∃ N, ∀ n, N ≤ n → ∀ rest, ends rest = true → expr agg n (t ++ rest) = some (e, rest)

/-- The reader finds the expression and continues with what follows. -/
def Q (t : Bytes) (e : Expr) : Prop := ∃ N M, ∀ n, N ≤ n → ∀ rest, stops rest = true → (Bare e → dotName rest = none) →
  ∃ a r, atom agg (expr agg n) n (t ++ rest) = some (a, r) ∧ ∀ k, post (expr agg n) (k + M) a r = post (expr agg n) k e rest

/-- What is shown of every plain expression. -/
def Good (e : Expr) : Prop := ∃ t, toText fmt e = some t ∧ Start t ∧ (∃ w u, Shape t w u) ∧ (IsBase e → Q agg t e) ∧ R agg t e

theorem R_of_Q {t : Bytes} {e : Expr} (h : Q agg t e) : R agg t e := by
  obtain ⟨N, M, h⟩ := h
  refine ⟨N + M + 2, fun n hn rest hr => ?_⟩
  obtain ⟨m, rfl⟩ : ∃ m, n = m + 1 := ⟨n - 1, by omega⟩
  obtain ⟨a, r, h1, h2⟩ := h m (by omega) rest (ends_stops hr) (fun _ => ends_dot hr)
  rw [expr, h1, Option.bind_some]
  obtain ⟨k, rfl⟩ : ∃ k, m = (k + 1) + M := ⟨m - M - 1, by omega⟩
  simp only
  rw [h2, post, ends_suffix _ _ hr]

theorem Q_of_atom {t : Bytes} {e : Expr} (h : ∃ N, ∀ n, N ≤ n → ∀ rest, stops rest = true → (Bare e → dotName rest = none) → atom agg (expr agg n) n (t ++ rest) = some (e, rest)) :
    Q agg t e := by
  obtain ⟨N, h⟩ := h
  exact ⟨N, 0, fun n hn rest h1 h2 => ⟨e, rest, h n hn rest h1 h2, fun k => rfl⟩⟩

theorem good_atom {t : Bytes} {e : Expr} (h1 : toText fmt e = some t) (h2 : Start t) (h3 : ∃ w u, Shape t w u)
    (h : ∃ N, ∀ n, N ≤ n → ∀ rest, stops rest = true → (Bare e → dotName rest = none) → atom agg (expr agg n) n (t ++ rest) = some (e, rest)) : Good fmt agg e :=
  ⟨t, h1, h2, h3, fun _ => Q_of_atom agg h, R_of_Q agg (Q_of_atom agg h)⟩

/-- What begins with a byte that is no word. -/
theorem good_other {c : UInt8} {cs : Bytes} {e : Expr} (h1 : toText fmt e = some (c :: cs)) (h2 : [34, 36, 40, 43, 45, 33, 91, 123].contains c = true)
    (h : ∃ N, ∀ n, N ≤ n → ∀ rest, stops rest = true → (Bare e → dotName rest = none) → atom agg (expr agg n) n (c :: cs ++ rest) = some (e, rest)) : Good fmt agg e :=
  good_atom fmt agg h1 ⟨c, cs, rfl, by unfold startOk; rw [h2, Bool.or_true]⟩ ⟨_, _, shape_other h2⟩ h

/-- What begins with a name. -/
theorem good_word {w u : Bytes} {e : Expr} (h1 : toText fmt e = some (w ++ u)) (hw : IsName w) (hf : w ∉ markers ∧ w ≠ ascii "distinct")
    (hu : u = [] ∨ ∃ c cs, u = c :: cs ∧ isWord c = false ∧ c ≠ 41 ∧ c ≠ 58 ∧ (c = 32 → w = ascii "CASE"))
    (h : ∃ N, ∀ n, N ≤ n → ∀ rest, stops rest = true → (Bare e → dotName rest = none) → worded agg (expr agg n) n w (u ++ rest) = some (e, rest)) : Good fmt agg e := by
  obtain ⟨N, h⟩ := h
  refine good_atom fmt agg h1 (start_name hw u) ⟨w, u, ⟨rfl, Value.name_word hw, hf, ?_⟩⟩ ⟨N, fun n hn rest hr hb => ?_⟩
  · intro c cs e
    rcases hu with rfl | ⟨d, ds, rfl, k1, k2, k3, k4⟩
    · cases e
    · injection e with e1 e2; subst e1; exact ⟨k1, k2, k3, fun e => .inl (k4 e)⟩
  · rw [List.append_assoc, atom_word agg _ _ hw, h n hn rest hr hb]
    rcases hu with rfl | ⟨d, ds, rfl, k1, k2, k3, k4⟩
    · exact stops_noWord hr
    · exact noWord_cons k1 _

/-- Words that are expressions. -/
theorem good_plain {w : Bytes} {e : Expr} (h1 : toText fmt e = some w) (hw : IsName w) (hf : w ∉ markers ∧ w ≠ ascii "distinct")
    (h : ∀ p n s, (Bare e → dotName s = none) → plainWord p n w s = some (e, s)) : Good fmt agg e := by
  refine good_word fmt agg (w := w) (u := []) (by simpa using h1) hw hf (.inl rfl) ⟨0, fun n _ rest hr hb => ?_⟩
  rw [worded, List.nil_append, (stops_lit hr).1]
  exact h _ _ _ hb

theorem good_const {v : Value} (h : PlainC v) : Good fmt agg (.const v) := by
  cases h with
  | empty =>
    refine good_plain fmt agg (w := ascii "__EMPTY__") (by simp [toText, Value.text]) (by decide +kernel) (by decide +kernel) fun p n s _ => ?_
    rw [plainWord, if_neg (by decide +kernel), if_neg (by decide +kernel), if_neg (by decide +kernel)]; rfl
  | null k =>
    refine good_plain fmt agg (w := Value.nullText k) (by simp [toText, Value.text]) (by cases k <;> decide +kernel) (by cases k <;> decide +kernel) fun p n s _ => ?_
    cases k <;> (rw [plainWord, if_neg (by decide +kernel), if_neg (by decide +kernel), if_neg (by decide +kernel)]; rfl)
  | bool b =>
    refine good_plain fmt agg (w := Value.boolText b) (by simp [toText, Value.text]) (by cases b <;> decide +kernel) (by cases b <;> decide +kernel) fun p n s _ => ?_
    cases b <;> (rw [plainWord, if_neg (by decide +kernel), if_neg (by decide +kernel), if_neg (by decide +kernel)]; rfl)
  | int i =>
    obtain ⟨c, cs, hc, hd, hcs⟩ := intDec_shape i
    have hall : ∀ x ∈ cs, isWord x = true := fun x hx => digit_word (hcs x hx)
    refine good_atom fmt agg (t := intDec i) (by simp [toText, Value.text]) ⟨c, cs, hc, ?_⟩ ?_ ⟨0, fun n _ rest hr _ => ?_⟩
    · rcases hd with hd | rfl
      · simp [startOk, digit_word hd]
      · decide
    · rcases hd with hd | rfl
      · refine ⟨intDec i, [], by simp, ?_, ?_, by intro c cs e; cases e⟩
        · rw [hc]; intro x hx; rcases List.mem_cons.1 hx with rfl | hx
          · exact digit_word hd
          · exact hall x hx
        · have : ∀ w : Bytes, IsName w → intDec i ≠ w := by
            intro w hw e; rw [← e, hc] at hw; rw [hw.1] at hd; cases hd
          refine ⟨?_, this _ (by decide +kernel)⟩
          intro hm
          simp only [markers, List.mem_cons, List.not_mem_nil, or_false] at hm
          rcases hm with e | e | e <;> exact this _ (by decide +kernel) e
      · rw [hc]; exact ⟨_, _, shape_other (by decide)⟩
    · have hnn : ¬ IsName ((intDec i ++ rest).takeWhile isWord) := by
        rw [hc, List.cons_append]
        rcases hd with hd | rfl
        · rw [List.takeWhile_cons, if_pos (digit_word hd)]; rintro ⟨h, _⟩; rw [hd] at h; cases h
        · rw [List.takeWhile_cons, if_neg (by decide)]; simp [IsName]
      have hu : unSign (intDec i ++ rest) = none := by
        rw [hc, List.cons_append]
        rcases hd with hd | rfl
        · have := forall_byte (P := fun c => isDigit c = true → (43 ≠ c ∧ 45 ≠ c ∧ 33 ≠ c)) (by decide +kernel) c hd
          simp [unSign, a_plusp, a_minusp, a_notp, a_incrp, a_decrp, this.1, this.2.1, this.2.2]
        · cases cs with
          | nil =>
            exfalso
            unfold intDec at hc
            split at hc
            · exact natDec_ne_nil _ (List.cons.inj hc).2
            · have := natDec_digits i.natAbs 45 (by rw [hc]; simp)
              revert this; decide
          | cons d ds =>
            have := forall_byte (P := fun c => isDigit c = true → (45 ≠ c ∧ 40 ≠ c)) (by decide +kernel) d (hcs d (List.mem_cons_self ..))
            simp [unSign, a_plusp, a_minusp, a_notp, a_incrp, a_decrp, this.1, this.2]
      have h5 : c ≠ 34 ∧ c ≠ 36 ∧ c ≠ 40 ∧ c ≠ 91 ∧ c ≠ 123 := by
        rcases hd with hd | rfl
        · exact forall_byte (P := fun c => isDigit c = true → c ≠ 34 ∧ c ≠ 36 ∧ c ≠ 40 ∧ c ≠ 91 ∧ c ≠ 123) (by decide +kernel) c hd
        · decide
      obtain ⟨h1, h2, h3, h4, h5⟩ := h5
      have hl : ∀ d : UInt8, c ≠ d → lit [d] (intDec i ++ rest) = none := fun d hd => by rw [hc, List.cons_append, lit_cons, if_neg (Ne.symm hd)]
      rw [atom, hl _ h1, hl _ h2, hl _ h3, hl _ h4, hl _ h5, if_neg hnn, hu]
      simp only [number_app (stops_noWord hr), Option.map_some]
  | str s h =>
    refine good_other fmt agg (c := 34) (cs := s ++ [34]) (by simp [toText, Value.text]) (by decide) ⟨0, fun n _ rest hr _ => ?_⟩
    simp [atom, quoted_app h]

theorem good_front {o : UnOp} {f : Bytes} {e : Expr} (ho : UnOp.front o = some f) (he : Good fmt agg e) : Good fmt agg (.unary o e) := by
  obtain ⟨t, h1, h2, h3, h4, N, h5⟩ := he
  obtain ⟨_, c, cs, rfl, hc⟩ := unSign_front ho []
  have h8 := forall_byte (P := fun c => List.contains [43, 45, 33] c = true → List.contains [34, 36, 40, 43, 45, 33, 91, 123] c = true ∧ isWord c = false ∧
    34 ≠ c ∧ 36 ≠ c ∧ 40 ≠ c ∧ 91 ≠ c ∧ 123 ≠ c) (by decide +kernel) c hc
  refine good_other fmt agg (c := c) (cs := cs ++ 40 :: t ++ [41]) (by simp [toText, h1, ho]) h8.1 ⟨N, fun n hn rest hr _ => ?_⟩
  have hs := (unSign_front ho (t ++ 41 :: rest)).1
  have e1 : c :: (cs ++ 40 :: t ++ [41]) ++ rest = c :: cs ++ 40 :: (t ++ 41 :: rest) := by simp
  obtain ⟨_, k0, k1, k2, k3, k4, k5⟩ := h8
  have hnn : ¬ IsName ((c :: cs ++ 40 :: (t ++ 41 :: rest)).takeWhile isWord) := by
    rw [List.cons_append, List.takeWhile_cons, if_neg (by rw [k0]; decide)]; simp [IsName]
  have hl : ∀ d : UInt8, d ≠ c → lit [d] (c :: cs ++ 40 :: (t ++ 41 :: rest)) = none := fun d hd => by rw [List.cons_append, lit_cons, if_neg hd]
  rw [e1, atom, hl _ k1, hl _ k2, hl _ k3, hl _ k4, hl _ k5, if_neg hnn, hs]
  simp [h5 n hn (41 :: rest) (by simp [ends])]

/-- What follows a base: one step of the loop. -/
theorem good_suffix {l e : Expr} {t x : Bytes} (hl : IsBase l) (he : IsBase e) (hl' : Good fmt agg l) (htl : toText fmt l = some t) (hte : toText fmt e = some (t ++ x))
    (hx : ∃ c cs, x = c :: cs ∧ isWord c = false ∧ c ≠ 40 ∧ c ≠ 123 ∧ c ≠ 41 ∧ c ≠ 58 ∧ (c = 32 → ∃ v, cs = 73 :: 83 :: v))
    (hdot : Bare l → ∀ rest, dotName (x ++ rest) = none)
    (h : ∃ N, ∀ n, N ≤ n → ∀ rest, stops rest = true → suffix (expr agg n) l (x ++ rest) = some (e, rest)) : Good fmt agg e := by
  obtain ⟨t', h1, h2, ⟨w, u, h3⟩, h4, _⟩ := hl'
  rw [htl] at h1; injection h1 with h1; subst h1
  obtain ⟨c, cs, rfl, k1, k2, k3, k4, k5, k6⟩ := hx
  obtain ⟨N1, M, h4⟩ := h4 hl
  obtain ⟨N2, h⟩ := h
  have hq : Q agg (t ++ c :: cs) e := by
    refine ⟨max N1 N2, M + 1, fun n hn rest hr _ => ?_⟩
    obtain ⟨a, r, e1, e2⟩ := h4 n (by omega) (c :: cs ++ rest) (by simp [stops, k1, k2, k3]) (fun hb => hdot hb rest)
    refine ⟨a, r, by rw [List.append_assoc]; exact e1, fun k => ?_⟩
    rw [show k + (M + 1) = (k + 1) + M from by omega, e2, post, h n (by omega) rest hr]
  refine ⟨t ++ c :: cs, hte, ?_, ⟨w, u ++ c :: cs, shape_app h3 ?_⟩, fun _ => hq, R_of_Q agg hq⟩
  · obtain ⟨d, ds, rfl, hd⟩ := h2; exact ⟨d, ds ++ c :: cs, rfl, hd⟩
  · intro d ds e; injection e with e1 e2; subst e1; subst e2; exact ⟨k1, k4, k5, k6⟩

theorem good_behind {o : UnOp} {e : Expr} (ho : UnOp.front o = none) (hb : IsBase e) (he : Good fmt agg e) : Good fmt agg (.unary o e) := by
  obtain ⟨t, h1, _⟩ := id he
  obtain ⟨v, hv⟩ := (testOf_behind ho []).2.2.2
  refine good_suffix fmt agg (t := t) (x := UnOp.behind o) hb trivial he h1 (by simp [toText, h1, ho]) ⟨32, 73 :: 83 :: v, hv, by decide, by decide, by decide, by decide, by decide, fun _ => ⟨v, rfl⟩⟩
    (fun _ rest => (testOf_behind ho rest).2.1) ⟨0, fun n _ rest hr => ?_⟩
  obtain ⟨a1, a2, a3, _⟩ := testOf_behind ho rest
  rw [suffix, a2, a3]
  simp [a1]

theorem good_subscript {l r : Expr} (hb : IsBase l) (hl : Good fmt agg l) (hr : Good fmt agg r) : Good fmt agg (.binary .subscript l r) := by
  obtain ⟨t, h1, _⟩ := id hl
  obtain ⟨t2, g1, g2, _, _, N, g5⟩ := hr
  refine good_suffix fmt agg (t := t) (x := 91 :: (t2 ++ [93])) hb trivial hl h1 (by simp [toText, h1, g1]) ⟨91, _, rfl, by decide, by decide, by decide, by decide, by decide, fun h => absurd h (by decide)⟩
    (fun _ rest => by simp [dotName]) ⟨N, fun n hn rest hr => ?_⟩
  have := start_lit g2 (d := 46) (by decide) [46] (93 :: rest)
  simp [suffix, dotName, this, g5 n hn (93 :: rest) (by simp [ends])]

theorem good_attribute {l : Expr} {p : Bytes} (hb : IsBase l) (hn : ¬ Bare l) (hp : IsName p) (hl : Good fmt agg l) : Good fmt agg (.binary .attribute l (.const (.str p))) := by
  obtain ⟨t, h1, _⟩ := id hl
  refine good_suffix fmt agg (t := t) (x := 46 :: p) hb trivial hl h1 (by simp [toText, h1, attrText]) ⟨46, _, rfl, by decide, by decide, by decide, by decide, by decide, fun h => absurd h (by decide)⟩
    (fun h => absurd h hn) ⟨0, fun n _ rest hr => ?_⟩
  rw [suffix, List.cons_append, dotName_app hp (stops_noWord hr)]

/-- The texts of optional parts. -/
theorem good_opt {o : Option Expr} (h : ∀ e, o = some e → Good fmt agg e) : ∃ x, toTextO fmt o = some x ∧
    (∀ t, x = some t → Start t) ∧ ∃ N, ∀ n, N ≤ n → ∀ e, o = some e → ∃ t, x = some t ∧ ∀ rest, ends rest = true → expr agg n (t ++ rest) = some (e, rest) := by
  cases o with
  | none => exact ⟨none, by simp [toTextO], by simp, 0, by simp⟩
  | some e =>
    obtain ⟨t, h1, h2, _, _, N, h5⟩ := h e rfl
    refine ⟨some t, by simp [toTextO, h1], by simpa using h2, N, fun n hn e' he => ?_⟩
    injection he with he; subst he
    exact ⟨t, rfl, h5 n hn⟩

theorem good_range {l : Expr} {lo hi : Option Expr} (hb : IsBase l) (hl : Good fmt agg l) (hlo : ∀ e, lo = some e → Good fmt agg e) (hhi : ∀ e, hi = some e → Good fmt agg e) :
    Good fmt agg (.range l lo hi) := by
  obtain ⟨t, h1, _⟩ := id hl
  obtain ⟨x, x1, x2, N1, x3⟩ := good_opt fmt agg hlo
  obtain ⟨y, y1, y2, N2, y3⟩ := good_opt fmt agg hhi
  refine good_suffix fmt agg (t := t) (x := 91 :: (x.getD [] ++ 46 :: 46 :: (y.getD [] ++ [93]))) hb trivial hl h1 (by simp [toText, h1, x1, y1, a_dots])
    ⟨91, _, rfl, by decide, by decide, by decide, by decide, by decide, fun h => absurd h (by decide)⟩ (fun _ rest => by simp [dotName]) ⟨max N1 N2, fun n hn rest hr => ?_⟩
  have close : ∀ o, closeRange (expr agg n) l o (y.getD [] ++ 93 :: rest) = some (.range l o hi, rest) := by
    intro o
    cases hi with
    | none =>
      simp only [toTextO, Option.some.injEq] at y1; subst y1
      simp [closeRange]
    | some e =>
      obtain ⟨s, rfl, hs⟩ := y3 n (by omega) e rfl
      have := start_lit (y2 s rfl) (d := 93) (by decide) [] (93 :: rest)
      simp [closeRange, this, hs (93 :: rest) (by simp [ends])]
  cases lo with
  | none =>
    simp only [toTextO, Option.some.injEq] at x1; subst x1
    simp [suffix, dotName, close]
  | some e =>
    obtain ⟨s, rfl, hs⟩ := x3 n (by omega) e rfl
    have := start_lit (x2 s rfl) (d := 46) (by decide) [46] (46 :: 46 :: (y.getD [] ++ 93 :: rest))
    have h2 := hs (46 :: 46 :: (y.getD [] ++ 93 :: rest)) (by simp [ends])
    simp [suffix, dotName, this, h2, close]

/-! ## Lists -/

theorem joinWith_cons (sep t : Bytes) {ts : List Bytes} (h : ts ≠ []) : joinWith sep (t :: ts) = t ++ (sep ++ joinWith sep ts) := by
  cases ts with
  | nil => exact absurd rfl h
  | cons u us => rw [joinWith, List.append_assoc]

theorem toTexts_good {es : List Expr} (h : ∀ e ∈ es, Good fmt agg e) : ∃ ts, toTexts fmt es = some ts ∧ (ts = [] ↔ es = []) := by
  induction es with
  | nil => exact ⟨[], by simp [toTexts], by simp⟩
  | cons e es ih =>
    obtain ⟨t, h1, _⟩ := h e (List.mem_cons_self ..)
    obtain ⟨ts, h2, _⟩ := ih (fun x hx => h x (List.mem_cons_of_mem _ hx))
    exact ⟨t :: ts, by simp [toTexts, h1, h2], by simp⟩

theorem items_good {sep : Bytes} {cl : UInt8} (hsep : ∀ x, ends (sep ++ x) = true ∧ lit [cl] (sep ++ x) = none) (hcl : ∀ x, ends (cl :: x) = true) :
    ∀ {es : List Expr} {ts : List Bytes}, es ≠ [] → (∀ e ∈ es, Good fmt agg e) → toTexts fmt es = some ts →
    (∃ c cs w u, joinWith sep ts = c ++ cs ∧ Start c ∧ Shape c w u ∧ (cs = [] ∨ ∃ x, cs = sep ++ x)) ∧
    ∃ N, ∀ n, N ≤ n → ∀ k, N ≤ k → ∀ rest, items (expr agg n) sep cl k (joinWith sep ts ++ cl :: rest) = some (es, rest) := by
  intro es
  induction es with
  | nil => intro ts h; exact absurd rfl h
  | cons e es ih =>
    intro ts _ h hts
    obtain ⟨t, h1, h2, ⟨w, u, h3⟩, _, N, h5⟩ := h e (List.mem_cons_self ..)
    have hes : ∀ x ∈ es, Good fmt agg x := fun x hx => h x (List.mem_cons_of_mem _ hx)
    obtain ⟨us, hus, hnil⟩ := toTexts_good fmt agg hes
    have : ts = t :: us := by simpa [toTexts, h1, hus] using hts.symm
    subst this
    by_cases hn : es = []
    · subst hn
      have : us = [] := hnil.2 rfl
      subst this
      refine ⟨⟨t, [], w, u, by simp [joinWith], h2, h3, .inl rfl⟩, N + 1, fun n hn k hk rest => ?_⟩
      obtain ⟨k, rfl⟩ : ∃ j, k = j + 1 := ⟨k - 1, by omega⟩
      simp [items, joinWith, h5 n (by omega) (cl :: rest) (hcl rest)]
    · obtain ⟨_, N2, ih⟩ := ih hn hes hus
      rw [joinWith_cons _ _ (fun h => hn (hnil.1 h))]
      refine ⟨⟨t, _, w, u, rfl, h2, h3, .inr ⟨_, rfl⟩⟩, max N N2 + 1, fun n hn k hk rest => ?_⟩
      obtain ⟨k, rfl⟩ : ∃ j, k = j + 1 := ⟨k - 1, by omega⟩
      have a1 := h5 n (by omega) (sep ++ (joinWith sep us ++ cl :: rest)) (hsep _).1
      have a2 := (hsep (joinWith sep us ++ cl :: rest)).2
      have a3 := ih n (by omega) k (by omega) rest
      simp [items, a1, a2, a3, lit_app]

theorem comma_sep (cl : UInt8) (h : cl ≠ 44) (x : Bytes) : ends ([44] ++ x) = true ∧ lit [cl] ([44] ++ x) = none := by
  simp [ends, h]

theorem atom_paren (p : Reader) (n : Nat) (s : Bytes) : atom agg p n (40 :: s) = paren p n s := by simp [atom]
theorem atom_bracket (p : Reader) (n : Nat) (s : Bytes) : atom agg p n (91 :: s) = bracket p n s := by simp [atom]
theorem atom_brace (p : Reader) (n : Nat) (s : Bytes) : atom agg p n (123 :: s) = brace p n s := by simp [atom]
theorem atom_dollar (p : Reader) (n : Nat) (s : Bytes) : atom agg p n (36 :: s) = dollar p s := by simp [atom]

/-- An operand in parentheses is not taken for a type. -/
theorem paren_operand (p : Reader) (n : Nat) {t w u r : Bytes} (h : Shape t w u) (hr : NoWord r) (h41 : lit [41] r = none) :
    paren p n (t ++ r) = (p (t ++ r)).bind fun lq => infixed p n lq.1 lq.2 := by
  rw [paren, (shape_span h hr).2, shape_lit h (.inl rfl) h41]
  rfl

theorem good_binary {o : BinOp} {l r : Expr} (ho : Infix o) (hl : Good fmt agg l) (hr : Good fmt agg r) : Good fmt agg (.binary o l r) := by
  obtain ⟨t, h1, h2, ⟨w, u, h3⟩, _, N1, h5⟩ := hl
  obtain ⟨s, g1, g2, _, _, N2, g5⟩ := hr
  have htext : toText fmt (.binary o l r) = some (40 :: (t ++ (BinOp.sign o ++ (s ++ [41])))) := by
    cases o <;> first
      | exact absurd rfl ho.1
      | exact absurd rfl ho.2
      | simp [toText, h1, g1]
  refine good_other fmt agg htext (by decide) ⟨max N1 N2, fun n hn rest _ _ => ?_⟩
  obtain ⟨k1, k2⟩ := sign_ends ho (s ++ 41 :: rest)
  have a1 := h5 n (by omega) _ k1
  have a2 := opOf_sign ho g2 (41 :: rest)
  have a3 := g5 n (by omega) (41 :: rest) (by simp [ends])
  have e : 40 :: (t ++ (BinOp.sign o ++ (s ++ [41]))) ++ rest = 40 :: (t ++ (BinOp.sign o ++ (s ++ 41 :: rest))) := by simp
  rw [e, atom_paren, paren_operand _ _ h3 (stops_noWord (ends_stops k1)) k2, a1, Option.bind_some, infixed, a2]
  simp [a3]

theorem good_logical {o : LogOp} {e : Expr} {es : List Expr} (hne : es ≠ []) (he : Good fmt agg e) (hes : ∀ x ∈ es, Good fmt agg x) : Good fmt agg (.logical o (e :: es)) := by
  obtain ⟨t, h1, h2, ⟨w, u, h3⟩, _, N1, h5⟩ := he
  obtain ⟨ts, g1, g2⟩ := toTexts_good fmt agg hes
  obtain ⟨_, N2, g3⟩ := items_good fmt agg (sep := LogOp.sign o) (cl := 41) (log_ends o) (by intro x; simp [ends]) hne hes g1
  have hts : ts ≠ [] := fun h => hne (g2.1 h)
  have htext : toText fmt (.logical o (e :: es)) = some (40 :: (t ++ (LogOp.sign o ++ (joinWith (LogOp.sign o) ts ++ [41])))) := by
    simp [toText, toTexts, h1, g1, joinWith_cons _ _ hts]
  refine good_other fmt agg htext (by decide) ⟨max N1 N2, fun n hn rest _ _ => ?_⟩
  obtain ⟨k1, k2⟩ := log_ends o (joinWith (LogOp.sign o) ts ++ 41 :: rest)
  have a1 := h5 n (by omega) _ k1
  obtain ⟨a2, a3⟩ := logOf_sign o (joinWith (LogOp.sign o) ts ++ 41 :: rest)
  have a4 := g3 n (by omega) n (by omega) rest
  have e : 40 :: (t ++ (LogOp.sign o ++ (joinWith (LogOp.sign o) ts ++ [41]))) ++ rest = 40 :: (t ++ (LogOp.sign o ++ (joinWith (LogOp.sign o) ts ++ 41 :: rest))) := by simp
  rw [e, atom_paren, paren_operand _ _ h3 (stops_noWord (ends_stops k1)) k2, a1, Option.bind_some, infixed, a2, a3]
  simp [a4]

theorem good_choice {w t d : Expr} (hw : Good fmt agg w) (ht : Good fmt agg t) (hd : Good fmt agg d) : Good fmt agg (.case false none (some d) [(w, t)]) := by
  obtain ⟨tw, h1, h2, ⟨_, _, h3⟩, _, N1, h5⟩ := hw
  obtain ⟨tt, g1, _, _, _, N2, g5⟩ := ht
  obtain ⟨td, k1, _, _, _, N3, k5⟩ := hd
  have htext : toText fmt (.case false none (some d) [(w, t)]) = some (40 :: (tw ++ (ascii " ? " ++ (tt ++ (ascii " : " ++ (td ++ [41])))))) := by
    simp [toText, h1, g1, k1]
  refine good_other fmt agg htext (by decide) ⟨max N1 (max N2 N3), fun n hn rest _ _ => ?_⟩
  have e : 40 :: (tw ++ (ascii " ? " ++ (tt ++ (ascii " : " ++ (td ++ [41]))))) ++ rest = 40 :: (tw ++ (ascii " ? " ++ (tt ++ (ascii " : " ++ (td ++ 41 :: rest))))) := by simp
  have e1 : ends (ascii " ? " ++ (tt ++ (ascii " : " ++ (td ++ 41 :: rest)))) = true := by simp [ends, a_quest]
  have e2 : lit [41] (ascii " ? " ++ (tt ++ (ascii " : " ++ (td ++ 41 :: rest)))) = none := by simp [a_quest]
  have a1 := h5 n (by omega) _ e1
  have a2 := g5 n (by omega) (ascii " : " ++ (td ++ 41 :: rest)) (by simp [ends, a_colon])
  have a3 := k5 n (by omega) (41 :: rest) (by simp [ends])
  obtain ⟨c1, c2⟩ := choice_sign (tt ++ (ascii " : " ++ (td ++ 41 :: rest)))
  rw [e, atom_paren, paren_operand _ _ h3 (stops_noWord (ends_stops e1)) e2, a1, Option.bind_some, infixed, c1, c2]
  simp [a2, a3, lit_app]

theorem typeOf_name {t : Nat} (h : t ∈ castTypes) : (∀ c ∈ typeName t, isWord c = true) ∧ typeOf (typeName t) = some t := by
  have : ∀ t ∈ castTypes, (∀ c ∈ typeName t, isWord c = true) ∧ typeOf (typeName t) = some t := by decide +kernel
  exact this t h

theorem good_cast {t : Nat} {e : Expr} (ht : t ∈ castTypes) (he : Good fmt agg e) : Good fmt agg (.cast t e) := by
  obtain ⟨te, h1, h2, h3, _, N, h5⟩ := he
  obtain ⟨b1, b2⟩ := typeOf_name ht
  refine ⟨40 :: (typeName t ++ 41 :: te), by simp [toText, h1], ⟨40, _, rfl, by decide⟩, ⟨_, _, shape_other (by decide)⟩, fun h => absurd h id, N + 2, fun n hn rest hr => ?_⟩
  obtain ⟨m, rfl⟩ : ∃ m, n = m + 1 := ⟨n - 1, by omega⟩
  obtain ⟨k, rfl⟩ : ∃ k, m = k + 1 := ⟨m - 1, by omega⟩
  have e : 40 :: (typeName t ++ 41 :: te) ++ rest = 40 :: (typeName t ++ 41 :: (te ++ rest)) := by simp
  obtain ⟨s1, s2⟩ := take_word (r := 41 :: (te ++ rest)) b1 (noWord_cons (by decide) _)
  rw [expr, e, atom_paren, paren, s1, s2, b2]
  simp [h5 (k + 1) (by omega) rest hr, post, ends_suffix _ _ hr]

theorem good_list {es : List Expr} (hne : es ≠ []) (hes : ∀ x ∈ es, Good fmt agg x) : Good fmt agg (.coll .list es) := by
  obtain ⟨ts, g1, g2⟩ := toTexts_good fmt agg hes
  obtain ⟨⟨c, cs, w, u, j1, j2, j3, j4⟩, N, g3⟩ := items_good fmt agg (sep := [44]) (cl := 93) (comma_sep _ (by decide)) (by intro x; simp [ends]) hne hes g1
  have hts : ts ≠ [] := fun h => hne (g2.1 h)
  have htext : toText fmt (.coll .list es) = some (91 :: (joinWith [44] ts ++ [93])) := by
    cases ts with
    | nil => exact absurd rfl hts
    | cons => simp [toText, g1, CollKind.opening, CollKind.closing]
  refine good_other fmt agg htext (by decide) ⟨N, fun n hn rest _ _ => ?_⟩
  have e : 91 :: (joinWith [44] ts ++ [93]) ++ rest = 91 :: (joinWith [44] ts ++ 93 :: rest) := by simp
  have hn' : NoWord (cs ++ 93 :: rest) := by
    rcases j4 with rfl | ⟨x, rfl⟩ <;> exact noWord_cons (by decide) _
  have hlit : lit (ascii " IN ") (cs ++ 93 :: rest) = none := by
    rcases j4 with rfl | ⟨x, rfl⟩ <;> simp [a_in]
  have hnone : (if IsLabel ((joinWith [44] ts ++ 93 :: rest).takeWhile isWord) then lit (ascii " IN ") ((joinWith [44] ts ++ 93 :: rest).dropWhile isWord) else none) = none := by
    rw [j1, List.append_assoc, (shape_span j3 hn').1, (shape_span j3 hn').2]
    split
    · rename_i hlab
      cases u with
      | nil => exact hlit
      | cons d ds =>
        by_cases e32 : d = 32
        · rcases (j3.next d ds rfl).2.2.2 e32 with rfl | ⟨v, rfl⟩
          · exact absurd hlab (by decide +kernel)
          · simp [a_in]
        · simp [a_in, Ne.symm e32]
    · rfl
  rw [e, atom_bracket, bracket, hnone]
  simp [g3 n hn n hn rest]

theorem good_set {es : List Expr} (hne : es ≠ []) (hes : ∀ x ∈ es, Good fmt agg x) : Good fmt agg (.coll .set es) := by
  obtain ⟨ts, g1, g2⟩ := toTexts_good fmt agg hes
  obtain ⟨⟨c, cs, w, u, j1, j2, j3, j4⟩, N, g3⟩ := items_good fmt agg (sep := [44]) (cl := 125) (comma_sep _ (by decide)) (by intro x; simp [ends]) hne hes g1
  have hts : ts ≠ [] := fun h => hne (g2.1 h)
  have htext : toText fmt (.coll .set es) = some (123 :: (joinWith [44] ts ++ [125])) := by
    cases ts with
    | nil => exact absurd rfl hts
    | cons => simp [toText, g1, CollKind.opening, CollKind.closing]
  refine good_other fmt agg htext (by decide) ⟨N, fun n hn rest _ _ => ?_⟩
  have e : 123 :: (joinWith [44] ts ++ [125]) ++ rest = 123 :: (joinWith [44] ts ++ 125 :: rest) := by simp
  have hn' : NoWord (cs ++ 125 :: rest) := by
    rcases j4 with rfl | ⟨x, rfl⟩ <;> exact noWord_cons (by decide) _
  have hlit : lit [58] (cs ++ 125 :: rest) = none := by
    rcases j4 with rfl | ⟨x, rfl⟩ <;> simp
  have hnone : lit [58] ((joinWith [44] ts ++ 125 :: rest).dropWhile isWord) = none := by
    rw [j1, List.append_assoc, (shape_span j3 hn').2]
    exact shape_lit j3 (.inr rfl) hlit
  rw [e, atom_brace, brace, hnone]
  simp [g3 n hn n hn rest]

theorem good_path {es : List Expr} (hne : es ≠ []) (hes : ∀ x ∈ es, Good fmt agg x) : Good fmt agg (.coll .pathBuild es) := by
  obtain ⟨ts, g1, g2⟩ := toTexts_good fmt agg hes
  obtain ⟨_, N, g3⟩ := items_good fmt agg (sep := [44]) (cl := 93) (comma_sep _ (by decide)) (by intro x; simp [ends]) hne hes g1
  have hts : ts ≠ [] := fun h => hne (g2.1 h)
  have htext : toText fmt (.coll .pathBuild es) = some (ascii "PathBuild" ++ 91 :: (joinWith [44] ts ++ [93])) := by
    cases ts with
    | nil => exact absurd rfl hts
    | cons => simp [toText, g1, CollKind.opening, CollKind.closing, a_path]
  refine good_word fmt agg htext (by decide +kernel) (by decide +kernel) (.inr ⟨91, _, rfl, by decide, by decide, by decide, fun h => absurd h (by decide)⟩) ⟨N, fun n hn rest _ _ => ?_⟩
  have e : 91 :: (joinWith [44] ts ++ [93]) ++ rest = 91 :: (joinWith [44] ts ++ 93 :: rest) := by simp
  rw [e, worded, lit_cons, if_neg (by decide)]
  simp only
  rw [plainWord, if_neg (by decide +kernel), if_neg (by decide +kernel), if_pos rfl]
  simp [g3 n hn n hn rest]

theorem entries_good : ∀ {kvs : List (Bytes × Expr)}, kvs ≠ [] → (∀ kv ∈ kvs, IsName kv.1) → (∀ kv ∈ kvs, Good fmt agg kv.2) → ∃ ts, toTextKvs fmt kvs = some ts ∧ ts ≠ [] ∧
    (∃ k x, joinWith [44] ts = k ++ 58 :: x ∧ IsName k) ∧
    ∃ N, ∀ n, N ≤ n → ∀ k, N ≤ k → ∀ rest, entries (expr agg n) k (joinWith [44] ts ++ 125 :: rest) = some (kvs, rest) := by
  intro kvs
  induction kvs with
  | nil => intro h; exact absurd rfl h
  | cons kv kvs ih =>
    obtain ⟨key, e⟩ := kv
    intro _ hk h
    obtain ⟨t, h1, h2, _, _, N, h5⟩ := h _ (List.mem_cons_self ..)
    simp only at h1 h5
    have hkey : IsName key := hk _ (List.mem_cons_self ..)
    have hrd : ∀ r, readName (key ++ 58 :: r) = some (key, 58 :: r) := fun r => readName_app hkey (noWord_cons (by decide) _)
    by_cases hn : kvs = []
    · subst hn
      refine ⟨[key ++ 58 :: t], by simp [toTextKvs, h1], by simp, ⟨key, t, by simp [joinWith], hkey⟩, N + 1, fun n hn k hk rest => ?_⟩
      obtain ⟨k, rfl⟩ : ∃ j, k = j + 1 := ⟨k - 1, by omega⟩
      simp [entries, joinWith, hrd, h5 n (by omega) (125 :: rest) (by simp [ends])]
    · obtain ⟨ts, g1, g2, _, N2, g3⟩ := ih hn (fun x hx => hk x (List.mem_cons_of_mem _ hx)) (fun x hx => h x (List.mem_cons_of_mem _ hx))
      refine ⟨(key ++ 58 :: t) :: ts, by simp [toTextKvs, h1, g1], by simp, ⟨key, _, by rw [joinWith_cons _ _ g2, List.append_assoc]; rfl, hkey⟩, max N N2 + 1, fun n hn k hk rest => ?_⟩
      obtain ⟨k, rfl⟩ : ∃ j, k = j + 1 := ⟨k - 1, by omega⟩
      have a1 := h5 n (by omega) (44 :: (joinWith [44] ts ++ 125 :: rest)) (by simp [ends])
      have a2 := g3 n (by omega) k (by omega) rest
      simp [entries, joinWith_cons _ _ g2, hrd, a1, a2]

theorem good_map {kvs : List (Bytes × Expr)} (hne : kvs ≠ []) (hk : ∀ kv ∈ kvs, IsName kv.1) (h : ∀ kv ∈ kvs, Good fmt agg kv.2) : Good fmt agg (.map kvs) := by
  obtain ⟨ts, g1, g2, ⟨k, x, g4, g5⟩, N, g3⟩ := entries_good fmt agg hne hk h
  have htext : toText fmt (.map kvs) = some (123 :: (joinWith [44] ts ++ [125])) := by
    cases ts with
    | nil => exact absurd rfl g2
    | cons => simp [toText, g1]
  refine good_other fmt agg htext (by decide) ⟨N, fun n hn rest _ _ => ?_⟩
  have e : 123 :: (joinWith [44] ts ++ [125]) ++ rest = 123 :: (joinWith [44] ts ++ 125 :: rest) := by simp
  have hsome : lit [58] ((joinWith [44] ts ++ 125 :: rest).dropWhile isWord) = some (x ++ 125 :: rest) := by
    rw [g4, List.append_assoc, List.cons_append, (take_word (r := 58 :: (x ++ 125 :: rest)) (Value.name_word g5) (noWord_cons (by decide) _)).2]; simp
  rw [e, atom_brace, brace, hsome]
  simp [g3 n hn n hn rest]

/-! ## Words -/

theorem label_words {w : Bytes} (h : IsLabel w) : (w ∉ markers ∧ w ≠ ascii "distinct") ∧ w ≠ ascii "CASE" ∧ w ≠ ascii "COLUMN" ∧ w ≠ ascii "PathBuild" ∧ wordOf w = none := by
  have hne : ∀ k ∈ reserved, w ≠ k := fun k hk e => h.2 (e ▸ hk)
  refine ⟨⟨?_, hne _ (by decide +kernel)⟩, hne _ (by decide +kernel), hne _ (by decide +kernel), hne _ (by decide +kernel), ?_⟩
  · intro hm
    have : ∀ k ∈ markers, k ∈ reserved := by decide +kernel
    exact hne w (this w hm) rfl
  · rw [wordOf, List.findSome?_eq_none_iff]
    intro we hwe
    have : ∀ k ∈ words.map (·.1), k ∈ reserved := by decide +kernel
    rw [if_neg]
    intro e
    exact h.2 (e ▸ this _ (List.mem_map_of_mem hwe))

theorem good_label {w : Bytes} (h : IsLabel w) : Good fmt agg (.label w) := by
  obtain ⟨a1, a2, a3, a4, a5⟩ := label_words h
  refine good_plain fmt agg (w := w) (by simp [toText]) h.1 a1 fun p n s hs => ?_
  rw [plainWord, if_neg a2, if_neg a3, if_neg a4, a5]
  simp [hs trivial]

theorem good_labelAttribute {l p : Bytes} (h : IsLabel l) (hp : IsName p) : Good fmt agg (.labelAttribute l (.str p)) := by
  obtain ⟨a1, a2, a3, a4, a5⟩ := label_words h
  refine good_word fmt agg (w := l) (u := 46 :: p) (by simp [toText, attrText]) h.1 a1 (.inr ⟨46, _, rfl, by decide, by decide, by decide, fun h => absurd h (by decide)⟩) ⟨0, fun n _ rest hr _ => ?_⟩
  have := dotName_app hp (stops_noWord hr)
  rw [List.cons_append, worded, lit_cons, if_neg (by decide)]
  simp only
  rw [plainWord, if_neg a2, if_neg a3, if_neg a4, a5]
  simp [this]

theorem good_vertex : Good fmt agg .vertex := by
  refine good_plain fmt agg (w := ascii "VERTEX") (by simp [toText]) (by decide +kernel) (by decide +kernel) fun p n s _ => ?_
  rw [plainWord, if_neg (by decide +kernel), if_neg (by decide +kernel), if_neg (by decide +kernel)]; rfl

theorem good_edge : Good fmt agg .edge := by
  refine good_plain fmt agg (w := ascii "EDGE") (by simp [toText]) (by decide +kernel) (by decide +kernel) fun p n s _ => ?_
  rw [plainWord, if_neg (by decide +kernel), if_neg (by decide +kernel), if_neg (by decide +kernel)]; rfl

theorem good_column (i : Int) : Good fmt agg (.column i) := by
  refine good_word fmt agg (w := ascii "COLUMN") (u := 91 :: (intDec i ++ [93])) (by simp [toText, a_column]) (by decide +kernel) (by decide +kernel)
    (.inr ⟨91, _, rfl, by decide, by decide, by decide, fun h => absurd h (by decide)⟩) ⟨0, fun n _ rest hr _ => ?_⟩
  have := number_app (i := i) (r := 93 :: rest) (noWord_cons (by decide) _)
  rw [List.cons_append, worded, lit_cons, if_neg (by decide)]
  simp only
  rw [plainWord, if_neg (by decide +kernel), if_pos rfl]
  simp [this]

/-! ## Behind `$` -/

theorem good_input {p : Bytes} (hp : IsName p) : Good fmt agg (.prop .input (ascii "$-") [] p) := by
  refine good_other fmt agg (c := 36) (cs := 45 :: 46 :: p) (by simp [toText, propText, a_dinput]) (by decide) ⟨0, fun n _ rest hr _ => ?_⟩
  rw [List.cons_append, atom_dollar]
  simp [dollar, readName_app hp (stops_noWord hr)]

theorem name_lits {v : Bytes} (h : IsName v) (r : Bytes) : lit [45, 46] (v ++ r) = none ∧ lit [94, 46] (v ++ r) = none ∧ lit [36, 46] (v ++ r) = none ∧ v ≠ [] := by
  cases v with
  | nil => cases h
  | cons c cs =>
    have := forall_byte (P := fun c => isWord c = true → (45 ≠ c ∧ 94 ≠ c ∧ 36 ≠ c)) (by decide +kernel) c (Value.name_word h c (List.mem_cons_self ..))
    simp [this.1, this.2.1, this.2.2]

theorem good_varProp {v p : Bytes} (hv : IsName v) (hp : IsName p) : Good fmt agg (.prop .var (ascii "$") v p) := by
  obtain ⟨_, _, _, hne⟩ := name_lits hv []
  refine good_other fmt agg (c := 36) (cs := v ++ 46 :: p) (by simp [toText, propText, a_dvar, hne]) (by decide) ⟨0, fun n _ rest hr _ => ?_⟩
  obtain ⟨l1, l2, l3, _⟩ := name_lits hv (46 :: (p ++ rest))
  have e : 36 :: (v ++ 46 :: p) ++ rest = 36 :: (v ++ 46 :: (p ++ rest)) := by simp
  rw [e, atom_dollar, dollar, l1, l2, l3, readName_app hv (noWord_cons (by decide) _)]
  simp [dotName_app hp (stops_noWord hr)]

theorem good_src {t p : Bytes} (ht : IsName t) (hp : IsName p) : Good fmt agg (.prop .src (ascii "$^") t p) := by
  obtain ⟨_, _, _, hne⟩ := name_lits ht []
  refine good_other fmt agg (c := 36) (cs := 94 :: 46 :: (t ++ 46 :: p)) (by simp [toText, propText, a_dsrc, hne]) (by decide) ⟨0, fun n _ rest hr _ => ?_⟩
  have e : 36 :: 94 :: 46 :: (t ++ 46 :: p) ++ rest = 36 :: 94 :: 46 :: (t ++ 46 :: (p ++ rest)) := by simp
  rw [e, atom_dollar]
  simp [dollar, readName_app ht (noWord_cons (c := 46) (by decide) (p ++ rest)), dotName_app hp (stops_noWord hr)]

theorem good_dst {t p : Bytes} (ht : IsName t) (hp : IsName p) : Good fmt agg (.prop .dst (ascii "$$") t p) := by
  obtain ⟨_, _, _, hne⟩ := name_lits ht []
  refine good_other fmt agg (c := 36) (cs := 36 :: 46 :: (t ++ 46 :: p)) (by simp [toText, propText, a_ddst, hne]) (by decide) ⟨0, fun n _ rest hr _ => ?_⟩
  have e : 36 :: 36 :: 46 :: (t ++ 46 :: p) ++ rest = 36 :: 36 :: 46 :: (t ++ 46 :: (p ++ rest)) := by simp
  rw [e, atom_dollar]
  simp [dollar, readName_app ht (noWord_cons (c := 46) (by decide) (p ++ rest)), dotName_app hp (stops_noWord hr)]

theorem good_var {v : Bytes} (hv : IsName v) : Good fmt agg (.var v false) := by
  obtain ⟨_, _, _, hne⟩ := name_lits hv []
  refine good_other fmt agg (c := 36) (cs := v) (by simp [toText, hne]) (by decide) ⟨0, fun n _ rest hr hb => ?_⟩
  obtain ⟨l1, l2, l3, _⟩ := name_lits hv rest
  rw [List.cons_append, atom_dollar, dollar, l1, l2, l3, readName_app hv (stops_noWord hr)]
  simp [(stops_lit hr).2, hb trivial]

theorem good_versioned {v : Bytes} {e : Expr} (hv : IsName v) (he : Good fmt agg e) : Good fmt agg (.versionedVar v (some e)) := by
  obtain ⟨_, _, _, hne⟩ := name_lits hv []
  obtain ⟨t, h1, _, _, _, N, h5⟩ := he
  refine good_other fmt agg (c := 36) (cs := v ++ 123 :: (t ++ [125])) (by simp [toText, toTextO, h1, hne]) (by decide) ⟨N, fun n hn rest hr hb => ?_⟩
  obtain ⟨l1, l2, l3, _⟩ := name_lits hv (123 :: (t ++ 125 :: rest))
  have e : 36 :: (v ++ 123 :: (t ++ [125])) ++ rest = 36 :: (v ++ 123 :: (t ++ 125 :: rest)) := by simp
  rw [e, atom_dollar, dollar, l1, l2, l3, readName_app hv (noWord_cons (by decide) _)]
  simp [h5 n hn (125 :: rest) (by simp [ends])]

/-! ## Words before a parenthesis -/

/-- A word and an opening parenthesis. -/
theorem good_callLike {w x : Bytes} {e : Expr} (h1 : toText fmt e = some (w ++ 40 :: (x ++ [41]))) (hw : IsName w) (hf : w ∉ markers ∧ w ≠ ascii "distinct")
    (h : ∃ N, ∀ n, N ≤ n → ∀ rest, callLike agg (expr agg n) n w (x ++ 41 :: rest) = some (e, rest)) : Good fmt agg e := by
  obtain ⟨N, h⟩ := h
  refine good_word fmt agg h1 hw hf (.inr ⟨40, _, rfl, by decide, by decide, by decide, fun h => absurd h (by decide)⟩) ⟨N, fun n hn rest _ _ => ?_⟩
  have e : 40 :: (x ++ [41]) ++ rest = 40 :: (x ++ 41 :: rest) := by simp
  rw [e, worded, lit_cons, if_pos rfl, lit_nil]
  exact h n hn rest

theorem calls_free {w : Bytes} (h : w ∉ reservedCalls) : w ≠ ascii "uuid" ∧ w ≠ ascii "reduce" ∧ w ≠ ascii "exists" ∧ w ∉ predicates := by
  have hne : ∀ k ∈ reservedCalls, w ≠ k := fun k hk e => h (e ▸ hk)
  refine ⟨hne _ (by decide +kernel), hne _ (by decide +kernel), hne _ (by decide +kernel), fun hm => h ?_⟩
  exact List.mem_append_right _ hm

theorem good_call {w : Bytes} {es : List Expr} (hw : IsLabel w) (hc : w ∉ reservedCalls) (ha : agg w = false) (hes : ∀ x ∈ es, Good fmt agg x) : Good fmt agg (.call w es) := by
  obtain ⟨ts, g1, g2⟩ := toTexts_good fmt agg hes
  obtain ⟨c1, c2, c3, c4⟩ := calls_free hc
  refine good_callLike fmt agg (w := w) (x := joinWith [44] ts) (by simp [toText, g1]) hw.1 (label_words hw).1 ?_
  by_cases hne : es = []
  · subst hne
    have : ts = [] := g2.2 rfl
    subst this
    refine ⟨0, fun n _ rest => ?_⟩
    rw [callLike, if_neg c1, if_neg c2, if_neg c3, if_neg c4, ha]
    simp [joinWith]
  · obtain ⟨⟨c, cs, w', u, j1, j2, j3, j4⟩, N, g3⟩ := items_good fmt agg (sep := [44]) (cl := 41) (comma_sep _ (by decide)) (by intro x; simp [ends]) hne hes g1
    refine ⟨N, fun n hn rest => ?_⟩
    have hl : lit [41] (joinWith [44] ts ++ 41 :: rest) = none := by
      rw [j1, List.append_assoc]; exact start_lit j2 (by decide) _ _
    rw [callLike, if_neg c1, if_neg c2, if_neg c3, if_neg c4, ha, hl]
    simp [g3 n hn n hn rest]

theorem good_aggregate {w : Bytes} {d : Bool} {e : Expr} (hw : IsLabel w) (hc : w ∉ reservedCalls) (ha : agg w = true) (hs : ∀ s, e ≠ .const (.str s)) (he : Good fmt agg e) :
    Good fmt agg (.aggregate w d (some e)) := by
  obtain ⟨t, h1, h2, ⟨v, u, h3⟩, _, N, h5⟩ := he
  obtain ⟨c1, c2, c3, c4⟩ := calls_free hc
  have htext : toText fmt (.aggregate w d (some e)) = some (w ++ 40 :: (((if d then ascii "distinct " else []) ++ t) ++ [41])) := by
    rw [toText]
    simp only [h1, Option.bind_eq_bind, Option.bind_some]
    cases e with
    | const v =>
      cases v with
      | str s => exact absurd rfl (hs s)
      | _ => simp
    | _ => simp
  refine good_callLike fmt agg htext hw.1 (label_words hw).1 ⟨N, fun n hn rest => ?_⟩
  rw [callLike, if_neg c1, if_neg c2, if_neg c3, if_neg c4, ha]
  have a1 := h5 n hn (41 :: rest) (by simp [ends])
  cases d with
  | true => simp [lit_app, a1]
  | false =>
    have hl : lit (ascii "distinct ") (t ++ 41 :: rest) = none := by
      cases hl : lit (ascii "distinct ") (t ++ 41 :: rest) with
      | none => rfl
      | some r =>
        have e1 := lit_some hl
        have e2 := (shape_span h3 (r := 41 :: rest) (noWord_cons (by decide) _)).1
        rw [e1, a_distinct, List.append_assoc, List.singleton_append, (take_word (p := isWord) (w := ascii "distinct") (r := 32 :: r) (by decide +kernel) (noWord_cons (c := 32) (by decide) r)).1] at e2
        exact absurd e2.symm h3.free.2
    simp [hl, a1]

theorem good_uuid {f : Bytes} (h0 : 0 ∉ f) (h : 34 ∉ f) : Good fmt agg (.uuid f) := by
  refine good_callLike fmt agg (w := ascii "uuid") (x := 34 :: (f ++ [34])) (by simp [toText, a_uuid, a_uuid2, cstr_of_no_nul h0]) (by decide +kernel) (by decide +kernel) ⟨0, fun n _ rest => ?_⟩
  have := quoted_app (s := f) (r := 41 :: rest) h
  rw [callLike, if_pos rfl]
  simp [this]

theorem good_exists {c : Expr} (hc : Good fmt agg c) : Good fmt agg (.predicate (ascii "exists") [] c none []) := by
  obtain ⟨t, h1, _, _, _, N, h5⟩ := hc
  refine good_callLike fmt agg (w := ascii "exists") (x := t) (by simp [toText, h1]) (by decide +kernel) (by decide +kernel) ⟨N, fun n hn rest => ?_⟩
  rw [callLike, if_neg (by decide +kernel), if_neg (by decide +kernel), if_pos rfl]
  simp [h5 n hn (41 :: rest) (by simp [ends])]

theorem good_predicate {w i : Bytes} {c f : Expr} (hw : w ∈ predicates) (hi : IsName i) (hc : Good fmt agg c) (hf : Good fmt agg f) : Good fmt agg (.predicate w i c (some f) []) := by
  obtain ⟨t, h1, _, _, _, N, h5⟩ := hc
  obtain ⟨s, g1, _, _, _, N2, g5⟩ := hf
  have hall : ∀ w ∈ predicates, w ≠ ascii "uuid" ∧ w ≠ ascii "reduce" ∧ w ≠ ascii "exists" ∧ IsName w ∧ w ∉ markers ∧ w ≠ ascii "distinct" := by decide +kernel
  obtain ⟨c1, c2, c3, c4, c5⟩ := hall w hw
  refine good_callLike fmt agg (w := w) (x := i ++ (ascii " IN " ++ (t ++ (ascii " WHERE " ++ s)))) (by simp [toText, toTextO, h1, g1, c3]) c4 c5 ⟨max N N2, fun n hn rest => ?_⟩
  have a1 := h5 n (by omega) (ascii " WHERE " ++ (s ++ 41 :: rest)) (by simp [ends, a_where])
  have a2 := g5 n (by omega) (41 :: rest) (by simp [ends])
  have a3 := readName_app hi (r := ascii " IN " ++ (t ++ (ascii " WHERE " ++ (s ++ 41 :: rest)))) (by rw [a_in]; exact noWord_cons (by decide) _)
  rw [callLike, if_neg c1, if_neg c2, if_neg c3, if_pos hw]
  simp [a1, a2, a3, lit_app]

theorem good_reduce {a v : Bytes} {i c m : Expr} (ha : IsName a) (hv : IsName v) (hi : Good fmt agg i) (hc : Good fmt agg c) (hm : Good fmt agg m) : Good fmt agg (.reduce a i v c m []) := by
  obtain ⟨t, h1, _, _, _, N, h5⟩ := hi
  obtain ⟨s, g1, _, _, _, N2, g5⟩ := hc
  obtain ⟨u, k1, _, _, _, N3, k5⟩ := hm
  refine good_callLike fmt agg (w := ascii "reduce") (x := a ++ (ascii " = " ++ (t ++ (ascii ", " ++ (v ++ (ascii " IN " ++ (s ++ (ascii " | " ++ u)))))))) (by simp [toText, h1, g1, k1, a_reduce])
    (by decide +kernel) (by decide +kernel) ⟨max N (max N2 N3), fun n hn rest => ?_⟩
  have b1 := readName_app ha (r := ascii " = " ++ (t ++ (ascii ", " ++ (v ++ (ascii " IN " ++ (s ++ (ascii " | " ++ (u ++ 41 :: rest)))))))) (by rw [a_is]; exact noWord_cons (by decide) _)
  have b2 := h5 n (by omega) (ascii ", " ++ (v ++ (ascii " IN " ++ (s ++ (ascii " | " ++ (u ++ 41 :: rest)))))) (by simp [ends, a_comma])
  have b3 := readName_app hv (r := ascii " IN " ++ (s ++ (ascii " | " ++ (u ++ 41 :: rest)))) (by rw [a_in]; exact noWord_cons (by decide) _)
  have b4 := g5 n (by omega) (ascii " | " ++ (u ++ 41 :: rest)) (by simp [ends, a_bar])
  have b5 := k5 n (by omega) (41 :: rest) (by simp [ends])
  rw [callLike, if_neg (by decide +kernel), if_pos rfl]
  simp [b1, b2, b3, b4, b5, lit_app]

/-! ## List comprehensions and cases -/

/-- The text of an optional part with its word. -/
def optText (sep : Bytes) : Option Bytes → Bytes
  | none => []
  | some t => sep ++ t

theorem opt_read {sep : Bytes} {o : Option Expr} {x : Option Bytes} {n : Nat} (hx : toTextO fmt o = some x)
    (h : ∀ e, o = some e → ∃ t, x = some t ∧ ∀ rest, ends rest = true → expr agg n (t ++ rest) = some (e, rest)) {rest : Bytes} (hr : ends rest = true) (hl : lit sep rest = none) :
    opt (expr agg n) sep (optText sep x ++ rest) = some (o, rest) := by
  cases o with
  | none =>
    simp only [toTextO, Option.some.injEq] at hx; subst hx
    simp [opt, optText, hl]
  | some e =>
    obtain ⟨t, rfl, ht⟩ := h e rfl
    simp [opt, optText, lit_app, ht rest hr]

theorem good_listComp {i : Bytes} {c : Expr} {f m : Option Expr} (hi : IsLabel i) (hc : Good fmt agg c) (hf : ∀ e, f = some e → Good fmt agg e) (hm : ∀ e, m = some e → Good fmt agg e) :
    Good fmt agg (.listComp i c f m []) := by
  obtain ⟨t, h1, _, _, _, N, h5⟩ := hc
  obtain ⟨x, x1, _, N2, x3⟩ := good_opt fmt agg hf
  obtain ⟨y, y1, _, N3, y3⟩ := good_opt fmt agg hm
  have htext : toText fmt (.listComp i c f m []) = some (91 :: (i ++ (ascii " IN " ++ (t ++ (optText (ascii " WHERE ") x ++ (optText (ascii " | ") y ++ [93])))))) := by
    cases x <;> cases y <;> simp [toText, h1, x1, y1, optText]
  refine good_other fmt agg htext (by decide) ⟨max N (max N2 N3), fun n hn rest hr _ => ?_⟩
  have e : 91 :: (i ++ (ascii " IN " ++ (t ++ (optText (ascii " WHERE ") x ++ (optText (ascii " | ") y ++ [93]))))) ++ rest =
    91 :: (i ++ (ascii " IN " ++ (t ++ (optText (ascii " WHERE ") x ++ (optText (ascii " | ") y ++ 93 :: rest))))) := by simp
  obtain ⟨s1, s2⟩ := take_word (w := i) (r := ascii " IN " ++ (t ++ (optText (ascii " WHERE ") x ++ (optText (ascii " | ") y ++ 93 :: rest)))) (Value.name_word hi.1)
    (by rw [a_in]; exact noWord_cons (by decide) _)
  have m1 : ends (optText (ascii " | ") y ++ 93 :: rest) = true ∧ lit (ascii " WHERE ") (optText (ascii " | ") y ++ 93 :: rest) = none := by
    cases y <;> simp [optText, ends, a_bar, a_where]
  have m2 : ends (optText (ascii " WHERE ") x ++ (optText (ascii " | ") y ++ 93 :: rest)) = true := by
    cases x with
    | none => exact m1.1
    | some => simp [optText, ends, a_where]
  have a1 := h5 n (by omega) _ m2
  have a2 := opt_read fmt agg (sep := ascii " WHERE ") x1 (x3 n (by omega)) m1.1 m1.2
  have a3 := opt_read fmt agg (sep := ascii " | ") y1 (y3 n (by omega)) (rest := 93 :: rest) (by simp [ends]) (by simp [a_bar])
  rw [e, atom_bracket, bracket, s1, s2, if_pos hi, lit_app]
  simp [a1, a2, a3]

/-- The text of the cases. -/
def casesText (ts : List (Bytes × Bytes)) : Bytes := ts.flatMap fun wt => ascii " WHEN " ++ wt.1 ++ ascii " THEN " ++ wt.2

theorem cases_ends (ts : List (Bytes × Bytes)) {rest : Bytes} (hr : ends rest = true) : ends (casesText ts ++ rest) = true := by
  cases ts with
  | nil => exact hr
  | cons wt ts => simp [casesText, ends, a_when]

theorem whens_good : ∀ {cs : List (Expr × Expr)}, (∀ wt ∈ cs, Good fmt agg wt.1) → (∀ wt ∈ cs, Good fmt agg wt.2) → ∃ ts, toTextCases fmt cs = some ts ∧
    ∃ N, ∀ n, N ≤ n → ∀ k, N ≤ k → ∀ rest, ends rest = true → lit (ascii " WHEN ") rest = none → whens (expr agg n) k (casesText ts ++ rest) = some (cs, rest) := by
  intro cs
  induction cs with
  | nil =>
    intro _ _
    refine ⟨[], by simp [toTextCases], 1, fun n _ k hk rest _ hl => ?_⟩
    obtain ⟨k, rfl⟩ : ∃ j, k = j + 1 := ⟨k - 1, by omega⟩
    simp [casesText, whens, hl]
  | cons wt cs ih =>
    obtain ⟨w, t⟩ := wt
    intro hw ht
    obtain ⟨tw, h1, _, _, _, N1, h5⟩ := hw _ (List.mem_cons_self ..)
    obtain ⟨tt, g1, _, _, _, N2, g5⟩ := ht _ (List.mem_cons_self ..)
    simp only at h1 h5 g1 g5
    obtain ⟨ts, k1, N3, k3⟩ := ih (fun x hx => hw x (List.mem_cons_of_mem _ hx)) (fun x hx => ht x (List.mem_cons_of_mem _ hx))
    refine ⟨(tw, tt) :: ts, by simp [toTextCases, h1, g1, k1], max N1 (max N2 N3) + 1, fun n hn k hk rest hr hl => ?_⟩
    obtain ⟨k, rfl⟩ : ∃ j, k = j + 1 := ⟨k - 1, by omega⟩
    have e : casesText ((tw, tt) :: ts) ++ rest = ascii " WHEN " ++ (tw ++ (ascii " THEN " ++ (tt ++ (casesText ts ++ rest)))) := by simp [casesText]
    have a1 := h5 n (by omega) (ascii " THEN " ++ (tt ++ (casesText ts ++ rest))) (by simp [ends, a_then])
    have a2 := g5 n (by omega) (casesText ts ++ rest) (cases_ends ts hr)
    have a3 := k3 n (by omega) k (by omega) rest hr hl
    rw [e, whens, lit_app]
    simp [a1, a2, a3, lit_app]

theorem good_case {c d : Option Expr} {cs : List (Expr × Expr)} (hc : ∀ e, c = some e → Good fmt agg e) (hd : ∀ e, d = some e → Good fmt agg e) (hw : ∀ wt ∈ cs, Good fmt agg wt.1)
    (ht : ∀ wt ∈ cs, Good fmt agg wt.2) : Good fmt agg (.case true c d cs) := by
  obtain ⟨y, y1, _, N1, y3⟩ := good_opt fmt agg hd
  obtain ⟨ts, k1, N2, k3⟩ := whens_good fmt agg hw ht
  have tail : ∀ rest, stops rest = true → ends (optText (ascii " ELSE ") y ++ (ascii " END" ++ rest)) = true ∧ lit (ascii " WHEN ") (optText (ascii " ELSE ") y ++ (ascii " END" ++ rest)) = none ∧
      ends (ascii " END" ++ rest) = true ∧ lit (ascii " ELSE ") (ascii " END" ++ rest) = none := by
    intro rest _
    cases y <;> simp [optText, ends, a_else, a_endc, a_when]
  have rd : ∀ n, max N1 N2 ≤ n → ∀ c rest, stops rest = true → (do
      let (cs, q) ← whens (expr agg n) n (casesText ts ++ (optText (ascii " ELSE ") y ++ (ascii " END" ++ rest)))
      let (d, q) ← opt (expr agg n) (ascii " ELSE ") q
      let q ← lit (ascii " END") q
      some (Expr.case true c d cs, q)) = some (.case true c d cs, rest) := by
    intro n hn c rest hr
    obtain ⟨m1, m2, m3, m4⟩ := tail rest hr
    have a1 := k3 n (by omega) n (by omega) _ m1 m2
    have a2 := opt_read fmt agg (sep := ascii " ELSE ") y1 (y3 n (by omega)) m3 m4
    simp [a1, a2, lit_app]
  cases c with
  | none =>
    have htext : toText fmt (.case true none d cs) = some (ascii "CASE" ++ (casesText ts ++ (optText (ascii " ELSE ") y ++ ascii " END"))) := by
      cases y <;> simp [toText, toTextO, k1, y1, optText, casesText]
    have hmark : ∀ rest, NoWord rest → ∃ r, casesText ts ++ (optText (ascii " ELSE ") y ++ (ascii " END" ++ rest)) = 32 :: r ∧ r.takeWhile isWord ∈ markers := by
      intro rest hr
      cases ts with
      | cons wt ts =>
        refine ⟨ascii "WHEN" ++ (32 :: (wt.1 ++ (ascii " THEN " ++ (wt.2 ++ (casesText ts ++ (optText (ascii " ELSE ") y ++ (ascii " END" ++ rest))))))), ?_, ?_⟩
        · rw [show ascii "WHEN" = [87, 72, 69, 78] from by decide +kernel]; simp [casesText, a_when]
        · rw [(take_word (by decide +kernel) (noWord_cons (by decide) _)).1]; decide +kernel
      | nil =>
        cases y with
        | some t =>
          refine ⟨ascii "ELSE" ++ (32 :: (t ++ (ascii " END" ++ rest))), ?_, ?_⟩
          · rw [show ascii "ELSE" = [69, 76, 83, 69] from by decide +kernel]; simp [casesText, optText, a_else]
          · rw [(take_word (by decide +kernel) (noWord_cons (by decide) _)).1]; decide +kernel
        | none =>
          refine ⟨ascii "END" ++ rest, ?_, ?_⟩
          · rw [show ascii "END" = [69, 78, 68] from by decide +kernel]; simp [casesText, optText, a_endc]
          · rw [(take_word (by decide +kernel) hr).1]; decide +kernel
    obtain ⟨r0, e0, _⟩ := hmark [] noWord_nil
    refine good_word fmt agg htext (by decide +kernel) (by decide +kernel) (.inr ⟨32, r0, by simpa using e0, by decide, by decide, by decide, fun _ => rfl⟩) ⟨max N1 N2, fun n hn rest hr _ => ?_⟩
    obtain ⟨r, e1, e2⟩ := hmark rest (stops_noWord hr)
    have e : casesText ts ++ (optText (ascii " ELSE ") y ++ ascii " END") ++ rest = casesText ts ++ (optText (ascii " ELSE ") y ++ (ascii " END" ++ rest)) := by simp
    rw [e, worded]
    rw [show lit [40] (casesText ts ++ (optText (ascii " ELSE ") y ++ (ascii " END" ++ rest))) = none from by rw [e1]; simp]
    simp only
    rw [plainWord, if_pos rfl, caseBody, show lit [32] (casesText ts ++ (optText (ascii " ELSE ") y ++ (ascii " END" ++ rest))) = some r from by rw [e1]; simp]
    simp only [Option.bind_eq_bind, Option.bind_some, if_pos e2]
    exact rd n hn none rest hr
  | some c =>
    obtain ⟨t, h1, _, ⟨w, u, h3⟩, _, N3, h5⟩ := hc c rfl
    have htext : toText fmt (.case true (some c) d cs) = some (ascii "CASE" ++ 32 :: (t ++ (casesText ts ++ (optText (ascii " ELSE ") y ++ ascii " END")))) := by
      cases y <;> simp [toText, toTextO, h1, k1, y1, optText, casesText]
    refine good_word fmt agg htext (by decide +kernel) (by decide +kernel) (.inr ⟨32, _, rfl, by decide, by decide, by decide, fun _ => rfl⟩) ⟨max N3 (max N1 N2), fun n hn rest hr _ => ?_⟩
    have e : 32 :: (t ++ (casesText ts ++ (optText (ascii " ELSE ") y ++ ascii " END"))) ++ rest = 32 :: (t ++ (casesText ts ++ (optText (ascii " ELSE ") y ++ (ascii " END" ++ rest)))) := by simp
    have m := cases_ends ts (tail rest hr).1
    have s1 := (shape_span h3 (stops_noWord (ends_stops m))).1
    rw [e, worded, lit_cons, if_neg (by decide)]
    simp only
    rw [plainWord, if_pos rfl, caseBody, lit_cons, if_pos rfl, lit_nil]
    simp only [Option.bind_eq_bind, Option.bind_some, s1, if_neg h3.free.1, h5 n (by omega) _ m, Option.map_some]
    exact rd n (by omega) (some c) rest hr

/-! ## All plain expressions -/

theorem good {e : Expr} (h : Plain agg e) : Good fmt agg e := by
  induction h with
  | const v h => exact good_const fmt agg h
  | front o f e ho _ ih => exact good_front fmt agg ho ih
  | behind o e ho hb _ ih => exact good_behind fmt agg ho hb ih
  | binary o l r ho _ _ ihl ihr => exact good_binary fmt agg ho ihl ihr
  | subscript l r hb _ _ ihl ihr => exact good_subscript fmt agg hb ihl ihr
  | «attribute» l p hb hn hp _ ih => exact good_attribute fmt agg hb hn hp ih
  | labelAttribute l p hl hp => exact good_labelAttribute fmt agg hl hp
  | column i => exact good_column fmt agg i
  | logical o e es hne _ _ ih ihs => exact good_logical fmt agg hne ih ihs
  | cast t e ht _ ih => exact good_cast fmt agg ht ih
  | call n es hn hc ha _ ih => exact good_call fmt agg hn hc ha ih
  | input p hp => exact good_input fmt agg hp
  | varProp v p hv hp => exact good_varProp fmt agg hv hp
  | src t p ht hp => exact good_src fmt agg ht hp
  | dst t p ht hp => exact good_dst fmt agg ht hp
  | vertex => exact good_vertex fmt agg
  | edge => exact good_edge fmt agg
  | uuid f h0 h => exact good_uuid fmt agg h0 h
  | var n hn => exact good_var fmt agg hn
  | versionedVar n e hn _ ih => exact good_versioned fmt agg hn ih
  | coll k es hne _ ih =>
    cases k
    · exact good_list fmt agg hne ih
    · exact good_set fmt agg hne ih
    · exact good_path fmt agg hne ih
  | map kvs hne hk _ ih => exact good_map fmt agg hne hk ih
  | label n hn => exact good_label fmt agg hn
  | case c d cs _ _ _ _ ihc ihd ihw iht => exact good_case fmt agg ihc ihd ihw iht
  | choice w t d _ _ _ ihw iht ihd => exact good_choice fmt agg ihw iht ihd
  | predicate n i c f hn hi _ _ ihc ihf => exact good_predicate fmt agg hn hi ihc ihf
  | «exists» c _ ih => exact good_exists fmt agg ih
  | listComp i c f m hi _ _ _ ihc ihf ihm => exact good_listComp fmt agg hi ihc ihf ihm
  | reduce a i v c m ha hv _ _ _ ihi ihc ihm => exact good_reduce fmt agg ha hv ihi ihc ihm
  | aggregate n d e hn hc ha hs _ ih => exact good_aggregate fmt agg hn hc ha hs ih
  | range l lo hi hb _ _ _ ihl ihlo ihhi => exact good_range fmt agg hb ihl ihlo ihhi

/-! ## C120 -/

/-- **C120: two plain expressions with the same text are the same expression**, and every plain expression has a text. -/
theorem C120_text_partial {e₁ e₂ : Expr} (h₁ : Plain agg e₁) (h₂ : Plain agg e₂) : (∃ t, toText fmt e₁ = some t) ∧ (toText fmt e₁ = toText fmt e₂ → e₁ = e₂) := by
  obtain ⟨t, a1, _, _, _, N1, a5⟩ := good fmt agg h₁
  obtain ⟨s, b1, _, _, _, N2, b5⟩ := good fmt agg h₂
  refine ⟨⟨t, a1⟩, fun h => ?_⟩
  rw [a1, b1] at h
  injection h with h
  subst h
  have c1 := a5 (max N1 N2) (by omega) [] rfl
  have c2 := b5 (max N1 N2) (by omega) [] rfl
  rw [c1] at c2
  injection c2 with c2
  exact (Prod.mk.inj c2).1

/-- `CASE WHEN (($-.age>=18) AND exists(v.name)) THEN [x IN $var[0..2] WHERE (x!="a b") | f(x)] ELSE {k:-1} END IS NOT NULL` is plain. -/
example : Plain (fun n => n == ascii "count") (.unary .isNotNull (.case true none (some (.map [(ascii "k", .const (.int (-1)))]))
    [(.logical .and [.binary .ge (.prop .input (ascii "$-") [] (ascii "age")) (.const (.int 18)), .predicate (ascii "exists") [] (.labelAttribute (ascii "v") (.str (ascii "name"))) none []],
      .listComp (ascii "x") (.range (.var (ascii "var") false) (some (.const (.int 0))) (some (.const (.int 2)))) (some (.binary .ne (.label (ascii "x")) (.const (.str (ascii "a b")))))
        (some (.call (ascii "f") [.label (ascii "x")])) [])])) := by
  have hx : Plain (fun n => n == ascii "count") (.label (ascii "x")) := .label _ (by decide +kernel)
  refine .behind _ _ (by decide) trivial (.case _ _ _ (by simp) ?_ ?_ ?_)
  · rintro _ ⟨⟩
    refine .map _ (by simp) (by decide +kernel) ?_
    intro kv hkv; rw [List.mem_singleton] at hkv; subst hkv; exact .const _ (.int _)
  · intro wt hwt; rw [List.mem_singleton] at hwt; subst hwt
    refine .logical _ _ _ (by simp) (.binary _ _ _ ⟨by decide, by decide⟩ (.input _ (by decide +kernel)) (.const _ (.int _))) ?_
    intro x hx; rw [List.mem_singleton] at hx; subst hx
    exact .exists _ (.labelAttribute _ _ (by decide +kernel) (by decide +kernel))
  · intro wt hwt; rw [List.mem_singleton] at hwt; subst hwt
    refine .listComp _ _ _ _ (by decide +kernel) (.range _ _ _ trivial (.var _ (by decide +kernel)) ?_ ?_) ?_ ?_
    · rintro _ ⟨⟩; exact .const _ (.int _)
    · rintro _ ⟨⟩; exact .const _ (.int _)
    · rintro _ ⟨⟩; exact .binary _ _ _ ⟨by decide, by decide⟩ hx (.const _ (.str _ (by decide +kernel)))
    · rintro _ ⟨⟩
      refine .call _ _ (by decide +kernel) (by decide +kernel) (by decide +kernel) ?_
      intro y hy; rw [List.mem_singleton] at hy; subst hy; exact hx

/-- **C120 fails for casts:** what stands behind a cast belongs to the cast or to its operand. -/
theorem C120_cast_violated : toText fmt (.unary .isNull (.cast 4 (.label (ascii "a")))) = toText fmt (.cast 4 (.unary .isNull (.label (ascii "a")))) ∧
    toText fmt (.binary .subscript (.cast 2048 (.label (ascii "a"))) (.const (.int 0))) = toText fmt (.cast 2048 (.binary .subscript (.label (ascii "a")) (.const (.int 0)))) := by
  simp [toText, UnOp.front]

/-- **C120 fails for properties:** a property of a tag, of an edge and of a label look alike, and so does an attribute of a label and of a variable. -/
theorem C120_property_violated (t p : Bytes) (ht : t ≠ []) : toText fmt (.prop .tag [] t p) = toText fmt (.prop .edge [] t p) ∧
    toText fmt (.prop .tag [] t p) = toText fmt (.labelAttribute t (.str p)) ∧ toText fmt (.binary .attribute (.label t) (.const (.str p))) = toText fmt (.labelAttribute t (.str p)) ∧
    toText fmt (.binary .attribute (.var t false) (.const (.str p))) = toText fmt (.prop .var (ascii "$") t p) := by
  simp [toText, propText, attrText, ht, a_dvar]

/-- **C120 fails for variables:** an inner variable looks like a variable of the query. -/
theorem C120_inner_violated (n : Bytes) : toText fmt (.var n true) = toText fmt (.var n false) := by
  simp [toText]

/-- **C120 fails for containers:** a constant list looks like a list of constants, a constant text with quotation marks like two texts; an empty list has the text `]`, an empty set and an
empty map are both `}`. -/
theorem C120_container_violated : toText fmt (.const (.list [.int 1])) = toText fmt (.coll .list [.const (.int 1)]) ∧
    toText fmt (.coll .list [.const (.str (ascii "a\",\"b"))]) = toText fmt (.coll .list [.const (.str (ascii "a")), .const (.str (ascii "b"))]) ∧
    toText fmt (.coll .list []) = some (ascii "]") ∧ toText fmt (.coll .set []) = some (ascii "}") ∧ toText fmt (.map []) = some (ascii "}") := by
  simp only [toText, toTexts, toTextKvs, Value.text, Value.texts, Value.joinComma, CollKind.opening, CollKind.closing]
  simp
  decide +kernel

/-- **C120 fails for calls:** an aggregate looks like a call of a function of that name, and an aggregate of a constant text like one of a label; a column looks like an item of a label. -/
theorem C120_call_violated (n s : Bytes) (i : Int) : toText fmt (.aggregate n false (some (.label s))) = toText fmt (.call n [.label s]) ∧
    toText fmt (.aggregate n false (some (.const (.str s)))) = toText fmt (.aggregate n false (some (.label s))) ∧
    toText fmt (.column i) = toText fmt (.binary .subscript (.label (ascii "COLUMN")) (.const (.int i))) := by
  simp [toText, toTexts, joinWith, Value.text, a_column]

/-- **C120 fails for text search:** the operator of a search without fuzziness is not part of the text. -/
theorem C120_search_violated (k : TextKind) (a : TextArg) (h : a.fuzziness < -1) (op : Bytes) : toText fmt (.text k { a with op := op }) = toText fmt (.text k a) := by
  have h1 : a.fuzziness ≠ -1 := by omega
  have h2 : ¬ a.fuzziness > -1 := by omega
  simp only [toText, textArgText, if_neg h1, if_neg h2]

/-- **Not every expression has a text:** an attribute whose name is a label passes the check of the code and is then used as a constant; a logical expression without operands has no first
operand; a conditional expression without an alternative and an aggregate without an argument follow a null pointer. -/
theorem C120_undefined_violated (o : LogOp) (l : Expr) (n : Bytes) : toText fmt (.binary .attribute l (.label n)) = none ∧ toText fmt (.logical o []) = none ∧
    (∀ c cs, toText fmt (.case false c none cs) = none) ∧ (∀ d, toText fmt (.aggregate n d none) = none) := by
  refine ⟨?_, by simp [toText, toTexts], ?_, by simp [toText]⟩
  · rw [toText]
    cases toText fmt l <;> rfl
  · intro c cs
    simp [toText]

end Expr
end Nebula
