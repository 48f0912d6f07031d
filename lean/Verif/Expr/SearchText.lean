import Verif.Expr.TextProps
/-!
# C120: the texts of text searches
-/
namespace Nebula
namespace Expr
variable (fmt : F64 → Bytes)

/-! ## What the text says -/

/-- What follows the value in the text of a search. -/
inductive SearchWord where
  | auto
  | num (i : Int)
  | either
  | both
deriving DecidableEq

def SearchWord.shown : SearchWord → Bytes
  | .auto => ascii "AUTO"
  | .num i => intDec i
  | .either => ascii "OR"
  | .both => ascii "AND"

/-- The fuzziness and the operator, if there is a fuzziness; the limit and the time out, if they are given. -/
def _root_.Nebula.TextArg.said (a : TextArg) : List SearchWord :=
  (if a.fuzziness < -1 then [] else [if a.fuzziness = -1 then .auto else .num a.fuzziness, if a.op = ascii "or" then .either else .both]) ++
    (if a.limit = -1 then [] else [.num a.limit]) ++ (if a.timeout = -1 then [] else [.num a.timeout])

/-- **C120 (searches).** The text of a search: its kind, the column, the value between quotation marks, and what else is said. -/
theorem C120_search_text (k : TextKind) (a : TextArg) : toText fmt (.text k a) = some (
    (match k with | .prefix => ascii "PREFIX" | .wildcard => ascii "WILDCARD" | .regexp => ascii "REGEXP" | .fuzzy => ascii "FUZZY") ++
    ascii "(" ++ a.from ++ ascii "." ++ a.prop ++ ascii ", " ++ ascii "\"" ++ a.val ++ ascii "\"" ++ (a.said.flatMap fun w => ascii ", " ++ w.shown) ++ ascii ")") := by
  have hw : TextKind.word k = (match k with | .prefix => ascii "PREFIX" | .wildcard => ascii "WILDCARD" | .regexp => ascii "REGEXP" | .fuzzy => ascii "FUZZY") ++ ascii "(" := by
    cases k <;> decide +kernel
  have h46 : ascii "." = [46] := by decide +kernel
  have h34 : ascii "\"" = [34] := by decide +kernel
  have h41 : ascii ")" = [41] := by decide +kernel
  have hauto : ascii ", AUTO, " = ascii ", " ++ ascii "AUTO" ++ ascii ", " := by decide +kernel
  rw [toText, hw, h46, h34, h41]
  congr 1
  unfold textArgText Nebula.TextArg.said
  simp only [hauto]
  have hlt : a.fuzziness < -1 ∨ a.fuzziness = -1 ∨ -1 < a.fuzziness := by omega
  have l1 : ∀ i : Int, (List.flatMap (fun w => ascii ", " ++ w.shown) (if i = -1 then [] else [SearchWord.num i])) = if i = -1 then [] else ascii ", " ++ intDec i := by
    intro i; split <;> simp [SearchWord.shown]
  have l2 : (List.flatMap (fun w => ascii ", " ++ w.shown) (if a.fuzziness < -1 then [] else [if a.fuzziness = -1 then .auto else .num a.fuzziness, if a.op = ascii "or" then SearchWord.either else .both])) =
      (if a.fuzziness = -1 then ascii ", " ++ ascii "AUTO" ++ ascii ", " ++ (if a.op = ascii "or" then ascii "OR" else ascii "AND")
        else if a.fuzziness > -1 then ascii ", " ++ intDec a.fuzziness ++ ascii ", " ++ (if a.op = ascii "or" then ascii "OR" else ascii "AND") else []) := by
    have hop : SearchWord.shown (if a.op = ascii "or" then .either else .both) = if a.op = ascii "or" then ascii "OR" else ascii "AND" := by split <;> rfl
    rcases hlt with h | h | h
    · rw [if_pos h, if_neg (by omega), if_neg (by omega)]; rfl
    · rw [if_neg (by omega), if_pos h, if_pos h]
      simp only [List.flatMap_cons, List.flatMap_nil, List.append_nil, hop, List.append_assoc]; rfl
    · have h1 : ¬ a.fuzziness < -1 := by omega
      have h2 : a.fuzziness ≠ -1 := by omega
      rw [if_neg h1, if_neg h2, if_neg h2, if_pos h]
      simp only [List.flatMap_cons, List.flatMap_nil, List.append_nil, hop, List.append_assoc]; rfl
  rw [List.flatMap_append, List.flatMap_append, l1, l1, l2]
  simp only [List.append_assoc, List.cons_append, List.nil_append]

/-! ## What can be read off -/

/-- Texts without breaks before the first break are the same. -/
theorem break_cut {p : UInt8 → Bool} : ∀ {x y r s : Bytes}, (∀ c ∈ x, p c = false) → (∀ c ∈ y, p c = false) → (∃ c t, r = c :: t ∧ p c = true) → (∃ c t, s = c :: t ∧ p c = true) →
    x ++ r = y ++ s → x = y ∧ r = s
  | [], [], _, _, _, _, _, _, h => ⟨rfl, h⟩
  | [], d :: y, r, s, _, hy, ⟨c, t, e, hc⟩, _, h => by
    subst e
    simp only [List.nil_append, List.cons_append, List.cons.injEq] at h
    exact absurd (hy d List.mem_cons_self) (by rw [← h.1, hc]; decide)
  | d :: x, [], r, s, hx, _, _, ⟨c, t, e, hc⟩, h => by
    subst e
    simp only [List.nil_append, List.cons_append, List.cons.injEq] at h
    exact absurd (hx d List.mem_cons_self) (by rw [h.1, hc]; decide)
  | d :: x, d' :: y, r, s, hx, hy, hr, hs, h => by
    simp only [List.cons_append, List.cons.injEq] at h
    obtain ⟨e1, e2⟩ := break_cut (fun c hc => hx c (List.mem_cons_of_mem _ hc)) (fun c hc => hy c (List.mem_cons_of_mem _ hc)) hr hs h.2
    exact ⟨by rw [h.1, e1], e2⟩

theorem byte_cut {b : UInt8} {x y r s : Bytes} (hx : b ∉ x) (hy : b ∉ y) (h : x ++ b :: r = y ++ b :: s) : x = y ∧ r = s := by
  have := break_cut (p := (· == b)) (fun c hc => by simpa using fun e : c = b => hx (e ▸ hc)) (fun c hc => by simpa using fun e : c = b => hy (e ▸ hc)) ⟨b, r, rfl, by simp⟩ ⟨b, s, rfl, by simp⟩ h
  exact ⟨this.1, (List.cons.inj this.2).2⟩

theorem shown_bytes (w : SearchWord) : ∀ c ∈ w.shown, (c == 44 || c == 41) = false := by
  cases w with
  | auto => decide +kernel
  | either => decide +kernel
  | both => decide +kernel
  | num i =>
    obtain ⟨c, cs, e, h1, h2⟩ := intDec_shape i
    have hd : ∀ c : UInt8, isDigit c = true → (c == 44 || c == 41) = false := by
      intro c hc
      by_cases h4 : c = 44
      · subst h4; exact absurd hc (by decide)
      · by_cases h5 : c = 41
        · subst h5; exact absurd hc (by decide)
        · simp [h4, h5]
    intro d hm
    rw [SearchWord.shown, e] at hm
    rcases List.mem_cons.mp hm with rfl | hm
    · rcases h1 with h1 | h1
      · exact hd _ h1
      · rw [h1]; decide
    · exact hd _ (h2 _ hm)

theorem shown_inj : ∀ {v w : SearchWord}, v.shown = w.shown → v = w := by
  have hn : ∀ (i : Int) (c : UInt8) (cs : Bytes), intDec i = c :: cs → isDigit c = true ∨ c = 45 := by
    intro i c cs h
    obtain ⟨c', cs', e, h1, _⟩ := intDec_shape i
    rw [e] at h
    rw [← (List.cons.inj h).1]; exact h1
  have ha : ascii "AUTO" = 65 :: ascii "UTO" := by decide +kernel
  have ho : ascii "OR" = 79 :: ascii "R" := by decide +kernel
  have hb : ascii "AND" = 65 :: ascii "ND" := by decide +kernel
  intro v w h
  cases v <;> cases w
  · rfl
  · exact absurd (hn _ _ _ (h.symm.trans ha)) (by decide)
  · exact absurd h (by decide +kernel)
  · exact absurd h (by decide +kernel)
  · exact absurd (hn _ _ _ (h.trans ha)) (by decide)
  · rw [intDec_inj h]
  · exact absurd (hn _ _ _ (h.trans ho)) (by decide)
  · exact absurd (hn _ _ _ (h.trans hb)) (by decide)
  · exact absurd h (by decide +kernel)
  · exact absurd (hn _ _ _ (h.symm.trans ho)) (by decide)
  · rfl
  · exact absurd h (by decide +kernel)
  · exact absurd h (by decide +kernel)
  · exact absurd (hn _ _ _ (h.symm.trans hb)) (by decide)
  · exact absurd h (by decide +kernel)
  · rfl

theorem said_inj : ∀ {v w : List SearchWord}, (v.flatMap fun x => ascii ", " ++ x.shown) ++ [41] = (w.flatMap fun x => ascii ", " ++ x.shown) ++ [41] → v = w := by
  have hc : ascii ", " = [44, 32] := by decide +kernel
  have start : ∀ v : List SearchWord, ∃ c t, (v.flatMap fun x => ascii ", " ++ x.shown) ++ [41] = c :: t ∧ (c == 44 || c == 41) = true := by
    intro v
    cases v with
    | nil => exact ⟨41, [], rfl, by decide⟩
    | cons x v => exact ⟨44, _, by rw [List.flatMap_cons, hc]; rfl, by decide⟩
  intro v
  induction v with
  | nil =>
    intro w h
    cases w with
    | nil => rfl
    | cons y w =>
      rw [List.flatMap_cons, hc] at h
      exact absurd (List.cons.inj h).1 (by decide)
  | cons x v ih =>
    intro w h
    cases w with
    | nil =>
      rw [List.flatMap_cons, hc] at h
      exact absurd (List.cons.inj h).1 (by decide)
    | cons y w =>
      simp only [List.flatMap_cons, List.append_assoc] at h
      have h' := List.append_cancel_left h
      obtain ⟨e1, e2⟩ := break_cut (p := fun c => c == 44 || c == 41) (shown_bytes x) (shown_bytes y) (start v) (start w) h'
      rw [shown_inj e1, ih e2]

/-- **C120 (searches).** Two searches have the same text exactly if they are of one kind, in one column, for one value, and say the same — if columns and values keep clear of the
marks around them: no dot in the name of the table, no comma in that of the column, no quotation mark in the value. -/
theorem C120_search_partial {k k' : TextKind} {a a' : TextArg} (hf : (46 : UInt8) ∉ a.from ∧ (46 : UInt8) ∉ a'.from) (hp : (44 : UInt8) ∉ a.prop ∧ (44 : UInt8) ∉ a'.prop)
    (hv : (34 : UInt8) ∉ a.val ∧ (34 : UInt8) ∉ a'.val) :
    toText fmt (.text k a) = toText fmt (.text k' a') ↔ k = k' ∧ a.from = a'.from ∧ a.prop = a'.prop ∧ a.val = a'.val ∧ a.said = a'.said := by
  have h46 : ascii "." = [46] := by decide +kernel
  have h34 : ascii "\"" = [34] := by decide +kernel
  have h41 : ascii ")" = [41] := by decide +kernel
  have hc : ascii ", " = [44, 32] := by decide +kernel
  constructor
  · intro h
    rw [C120_search_text, C120_search_text, Option.some.injEq] at h
    have hk : k = k' := by
      have hh := congrArg List.head? h
      simp only [List.append_assoc] at hh
      cases k <;> cases k' <;> first | rfl | (exfalso; revert hh; simp only [show ascii "PREFIX" = 80 :: ascii "REFIX" by decide +kernel, show ascii "WILDCARD" = 87 :: ascii "ILDCARD" by decide +kernel, show ascii "REGEXP" = 82 :: ascii "EGEXP" by decide +kernel, show ascii "FUZZY" = 70 :: ascii "UZZY" by decide +kernel, List.cons_append, List.head?_cons, Option.some.injEq]; decide)
    subst hk
    simp only [List.append_assoc] at h
    have h := List.append_cancel_left (List.append_cancel_left h)
    rw [h46, h34, h41] at h
    simp only [List.singleton_append] at h
    obtain ⟨e1, h⟩ := byte_cut hf.1 hf.2 h
    have hs : ∀ (q : Bytes) (t : Bytes), q ++ (ascii ", " ++ t) = q ++ 44 :: (32 :: t) := fun q t => by rw [hc]; rfl
    rw [hs, hs] at h
    obtain ⟨e2, h⟩ := byte_cut hp.1 hp.2 h
    have h := (List.cons.inj (List.cons.inj h).2).2
    obtain ⟨e3, h⟩ := byte_cut hv.1 hv.2 h
    exact ⟨rfl, e1, e2, e3, said_inj h⟩
  · rintro ⟨rfl, e1, e2, e3, e4⟩
    rw [C120_search_text, C120_search_text, e1, e2, e3, e4]

/-- A search that meets the conditions, and its text. -/
example : (46 : UInt8) ∉ (ascii "player") ∧ (44 : UInt8) ∉ (ascii "name") ∧ (34 : UInt8) ∉ (ascii "Tim, Tony") ∧
    toText fmt (.text .fuzzy ⟨ascii "player", ascii "name", ascii "Tim, Tony", ascii "or", -1, 100, -1⟩) = some (ascii "FUZZY(player.name, \"Tim, Tony\", AUTO, OR, 100)") := by
  rw [C120_search_text]
  exact ⟨by decide +kernel, by decide +kernel, by decide +kernel, by decide +kernel⟩

/-- **C120 fails for text search:** a limit looks like a time out. -/
theorem C120_limit_violated (k : TextKind) (a : TextArg) (n : Int) : toText fmt (.text k { a with limit := n, timeout := -1 }) = toText fmt (.text k { a with limit := -1, timeout := n }) := by
  rw [C120_search_text, C120_search_text]
  have : ({ a with limit := n, timeout := -1 } : TextArg).said = ({ a with limit := -1, timeout := n } : TextArg).said := by
    simp [Nebula.TextArg.said]
  rw [this]

end Expr
end Nebula
