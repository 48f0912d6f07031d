import Verif.Regex.Uses
import Verif.Conf.Model
/-!
# The patterns in the source (comments in configuration files)
-/
namespace Nebula
namespace Regex

def slashesRe : Re := .seq (.chr 47) (.seq (.chr 47) (.seq (.star .dot) .empty))
def hashRe : Re := .seq (.chr 35) (.seq (.star .dot) .empty)
def commentRe : Re := .alt slashesRe hashRe

theorem parse_comment : parse (ascii "//.*|#.*") = some commentRe := by decide +kernel

/-- `std::regex_replace(s, std::regex(pattern), "")`. -/
def removeText (pattern s : Bytes) : Option Bytes := (parse pattern).map fun r => removeAll r s

theorem first_dots (t : St) : first anyEnd (.seq (.star .dot) .empty) t = some (t.after (t.rest.takeWhile notEol).length) := by
  rw [first, run_seq_empty, run_star isOne_dot]
  cases (t.rest.takeWhile notEol).length with
  | zero => rfl
  | succ m => rw [cuts, Nat.zero_add]; rfl

theorem first_alt (P : St → Bool) (a b : Re) (s : St) : first P (.alt a b) s = (first P a s).or (first P b s) := by
  rw [first, run, List.find?_append]; rfl

theorem first_comment (t : St) : first anyEnd commentRe t =
    if t.rest.head? = some 35 then some (t.after (1 + ((t.rest.drop 1).takeWhile notEol).length))
    else if t.rest.head? = some 47 ∧ (t.rest.drop 1).head? = some 47 then some (t.after (2 + ((t.rest.drop 2).takeWhile notEol).length))
    else none := by
  rw [commentRe, first_alt, slashesRe, hashRe, first_chr, first_chr, first_chr, first_dots, first_dots]
  simp only [after_after]
  have e : ∀ j, (t.after j).rest = t.rest.drop j := fun j => rfl
  simp only [e]
  by_cases h1 : t.rest.head? = some 35
  · simp [h1]
  · by_cases h2 : t.rest.head? = some 47
    · by_cases h3 : (t.rest.drop 1).head? = some 47
      · simp [h2, h3]
      · simp [h2, h3]
    · simp [h1, h2]

theorem strip_in : ∀ (s : Bytes), Conf.strip true s = Conf.strip false (s.dropWhile notEol)
  | [] => rfl
  | c :: s => by
    by_cases h : c = 10 ∨ c = 13
    · have hn : notEol c = false := by rcases h with rfl | rfl <;> rfl
      rw [List.dropWhile_cons_of_neg (by simp [hn]), Conf.strip, if_pos h, Conf.strip]
      have h35 : c ≠ 35 := by rcases h with rfl | rfl <;> decide
      have h47 : c ≠ 47 := by rcases h with rfl | rfl <;> decide
      rw [if_neg h35, if_neg (fun h' => h47 h'.1)]
    · have hn : notEol c = true := by simpa [notEol] using h
      rw [List.dropWhile_cons_of_pos hn, Conf.strip, if_neg h, strip_in s]

/-- A comment at the beginning. -/
theorem comment_at (pos : Nat) (s : Bytes) :
    (matchAt commentRe pos s = none ∧ ∀ c r, s = c :: r → Conf.strip false s = c :: Conf.strip false r) ∨
    ∃ m, matchAt commentRe pos s = some m ∧ m.prefix_ = [] ∧ m.text ≠ [] ∧ s = m.text ++ m.suffix ∧ Conf.strip false s = Conf.strip false m.suffix := by
  have hm : matchAt commentRe pos s = (first anyEnd commentRe ⟨pos, s, []⟩).map fun t => ⟨[], s.take (s.length - t.rest.length), t.rest, t.caps⟩ := by
    rw [matchAt, head?_eq_find?]; rfl
  rw [first_comment] at hm
  simp only at hm
  have key : ∀ n, 0 < n → n ≤ s.length → Conf.strip false s = Conf.strip false (s.drop n) →
      matchAt commentRe pos s = some ⟨[], s.take (s.length - (s.drop n).length), s.drop n, []⟩ → ∃ m, matchAt commentRe pos s = some m ∧ m.prefix_ = [] ∧
      m.text ≠ [] ∧ s = m.text ++ m.suffix ∧ Conf.strip false s = Conf.strip false m.suffix := by
    intro n h0 hn hs h
    refine ⟨_, h, rfl, ?_, ?_, hs⟩
    · simp only [List.length_drop]
      rw [show s.length - (s.length - n) = n by omega]
      intro h'
      have := congrArg List.length h'
      rw [List.length_take, List.length_nil] at this; omega
    · simp only [List.length_drop]
      rw [show s.length - (s.length - n) = n by omega, List.take_append_drop]
  cases s with
  | nil => left; exact ⟨hm, fun c r h => by cases h⟩
  | cons c r =>
    simp only [List.head?_cons, Option.some.injEq, List.drop_succ_cons, List.drop_zero] at hm
    by_cases h1 : c = 35
    · right
      rw [if_pos h1] at hm
      refine key (1 + (r.takeWhile notEol).length) (by omega) ?_ ?_ hm
      · have := List.Sublist.length_le (List.takeWhile_sublist (p := notEol) (l := r)); simp; omega
      · rw [Conf.strip, if_pos h1, strip_in, Nat.add_comm, List.drop_succ_cons, drop_takeWhile]
    · rw [if_neg h1] at hm
      by_cases h2 : c = 47 ∧ r.head? = some 47
      · right
        rw [if_pos h2] at hm
        obtain ⟨r', rfl⟩ : ∃ r', r = 47 :: r' := by
          cases r with
          | nil => simp at h2
          | cons d r' => simp at h2; exact ⟨r', by rw [h2.2]⟩
        refine key (2 + (r'.takeWhile notEol).length) (by omega) ?_ ?_ hm
        · have := List.Sublist.length_le (List.takeWhile_sublist (p := notEol) (l := r')); simp; omega
        · rw [Conf.strip, if_neg h1, if_pos h2, Conf.strip, if_neg (by decide), strip_in,
            show 2 + (r'.takeWhile notEol).length = (r'.takeWhile notEol).length + 1 + 1 by omega, List.drop_succ_cons, List.drop_succ_cons, drop_takeWhile]
      · left
        rw [if_neg h2] at hm
        refine ⟨hm, fun c' r' h => ?_⟩
        cases h
        rw [Conf.strip, if_neg h1, if_neg h2]

theorem comment_search : ∀ (s : Bytes) (pos : Nat),
    (searchFrom commentRe pos s = none ∧ Conf.strip false s = s) ∨
    ∃ m, searchFrom commentRe pos s = some m ∧ m.text ≠ [] ∧ s = m.prefix_ ++ (m.text ++ m.suffix) ∧ Conf.strip false s = m.prefix_ ++ Conf.strip false m.suffix
  | [], pos => by
    rw [searchFrom]
    rcases comment_at pos [] with ⟨h, _⟩ | ⟨m, h1, h2, h3, h4, h5⟩
    · exact .inl ⟨h, rfl⟩
    · exact .inr ⟨m, h1, h3, by rw [h2]; exact h4, by rw [h2]; exact h5⟩
  | c :: s, pos => by
    rw [searchFrom]
    rcases comment_at pos (c :: s) with ⟨h, h'⟩ | ⟨m, h1, h2, h3, h4, h5⟩
    · rw [h, h' c s rfl]
      rcases comment_search s (pos + 1) with ⟨e1, e2⟩ | ⟨m, e1, e2, e3, e4⟩
      · exact .inl ⟨by rw [e1]; rfl, by rw [e2]⟩
      · exact .inr ⟨{ m with prefix_ := c :: m.prefix_ }, by rw [e1]; rfl, e2, by simp only [List.cons_append]; rw [← e3], by simp only [List.cons_append]; rw [e4]⟩
    · exact .inr ⟨m, by rw [h1], h3, by rw [h2]; exact h4, by rw [h2]; exact h5⟩

theorem comment_remove : ∀ (f pos : Nat) (s : Bytes), s.length ≤ f →
    (matches_ commentRe f pos s).1.flatMap (·.prefix_) ++ (matches_ commentRe f pos s).2 = Conf.strip false s
  | 0, pos, s, h => by
    have h0 : s = [] := List.length_eq_zero_iff.1 (by omega)
    rw [h0]; rfl
  | f + 1, pos, s, h => by
    rw [matches_]
    rcases comment_search s pos with ⟨e1, e2⟩ | ⟨m, e1, e2, e3, e4⟩
    · rw [e1, e2]; rfl
    · rw [e1]
      simp only [if_neg e2, List.flatMap_cons, List.append_assoc]
      have hl := congrArg List.length e3
      have := List.length_pos_iff.2 e2
      simp only [List.length_append] at hl
      rw [comment_remove f _ m.suffix (by omega), e4]

/-- **C98 (the pattern).** The text of a file without its comments is the text without what the pattern matches. -/
theorem C98_pattern (s : Bytes) : removeText (ascii "//.*|#.*") s = some (Conf.strip false s) := by
  rw [removeText, parse_comment, Option.map_some, removeAll, allMatches, comment_remove _ _ _ (Nat.le_refl _)]

end Regex
end Nebula
