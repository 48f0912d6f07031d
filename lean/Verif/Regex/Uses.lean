import Verif.Regex.Cuts
import Verif.Net.Ports
import Verif.Process.Model
import Verif.Meta.Kv
/-!
# The patterns in the source (ports, pids, segments)

The models of the functions that use a pattern have it written out by hand.  Here they are shown to do what the text of
the pattern means.
-/
namespace Nebula
namespace Regex

/-- `std::regex_search(s, m, std::regex(pattern))`. -/
def searchText (pattern s : Bytes) : Option Match := (parse pattern).bind fun r => search r s
/-- `std::regex_match(s, m, std::regex(pattern))`. -/
def matchText (pattern s : Bytes) : Option Match := (parse pattern).bind fun r => fullMatch r s

/-- Any match. -/
abbrev anyEnd : St → Bool := fun _ => true
/-- A match that takes the whole text. -/
abbrev atEnd : St → Bool := fun t => t.rest.isEmpty

theorem head?_eq_find? (l : List St) : l.head? = l.find? anyEnd := by cases l <;> rfl

theorem map_findSome {α β γ : Type} (g : β → γ) (f : α → Option β) : ∀ (l : List α), (l.findSome? f).map g = l.findSome? fun x => (f x).map g
  | [] => rfl
  | a :: l => by
    rw [List.findSome?_cons, List.findSome?_cons]
    cases f a with
    | none => exact map_findSome g f l
    | some b => rfl

/-- Group `n` of the match at the beginning. -/
theorem matchAt_group (r : Re) (pos : Nat) (s : Bytes) (n : Nat) :
    (matchAt r pos s).map (·.group n) = (first anyEnd r ⟨pos, s, []⟩).map fun t => (t.caps.lookup n).getD [] := by
  rw [matchAt, first, head?_eq_find?, Option.map_map]; rfl

theorem fullMatch_group (r : Re) (s : Bytes) (n : Nat) :
    (fullMatch r s).map (·.group n) = (first atEnd r ⟨0, s, []⟩).map fun t => (t.caps.lookup n).getD [] := by
  rw [fullMatch, first, Option.map_map]; rfl

/-- Searching for a group: at each place in turn. -/
theorem search_group {r : Re} {n : Nat} {here : Bytes → Option Bytes}
    (h : ∀ pos s, (first anyEnd r ⟨pos, s, []⟩).map (fun t => (t.caps.lookup n).getD []) = here s) {go : Bytes → Option Bytes}
    (h0 : go [] = here []) (hs : ∀ c s, go (c :: s) = (match here (c :: s) with | some g => some g | none => go s)) :
    ∀ (s : Bytes) (pos : Nat), (searchFrom r pos s).map (·.group n) = go s
  | [], pos => by rw [searchFrom, matchAt_group, h, h0]
  | c :: s, pos => by
    have hm := matchAt_group r pos (c :: s) n
    rw [h] at hm
    rw [searchFrom, hs, ← hm]
    cases matchAt r pos (c :: s) with
    | some m => rfl
    | none =>
      simp only [Option.map_none, Option.map_map]
      rw [← search_group h h0 hs s (pos + 1)]
      cases searchFrom r (pos + 1) s <;> rfl

/-! ## Ports -/

def notColon : Cls := ⟨true, [(58, 58)]⟩
def hexCls : Cls := ⟨false, [(48, 57), (65, 70)]⟩
def portsTail : Re := .seq (.group 1 (.seq (Re.cls hexCls).plus .empty)) (.seq Re.dot.plus .empty)
def portsRe : Re := .seq (Re.cls notColon).plus (.seq (.chr 58) (.seq (Re.cls notColon).plus (.seq (.chr 58) portsTail)))

theorem parse_ports : parse (ascii "[^:]+:[^:]+:([0-9A-F]+).+") = some portsRe := by decide +kernel

theorem hex_has : hexCls.has = Net.isHex := by
  funext c
  simp [Cls.has, hexCls, Net.isHex]
theorem notColon_has : notColon.has = fun c => decide (c ≠ 58) := by
  funext c
  simp only [Cls.has, notColon, List.any_cons, List.any_nil, Bool.or_false]
  by_cases h : c = 58
  · subst h; rfl
  · have : ¬ ((58 : UInt8) ≤ c ∧ c ≤ 58) := fun ⟨h1, h2⟩ => h (UInt8.le_antisymm h2 h1)
    simp only [ne_eq, h, not_false_eq_true, decide_true]
    rcases Bool.eq_false_or_eq_true (decide ((58 : UInt8) ≤ c) && decide (c ≤ 58)) with h' | h'
    · rw [Bool.and_eq_true, decide_eq_true_eq, decide_eq_true_eq] at h'; exact absurd h' this
    · rw [h']; rfl

theorem dots (t : St) : (first anyEnd (.seq Re.dot.plus .empty) t).map (·.caps) =
    if (t.rest.head?.map notEol).getD false = true then some t.caps else none := by
  rw [first, run_seq_empty, run_plus isOne_dot]
  cases hr : t.rest with
  | nil => simp [cuts]
  | cons c r =>
    by_cases hp : notEol c = true
    · rw [List.takeWhile_cons_of_pos hp, List.length_cons, cuts]
      simp [hp, St.after]
    · rw [List.takeWhile_cons_of_neg hp]
      simp [hp, cuts]

theorem isHex_notEol {c : UInt8} (h : Net.isHex c = true) : notEol c = true := by
  simp only [notEol, Bool.and_eq_true, decide_eq_true_eq]
  constructor <;> rintro rfl <;> revert h <;> decide

theorem hexTail (t : St) : (first anyEnd portsTail t).map (fun t => (t.caps.lookup 1).getD []) = Net.hexGroup t.rest := by
  rw [portsTail, first_group_seq, run_seq_empty, run_plus (isOne_cls hexCls), hex_has, map_findSome]
  have hf : ∀ j, j ≤ t.rest.length → ((first anyEnd (.seq Re.dot.plus .empty)
      ⟨(t.after j).pos, (t.after j).rest, (1, t.rest.take (t.rest.length - (t.after j).rest.length)) :: (t.after j).caps⟩).map
        fun t => (t.caps.lookup 1).getD []) = if (t.rest[j]?.map notEol).getD false = true then some (t.rest.take j) else none := by
    intro j hj
    have := dots ⟨(t.after j).pos, (t.after j).rest, (1, t.rest.take (t.rest.length - (t.after j).rest.length)) :: (t.after j).caps⟩
    have e : t.rest.length - (t.rest.length - j) = j := by omega
    simp only [St.after, List.length_drop, e, List.head?_drop] at this ⊢
    rw [show (fun t : St => (t.caps.lookup 1).getD []) = (fun c => (List.lookup 1 c).getD []) ∘ (fun t : St => t.caps) from rfl, ← Option.map_map, this]
    split <;> simp
  generalize hm : (t.rest.takeWhile Net.isHex).length = m
  have hle : m ≤ t.rest.length := by rw [← hm]; exact List.Sublist.length_le (List.takeWhile_sublist _)
  unfold Net.hexGroup
  cases m with
  | zero =>
    have h0 : t.rest.takeWhile Net.isHex = [] := List.length_eq_zero_iff.1 hm
    rw [h0, cuts]
    cases t.rest.dropWhile Net.isHex <;> simp
  | succ m =>
    rw [cuts, List.findSome?_cons, Nat.zero_add, hf _ hle]
    have hd : t.rest[m + 1]? = (t.rest.dropWhile Net.isHex).head? := by
      rw [← drop_takeWhile, hm, List.head?_drop]
    have ht : t.rest.take (m + 1) = t.rest.takeWhile Net.isHex := by rw [← hm, take_takeWhile]
    have hne : t.rest.takeWhile Net.isHex ≠ [] := fun h => by rw [h] at hm; cases hm
    -- the second longest
    have h2 : ((cuts t 0 m).findSome? fun x => (first anyEnd (.seq Re.dot.plus .empty)
        ⟨x.pos, x.rest, (1, t.rest.take (t.rest.length - x.rest.length)) :: x.caps⟩).map fun t => (t.caps.lookup 1).getD []) =
        if 2 ≤ (t.rest.takeWhile Net.isHex).length then some (t.rest.takeWhile Net.isHex).dropLast else none := by
      rw [hm]
      cases m with
      | zero => rfl
      | succ k =>
        rw [cuts, List.findSome?_cons, Nat.zero_add, hf _ (by omega), if_pos (by omega : 2 ≤ k + 1 + 1)]
        obtain ⟨c, h1, h2⟩ := takeWhile_get (p := Net.isHex) (l := t.rest) (j := k + 1) (by omega)
        rw [h1]
        simp only [Option.map_some, Option.getD_some, isHex_notEol h2, if_true]
        congr 1
        rw [← ht]
        simp only [List.dropLast_eq_take, List.length_take, List.take_take]
        congr 1
        omega
    rw [hd]
    cases hw : t.rest.dropWhile Net.isHex with
    | nil => simpa using h2
    | cons c r =>
      simp only [List.head?_cons, Option.map_some, Option.getD_some, if_neg hne]
      by_cases hc : notEol c = true
      · have hc' : c ≠ 10 ∧ c ≠ 13 := by simpa [notEol] using hc
        simp only [hc, if_true]
        rw [if_pos hc', ht]
      · have hc' : ¬ (c ≠ 10 ∧ c ≠ 13) := by simpa [notEol] using hc
        simp only [hc, if_false]
        rw [if_neg hc']
        exact h2

theorem head_dropWhile_colon (s : Bytes) : (s.dropWhile fun c => decide (c ≠ 58)).head? = some 58 ∨ s.dropWhile (fun c => decide (c ≠ 58)) = [] := by
  cases h : s.dropWhile fun c => decide (c ≠ 58) with
  | nil => exact .inr rfl
  | cons c r =>
    have := List.head?_dropWhile_not (fun c : UInt8 => decide (c ≠ 58)) s
    rw [h] at this
    simp at this
    left; simp [this]

theorem portsHere (pos : Nat) (s : Bytes) : (first anyEnd portsRe ⟨pos, s, []⟩).map (fun t => (t.caps.lookup 1).getD []) = Net.matchHere s := by
  rw [portsRe, first_plus_chr (isOne_cls notColon) (by decide), notColon_has]
  unfold Net.matchHere
  by_cases h1 : s.takeWhile (fun c => decide (c ≠ 58)) = []
  · rw [if_pos h1, if_pos h1]; rfl
  · rw [if_neg h1, if_neg h1]
    rcases head_dropWhile_colon s with h2 | h2
    · obtain ⟨s1, hs1⟩ : ∃ s1, s.dropWhile (fun c => decide (c ≠ 58)) = 58 :: s1 := by
        cases h : s.dropWhile fun c => decide (c ≠ 58) with
        | nil => rw [h] at h2; cases h2
        | cons c r => rw [h] at h2; simp at h2; subst h2; exact ⟨r, rfl⟩
      have e1 : ((⟨pos, s, []⟩ : St).after ((s.takeWhile fun c => decide (c ≠ 58)).length + 1)).rest = s1 := by
        rw [St.after, ← List.drop_drop, drop_takeWhile, hs1]; rfl
      rw [if_pos h2, hs1, first_plus_chr (isOne_cls notColon) (by decide), notColon_has, e1]
      simp only
      by_cases h3 : s1.takeWhile (fun c => decide (c ≠ 58)) = []
      · rw [if_pos h3, if_pos h3]; rfl
      · rw [if_neg h3, if_neg h3]
        rcases head_dropWhile_colon s1 with h4 | h4
        · obtain ⟨s2, hs2⟩ : ∃ s2, s1.dropWhile (fun c => decide (c ≠ 58)) = 58 :: s2 := by
            cases h : s1.dropWhile fun c => decide (c ≠ 58) with
            | nil => rw [h] at h4; cases h4
            | cons c r => rw [h] at h4; simp at h4; subst h4; exact ⟨r, rfl⟩
          rw [if_pos h4, hs2, hexTail]
          congr 1
          show ((⟨pos, s, []⟩ : St).after _).rest.drop _ = s2
          rw [e1, ← List.drop_drop, drop_takeWhile, hs2]; rfl
        · rw [h4, if_neg (by simp)]; rfl
    · rw [h2, if_neg (by simp)]; rfl

/-- **C114 (the pattern).** The lines taken from the tables of sockets and the digits taken from them are those that the pattern finds. -/
theorem C114_pattern (l : Bytes) : Net.search l = (searchText (ascii "[^:]+:[^:]+:([0-9A-F]+).+") l).map (·.group 1) := by
  rw [searchText, parse_ports, Option.bind_some, search]
  refine (search_group portsHere (by rfl) (fun c s => ?_) l 0).symm
  rw [Net.search]
  cases Net.matchHere (c :: s) <;> rfl

/-! ## Pids -/

def digitCls : Cls := ⟨false, [(48, 57)]⟩
def pidRe : Re := .seq (.group 1 (.seq (Re.cls digitCls).plus .empty)) .empty

theorem parse_pid : parse (ascii "([0-9]+)") = some pidRe := by decide +kernel

theorem digit_has : digitCls.has = isDigit := by
  funext c
  simp [Cls.has, digitCls, isDigit]

theorem pidHere (pos : Nat) (s : Bytes) : (first anyEnd pidRe ⟨pos, s, []⟩).map (fun t => (t.caps.lookup 1).getD []) =
    if s.takeWhile isDigit = [] then none else some (s.takeWhile isDigit) := by
  rw [pidRe, first_group_seq, run_seq_empty, run_plus (isOne_cls digitCls), digit_has]
  cases hm : (s.takeWhile isDigit).length with
  | zero =>
    have h0 : s.takeWhile isDigit = [] := List.length_eq_zero_iff.1 hm
    rw [h0]; rfl
  | succ m =>
    have hne : s.takeWhile isDigit ≠ [] := fun h => by rw [h] at hm; cases hm
    have hle : m + 1 ≤ s.length := by rw [← hm]; exact List.Sublist.length_le (List.takeWhile_sublist _)
    rw [if_neg hne, cuts, List.findSome?_cons, first_empty]
    simp only [anyEnd, if_true, Option.map_some, St.after, List.length_drop, Nat.zero_add, List.lookup_cons, beq_self_eq_true, Option.getD_some]
    rw [show s.length - (s.length - (m + 1)) = m + 1 by omega, ← hm, take_takeWhile]

/-- **C108 (the pattern).** The number read from a pid file is what the pattern finds. -/
theorem C108_pattern (l : Bytes) :
    (searchText (ascii "([0-9]+)") l).map (·.group 1) = if Process.digitRun l = [] then none else some (Process.digitRun l) := by
  rw [searchText, parse_pid, Option.bind_some, search]
  refine search_group (go := fun l => if Process.digitRun l = [] then none else some (Process.digitRun l)) pidHere (by rfl) (fun c s => ?_) l 0
  unfold Process.digitRun
  by_cases h : isDigit c = true
  · rw [List.dropWhile_cons_of_neg (by simp [h]), List.takeWhile_cons_of_pos h]
    simp
  · rw [List.dropWhile_cons_of_pos (by simp [h]), List.takeWhile_cons_of_neg h]
    simp

/-! ## Segments -/

def wordCls : Cls := ⟨false, [(48, 57), (97, 122), (65, 90)]⟩
def segmentRe : Re := .seq .bol (.seq (Re.cls wordCls).plus (.seq .eol .empty))

theorem parse_segment : parse (ascii "^[0-9a-zA-Z]+$") = some segmentRe := by decide +kernel

theorem matches_star_cls {c : Cls} : ∀ {u : Bytes} {k : Nat} {t : Bytes}, (∀ x ∈ u, c.has x = true) → Matches (.star (.cls c)) k u t
  | [], _, _, _ => .stop
  | x :: u, k, t, h => .more (u := [x]) (.cls ((cls_has c x).1 (h x List.mem_cons_self)))
      (matches_star_cls fun y hy => h y (List.mem_cons_of_mem _ hy))

theorem star_cls_matches {c : Cls} {r : Re} {u : Bytes} {k : Nat} {t : Bytes} (h : Matches r k u t) (hr : r = .star (.cls c)) :
    ∀ x ∈ u, c.has x = true := by
  induction h with
  | stop => intro x hx; cases hx
  | more h1 _ _ ih2 =>
    cases hr
    intro x hx
    rcases List.mem_append.1 hx with hx | hx
    · cases h1 with
      | cls h => rw [List.mem_singleton] at hx; subst hx; exact (cls_has _ _).2 h
    · exact ih2 rfl x hx
  | _ => cases hr

/-- **C123 (the pattern).** The segments that are accepted are those that the pattern matches. -/
theorem C123_pattern (s : Bytes) : Meta.checkSegment s = (matchText (ascii "^[0-9a-zA-Z]+$") s).isSome := by
  rw [matchText, parse_segment, Option.bind_some, Bool.eq_iff_iff, fullMatch_isSome]
  have hw : ∀ c, wordCls.has c = true ↔ ((48 ≤ c && c ≤ 57) || (97 ≤ c && c ≤ 122) || (65 ≤ c && c ≤ 90)) = true := by
    intro c
    simp [Cls.has, wordCls, or_assoc]
  unfold Meta.checkSegment
  rw [Bool.and_eq_true, List.all_eq_true]
  constructor
  · rintro ⟨h1, h2⟩
    cases s with
    | nil => cases h1
    | cons c s =>
      refine Matches.seq (u := []) .bol ?_
      rw [show (c :: s) = (c :: s) ++ [] by simp]
      refine Matches.seq (Matches.seq (u := [c]) (.cls ((cls_has wordCls c).1 ((hw c).2 (h2 c List.mem_cons_self))))
        (matches_star_cls fun x hx => (hw x).2 (h2 x (List.mem_cons_of_mem _ hx)))) ?_
      exact Matches.seq (u := []) (v := []) .eol .empty
  · intro h
    cases h with
    | seq h1 h2 =>
      cases h1
      cases h2 with
      | seq h3 h4 =>
        cases h4 with
        | seq h5 h6 =>
          cases h6
          generalize hv : ([] : Bytes) ++ [] = w at h5
          cases h5
          cases h3 with
          | seq h7 h8 =>
            have h9 := star_cls_matches h8 rfl
            cases h7 with
            | cls h7 =>
              refine ⟨by simp, fun x hx => (hw x).1 ?_⟩
              simp only [List.nil_append, List.append_nil, List.mem_append, List.mem_singleton] at hx
              rcases hx with rfl | hx
              · exact (cls_has _ _).2 h7
              · exact h9 x hx

end Regex
end Nebula
