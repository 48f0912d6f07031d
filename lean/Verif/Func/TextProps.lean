import Verif.Func.PureProps
/-!
# Properties of the built-in functions on texts (C86)
-/
namespace Nebula
namespace Func

/-! ## split and replace -/

theorem prefix_iff (d s : Bytes) : d.isPrefixOf s = true ↔ ∃ r, s = d ++ r := by
  rw [List.isPrefixOf_iff_prefix]
  constructor
  · rintro ⟨r, h⟩; exact ⟨r, h.symm⟩
  · rintro ⟨r, h⟩; exact ⟨r, h.symm⟩

theorem splitGo_skip (d tok : Bytes) : ∀ (k : Nat) (s : Bytes), splitGo d tok k s = splitGo d tok 0 (s.drop k)
  | 0, s => rfl
  | k + 1, [] => by simp [splitGo]
  | k + 1, c :: cs => by rw [splitGo, splitGo_skip d tok k cs]; rfl

theorem replaceGo_skip (d n : Bytes) : ∀ (k : Nat) (s : Bytes), replaceGo d n k s = replaceGo d n 0 (s.drop k)
  | 0, s => rfl
  | k + 1, [] => by simp [replaceGo]
  | k + 1, c :: cs => by rw [replaceGo, replaceGo_skip d n k cs]; rfl

theorem drop_sep {d r cs : Bytes} {c : UInt8} (hd : d ≠ []) (h : c :: cs = d ++ r) :
    cs.drop (d.length - 1) = r := by
  cases d with
  | nil => exact absurd rfl hd
  | cons x d =>
    injection h with _ h
    rw [h]; simp

theorem splitGo_cut (d : Bytes) (hd : d ≠ []) (n : Nat) : ∀ (s tok : Bytes), s.length ≤ n →
    (∀ i, i < tok.length → ¬ OccursAt d (tok ++ s) i) → Cut d (tok ++ s) (splitGo d tok 0 s) := by
  induction n with
  | zero =>
    intro s tok hl h
    have : s = [] := List.length_eq_zero_iff.1 (by omega)
    subst this
    rw [List.append_nil] at h ⊢
    refine Cut.last tok fun i ho => ?_
    by_cases hi : i < tok.length
    · exact h i hi ho
    · obtain ⟨r, hr, -⟩ := ho
      rw [List.drop_eq_nil_of_le (by omega)] at hr
      exact hd (List.append_eq_nil_iff.1 hr.symm).1
  | succ n ih =>
    intro s tok hl h
    cases s with
    | nil => exact ih [] tok (by simp) h
    | cons c cs =>
      rw [splitGo]
      split
      · rename_i hp
        obtain ⟨r, hr⟩ := (prefix_iff d (c :: cs)).1 hp
        rw [splitGo_skip, drop_sep hd hr]
        have hlen : r.length ≤ n := by
          have h1 : (c :: cs).length = d.length + r.length := by rw [hr, List.length_append]
          have h2 : 0 < d.length := List.length_pos_iff.2 hd
          simp only [List.length_cons] at h1 hl; omega
        have := ih r [] hlen (by intro i hi; cases hi)
        rw [hr, ← List.append_assoc] at h ⊢
        exact Cut.more tok r _ h (by simpa using this)
      · rename_i hp
        have e : tok ++ c :: cs = (tok ++ [c]) ++ cs := by simp
        rw [e] at h ⊢
        refine ih cs (tok ++ [c]) (by simp at hl; omega) fun i hi => ?_
        simp only [List.length_append, List.length_cons, List.length_nil] at hi
        by_cases h1 : i < tok.length
        · exact h i h1
        · have : i = tok.length := by omega
          subst this
          rintro ⟨r, hr, -⟩
          apply hp
          rw [prefix_iff]
          exact ⟨r, by simpa using hr⟩

/-- C86 (`split`): the text is cut at the occurrences of the separator, the leftmost first. -/
theorem C86_split (L : FLib) (w : World) (s d : Bytes) (hd : d ≠ []) :
    ∃ ps, body L w .split [.str s, .str d] = .val (.list (ps.map .str)) ∧ Cut d s ps := by
  refine ⟨Func.split d s, rfl, ?_⟩
  unfold Func.split
  rw [if_neg hd]
  exact splitGo_cut d hd s.length s [] (Nat.le_refl _) (by intro i hi; cases hi)

example : Func.split (ascii "aa") (ascii "baaac") = [ascii "b", ascii "ac"] := by decide +kernel

theorem C86_split_empty (L : FLib) (w : World) (s : Bytes) :
    body L w .split [.str s, .str []] = .val (.list [.str s]) := rfl

/-- Whatever is cut can be put together again. -/
theorem Cut.join {d s : Bytes} {ps : List Bytes} (h : Cut d s ps) : ps ≠ [] ∧ joinWith d ps = s := by
  induction h with
  | last s _ => exact ⟨by simp, rfl⟩
  | more p r ps _ _ ih =>
    refine ⟨by simp, ?_⟩
    cases ps with
    | nil => exact absurd rfl ih.1
    | cons q qs => simp only [joinWith]; rw [ih.2]

/-- C86 (`split`): joining the pieces with the separator gives the text back. -/
theorem C86_split_join (L : FLib) (w : World) (s d : Bytes) :
    ∃ ps, body L w .split [.str s, .str d] = .val (.list (ps.map .str)) ∧ joinWith d ps = s := by
  by_cases hd : d = []
  · subst hd; exact ⟨[s], rfl, rfl⟩
  · obtain ⟨ps, h, hc⟩ := C86_split L w s d hd
    exact ⟨ps, h, hc.join.2⟩

theorem first_occ {d p r q t : Bytes} (h : p ++ d ++ r = q ++ d ++ t)
    (hp : ∀ i, i < p.length → ¬ OccursAt d (p ++ d ++ r) i) : p.length ≤ q.length := by
  apply Nat.le_of_not_lt
  intro hl
  refine hp q.length hl ⟨t, ?_, ?_⟩
  · rw [h, List.append_assoc, List.drop_left]
  · rw [h]; simp

/-- The cut is unique, so `Cut` determines the pieces. -/
theorem Cut.unique {d : Bytes} {s : Bytes} {ps : List Bytes} (h : Cut d s ps) :
    ∀ {qs : List Bytes}, Cut d s qs → ps = qs := by
  induction h with
  | last s hs =>
    intro qs hq
    cases hq with
    | last _ _ => rfl
    | more p r ps h1 h2 =>
      exact absurd ⟨r, by rw [List.append_assoc, List.drop_left], by simp⟩ (hs p.length)
  | more p r ps h1 _ ih =>
    intro qs hq
    generalize he : p ++ d ++ r = s at hq
    cases hq with
    | last _ hs => 
      subst he
      exact absurd ⟨r, by rw [List.append_assoc, List.drop_left], by simp⟩ (hs p.length)
    | more q t qs h3 h4 =>
      have e1 := first_occ he h1
      have e2 := first_occ he.symm h3
      have el : p.length = q.length := by omega
      rw [List.append_assoc, List.append_assoc] at he
      obtain ⟨rfl, he2⟩ := List.append_inj he el
      have := List.append_cancel_left he2
      subst this
      rw [ih h4]

theorem replaceGo_split (d n : Bytes) (hd : d ≠ []) (k : Nat) : ∀ (s tok : Bytes), s.length ≤ k →
    joinWith n (splitGo d tok 0 s) = tok ++ replaceGo d n 0 s := by
  induction k with
  | zero =>
    intro s tok hl
    have : s = [] := List.length_eq_zero_iff.1 (by omega)
    subst this; simp [splitGo, replaceGo, joinWith]
  | succ k ih =>
    intro s tok hl
    cases s with
    | nil => simp [splitGo, replaceGo, joinWith]
    | cons c cs =>
      rw [splitGo, replaceGo]
      split
      · rename_i hp
        obtain ⟨r, hr⟩ := (prefix_iff d (c :: cs)).1 hp
        rw [splitGo_skip, replaceGo_skip, drop_sep hd hr]
        have hlen : r.length ≤ k := by
          have h1 : (c :: cs).length = d.length + r.length := by rw [hr, List.length_append]
          have h2 : 0 < d.length := List.length_pos_iff.2 hd
          simp only [List.length_cons] at h1 hl; omega
        have hih := ih r [] hlen
        have hne : splitGo d [] 0 r ≠ [] :=
          (splitGo_cut d hd r.length r [] (Nat.le_refl _) (by intro i hi; cases hi)).join.1
        cases hq : splitGo d [] 0 r with
        | nil => exact absurd hq hne
        | cons q qs =>
          rw [hq] at hih
          simp only [joinWith]
          rw [hih]; simp
      · rw [ih cs (tok ++ [c]) (by simp at hl; omega)]
        simp

/-- C86 (`replace`): the text is cut at the occurrences of the search text, and the pieces are joined
with the new text. -/
theorem C86_replace (L : FLib) (w : World) (s d n : Bytes) (hd : d ≠ []) (ps : List Bytes)
    (hc : Cut d s ps) : body L w .replace [.str s, .str d, .str n] = .val (.str (joinWith n ps)) := by
  have hb : body L w .replace [.str s, .str d, .str n] = .val (.str (replaceAll s d n)) := rfl
  rw [hb]
  have := splitGo_cut d hd s.length s [] (Nat.le_refl _) (by intro i hi; cases hi)
  rw [List.nil_append] at this
  rw [Cut.unique hc this, replaceGo_split d n hd s.length s [] (Nat.le_refl _)]
  unfold replaceAll; rw [if_neg hd]; rfl

theorem C86_replace_empty (L : FLib) (w : World) (s n : Bytes) :
    body L w .replace [.str s, .str [], .str n] = .val (.str s) := rfl

example : Cut (ascii ",") (ascii "a,,b") [ascii "a", [], ascii "b"] :=
  (splitGo_cut (ascii ",") (by decide) 4 (ascii "a,,b") [] (by decide) (by intro i hi; cases hi))

/-! ## Pieces -/

/-- C86 (`left`, `right`): the first and the last `n` bytes (all of them if there are fewer). -/
theorem C86_left_right (L : FLib) (w : World) (s : Bytes) (n : Int) (h : 0 ≤ n) :
    body L w .left [.str s, .int n] = .val (.str (s.take n.toNat)) ∧
    ∃ r, body L w .right [.str s, .int n] = .val (.str r) ∧ r.length = min n.toNat s.length ∧
      ∃ p, s = p ++ r := by
  constructor
  · simp only [body, arg, List.getElem?_cons_zero, List.getElem?_cons_succ]
    rw [if_neg (by omega)]
  · refine ⟨s.drop (s.length - (if n > s.length then s.length else n.toNat)), ?_, ?_, ?_⟩
    · simp only [body, arg, List.getElem?_cons_zero, List.getElem?_cons_succ]
      rw [if_neg (by omega)]
    · rw [List.length_drop]; split <;> omega
    · exact ⟨s.take _, (List.take_append_drop _ s).symm⟩

/-- C86: a negative length gives the error value. -/
theorem C86_left_right_negative (L : FLib) (w : World) (s : Bytes) (n : Int) (h : n < 0) :
    body L w .left [.str s, .int n] = .val (.null .badType) ∧
    body L w .right [.str s, .int n] = .val (.null .badType) := by
  constructor <;> simp only [body, arg, List.getElem?_cons_zero, List.getElem?_cons_succ] <;>
    rw [if_pos h] <;> rfl

/-- C86 (`substr` and `substring`): `length` bytes from position `start`, for lengths below 2^31. -/
theorem C86_substr_partial (L : FLib) (w : World) (s : Bytes) (i l : Int) (h0 : 0 ≤ i) (h1 : 0 ≤ l)
    (h2 : l < 2147483648) (f : Fn) (hf : f = .substr ∨ f = .substring) :
    body L w f [.str s, .int i, .int l] = .val (.str ((s.drop i.toNat).take l.toNat)) := by
  have hb : body L w f [.str s, .int i, .int l] =
      (match substr s i (some l) with | none => badData | some r => .val (.str r)) := by
    rcases hf with rfl | rfl <;> rfl
  have hw : wrapI32 l = l := by unfold wrapI32; omega
  rw [hb]
  unfold substr
  simp only [hw]
  rw [if_neg (by omega)]
  by_cases h : (s.length : Int) ≤ i ∨ l = 0
  · rw [if_pos h]
    rcases h with h | h
    · rw [List.drop_eq_nil_of_le (by omega)]; simp
    · subst h; simp
  · rw [if_neg h]

/-- C86 (`substr` without a length): everything from position `start`, for texts shorter than 2^31. -/
theorem C86_substr_rest_partial (L : FLib) (w : World) (s : Bytes) (i : Int) (h0 : 0 ≤ i)
    (h2 : s.length < 2147483648) (f : Fn) (hf : f = .substr ∨ f = .substring) :
    body L w f [.str s, .int i] = .val (.str (s.drop i.toNat)) := by
  have hb : body L w f [.str s, .int i] =
      (match substr s i none with | none => badData | some r => .val (.str r)) := by
    rcases hf with rfl | rfl <;> rfl
  rw [hb]
  unfold substr
  by_cases h : (s.length : Int) ≤ i
  · have hc : i < 0 ∨ (s.length : Int) ≤ i := .inr h
    simp only [if_pos hc]
    rw [if_neg (by omega), if_pos (.inl h), List.drop_eq_nil_of_le (by omega)]
  · have hc : ¬ (i < 0 ∨ (s.length : Int) ≤ i) := by omega
    have hw : wrapI32 ((s.length : Int) - i) = s.length - i := by unfold wrapI32; omega
    simp only [if_neg hc, hw]
    rw [if_neg (by omega), if_neg (by omega)]
    rw [List.take_of_length_le (by rw [List.length_drop]; omega)]

/-- C86: negative arguments give the error value. -/
theorem C86_substr_negative (L : FLib) (w : World) (s : Bytes) (i l : Int)
    (h : i < 0 ∨ (l < 0 ∧ -2147483648 ≤ l)) :
    body L w .substr [.str s, .int i, .int l] = .val (.null .badData) := by
  have hb : body L w .substr [.str s, .int i, .int l] =
      (match substr s i (some l) with | none => badData | some r => .val (.str r)) := rfl
  rw [hb]
  unfold substr
  have hw : i < 0 ∨ wrapI32 l < 0 := by
    rcases h with h | h
    · exact .inl h
    · right; unfold wrapI32; omega
  simp only [if_pos hw]; rfl

/-- C86: a length of 2^32 gives the empty text, a length of 2^31 the error value. -/
theorem C86_substr_violated (L : FLib) (w : World) :
    body L w .substr [.str (ascii "abc"), .int 0, .int 4294967296] = .val (.str []) ∧
    body L w .substr [.str (ascii "abc"), .int 0, .int 2147483648] = .val (.null .badData) := ⟨rfl, rfl⟩

/-- C86: the three functions fit together. -/
theorem C86_left_substr (L : FLib) (w : World) (s : Bytes) (n : Int) (h0 : 0 ≤ n)
    (h2 : s.length < 2147483648) :
    ∃ a b, body L w .left [.str s, .int n] = .val (.str a) ∧ body L w .substr [.str s, .int n] = .val (.str b) ∧
      a ++ b = s :=
  ⟨_, _, (C86_left_right L w s n h0).1, C86_substr_rest_partial L w s n h0 h2 .substr (.inl rfl),
    List.take_append_drop _ _⟩

/-! ## Padding -/

theorem padGo_isPadding (x : Bytes) (n : Nat) (p : Bytes) (h : padGo x n = some p) : IsPadding x n p := by
  rw [padGo] at h
  split at h
  · rename_i hn
    split at h
    · cases h
    · rename_i hx
      have hpos : 0 < x.length := List.length_pos_iff.2 hx
      obtain ⟨q, hq, rfl⟩ := Option.map_eq_some_iff.1 h
      obtain ⟨hl, hi⟩ := padGo_isPadding x (n - x.length) q hq
      refine ⟨by rw [List.length_append, hl]; omega, fun i hin => ?_⟩
      by_cases h1 : i < x.length
      · rw [List.getElem?_append_left h1, Nat.mod_eq_of_lt h1]
      · rw [List.getElem?_append_right (by omega), hi (i - x.length) (by omega)]
        congr 1
        exact (Nat.mod_eq_sub_mod (by omega)).symm
  · rename_i hn
    injection h with h; subst h
    refine ⟨by rw [List.length_take]; omega, fun i hin => ?_⟩
    rw [List.getElem?_take_of_lt hin, Nat.mod_eq_of_lt (by omega)]
termination_by n
decreasing_by omega

/-- C86 (`lpad`, `rpad`): to a length that is not below that of the text, the result has exactly that
length: the text with copies of the (nonempty) padding text before or behind it. -/
theorem C86_pad (L : FLib) (w : World) (v x : Bytes) (n : Int) (hx : x ≠ []) (hn : (v.length : Int) ≤ n) :
    ∃ p, IsPadding x (n.toNat - v.length) p ∧
      body L w .lpad [.str v, .int n, .str x] = .val (.str (p ++ v)) ∧
      body L w .rpad [.str v, .int n, .str x] = .val (.str (v ++ p)) := by
  cases hp : padGo x (n.toNat - v.length) with
  | none => exact absurd ((padGo_none _ _).1 hp).1 hx
  | some p =>
    have key : ∀ j, pad j v n x = .val (.str (j p v)) := by
      intro j; unfold pad
      rw [if_neg (by omega), if_neg (by omega), hp]
    exact ⟨p, padGo_isPadding _ _ _ hp, key _, key (fun p v => v ++ p)⟩

example : padGo (ascii "ab") 5 = some (ascii "ababa") := by decide +kernel

/-- C86: to a smaller length the text is cut (below 2^31); a negative length gives the empty text. -/
theorem C86_pad_cut_partial (L : FLib) (w : World) (v x : Bytes) (n : Int) (h0 : n < v.length)
    (h1 : n < 2147483648) (f : Fn) (hf : f = .lpad ∨ f = .rpad) :
    body L w f [.str v, .int n, .str x] = .val (.str (v.take n.toNat)) := by
  have key : ∀ j, pad j v n x = .val (.str (v.take n.toNat)) := by
    intro j; unfold pad
    split
    · have : n.toNat = 0 := by omega
      rw [this]; rfl
    · have hw : wrapI32 n = n := by unfold wrapI32; omega
      unfold takeI32
      rw [hw, if_neg (by omega)]
  rcases hf with rfl | rfl
  · exact key _
  · exact key (fun p v => v ++ p)

/-! ## Case, white space, reversal -/

/-- C86 (`trim`, `ltrim`, `rtrim`): white space is removed at the ends, all of it and nothing else. -/
theorem C86_trim (L : FLib) (w : World) (s : Bytes) :
    ∃ a m b, s = a ++ m ++ b ∧ (∀ c ∈ a, isWs c = true) ∧ (∀ c ∈ b, isWs c = true) ∧
      (∀ c, m.head? = some c → isWs c = false) ∧ (∀ c, m.getLast? = some c → isWs c = false) ∧
      body L w .trim [.str s] = .val (.str m) := by
  have hd : ∀ l : Bytes, ∀ c, (l.dropWhile isWs).head? = some c → isWs c = false := by
    intro l
    induction l with
    | nil => intro c h; cases h
    | cons x l ih =>
      intro c h
      rw [List.dropWhile_cons] at h
      split at h
      · exact ih c h
      · rename_i hx; injection h with h; subst h; simpa using hx
  let r := rtrim s
  have hr : s = r ++ (s.reverse.takeWhile isWs).reverse := by
    have := congrArg List.reverse (List.takeWhile_append_dropWhile (p := isWs) (l := s.reverse))
    rw [List.reverse_append, List.reverse_reverse] at this
    exact this.symm
  have hl : r = r.takeWhile isWs ++ ltrim r := (List.takeWhile_append_dropWhile).symm
  refine ⟨r.takeWhile isWs, ltrim r, (s.reverse.takeWhile isWs).reverse, ?_, ?_, ?_, ?_, ?_, rfl⟩
  · rw [← hl]; exact hr
  · exact mem_takeWhile_sat isWs r
  · intro c hc; exact mem_takeWhile_sat isWs s.reverse c (List.mem_reverse.1 hc)
  · exact hd r
  · intro c hc
    have : r.getLast? = some c := by
      rw [hl, List.getLast?_append, hc]; rfl
    have h2 : (s.reverse.dropWhile isWs).head? = some c := by
      rw [← this]; simp [r, rtrim]
    exact hd _ c h2

example : Func.trim (ascii " a b \n") = ascii "a b" := by decide +kernel

/-- C86 (`ltrim`, `rtrim`). -/
theorem C86_ltrim_rtrim (L : FLib) (w : World) (s : Bytes) :
    (∃ a m, s = a ++ m ∧ (∀ c ∈ a, isWs c = true) ∧ (∀ c, m.head? = some c → isWs c = false) ∧
      body L w .ltrim [.str s] = .val (.str m)) ∧
    (∃ m b, s = m ++ b ∧ (∀ c ∈ b, isWs c = true) ∧ (∀ c, m.getLast? = some c → isWs c = false) ∧
      body L w .rtrim [.str s] = .val (.str m)) := by
  have hd : ∀ l : Bytes, ∀ c, (l.dropWhile isWs).head? = some c → isWs c = false := by
    intro l
    induction l with
    | nil => intro c h; cases h
    | cons x l ih =>
      intro c h
      rw [List.dropWhile_cons] at h
      split at h
      · exact ih c h
      · rename_i hx; injection h with h; subst h; simpa using hx
  constructor
  · exact ⟨s.takeWhile isWs, ltrim s, (List.takeWhile_append_dropWhile).symm, mem_takeWhile_sat isWs s,
      hd s, rfl⟩
  · refine ⟨rtrim s, (s.reverse.takeWhile isWs).reverse, ?_, ?_, ?_, rfl⟩
    · have := congrArg List.reverse (List.takeWhile_append_dropWhile (p := isWs) (l := s.reverse))
      rw [List.reverse_append, List.reverse_reverse] at this
      exact this.symm
    · intro c hc; exact mem_takeWhile_sat isWs s.reverse c (List.mem_reverse.1 hc)
    · intro c hc
      exact hd s.reverse c (by rw [← hc]; simp [rtrim])

/-- C86: which bytes are white space. -/
theorem C86_white_space (c : UInt8) : isWs c = true ↔ c.toNat ∈ [32, 10, 9, 13] := by
  have h : ∀ n : Nat, n < 256 → (isWs (UInt8.ofNat n) = true ↔ n ∈ [32, 10, 9, 13]) := by decide +kernel
  have := h c.toNat c.toNat_lt
  rwa [UInt8.ofNat_toNat] at this

/-- The upper- and lower-case ASCII letters correspond; other bytes have no case. -/
def lowerOf (n : Nat) : Nat := if 65 ≤ n ∧ n ≤ 90 then n + 32 else n
def upperOf (n : Nat) : Nat := if 97 ≤ n ∧ n ≤ 122 then n - 32 else n

/-- C86 (`lower`, `upper` and their synonyms): byte by byte, letters change case, nothing else changes. -/
theorem C86_case (L : FLib) (w : World) (s : Bytes) :
    (∃ r, body L w .lower [.str s] = .val (.str r) ∧ body L w .tolower [.str s] = .val (.str r) ∧
      r.map UInt8.toNat = s.map fun c => lowerOf c.toNat) ∧
    (∃ r, body L w .upper [.str s] = .val (.str r) ∧ body L w .toupper [.str s] = .val (.str r) ∧
      r.map UInt8.toNat = s.map fun c => upperOf c.toNat) := by
  have h1 : ∀ n : Nat, n < 256 → (Value.toLower (UInt8.ofNat n)).toNat = lowerOf n := by decide +kernel
  have h2 : ∀ n : Nat, n < 256 → (toUpper (UInt8.ofNat n)).toNat = upperOf n := by decide +kernel
  refine ⟨⟨_, rfl, rfl, ?_⟩, ⟨_, rfl, rfl, ?_⟩⟩
  · rw [List.map_map]
    apply List.map_congr_left
    intro c _
    have := h1 c.toNat c.toNat_lt
    rwa [UInt8.ofNat_toNat] at this
  · rw [List.map_map]
    apply List.map_congr_left
    intro c _
    have := h2 c.toNat c.toNat_lt
    rwa [UInt8.ofNat_toNat] at this

/-- C86 (`reverse`): the byte at position `i` comes to the mirrored position; reversing twice changes
nothing; the same for lists. -/
theorem C86_reverse (L : FLib) (w : World) (s : Bytes) (vs : List Value) :
    (∃ r, body L w .reverse [.str s] = .val (.str r) ∧ r.length = s.length ∧
      (∀ i, i < s.length → r[i]? = s[s.length - 1 - i]?) ∧ body L w .reverse [.str r] = .val (.str s)) ∧
    (∃ r, body L w .reverse [.list vs] = .val (.list r) ∧ r.length = vs.length ∧
      (∀ i, i < vs.length → r[i]? = vs[vs.length - 1 - i]?) ∧
      body L w .reverse [.list r] = .val (.list vs)) := by
  constructor
  · refine ⟨s.reverse, rfl, by simp, fun i hi => List.getElem?_reverse hi, ?_⟩
    show Res.val (.str s.reverse.reverse) = _
    rw [List.reverse_reverse]
  · refine ⟨vs.reverse, rfl, by simp, fun i hi => List.getElem?_reverse hi, ?_⟩
    show Res.val (.list vs.reverse.reverse) = _
    rw [List.reverse_reverse]

/-- C86 (`strcasecmp`): 0 exactly if the texts (up to a NUL byte) are the same except for case;
swapping the texts swaps the sign. -/
theorem C86_strcasecmp (L : FLib) (w : World) (a b : Bytes) :
    ∃ i j, body L w .strcasecmp [.str a, .str b] = .val (.int i) ∧
      body L w .strcasecmp [.str b, .str a] = .val (.int j) ∧
      (i = 0 ↔ SameName (cstr a) (cstr b)) ∧ j = -i := by
  refine ⟨_, _, rfl, rfl, ?_, ?_⟩
  · have hne : ∀ x : Bytes, ∀ c ∈ cstr x, c ≠ 0 := by
      intro x c hc h
      have := mem_takeWhile_sat (· ≠ 0) x c hc
      simp [h] at this
    have hl : ∀ n : Nat, n < 256 → n ≠ 0 → (Value.toLower (UInt8.ofNat n)).toNat ≠ 0 := by decide +kernel
    have hl' : ∀ c : UInt8, c ≠ 0 → (Value.toLower c).toNat ≠ 0 := by
      intro c hc
      have := hl c.toNat c.toNat_lt (fun h => hc (UInt8.toNat_inj.1 h))
      rwa [UInt8.ofNat_toNat] at this
    have key : ∀ x y : Bytes, (∀ c ∈ x, c ≠ 0) → (∀ c ∈ y, c ≠ 0) →
        (strcasecmpGo x y = 0 ↔ SameName x y) := by
      intro x
      induction x with
      | nil =>
        intro y _ hy
        cases y with
        | nil => simp [strcasecmpGo, SameName]
        | cons c y =>
          have := hl' c (hy c List.mem_cons_self)
          simp [strcasecmpGo, SameName]; omega
      | cons c x ih =>
        intro y hx hy
        cases y with
        | nil =>
          have := hl' c (hx c List.mem_cons_self)
          simp [strcasecmpGo, SameName]; omega
        | cons d y =>
          simp only [strcasecmpGo, SameName, List.map_cons, List.cons.injEq]
          split
          · rename_i h
            rw [ih y (fun c h => hx c (List.mem_cons_of_mem _ h)) (fun c h => hy c (List.mem_cons_of_mem _ h))]
            simp [h, SameName]
          · rename_i h
            have : (Value.toLower c).toNat ≠ (Value.toLower d).toNat := fun e => h (UInt8.toNat_inj.1 e)
            constructor
            · intro h2; omega
            · intro h2; exact absurd h2.1 h
    exact key _ _ (hne a) (hne b)
  · have key : ∀ x y : Bytes, strcasecmpGo y x = -strcasecmpGo x y := by
      intro x
      induction x with
      | nil => intro y; cases y <;> simp [strcasecmpGo]
      | cons c x ih =>
        intro y
        cases y with
        | nil => simp [strcasecmpGo]
        | cons d y =>
          simp only [strcasecmpGo]
          by_cases h : Value.toLower c = Value.toLower d
          · rw [if_pos h, if_pos h.symm, ih]
          · rw [if_neg h, if_neg (fun e => h e.symm)]; omega
    exact key _ _

/-- C86 (`strcasecmp`): negative exactly if the first text, in small letters and up to a NUL byte, comes before the
second one in the order of words. -/
theorem C86_strcasecmp_order (L : FLib) (w : World) (a b : Bytes) :
    ∃ i, body L w .strcasecmp [.str a, .str b] = .val (.int i) ∧
      (i < 0 ↔ (cstr a).map Value.toLower < (cstr b).map Value.toLower) := by
  refine ⟨_, rfl, ?_⟩
  have hne : ∀ x : Bytes, ∀ c ∈ cstr x, c ≠ 0 := by
    intro x c hc h
    have := mem_takeWhile_sat (· ≠ 0) x c hc
    simp [h] at this
  have hl : ∀ n : Nat, n < 256 → n ≠ 0 → (Value.toLower (UInt8.ofNat n)).toNat ≠ 0 := by decide +kernel
  have hl' : ∀ c : UInt8, c ≠ 0 → (Value.toLower c).toNat ≠ 0 := by
    intro c hc
    have := hl c.toNat c.toNat_lt (fun h => hc (UInt8.toNat_inj.1 h))
    rwa [UInt8.ofNat_toNat] at this
  have key : ∀ x y : Bytes, (∀ c ∈ y, c ≠ 0) →
      (strcasecmpGo x y < 0 ↔ x.map Value.toLower < y.map Value.toLower) := by
    intro x
    induction x with
    | nil =>
      intro y hy
      cases y with
      | nil => simp [strcasecmpGo]
      | cons c y =>
        have := hl' c (hy c List.mem_cons_self)
        simp [strcasecmpGo]; omega
    | cons c x ih =>
      intro y hy
      cases y with
      | nil => simp [strcasecmpGo]
      | cons d y =>
        simp only [strcasecmpGo, List.map_cons, List.cons_lt_cons_iff]
        split
        · rename_i h
          rw [ih y (fun c h => hy c (List.mem_cons_of_mem _ h)), h]
          simp
        · rename_i h
          simp only [h, false_and, or_false, UInt8.lt_iff_toNat_lt]
          omega
  exact key _ _ (hne b)

example : (cstr (ascii "Abc")).map Value.toLower < (cstr (ascii "aBD")).map Value.toLower := by decide +kernel

/-- C86 (conversions): the text of an integer or of a truth value converts back to it. -/
theorem C86_conversions (L : FLib) (w : World) (i : Int) (hi : InI64 i) (b : Bool) :
    (∃ s, body L w .tostring [.int i] = .val (.str s) ∧ body L w .tointeger [.str s] = .val (.int i)) ∧
    (∃ s, body L w .tostring [.bool b] = .val (.str s) ∧ body L w .toboolean [.str s] = .val (.bool b)) := by
  constructor
  · refine ⟨intDec i, rfl, ?_⟩
    have hdot : (intDec i).all (· ≠ 46) = true := by
      rw [List.all_eq_true]
      intro c hc
      have hd : ∀ c ∈ natDec i.natAbs, c ≠ 46 := by
        intro c hc h
        have := natDec_digits _ c hc
        rw [h] at this; revert this; decide
      unfold intDec at hc
      split at hc
      · rcases List.mem_cons.1 hc with rfl | hc
        · decide
        · simpa using hd c hc
      · simpa using hd c hc
    have hz : (0 : UInt8) ∉ intDec i := by
      intro hc
      have hd : (0 : UInt8) ∉ natDec i.natAbs := by
        intro hc
        have := natDec_digits _ 0 hc
        revert this; decide
      unfold intDec at hc
      split at hc
      · rcases List.mem_cons.1 hc with h | hc
        · revert h; decide
        · exact hd hc
      · exact hd hc
    show ofOpt ((Value.str (intDec i)).toInt L.strtod) = _
    simp only [Value.toInt, hdot, if_true, cstr_of_no_nul hz, strtoll_intDec hi, Option.map_some]
    simp [ofOpt]
  · cases b
    · exact ⟨ascii "false", rfl, by rfl⟩
    · exact ⟨ascii "true", rfl, by rfl⟩

/-- C86 (`tostring` of a FLOAT): the text of the number, with ".0" added if it has no point; so it always has one. -/
theorem C86_tostring_float (L : FLib) (w : World) (x : F64) :
    ∃ t, body L w .tostring [.float x] = .val (.str t) ∧ (46 : UInt8) ∈ t ∧ ((46 : UInt8) ∈ L.fmt x → t = L.fmt x) ∧
      ((46 : UInt8) ∉ L.fmt x → t = L.fmt x ++ ascii ".0") := by
  have e : ascii ".0" = [46, 48] := by decide +kernel
  refine ⟨if (L.fmt x).contains 46 then L.fmt x else L.fmt x ++ [46, 48], rfl, ?_⟩
  rw [e]
  by_cases h : (46 : UInt8) ∈ L.fmt x
  · rw [if_pos (List.contains_iff_mem.2 h)]
    exact ⟨h, fun _ => rfl, fun n => absurd h n⟩
  · rw [if_neg (fun c => h (List.contains_iff_mem.1 c))]
    exact ⟨by simp, fun n => absurd n h, fun _ => rfl⟩

end Func
end Nebula
