import Verif.Regex.UsesPaths
import Verif.Web.Router
/-!
# The patterns in the source (routes)
-/
namespace Nebula
namespace Regex
open Web (Item)

def alphaCls : Cls := ⟨false, [(65, 90), (97, 122)]⟩
def tokenCls : Cls := ⟨false, [(65, 90), (97, 122), (95, 95), (48, 57)]⟩
def tokenRe : Re := .seq (.chr 58) (.seq (.group 1 (.seq (.cls alphaCls) (.seq (.star (.cls tokenCls)) .empty))) .empty)

theorem parse_token : parse (ascii ":([A-Za-z][A-Za-z_0-9]*)") = some tokenRe := by decide +kernel

theorem alpha_has : alphaCls.has = Web.isAlpha := by
  funext c
  simp [Cls.has, alphaCls, Web.isAlpha]
theorem token_has : tokenCls.has = Web.isWord := by
  funext c
  have h95 : ((decide ((95 : UInt8) ≤ c) && decide (c ≤ 95))) = (c == 95) := by
    by_cases h : c = 95
    · subst h; rfl
    · have : ¬ ((95 : UInt8) ≤ c ∧ c ≤ 95) := fun ⟨h1, h2⟩ => h (UInt8.le_antisymm h2 h1)
      rw [show (c == 95) = false by simpa using h, Bool.eq_false_iff]
      intro h'
      rw [Bool.and_eq_true, decide_eq_true_eq, decide_eq_true_eq] at h'
      exact this h'
  simp only [Cls.has, tokenCls, List.any_cons, List.any_nil, Bool.or_false, h95, Web.isWord, Web.isAlpha, isDigit, Bool.bne_false]
  generalize (decide ((65 : UInt8) ≤ c) && decide (c ≤ 90)) = a
  generalize (decide ((97 : UInt8) ≤ c) && decide (c ≤ 122)) = b
  generalize (c == 95) = d
  generalize (decide ((48 : UInt8) ≤ c) && decide (c ≤ 57)) = e
  cases a <;> cases b <;> cases d <;> cases e <;> rfl

/-- Router.cpp:42-60 `createPattenRegex`: the pattern built from a route, and the names of its groups. -/
def routeText (path : Bytes) : Option (Bytes × List Bytes) :=
  (parse (ascii ":([A-Za-z][A-Za-z_0-9]*)")).map fun r =>
    ((allMatches r path).1.flatMap (fun m => m.prefix_ ++ ascii "([^/]+)") ++ (allMatches r path).2, (allMatches r path).1.map fun m => m.text.drop 1)

/-- The pattern of a list of items, and what it is read as. -/
def itemText : Item → Bytes
  | .lit c => [c]
  | .any => [46]
  | .group => ascii "([^/]+)"
def itemsRe : Nat → List Item → Re
  | _, [] => .empty
  | k, .lit c :: is => .seq (.chr c) (itemsRe k is)
  | k, .any :: is => .seq .dot (itemsRe k is)
  | k, .group :: is => .seq (.group k (.seq (Re.cls notSlash).plus .empty)) (itemsRe (k + 1) is)

/-! ## The tokens -/

theorem first_one {r : Re} {p : UInt8 → Bool} (h : IsOne r p) (P : St → Bool) (b : Re) (s : St) : first P (.seq r b) s =
    if (s.rest.head?.map p).getD false = true then first P b (s.after 1) else none := by
  rw [first_seq, h s, St.one]
  cases hr : s.rest with
  | nil => simp
  | cons d r =>
    by_cases h : p d = true
    · simp [St.after, hr, h]
    · simp [h]

theorem run_one {r : Re} {p : UInt8 → Bool} (h : IsOne r p) (b : Re) (s : St) : run (.seq r b) s =
    if (s.rest.head?.map p).getD false = true then run b (s.after 1) else [] := by
  rw [run, h s, St.one]
  cases hr : s.rest with
  | nil => simp
  | cons d r =>
    by_cases h : p d = true
    · simp [St.after, hr, h]
    · simp [h]

theorem first_token (t : St) : (first anyEnd tokenRe t).map (·.rest) =
    if t.rest.head? = some 58 ∧ ((t.rest.drop 1).head?.map Web.isAlpha).getD false = true then some (t.rest.drop (1 + ((t.rest.drop 1).takeWhile Web.isWord).length))
    else none := by
  rw [tokenRe, first_chr]
  by_cases h1 : t.rest.head? = some 58
  · rw [if_pos h1, first_group_seq, run_one (isOne_cls alphaCls), alpha_has]
    by_cases h2 : ((t.rest.drop 1).head?.map Web.isAlpha).getD false = true
    · have h2' : (((t.after 1).rest.head?.map Web.isAlpha).getD false) = true := h2
      rw [if_pos h2', if_pos ⟨h1, h2⟩, run_seq_empty, run_star (isOne_cls tokenCls), token_has]
      have hw : ((t.rest.drop 1).takeWhile Web.isWord).length = ((t.rest.drop 2).takeWhile Web.isWord).length + 1 := by
        cases hd : t.rest.drop 1 with
        | nil => rw [hd] at h2; simp at h2
        | cons c r =>
          rw [hd] at h2
          have hc : Web.isWord c = true := by simp at h2; simp [Web.isWord, h2]
          have hr : t.rest.drop 2 = r := by
            rw [show 2 = 1 + 1 from rfl, ← List.drop_drop, hd]; rfl
          rw [List.takeWhile_cons_of_pos hc, hr]; rfl
      rw [hw, after_after]
      have e : (t.after (1 + 1)).rest = t.rest.drop 2 := rfl
      rw [e]
      generalize ((t.rest.drop 2).takeWhile Web.isWord).length = m
      cases m with
      | zero =>
        simp only [cuts, List.nil_append, List.findSome?_cons, first_empty, anyEnd, if_true, Option.map_some]
        rfl
      | succ m =>
        rw [cuts, List.cons_append, List.findSome?_cons, first_empty, Nat.zero_add, after_after]
        simp only [anyEnd, if_true, Option.map_some, St.after]
        congr 2; omega
    · have h2' : ¬ (((t.after 1).rest.head?.map Web.isAlpha).getD false) = true := h2
      rw [if_neg h2', if_neg (fun h => h2 h.2)]; rfl
  · rw [if_neg h1, if_neg (fun h => h1 h.1)]; rfl

theorem scan_skip : ∀ (k : Nat) (s : Bytes), Web.scan k s = Web.scan 0 (s.drop k)
  | 0, s => rfl
  | k + 1, [] => by simp [Web.scan]
  | k + 1, c :: s => by rw [Web.scan, List.drop_succ_cons]; exact scan_skip k s

/-- The items that stand for `s`. -/
def Reads (s : Bytes) (is : List Item) (gs : List Bytes) : Prop := Web.scan 0 s = some (is, gs)

/-- A token at the beginning. -/
theorem token_at (pos : Nat) (s : Bytes) :
    (matchAt tokenRe pos s = none ∧ ∀ c r is gs, s = c :: r → Reads s is gs → ∃ i is', is = i :: is' ∧ itemText i = [c] ∧ Reads r is' gs) ∨
    ∃ m, matchAt tokenRe pos s = some m ∧ m.prefix_ = [] ∧ m.text ≠ [] ∧ s = m.text ++ m.suffix ∧
      ∀ is gs, Reads s is gs → ∃ is' gs', is = .group :: is' ∧ gs = m.text.drop 1 :: gs' ∧ Reads m.suffix is' gs' := by
  have hf := first_token ⟨pos, s, []⟩
  have hm : matchAt tokenRe pos s = (first anyEnd tokenRe ⟨pos, s, []⟩).map fun t => ⟨[], s.take (s.length - t.rest.length), t.rest, t.caps⟩ := by
    rw [matchAt, head?_eq_find?]; rfl
  simp only at hf
  cases s with
  | nil =>
    left
    rw [if_neg (by simp), Option.map_eq_none_iff] at hf
    exact ⟨by rw [hm, hf]; rfl, fun c r is gs h => by cases h⟩
  | cons c r =>
    simp only [List.head?_cons, Option.some.injEq, List.drop_succ_cons, List.drop_zero] at hf
    by_cases h1 : c = 58 ∧ (r.head?.map Web.isAlpha).getD false = true
    · right
      rw [if_pos h1] at hf
      obtain ⟨t, ht, hr⟩ := Option.map_eq_some_iff.1 hf
      rw [ht, Option.map_some] at hm
      have hle := List.Sublist.length_le (List.takeWhile_sublist (p := Web.isWord) (l := r))
      have hr' : t.rest = r.dropWhile Web.isWord := by rw [hr, Nat.add_comm, List.drop_succ_cons, drop_takeWhile]
      have htext : (c :: r).take ((c :: r).length - t.rest.length) = c :: r.takeWhile Web.isWord := by
        have hl : t.rest.length = r.length - (r.takeWhile Web.isWord).length := by rw [hr', ← drop_takeWhile, List.length_drop]
        rw [hl, List.length_cons, show r.length + 1 - (r.length - (r.takeWhile Web.isWord).length) = (r.takeWhile Web.isWord).length + 1 by omega,
          List.take_succ_cons, take_takeWhile]
      refine ⟨_, hm, rfl, ?_, ?_, ?_⟩
      · simp only; rw [htext]; simp
      · simp only; rw [htext, hr', List.cons_append, List.takeWhile_append_dropWhile]
      · intro is gs h
        rw [Reads, Web.scan, if_pos h1, scan_skip, drop_takeWhile] at h
        obtain ⟨⟨is', gs'⟩, h2, h3⟩ := Option.map_eq_some_iff.1 h
        simp only [Prod.mk.injEq] at h3
        refine ⟨is', gs', h3.1.symm, ?_, ?_⟩
        · simp only; rw [htext]; exact h3.2.symm
        · simp only; rw [Reads, hr']; exact h2
    · left
      rw [if_neg h1, Option.map_eq_none_iff] at hf
      refine ⟨by rw [hm, hf]; rfl, fun c' r' is gs h h' => ?_⟩
      cases h
      rw [Reads, Web.scan, if_neg h1] at h'
      split at h'
      · cases h'
      · obtain ⟨⟨is', gs'⟩, h2, h3⟩ := Option.map_eq_some_iff.1 h'
        simp only [Prod.mk.injEq] at h3
        refine ⟨_, is', h3.1.symm, ?_, ?_⟩
        · by_cases hc : c = 46
          · rw [if_pos hc, hc]; rfl
          · rw [if_neg hc]; rfl
        · rw [Reads, h2, h3.2]

theorem token_search : ∀ (s : Bytes) (pos : Nat) (is : List Item) (gs : List Bytes), Reads s is gs →
    (searchFrom tokenRe pos s = none ∧ is.flatMap itemText = s ∧ gs = []) ∨
    ∃ m is' gs', searchFrom tokenRe pos s = some m ∧ m.text ≠ [] ∧ s = m.prefix_ ++ (m.text ++ m.suffix) ∧ Reads m.suffix is' gs' ∧
      is.flatMap itemText = m.prefix_ ++ (ascii "([^/]+)" ++ is'.flatMap itemText) ∧ gs = m.text.drop 1 :: gs'
  | [], pos, is, gs, h => by
    rw [Reads, Web.scan] at h
    simp only [Option.some.injEq, Prod.mk.injEq] at h
    rw [searchFrom]
    rcases token_at pos [] with ⟨h', _⟩ | ⟨m, h1, h2, h3, h4, _⟩
    · exact .inl ⟨h', by rw [← h.1]; rfl, h.2.symm⟩
    · exact absurd (List.append_eq_nil_iff.1 h4.symm).1 h3
  | c :: s, pos, is, gs, h => by
    rw [searchFrom]
    rcases token_at pos (c :: s) with ⟨h1, h2⟩ | ⟨m, h1, h2, h3, h4, h5⟩
    · obtain ⟨i, is', e1, e2, e3⟩ := h2 c s is gs rfl h
      rw [h1]
      rcases token_search s (pos + 1) is' gs e3 with ⟨a1, a2, a3⟩ | ⟨m, is'', gs'', a1, a2, a3, a4, a5, a6⟩
      · exact .inl ⟨by rw [a1]; rfl, by rw [e1, List.flatMap_cons, e2, a2]; rfl, a3⟩
      · exact .inr ⟨{ m with prefix_ := c :: m.prefix_ }, is'', gs'', by rw [a1]; rfl, a2, by simp only [List.cons_append]; rw [← a3], a4,
          by rw [e1, List.flatMap_cons, e2, a5]; rfl, a6⟩
    · obtain ⟨is', gs', e1, e2, e3⟩ := h5 is gs h
      exact .inr ⟨m, is', gs', by rw [h1], h3, by rw [h2]; exact h4, e3, by rw [h2, e1]; rfl, e2⟩

theorem token_all : ∀ (f pos : Nat) (s : Bytes) (is : List Item) (gs : List Bytes), s.length ≤ f → Reads s is gs →
    (matches_ tokenRe f pos s).1.flatMap (fun m => m.prefix_ ++ ascii "([^/]+)") ++ (matches_ tokenRe f pos s).2 = is.flatMap itemText ∧
    (matches_ tokenRe f pos s).1.map (fun m => m.text.drop 1) = gs
  | 0, pos, s, is, gs, h, hr => by
    have h0 : s = [] := List.length_eq_zero_iff.1 (by omega)
    rw [h0, Reads, Web.scan] at hr
    simp only [Option.some.injEq, Prod.mk.injEq] at hr
    rw [h0, ← hr.1, ← hr.2]; exact ⟨rfl, rfl⟩
  | f + 1, pos, s, is, gs, h, hr => by
    rw [matches_]
    rcases token_search s pos is gs hr with ⟨e1, e2, e3⟩ | ⟨m, is', gs', e1, e2, e3, e4, e5, e6⟩
    · rw [e1, e2, e3]; exact ⟨rfl, rfl⟩
    · rw [e1]
      simp only [if_neg e2, List.flatMap_cons, List.append_assoc, List.map_cons]
      have hl := congrArg List.length e3
      have := List.length_pos_iff.2 e2
      simp only [List.length_append] at hl
      obtain ⟨i1, i2⟩ := token_all f (pos + m.prefix_.length + m.text.length) m.suffix is' gs' (by omega) e4
      exact ⟨by rw [i1, e5], by rw [i2, e6]⟩

theorem routeText_eq {path : Bytes} {is : List Item} {gs : List Bytes} (h : Web.scan 0 path = some (is, gs)) :
    routeText path = some (is.flatMap itemText, gs) := by
  rw [routeText, parse_token, Option.map_some, allMatches]
  obtain ⟨h1, h2⟩ := token_all path.length 0 path is gs (Nat.le_refl _) h
  rw [h1, h2]

/-! ## How the pattern is read -/

/-- No literal character has a meaning of its own. -/
def Plain (is : List Item) : Prop := ∀ c, Item.lit c ∈ is → special c = false

theorem special_of_meta {c : UInt8} (h1 : Web.isMeta c = false) (h2 : c ≠ 46) : special c = false := by
  have e : special c = (Web.isMeta c || c == 46) := by
    simp only [special, Web.isMeta]
    rw [show ascii "^$\\.*+?()[]{}|" = [94, 36, 92, 46, 42, 43, 63, 40, 41, 91, 93, 123, 125, 124] by decide +kernel,
      show ascii "^$*+?()[]{}|\\" = [94, 36, 42, 43, 63, 40, 41, 91, 93, 123, 125, 124, 92] by decide +kernel]
    simp only [List.contains_cons, List.contains_nil, Bool.or_false]
    ac_rfl
  rw [e, h1, show (c == 46) = false by simpa using h2]; rfl

theorem scan_plain : ∀ (n : Nat) (k : Nat) (s : Bytes) (is : List Item) (gs : List Bytes), s.length ≤ n → Web.scan k s = some (is, gs) → Plain is
  | _, k, [], is, gs, _, h => by
    have : is = [] := by
      cases k <;> (simp only [Web.scan, Option.some.injEq, Prod.mk.injEq] at h; exact h.1.symm)
    rw [this]; intro c hc; cases hc
  | 0, _, _ :: _, _, _, h, _ => by simp at h
  | n + 1, k + 1, c :: s, is, gs, hl, h => by
    rw [Web.scan] at h
    exact scan_plain n k s is gs (by simpa using hl) h
  | n + 1, 0, c :: s, is, gs, hl, h => by
    rw [Web.scan] at h
    split at h
    · obtain ⟨⟨is', gs'⟩, h2, h3⟩ := Option.map_eq_some_iff.1 h
      simp only [Prod.mk.injEq] at h3
      have := scan_plain n _ s is' gs' (by simpa using hl) h2
      rw [← h3.1]
      intro d hd
      rcases List.mem_cons.1 hd with hd | hd
      · cases hd
      · exact this d hd
    · split at h
      · cases h
      · rename_i hmeta
        obtain ⟨⟨is', gs'⟩, h2, h3⟩ := Option.map_eq_some_iff.1 h
        simp only [Prod.mk.injEq] at h3
        have := scan_plain n _ s is' gs' (by simpa using hl) h2
        rw [← h3.1]
        intro d hd
        rcases List.mem_cons.1 hd with hd | hd
        · by_cases hc : c = 46
          · rw [if_pos hc] at hd; cases hd
          · rw [if_neg hc] at hd
            cases hd
            exact special_of_meta (by simpa using hmeta) hc
        · exact this d hd

theorem special_ne {c d : UInt8} (h : special c = false) (hd : special d = true) : c ≠ d := by
  rintro rfl; rw [h] at hd; cases hd

theorem items_head (is : List Item) (hp : Plain is) : is.flatMap itemText = [] ∨ ∃ c r, is.flatMap itemText = c :: r ∧ (c = 46 ∨ c = 40 ∨ special c = false) := by
  cases is with
  | nil => exact .inl rfl
  | cons i is =>
    right
    cases i with
    | lit c => exact ⟨c, is.flatMap itemText, rfl, .inr (.inr (hp c List.mem_cons_self))⟩
    | any => exact ⟨46, is.flatMap itemText, rfl, .inl rfl⟩
    | group => exact ⟨40, ascii "[^/]+)" ++ is.flatMap itemText, by rw [List.flatMap_cons, itemText, show ascii "([^/]+)" = 40 :: ascii "[^/]+)" by decide +kernel]; rfl, .inr (.inl rfl)⟩

theorem quant_none {a : Re} {c : UInt8} {r : Bytes} (h1 : c ≠ 42) (h2 : c ≠ 43) (h3 : c ≠ 63) (h4 : c ≠ 123) : quant a (c :: r) = some (a, c :: r) := by
  unfold quant
  split <;> simp_all

theorem quant_items (a : Re) (is : List Item) (hp : Plain is) : quant a (is.flatMap itemText) = some (a, is.flatMap itemText) := by
  rcases items_head is hp with h | ⟨c, r, h, hc⟩
  · rw [h]; rfl
  · rw [h]
    rcases hc with rfl | rfl | hc
    · rfl
    · rfl
    · exact quant_none (special_ne hc (by decide +kernel)) (special_ne hc (by decide +kernel)) (special_ne hc (by decide +kernel)) (special_ne hc (by decide +kernel))

theorem simple_plain {c : UInt8} (h : special c = false) (s : Bytes) : simple (c :: s) = some (.chr c, s) := by
  have h46 := special_ne h (d := 46) (by decide +kernel)
  have h94 := special_ne h (d := 94) (by decide +kernel)
  have h36 := special_ne h (d := 36) (by decide +kernel)
  have h92 := special_ne h (d := 92) (by decide +kernel)
  have h91 := special_ne h (d := 91) (by decide +kernel)
  unfold simple
  split <;> simp_all

theorem atom_plain {c : UInt8} (h : special c = false) (f k : Nat) (s : Bytes) : atom (f + 1) k (c :: s) = some (.chr c, k, s) := by
  have h40 := special_ne h (d := 40) (by decide +kernel)
  rw [atom, simple_plain h]
  · rfl
  · intro s' h'; cases h'; exact h40 rfl

theorem atom_group (f k : Nat) (s : Bytes) : atom (f + 6) k (ascii "([^/]+)" ++ s) = some (.group k (.seq (Re.cls notSlash).plus .empty), k + 1, s) := by
  rw [show ascii "([^/]+)" = [40, 91, 94, 47, 93, 43, 41] by decide +kernel]
  simp [atom, disj, terms, simple, ranges, quant, notSlash]

def groupsOf (is : List Item) : Nat := (is.filter (· == .group)).length

theorem terms_items : ∀ (is : List Item) (f k : Nat), Plain is → 2 * (is.flatMap itemText).length + 1 ≤ f →
    terms f k (is.flatMap itemText) = some (itemsRe k is, k + groupsOf is, [])
  | [], f, k, _, hf => by
    obtain ⟨f, rfl⟩ : ∃ g, f = g + 1 := ⟨f - 1, by omega⟩
    rfl
  | i :: is, f, k, hp, hf => by
    have hp' : Plain is := fun c hc => hp c (List.mem_cons_of_mem _ hc)
    rw [List.flatMap_cons, List.length_append] at hf
    cases i with
    | lit c =>
      simp only [itemText, List.length_singleton] at hf
      obtain ⟨f, rfl⟩ : ∃ g, f = g + 1 + 1 := ⟨f - 2, by omega⟩
      have hc := hp c List.mem_cons_self
      have ih := terms_items is (f + 1) k hp' (by omega)
      rw [List.flatMap_cons, itemText, List.singleton_append, terms, if_neg (by
        rintro (h | h) <;> exact special_ne hc (by decide +kernel) h), atom_plain hc]
      simp only [quant_items _ is hp', ih]
      rfl
    | any =>
      simp only [itemText, List.length_singleton] at hf
      obtain ⟨f, rfl⟩ : ∃ g, f = g + 1 + 1 := ⟨f - 2, by omega⟩
      have ih := terms_items is (f + 1) k hp' (by omega)
      rw [List.flatMap_cons, itemText, List.singleton_append, terms, if_neg (by decide),
        show atom (f + 1) k (46 :: is.flatMap itemText) = some (.dot, k, is.flatMap itemText) by rw [atom]; rfl; intro s h; cases h]
      simp only [quant_items _ is hp', ih]
      rfl
    | group =>
      rw [itemText, show (ascii "([^/]+)").length = 7 by decide +kernel] at hf
      obtain ⟨f, rfl⟩ : ∃ g, f = g + 6 + 1 := ⟨f - 7, by omega⟩
      have ih := terms_items is (f + 6) (k + 1) hp' (by omega)
      have ha := atom_group f k (is.flatMap itemText)
      rw [List.flatMap_cons, itemText]
      rw [show ascii "([^/]+)" = 40 :: ascii "[^/]+)" by decide +kernel, List.cons_append] at ha ⊢
      rw [terms, if_neg (by decide), ha]
      simp only [quant_items _ is hp', ih]
      rw [show k + 1 + groupsOf is = k + groupsOf (.group :: is) by simp [groupsOf]; omega]
      rfl

theorem parse_items (is : List Item) (hp : Plain is) : parse (is.flatMap itemText) = some (itemsRe 1 is) := by
  rw [parse, disj, terms_items is _ _ hp (by omega)]

theorem scan_groups : ∀ (n : Nat) (k : Nat) (s : Bytes) (is : List Item) (gs : List Bytes), s.length ≤ n → Web.scan k s = some (is, gs) → gs.length = groupsOf is
  | _, k, [], is, gs, _, h => by
    cases k <;> (simp only [Web.scan, Option.some.injEq, Prod.mk.injEq] at h; rw [← h.1, ← h.2]; rfl)
  | 0, _, _ :: _, _, _, h, _ => by simp at h
  | n + 1, k + 1, c :: s, is, gs, hl, h => by
    rw [Web.scan] at h
    exact scan_groups n k s is gs (by simpa using hl) h
  | n + 1, 0, c :: s, is, gs, hl, h => by
    rw [Web.scan] at h
    split at h
    · obtain ⟨⟨is', gs'⟩, h2, h3⟩ := Option.map_eq_some_iff.1 h
      simp only [Prod.mk.injEq] at h3
      have := scan_groups n _ s is' gs' (by simpa using hl) h2
      rw [← h3.1, ← h3.2, List.length_cons, this]
      simp [groupsOf]
    · split at h
      · cases h
      · obtain ⟨⟨is', gs'⟩, h2, h3⟩ := Option.map_eq_some_iff.1 h
        simp only [Prod.mk.injEq] at h3
        have := scan_groups n _ s is' gs' (by simpa using hl) h2
        rw [← h3.1, ← h3.2, this]
        by_cases hc : c = 46
        · rw [if_pos hc]; simp [groupsOf]
        · rw [if_neg hc]; simp [groupsOf]

/-! ## What it matches -/

/-- The groups of a match, numbered from `k`. -/
def capsOf : Nat → List Bytes → List (Nat × Bytes) → List (Nat × Bytes)
  | _, [], caps => caps
  | k, g :: gs, caps => capsOf (k + 1) gs ((k, g) :: caps)

theorem first_items : ∀ (is : List Item) (k : Nat) (t : St), (first anyEnd (itemsRe k is) t).map (fun x => (x.caps, x.rest)) =
    (Web.matchAt is t.rest).map fun r => (capsOf k r.1 t.caps, r.2)
  | [], k, t => by rw [itemsRe, first_empty, Web.matchAt]; rfl
  | .lit c :: is, k, t => by
    rw [itemsRe, first_chr]
    cases hr : t.rest with
    | nil => rw [if_neg (by simp)]; rfl
    | cons d r =>
      rw [Web.matchAt]
      by_cases h : c = d
      · rw [if_pos h, if_pos (by rw [h]; rfl), first_items is k (t.after 1)]
        simp [St.after, hr]
      · rw [if_neg h, if_neg (by simpa using fun h' => h h'.symm)]; rfl
  | .any :: is, k, t => by
    rw [itemsRe, first_one isOne_dot]
    cases hr : t.rest with
    | nil => rw [if_neg (by simp)]; rfl
    | cons d r =>
      rw [Web.matchAt]
      by_cases h : d = 10 ∨ d = 13
      · rw [if_pos h, if_neg (by rcases h with rfl | rfl <;> simp [notEol])]; rfl
      · rw [if_neg h, if_pos (by simpa [notEol] using h), first_items is k (t.after 1)]
        simp [St.after, hr]
  | .group :: is, k, t => by
    rw [itemsRe, first_group_seq, run_seq_empty, run_plus (isOne_cls notSlash), notSlash_has, map_findSome, Web.matchAt]
    have hle : (t.rest.takeWhile fun c => decide (c ≠ 47)).length ≤ t.rest.length := List.Sublist.length_le (List.takeWhile_sublist _)
    generalize (t.rest.takeWhile fun c => decide (c ≠ 47)).length = m at hle
    induction m with
    | zero => rfl
    | succ m ih =>
      rw [cuts, List.findSome?_cons, ih (by omega), first_items is (k + 1), Nat.zero_add, Web.tryLens]
      have e : t.rest.length - (t.rest.length - (m + 1)) = m + 1 := by omega
      simp only [St.after, List.length_drop, e]
      cases Web.matchAt is (t.rest.drop (m + 1)) with
      | none => rfl
      | some r => rfl

theorem capsOf_lookup_lt : ∀ (gs : List Bytes) (k j : Nat) (caps : List (Nat × Bytes)), j < k → (capsOf k gs caps).lookup j = caps.lookup j
  | [], _, _, _, _ => rfl
  | g :: gs, k, j, caps, h => by
    rw [capsOf, capsOf_lookup_lt gs (k + 1) j _ (by omega), List.lookup_cons]
    rw [show (j == k) = false by simpa using (by omega : j ≠ k)]

theorem capsOf_lookup : ∀ (gs : List Bytes) (k i : Nat) (caps : List (Nat × Bytes)), (∀ j, k ≤ j → caps.lookup j = none) →
    (capsOf k gs caps).lookup (k + i) = gs[i]?
  | [], k, i, caps, h => by rw [capsOf, h _ (by omega)]; rfl
  | g :: gs, k, 0, caps, h => by
    rw [capsOf, capsOf_lookup_lt gs (k + 1) _ _ (by omega)]
    simp [List.lookup_cons]
  | g :: gs, k, i + 1, caps, h => by
    rw [capsOf, show k + (i + 1) = k + 1 + i by omega, capsOf_lookup gs (k + 1) i, List.getElem?_cons_succ]
    intro j hj
    rw [List.lookup_cons, show (j == k) = false by simpa using (by omega : j ≠ k)]
    exact h j (by omega)

/-- The groups of a match: `m[1]`, …, `m[n]`. -/
def Match.groups (m : Match) (n : Nat) : List Bytes := (List.range n).map fun i => m.group (i + 1)

theorem matchAt_length : ∀ (is : List Item) (s : Bytes) (r : List Bytes × Bytes), Web.matchAt is s = some r → r.1.length = groupsOf is
  | [], s, r, h => by rw [Web.matchAt] at h; cases h; rfl
  | .lit c :: is, [], r, h => by rw [Web.matchAt] at h; cases h
  | .lit c :: is, d :: s, r, h => by
    rw [Web.matchAt] at h
    split at h
    · rw [matchAt_length is s r h]; simp [groupsOf]
    · cases h
  | .any :: is, [], r, h => by rw [Web.matchAt] at h; cases h
  | .any :: is, d :: s, r, h => by
    rw [Web.matchAt] at h
    split at h
    · cases h
    · rw [matchAt_length is s r h]; simp [groupsOf]
  | .group :: is, s, r, h => by
    rw [Web.matchAt] at h
    generalize (s.takeWhile fun c => decide (c ≠ 47)).length = m at h
    induction m with
    | zero => cases h
    | succ m ih =>
      rw [Web.tryLens] at h
      cases hx : Web.matchAt is (s.drop (m + 1)) with
      | none => rw [hx] at h; exact ih h
      | some q =>
        rw [hx] at h
        cases h
        have := matchAt_length is _ q hx
        simp [groupsOf] at this ⊢
        rw [this]

theorem search_items_from (is : List Item) : ∀ (s : Bytes) (pos : Nat),
    (searchFrom (itemsRe 1 is) pos s).map (·.groups (groupsOf is)) = Web.search is s := by
  have key : ∀ pos s, (matchAt (itemsRe 1 is) pos s).map (·.groups (groupsOf is)) = (Web.matchAt is s).map (·.1) := by
    intro pos s
    have h := first_items is 1 ⟨pos, s, []⟩
    rw [matchAt, head?_eq_find?, Option.map_map]
    rw [first] at h
    cases hr : (run (itemsRe 1 is) ⟨pos, s, []⟩).find? anyEnd with
    | none =>
      rw [hr] at h
      cases hx : Web.matchAt is s with
      | none => rfl
      | some r => simp only at h; rw [hx] at h; cases h
    | some t =>
      rw [hr] at h
      cases hx : Web.matchAt is s with
      | none => simp only at h; rw [hx] at h; cases h
      | some r =>
        simp only at h
        rw [hx] at h
        simp only [Option.map_some, Option.some.injEq, Prod.mk.injEq] at h
        have hl := matchAt_length is s r hx
        simp only [Option.map_some, Function.comp, Option.some.injEq, Match.groups, Match.group, h.1]
        apply List.ext_getElem?
        intro i
        rw [List.getElem?_map]
        by_cases hi : i < groupsOf is
        · rw [List.getElem?_range hi, Option.map_some, Nat.add_comm, capsOf_lookup r.1 1 i [] (fun _ _ => rfl)]
          rw [List.getElem?_eq_getElem (by omega)]; rfl
        · rw [List.getElem?_eq_none (by simpa using hi), List.getElem?_eq_none (by omega)]; rfl
  intro s
  induction s with
  | nil => intro pos; rw [searchFrom, key, Web.search]
  | cons c s ih =>
    intro pos
    have hk := key pos (c :: s)
    rw [searchFrom, Web.search]
    cases hm : matchAt (itemsRe 1 is) pos (c :: s) with
    | some m =>
      rw [hm] at hk
      cases hx : Web.matchAt is (c :: s) with
      | none => rw [hx] at hk; cases hk
      | some r => rw [hx] at hk; exact hk
    | none =>
      rw [hm] at hk
      cases hx : Web.matchAt is (c :: s) with
      | some r => rw [hx] at hk; cases hk
      | none =>
        simp only
        rw [← ih (pos + 1), Option.map_map]
        cases searchFrom (itemsRe 1 is) (pos + 1) s <;> rfl

/-- **C61 (the expressions).** For every route with parameters that the model accepts, `createPattenRegex` builds a text that is a regular expression;
searching with that expression finds a match in a path when the model finds one, and its groups are the values of the parameters that the model gives. -/
theorem C61_expression {path : Bytes} {items : List Item} {groups : List Bytes} (h : Web.compile path = some (.regex items groups)) :
    ∃ text r, routeText path = some (text, groups) ∧ parse text = some r ∧
      ∀ s, (search r s).map (·.groups groups.length) = Web.search items s := by
  unfold Web.compile at h
  split at h
  · cases h
  · split at h
    · cases hs : Web.scan 0 path with
      | none => rw [hs] at h; cases h
      | some p =>
        obtain ⟨is, gs⟩ := p
        rw [hs] at h
        simp only at h
        split at h
        · cases h
          refine ⟨_, _, routeText_eq hs, parse_items _ (scan_plain _ 0 path _ _ (Nat.le_refl _) hs), fun s => ?_⟩
          rw [scan_groups _ 0 path _ _ (Nat.le_refl _) hs]
          exact search_items_from _ s 0
        · cases h
    · split at h <;> cases h

example : (routeText (ascii "/a/:id/b.c/:k_1")).map (·.1) = some (ascii "/a/([^/]+)/b.c/([^/]+)") ∧
    (searchText (ascii "/a/([^/]+)/b.c/([^/]+)") (ascii "/a/7/bxc/yz/")).map (·.groups 2) = some [ascii "7", ascii "yz"] := by decide +kernel

end Regex
end Nebula
