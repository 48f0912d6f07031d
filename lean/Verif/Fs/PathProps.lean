import Verif.Fs.PathSpec
import Verif.Net.Props
/-! # C63: dividing and joining paths -/
namespace Nebula
namespace Fs
open Net

theorem strncpy_noNul {s : Bytes} (h : NoNul s) : strncpy s = s := by
  unfold strncpy
  rw [cstr_of_no_nul h]; simp

theorem rfind_none {c : UInt8} : ∀ {s : Bytes}, rfind c s = none → c ∉ s
  | [], _ => by simp
  | b :: s, h => by
    rw [rfind] at h
    split at h
    · cases h
    · rename_i h'
      split at h
      · cases h
      · rename_i hb
        intro hm
        rcases List.mem_cons.1 hm with e | e
        · exact hb e.symm
        · exact rfind_none h' e

theorem rfind_some {c : UInt8} : ∀ {s : Bytes} {i : Nat}, rfind c s = some i → s = s.take i ++ c :: s.drop (i + 1) ∧ c ∉ s.drop (i + 1)
  | [], _, h => by cases h
  | b :: s, i, h => by
    rw [rfind] at h
    split at h
    · rename_i j hj
      cases h
      obtain ⟨h1, h2⟩ := rfind_some hj
      refine ⟨?_, by simpa using h2⟩
      rw [List.take_succ_cons, List.drop_succ_cons, List.cons_append, ← h1]
    · rename_i h'
      split at h
      · rename_i e
        cases h
        refine ⟨by simp [e], by simpa using rfind_none h'⟩
      · cases h

theorem splitAll_ne (c : UInt8) (s : Bytes) : splitAll c s ≠ [] := by
  cases s with
  | nil => simp [splitAll]
  | cons b s =>
    rw [splitAll]
    split
    · simp
    · split <;> simp

theorem splitAll_sep (c : UInt8) : ∀ (x y : Bytes), splitAll c (x ++ c :: y) = splitAll c x ++ splitAll c y
  | [], y => by simp [splitAll]
  | b :: x, y => by
    rw [List.cons_append, splitAll, splitAll_sep c x y]
    conv => rhs; rw [splitAll]
    split
    · simp
    · cases h : splitAll c x with
      | nil => exact absurd h (splitAll_ne c x)
      | cons t ts => rfl

theorem comps_sep (x y : Bytes) : comps (x ++ 47 :: y) = comps x ++ comps y := by
  unfold comps; rw [splitAll_sep, List.filter_append]

theorem comps_nil : comps [] = [] := by decide

theorem head?_append_ne {a b : Bytes} (h : a ≠ []) : (a ++ b).head? = a.head? := by
  cases a with
  | nil => exact absurd rfl h
  | cons c a => rfl

theorem toLook_cases {p : Bytes} (h : p ≠ []) : (toLook p = p ∧ p.getLast? ≠ some 47) ∨ p = toLook p ++ [47] := by
  unfold toLook
  split
  · rename_i hl
    right
    obtain ⟨q, rfl⟩ := List.getLast?_eq_some_iff.1 hl
    simp
  · rename_i hl; exact Or.inl ⟨rfl, hl⟩

theorem toLook_ne {p : Bytes} (h : p ≠ []) (h1 : p ≠ [47]) : toLook p ≠ [] := by
  rcases toLook_cases h with ⟨e, _⟩ | e
  · rw [e]; exact h
  · intro e'; rw [e'] at e; exact h1 e

theorem toLook_same {p : Bytes} (h : p ≠ []) (h1 : p ≠ [47]) : SamePath (toLook p) p := by
  rcases toLook_cases h with ⟨e, _⟩ | e
  · rw [e]; exact ⟨rfl, rfl⟩
  · have hne := toLook_ne h h1
    generalize toLook p = q at *
    subst e
    refine ⟨?_, ?_⟩
    · unfold absolute; rw [head?_append_ne hne]
    · rw [comps_sep, comps_nil, List.append_nil]

theorem join_text {dir name : Bytes} (hd : NoNul dir) (hn : NoNul name) :
    joinPath dir name = if dir = [] then ascii "./" ++ name else if dir.getLast? = some 47 then dir ++ name else dir ++ 47 :: name := by
  unfold joinPath
  rw [strncpy_noNul hd, strncpy_noNul hn]

/-- **C63.** The joined path names the file of that name in the directory; a missing directory is the
current one. -/
theorem C63_join {dir name : Bytes} (hd : NoNul dir) (hn : NoNul name) :
    comps (joinPath dir name) = comps dir ++ comps name ∧
    absolute (joinPath dir name) = absolute dir ∧
    ∃ pre, joinPath dir name = pre ++ name := by
  rw [join_text hd hn]
  split
  · rename_i e; subst e
    refine ⟨?_, rfl, _, rfl⟩
    have : ascii "./" ++ name = [46] ++ 47 :: name := by simp [ascii]
    rw [this, comps_sep]
    rfl
  · rename_i hne
    split
    · rename_i hl
      obtain ⟨q, rfl⟩ := List.getLast?_eq_some_iff.1 hl
      refine ⟨?_, ?_, _, rfl⟩
      · rw [List.append_assoc, List.singleton_append, comps_sep, comps_sep, comps_nil, List.append_nil]
      · unfold absolute; rw [head?_append_ne hne]
    · refine ⟨comps_sep _ _, ?_, dir ++ [47], by simp⟩
      unfold absolute; rw [head?_append_ne hne]

theorem noNul_take {p : Bytes} (h : NoNul p) (n : Nat) : NoNul (p.take n) := fun hm => h (List.mem_of_mem_take hm)
theorem noNul_drop {p : Bytes} (h : NoNul p) (n : Nat) : NoNul (p.drop n) := fun hm => h (List.mem_of_mem_drop hm)
theorem noNul_toLook {p : Bytes} (h : NoNul p) : NoNul (toLook p) := by
  unfold toLook; split
  · exact fun hm => h (List.dropLast_subset _ hm)
  · exact h

/-- The parts of a path: either there is no slash, or the last slash divides it. -/
theorem divide_cases {p : Bytes} (h : p ≠ []) (h1 : p ≠ [47]) :
    (dividePath p = ([], toLook p) ∧ (47 : UInt8) ∉ toLook p) ∨
    ∃ a b, toLook p = a ++ 47 :: b ∧ (47 : UInt8) ∉ b ∧ dividePath p = (if a = [] then [47] else a, b) := by
  unfold dividePath
  rw [if_neg (by simp [h, h1])]
  cases hr : rfind 47 (toLook p) with
  | none => exact Or.inl ⟨rfl, rfind_none hr⟩
  | some i =>
    right
    obtain ⟨e, hb⟩ := rfind_some hr
    refine ⟨_, _, e, hb, ?_⟩
    dsimp only
    have hi : i < (toLook p).length := by
      have := congrArg List.length e
      simp only [List.length_append, List.length_take, List.length_cons, List.length_drop] at this
      omega
    by_cases hz : i = 0
    · subst hz
      simp only [List.take_zero, if_true, List.nil_append] at e ⊢
      rw [e]; simp
    · rw [if_neg hz, if_neg]
      intro h0
      have := congrArg List.length h0
      rw [List.length_take, List.length_nil] at this
      omega

/-- **C63.** Joining the parts of a divided path gives a path to the same file, for every path but the root. -/
theorem C63_divide_join {p : Bytes} (hn : NoNul p) (h1 : p ≠ [47]) :
    SamePath (joinPath (dividePath p).1 (dividePath p).2) p := by
  by_cases h : p = []
  · subst h; exact ⟨by decide, by decide⟩
  have hs := toLook_same h h1
  have hnl := noNul_toLook hn
  rcases divide_cases h h1 with ⟨e, hno⟩ | ⟨a, b, e, hb, hd⟩
  · rw [e]
    obtain ⟨j1, j2, _⟩ := C63_join (dir := []) (name := toLook p) (by simp [NoNul]) hnl
    refine ⟨?_, ?_⟩
    · rw [j2, ← hs.1]
      unfold absolute
      cases hq : toLook p with
      | nil => rfl
      | cons c q =>
        rw [hq] at hno
        have : c ≠ 47 := by rintro rfl; exact hno List.mem_cons_self
        simp [this]
    · rw [j1, ← hs.2]; simp [comps_nil]
  · rw [hd]
    have hna : NoNul a := fun hm => hnl (by rw [e]; exact List.mem_append_left _ hm)
    have hnb : NoNul b := fun hm => hnl (by rw [e]; exact List.mem_append_right _ (List.mem_cons_of_mem _ hm))
    have hnp : NoNul (if a = [] then [47] else a) := by
      split
      · simp [NoNul]
      · exact hna
    obtain ⟨j1, j2, _⟩ := C63_join hnp hnb
    refine ⟨?_, ?_⟩
    · dsimp only
      rw [j2, ← hs.1, e]
      split
      · rename_i ha; subst ha; rfl
      · rename_i ha
        unfold absolute; rw [head?_append_ne ha]
    · dsimp only
      rw [j1, ← hs.2, e, comps_sep]
      split
      · rename_i ha; subst ha; rfl
      · rfl

/-- **C63.** The child has no slash, and the parent is shorter than the path; the child is the last name of
the path unless the path ends in two slashes. -/
theorem C63_divide_parts {p : Bytes} (h : p ≠ []) (h1 : p ≠ [47]) :
    (47 : UInt8) ∉ (dividePath p).2 ∧ (dividePath p).1.length < p.length := by
  have hlen : (toLook p).length ≤ p.length := by
    unfold toLook; split <;> simp
  have hne := toLook_ne h h1
  rcases divide_cases h h1 with ⟨e, hno⟩ | ⟨a, b, e, hb, hd⟩
  · rw [e]; exact ⟨hno, List.length_pos_iff.2 h⟩
  · rw [hd]
    refine ⟨hb, ?_⟩
    dsimp only
    have hl := congrArg List.length e
    simp only [List.length_append, List.length_cons] at hl
    split
    · rename_i ha
      subst ha
      rcases toLook_cases h with ⟨e2, _⟩ | e2
      · rw [e2] at e
        have : b ≠ [] := by rintro rfl; exact h1 e
        have := List.length_pos_iff.2 this
        rw [e]; simp; omega
      · have hl2 := congrArg List.length e2
        simp only [List.length_append, List.length_singleton] at hl2
        simp only [List.length_singleton]
        omega
    · omega

/-! ## dirname and basename -/

theorem takeWhile_no {b r : Bytes} (hb : (47 : UInt8) ∉ b) (hr : r = [] ∨ r.head? = some 47) :
    (b ++ r).takeWhile (· ≠ 47) = b := by
  induction b with
  | nil =>
    rcases hr with rfl | hr
    · rfl
    · cases r with
      | nil => rfl
      | cons c r => simp at hr; subst hr; rfl
  | cons c b ih =>
    have hc : c ≠ 47 := by rintro rfl; exact hb List.mem_cons_self
    rw [List.cons_append, List.takeWhile_cons_of_pos (by simpa using hc), ih fun hm => hb (List.mem_cons_of_mem _ hm)]

theorem lastPiece_some {b r : Bytes} (hb : (47 : UInt8) ∉ b) (hne : b ≠ []) (hr : r = [] ∨ r = [47]) :
    lastPiece (b ++ r) = some b := by
  unfold lastPiece
  dsimp only
  rw [takeWhile_no hb (by rcases hr with rfl | rfl <;> simp), if_neg hne, List.drop_left, if_pos hr]

theorem lastPiece_nil : lastPiece [] = none := rfl

/-- The form of a path whose last name is not empty. -/
theorem path_form {p : Bytes} (h : p ≠ []) : ∃ r, (r = [] ∨ r = [47]) ∧ p = toLook p ++ r := by
  rcases toLook_cases h with ⟨e, _⟩ | e
  · exact ⟨[], Or.inl rfl, by simp [e]⟩
  · exact ⟨[47], Or.inr rfl, e⟩

theorem dirMatch_at {s : Bytes} {k : Nat} {b : Bytes} (h1 : s[k]? = some 47) (h2 : (s.take k).all anyChar = true)
    (h3 : lastPiece (s.drop (k + 1)) = some b) : dirMatch s k = some (s.take k, b) := by
  have : dirAt s k = some (s.take k, b) := by
    unfold dirAt
    rw [if_pos ⟨h1, h2⟩, h3]; rfl
  cases k with
  | zero => exact this
  | succ k => rw [dirMatch, this]; rfl

theorem dirAt_none {s : Bytes} {k : Nat} (h : s[k]? ≠ some 47 ∨ lastPiece (s.drop (k + 1)) = none) : dirAt s k = none := by
  unfold dirAt
  split
  · rename_i hc
    rcases h with h | h
    · exact absurd hc.1 h
    · rw [h]; rfl
  · rfl

theorem dirMatch_skip {s : Bytes} {k : Nat} (h : s[k + 1]? ≠ some 47 ∨ lastPiece (s.drop (k + 2)) = none) :
    dirMatch s (k + 1) = dirMatch s k := by
  rw [dirMatch, dirAt_none h]; rfl

theorem dirMatch_skips {s : Bytes} {m : Nat} (h : ∀ k, m < k → s[k]? ≠ some 47 ∨ lastPiece (s.drop (k + 1)) = none) :
    ∀ n, dirMatch s (m + n) = dirMatch s m
  | 0 => rfl
  | n + 1 => by
    rw [← Nat.add_assoc, dirMatch_skip (h _ (by omega)), dirMatch_skips h n]

theorem get_noslash {b : Bytes} (hb : (47 : UInt8) ∉ b) (k : Nat) : b[k]? ≠ some 47 := fun h => hb (List.mem_of_getElem? h)

theorem dirMatch_none {s : Bytes} (h : ∀ k, s[k]? ≠ some 47 ∨ lastPiece (s.drop (k + 1)) = none) : ∀ n, dirMatch s n = none
  | 0 => dirAt_none (h 0)
  | n + 1 => by rw [dirMatch_skip (h _), dirMatch_none h n]

theorem baseMatch_at {s : Bytes} {k : Nat} {b : Bytes} (h1 : k = 0 ∨ s[k - 1]? = some 47)
    (h3 : lastPiece (s.drop k) = some b) : baseMatch s k = some b := by
  have : baseAt s k = some b := by unfold baseAt; rw [if_pos h1, h3]
  cases k with
  | zero => exact this
  | succ k => rw [baseMatch, this]; rfl

theorem baseMatch_skips {s : Bytes} {m : Nat} (h : ∀ k, m < k → s[k - 1]? ≠ some 47 ∨ lastPiece (s.drop k) = none) :
    ∀ n, baseMatch s (m + n) = baseMatch s m
  | 0 => rfl
  | n + 1 => by
    have : baseAt s (m + n + 1) = none := by
      unfold baseAt
      split
      · rename_i hc
        rcases h (m + n + 1) (by omega) with h | h
        · rcases hc with hc | hc
          · omega
          · exact absurd hc h
        · exact h
      · rfl
    rw [← Nat.add_assoc, baseMatch, this]
    exact baseMatch_skips h n

/-- Behind the last divider, a slash can only be the last character. -/
theorem behind {a b r : Bytes} (hb : (47 : UInt8) ∉ b) (hr : r = [] ∨ r = [47]) (k : Nat) (hk : a.length < k) :
    (a ++ 47 :: b ++ r)[k]? ≠ some 47 ∨ lastPiece ((a ++ 47 :: b ++ r).drop (k + 1)) = none := by
  by_cases hkb : k < a.length + 1 + b.length
  · left
    rw [List.append_assoc, List.getElem?_append_right (by omega)]
    have : k - a.length = (k - a.length - 1) + 1 := by omega
    rw [this, List.cons_append, List.getElem?_cons_succ, List.getElem?_append_left (by omega)]
    exact get_noslash hb _
  · right
    rw [List.drop_eq_nil_of_le]
    · rfl
    · rcases hr with rfl | rfl <;> simp <;> omega

/-- **C63.** For a path whose last name is not empty and that has no line ends, `dirname` is the parent (the
current directory if there is none) and `basename` the child. -/
theorem C63_dirname_basename_partial {p : Bytes} (h : p ≠ []) (h1 : p ≠ [47]) (hc : (dividePath p).2 ≠ []) (he : NoEol p) :
    dirname p = (if (dividePath p).1 = [] then [46] else (dividePath p).1) ∧ basename p = (dividePath p).2 := by
  obtain ⟨r, hr, hp⟩ := path_form h
  unfold dirname basename
  rw [if_neg h1, if_neg h1]
  rcases divide_cases h h1 with ⟨e, hno⟩ | ⟨a, b, e, hb, hd⟩
  · rw [e]
    dsimp only
    rw [if_pos rfl]
    rw [e] at hc
    dsimp only at hc
    generalize toLook p = q at *
    subst hp
    constructor
    · rw [dirMatch_none]
      intro k
      by_cases hk : k < q.length
      · left; rw [List.getElem?_append_left hk]; exact get_noslash hno k
      · right
        rw [List.drop_eq_nil_of_le]
        · rfl
        · rcases hr with rfl | rfl <;> simp <;> omega
    · have := baseMatch_skips (s := q ++ r) (m := 0) (by
        intro k hk
        by_cases hkq : k - 1 < q.length
        · left; rw [List.getElem?_append_left hkq]; exact get_noslash hno _
        · right
          rw [List.drop_eq_nil_of_le]
          · rfl
          · rcases hr with rfl | rfl <;> simp <;> omega) (q ++ r).length
      rw [Nat.zero_add] at this
      rw [this, baseMatch_at (Or.inl rfl) (by rw [List.drop_zero]; exact lastPiece_some hno hc hr)]
      rfl
  · rw [hd]
    rw [hd] at hc
    dsimp only at hc ⊢
    have hpe : p = a ++ 47 :: b ++ r := by rw [← e]; exact hp
    have hget : p[a.length]? = some 47 := by
      rw [hpe, List.append_assoc, List.getElem?_append_right (Nat.le_refl _)]; simp
    have htake : p.take a.length = a := by rw [hpe, List.append_assoc, List.take_left]
    have hdrop : p.drop (a.length + 1) = b ++ r := by
      rw [hpe, List.append_assoc, ← List.drop_drop, List.drop_left]; rfl
    have hlen : p.length = a.length + (1 + b.length + r.length) := by rw [hpe]; simp; omega
    have hnp : (if a = [] then ([47] : Bytes) else a) ≠ [] := by
      split
      · exact List.cons_ne_nil _ _
      · assumption
    rw [if_neg hnp]
    constructor
    · rw [hlen, dirMatch_skips (m := a.length) (by intro k hk; rw [hpe]; exact behind hb hr k hk),
        dirMatch_at hget (b := b) (by
          rw [htake, List.all_eq_true]
          intro c hcm
          have hcp : c ∈ p := by rw [hpe]; simp [hcm]
          have h10 : c ≠ 10 := by rintro rfl; exact he.1 hcp
          have h13 : c ≠ 13 := by rintro rfl; exact he.2 hcp
          simp [anyChar, h10, h13]) (by rw [hdrop]; exact lastPiece_some hb hc hr), htake]
    · have hl2 : p.length = (a.length + 1) + (b.length + r.length) := by omega
      rw [hl2, baseMatch_skips (m := a.length + 1) (by
        intro k hk
        have := behind (a := a) hb hr (k - 1) (by omega)
        rw [Nat.sub_add_cancel (by omega)] at this
        rw [hpe]; exact this),
        baseMatch_at (b := b) (Or.inr hget) (by rw [hdrop]; exact lastPiece_some hb hc hr)]
      rfl

/-- **C63.** Joining `dirname` and `basename` gives a path to the same file. -/
theorem C63_dirname_join_partial {p : Bytes} (h : p ≠ []) (h1 : p ≠ [47]) (hn : NoNul p) (hc : (dividePath p).2 ≠ []) (he : NoEol p) :
    SamePath (joinPath (dirname p) (basename p)) p := by
  obtain ⟨e1, e2⟩ := C63_dirname_basename_partial h h1 hc he
  have hj := C63_divide_join hn h1
  rw [e1, e2]
  split
  · rename_i hp
    rw [hp] at hj
    have hnc : NoNul (dividePath p).2 := by
      rcases divide_cases h h1 with ⟨e, _⟩ | ⟨a, b, e, _, hd⟩
      · rw [e]; exact noNul_toLook hn
      · rw [hd]; exact fun hm => noNul_toLook hn (by rw [e]; exact List.mem_append_right _ (List.mem_cons_of_mem _ hm))
    obtain ⟨a1, a2, _⟩ := C63_join (dir := []) (by simp [NoNul]) hnc
    obtain ⟨b1, b2, _⟩ := C63_join (dir := [46]) (by simp [NoNul]) hnc
    refine ⟨?_, ?_⟩
    · rw [b2, ← hj.1, a2]; rfl
    · rw [b1, ← hj.2, a1]; rfl
  · exact hj

example : dividePath (ascii "/a/b//c/") = (ascii "/a/b/", ascii "c") ∧ dirname (ascii "/a/b//c/") = ascii "/a/b/" ∧
    basename (ascii "/a/b//c/") = ascii "c" ∧ joinPath (ascii "/a/b/") (ascii "c") = ascii "/a/b/c" ∧
    NoNul (ascii "/a/b//c/") ∧ NoEol (ascii "/a/b//c/") := by
  unfold NoNul NoEol; decide +kernel

/-- **C63 violated** for the root: its parts joined name the current directory. -/
theorem C63_root_violated : ¬SamePath (joinPath (dividePath [47]).1 (dividePath [47]).2) [47] := by
  rintro ⟨h, _⟩; revert h; decide +kernel

/-- **C63 violated** for paths with two trailing slashes or a line end: `dirname` is then the current
directory. -/
theorem C63_dirname_violated : dirname (ascii "/a/b//") = ascii "." ∧ basename (ascii "/a/b//") = [] ∧
    dirname (ascii "/a\n/b") = ascii "." ∧ basename (ascii "/a\n/b") = ascii "b" := by decide +kernel

end Fs
end Nebula
