import Verif.Regex.Lemmas
/-!
# Lemmas: repetitions of one character
-/
namespace Nebula
namespace Regex

/-- `s` after `j` characters. -/
def St.after (s : St) (j : Nat) : St := ⟨s.pos + j, s.rest.drop j, s.caps⟩

theorem after_zero (s : St) : s.after 0 = s := rfl
theorem after_after (s : St) (i j : Nat) : (s.after i).after j = s.after (i + j) := by
  simp [St.after, Nat.add_assoc]

/-- After `m`, …, `n + 1` characters. -/
def cuts (s : St) (n : Nat) : Nat → List St
  | 0 => []
  | m + 1 => s.after (n + m + 1) :: cuts s n m

theorem cuts_shift (s : St) (n : Nat) : ∀ m, cuts (s.after 1) n m = cuts s (n + 1) m
  | 0 => rfl
  | m + 1 => by
    rw [cuts, cuts, cuts_shift s n m, after_after]
    congr 2; omega

theorem cuts_snoc (s : St) (n : Nat) : ∀ m, cuts s (n + 1) m ++ [s.after (n + 1)] = cuts s n (m + 1)
  | 0 => rfl
  | m + 1 => by
    rw [cuts, List.cons_append, cuts_snoc s n m, cuts]
    congr 2; omega

/-- All cuts from the longest to none. -/
theorem iterate_one (p : UInt8 → Bool) : ∀ (n : Nat) (s : St), s.rest.length ≤ n →
    iterate (fun s => s.one p) n s = cuts s 0 (s.rest.takeWhile p).length ++ [s]
  | 0, s, h => by
    have h0 : s.rest = [] := List.length_eq_zero_iff.1 (by omega)
    rw [iterate, h0]; rfl
  | n + 1, s, h => by
    rw [iterate]
    cases hr : s.rest with
    | nil => simp [St.one, hr, cuts]
    | cons c r =>
      by_cases hp : p c = true
      · have e1 : s.one p = [s.after 1] := by rw [St.one, hr]; simp [hp, St.after, hr]
        have e2 : (s.after 1).rest = r := by simp [St.after, hr]
        rw [e1]
        have : ([s.after 1].filter fun t => t.rest.length < (c :: r).length) = [s.after 1] := by
          rw [List.filter_cons_of_pos (by simp [e2]), List.filter_nil]
        rw [this]
        simp only [List.flatMap_cons, List.flatMap_nil, List.append_nil]
        rw [iterate_one p n (s.after 1) (by rw [e2]; rw [hr, List.length_cons] at h; omega), e2, cuts_shift,
          List.takeWhile_cons_of_pos hp, List.length_cons, cuts_snoc]
      · have e1 : s.one p = [] := by rw [St.one, hr]; simp [hp]
        rw [e1, List.takeWhile_cons_of_neg hp]
        simp [cuts]

/-- `r` matches one character that `p` accepts. -/
def IsOne (r : Re) (p : UInt8 → Bool) : Prop := ∀ s, run r s = s.one p

theorem isOne_chr (c : UInt8) : IsOne (.chr c) (· == c) := fun s => by simp only [run]
theorem isOne_dot : IsOne .dot notEol := fun s => by simp only [run]
theorem isOne_cls (c : Cls) : IsOne (.cls c) c.has := fun s => by simp only [run]

theorem run_star {r : Re} {p : UInt8 → Bool} (h : IsOne r p) (s : St) :
    run (.star r) s = cuts s 0 (s.rest.takeWhile p).length ++ [s] := by
  rw [run, show run r = fun s => s.one p from funext h, iterate_one p _ s (Nat.le_refl _)]

theorem run_plus {r : Re} {p : UInt8 → Bool} (h : IsOne r p) (s : St) :
    run r.plus s = cuts s 0 (s.rest.takeWhile p).length := by
  rw [Re.plus, run, h s]
  cases hr : s.rest with
  | nil => simp [St.one, hr, cuts]
  | cons c x =>
    by_cases hp : p c = true
    · have e1 : s.one p = [s.after 1] := by rw [St.one, hr]; simp [hp, St.after, hr]
      have e2 : (s.after 1).rest = x := by simp [St.after, hr]
      rw [e1, List.flatMap_cons, List.flatMap_nil, List.append_nil, run_star h, e2, cuts_shift, List.takeWhile_cons_of_pos hp,
        List.length_cons, cuts_snoc]
    · have e1 : s.one p = [] := by rw [St.one, hr]; simp [hp]
      rw [e1, List.takeWhile_cons_of_neg hp]
      simp [cuts]

/-- The first match that `P` accepts. -/
def first (P : St → Bool) (r : Re) (s : St) : Option St := (run r s).find? P

theorem first_seq (P : St → Bool) (a b : Re) (s : St) : first P (.seq a b) s = (run a s).findSome? (first P b) := by
  rw [first, run, List.find?_flatMap]; rfl

theorem first_group_seq (P : St → Bool) (n : Nat) (a b : Re) (s : St) : first P (.seq (.group n a) b) s =
    (run a s).findSome? fun t => first P b ⟨t.pos, t.rest, (n, s.rest.take (s.rest.length - t.rest.length)) :: t.caps⟩ := by
  rw [first_seq, run, List.findSome?_map]; rfl

theorem first_chr (P : St → Bool) (c : UInt8) (b : Re) (s : St) : first P (.seq (.chr c) b) s =
    if s.rest.head? = some c then first P b (s.after 1) else none := by
  rw [first_seq, run, St.one]
  cases hr : s.rest with
  | nil => simp
  | cons d r =>
    by_cases h : d = c
    · subst h; simp [St.after, hr]
    · simp [h]

theorem first_empty (P : St → Bool) (s : St) : first P .empty s = if P s then some s else none := by
  rw [first, run, List.find?_cons, List.find?_nil]; cases P s <;> rfl

theorem run_seq_empty (a : Re) (s : St) : run (.seq a .empty) s = run a s := by
  rw [run, show run .empty = fun s => [s] from funext fun s => by rw [run]]
  induction run a s with
  | nil => rfl
  | cons x l ih => simp [List.flatMap_cons] at ih ⊢

/-- The character at the cut. -/
theorem after_head (s : St) (j : Nat) : (s.after j).rest.head? = s.rest[j]? := by simp [St.after]

theorem takeWhile_get {p : UInt8 → Bool} : ∀ {l : Bytes} {j : Nat}, j < (l.takeWhile p).length → ∃ c, l[j]? = some c ∧ p c = true
  | [], _, h => by simp at h
  | c :: l, j, h => by
    by_cases hp : p c = true
    · cases j with
      | zero => exact ⟨c, rfl, hp⟩
      | succ j =>
        rw [List.takeWhile_cons_of_pos hp, List.length_cons] at h
        obtain ⟨d, h1, h2⟩ := takeWhile_get (p := p) (l := l) (j := j) (by omega)
        exact ⟨d, by simpa using h1, h2⟩
    · rw [List.takeWhile_cons_of_neg hp] at h; simp at h

theorem drop_takeWhile (p : UInt8 → Bool) (l : Bytes) : l.drop (l.takeWhile p).length = l.dropWhile p := by
  induction l with
  | nil => rfl
  | cons c l ih =>
    by_cases h : p c = true
    · rw [List.takeWhile_cons_of_pos h, List.dropWhile_cons_of_pos h, List.length_cons, List.drop_succ_cons, ih]
    · rw [List.takeWhile_cons_of_neg h, List.dropWhile_cons_of_neg h]; rfl

theorem take_takeWhile (p : UInt8 → Bool) (l : Bytes) : l.take (l.takeWhile p).length = l.takeWhile p := by
  induction l with
  | nil => rfl
  | cons c l ih =>
    by_cases h : p c = true
    · rw [List.takeWhile_cons_of_pos h, List.length_cons, List.take_succ_cons, ih]
    · rw [List.takeWhile_cons_of_neg h]; rfl

theorem cuts_none {α : Type} {f : St → Option α} {s : St} {n : Nat} : ∀ {m : Nat}, (∀ j, n < j → j ≤ n + m → f (s.after j) = none) →
    (cuts s n m).findSome? f = none
  | 0, _ => rfl
  | m + 1, h => by
    rw [cuts, List.findSome?_cons, h _ (by omega) (by omega)]
    exact cuts_none fun j h1 h2 => h j h1 (by omega)

/-- The longest run is the only one that can be followed by a character that it cannot contain. -/
theorem first_plus_chr {r : Re} {p : UInt8 → Bool} (h : IsOne r p) {c : UInt8} (hc : p c = false) (P : St → Bool) (b : Re) (s : St) :
    first P (.seq r.plus (.seq (.chr c) b)) s =
      if s.rest.takeWhile p = [] then none
      else if (s.rest.dropWhile p).head? = some c then first P b (s.after ((s.rest.takeWhile p).length + 1)) else none := by
  rw [first_seq, run_plus h]
  by_cases h0 : s.rest.takeWhile p = []
  · rw [if_pos h0, h0]; rfl
  · rw [if_neg h0]
    obtain ⟨m, hm⟩ : ∃ m, (s.rest.takeWhile p).length = m + 1 :=
      ⟨(s.rest.takeWhile p).length - 1, by have := List.length_pos_iff.2 h0; omega⟩
    rw [hm, cuts, List.findSome?_cons, Nat.zero_add, first_chr]
    have e : (s.after (m + 1)).rest = s.rest.dropWhile p := by rw [St.after, ← hm, drop_takeWhile]
    rw [e]
    have hn : (cuts s 0 m).findSome? (first P (.seq (.chr c) b)) = none := cuts_none fun j h1 h2 => by
      rw [first_chr, after_head]
      obtain ⟨d, hd, hpd⟩ := takeWhile_get (p := p) (l := s.rest) (j := j) (by omega)
      rw [hd, if_neg]
      intro he
      rw [Option.some.injEq] at he
      subst he; rw [hc] at hpd; cases hpd
    rw [hn, after_after]
    cases (if (s.rest.dropWhile p).head? = some c then first P b (s.after (m + 1 + 1)) else none) <;> rfl

end Regex
end Nebula
