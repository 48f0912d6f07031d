import Verif.Fs.Lines
import Verif.Net.Props
/-! # C79: iterating over lines and entries -/
namespace Nebula
namespace Fs
open Net

/-- The lines of a text: the pieces between line ends; no line follows the last line end. -/
def lines (s : Bytes) : List Bytes :=
  let ps := splitAll 10 s
  if ps.getLast? = some [] then ps.dropLast else ps

/-- What there is to iterate over: the lines of a file, the names in a directory that do not start with a dot. -/
def Source.all : Source → List Bytes
  | .file s => lines s
  | .dir ns => ns.filter fun n => decide (n.head? ≠ some 46)

theorem lines_nil : lines [] = [] := by decide

theorem splitAll_ne' (c : UInt8) (s : Bytes) : splitAll c s ≠ [] := by
  cases s with
  | nil => simp [splitAll]
  | cons b s =>
    rw [splitAll]
    split
    · simp
    · split <;> simp

theorem lines_nl (s : Bytes) : lines (10 :: s) = [] :: lines s := by
  unfold lines
  have : splitAll 10 (10 :: s) = [] :: splitAll 10 s := by rw [splitAll, if_pos rfl]
  dsimp only
  rw [this]
  cases h : splitAll 10 s with
  | nil => exact absurd h (splitAll_ne' 10 s)
  | cons t ts =>
    rw [List.getLast?_cons_cons, List.dropLast_cons_of_ne_nil (by simp)]
    split <;> rfl

theorem lines_cons {c : UInt8} (hc : c ≠ 10) (s : Bytes) :
    lines (c :: s) = match lines s with
      | [] => [[c]]
      | l :: ls => if s.head? = some 10 ∨ s ≠ [] then (c :: l) :: ls else [[c]] := by
  unfold lines
  dsimp only
  cases s with
  | nil => simp [splitAll, hc]
  | cons b s =>
    have e : splitAll 10 (c :: b :: s) = match splitAll 10 (b :: s) with | [] => [[c]] | t :: ts => (c :: t) :: ts := by
      conv => lhs; rw [splitAll, if_neg hc]
      cases splitAll 10 (b :: s) <;> rfl
    rw [e]
    cases h : splitAll 10 (b :: s) with
    | nil => exact absurd h (splitAll_ne' 10 _)
    | cons t ts =>
      dsimp only
      cases ts with
      | nil =>
        have ht : t ≠ [] := by
          rintro rfl
          rw [splitAll] at h
          split at h
          · simp at h; exact splitAll_ne' 10 s h
          · split at h <;> simp at h
        simp [ht]
      | cons u us =>
        rw [List.getLast?_cons_cons, List.getLast?_cons_cons]
        rw [List.dropLast_cons_of_ne_nil (List.cons_ne_nil _ _), List.dropLast_cons_of_ne_nil (List.cons_ne_nil _ _)]
        split <;> simp

theorem getline_cons {c : UInt8} (hc : ¬c = 10) (s : Bytes) :
    getline (c :: s) = match getline s with
      | none => some ([c], [])
      | some (l, r) => some (c :: l, r) := by
  conv => lhs; unfold getline
  split
  · rename_i h; cases h
  · rename_i h; exact absurd (List.cons.inj h).1 hc
  · rename_i h
    obtain ⟨rfl, rfl⟩ := List.cons.inj h
    cases getline s <;> rfl

theorem getline_ne (c : UInt8) (s : Bytes) : getline (c :: s) ≠ none := by
  by_cases hc : c = 10
  · subst hc; simp [getline]
  · rw [getline_cons hc]
    cases getline s <;> simp

theorem getline_lines : ∀ s : Bytes, lines s = match getline s with
    | none => []
    | some (l, r) => l :: lines r
  | [] => by rw [lines_nil]; rfl
  | c :: s => by
    by_cases hc : c = 10
    · subst hc; rw [lines_nl]; rfl
    · have hg := getline_cons hc s
      rw [hg, lines_cons hc, getline_lines s]
      cases h : getline s with
      | none => simp [lines_nil]
      | some x =>
        obtain ⟨l, r⟩ := x
        have : s ≠ [] := by rintro rfl; cases h
        simp [this]

theorem getline_size : ∀ {s l r : Bytes}, getline s = some (l, r) → r.length < s.length
  | [], _, _, h => by cases h
  | c :: s, l, r, h => by
    by_cases hc : c = 10
    · subst hc
      rw [getline] at h
      cases h; simp
    · have hg := getline_cons hc s
      rw [hg] at h
      split at h
      · cases h; simp
      · rename_i l' r' hs
        cases h
        have := getline_size hs
        simp; omega

theorem dirNext_all : ∀ ns : List Bytes, (Source.dir ns).all = match dirNext ns with
    | none => []
    | some (n, r) => n :: (Source.dir r).all
  | [] => rfl
  | n :: ns => by
    have ih := dirNext_all ns
    rw [dirNext]
    simp only [Source.all] at ih ⊢
    by_cases h : n.head? = some 46
    · rw [if_pos h, List.filter_cons_of_neg (by simp [h])]; exact ih
    · rw [if_neg h, List.filter_cons_of_pos (by simp [h])]

theorem dirNext_size : ∀ {ns : List Bytes} {n : Bytes} {r : List Bytes}, dirNext ns = some (n, r) → r.length < ns.length
  | [], _, _, h => by cases h
  | m :: ns, n, r, h => by
    rw [dirNext] at h
    split at h
    · have := dirNext_size h; simp; omega
    · cases h; simp

theorem advance_all (s : Source) : s.all = match advance s with
    | none => []
    | some (e, s') => e :: s'.all := by
  cases s with
  | file s =>
    simp only [advance]
    show lines s = _
    rw [getline_lines]
    cases getline s <;> rfl
  | dir ns =>
    simp only [advance]
    rw [dirNext_all]
    cases dirNext ns <;> rfl

theorem advance_size {s s' : Source} {e : Bytes} (h : advance s = some (e, s')) : s'.size < s.size := by
  cases s with
  | file s =>
    obtain ⟨x, hx, e⟩ := Option.map_eq_some_iff.1 h
    cases e
    exact getline_size hx
  | dir ns =>
    obtain ⟨x, hx, e⟩ := Option.map_eq_some_iff.1 h
    cases e
    exact dirNext_size hx

/-- One `next`: to the first entry left that matches. -/
theorem nextF_spec (m : Bytes → Bool) : ∀ (f : Nat) (s : Source) (e : Bytes), s.size < f →
    match s.all.filter m with
    | [] => (nextF m f s e).valid = false
    | x :: xs => (nextF m f s e).valid = true ∧ (nextF m f s e).entry = x ∧ (nextF m f s e).src.all.filter m = xs ∧ (nextF m f s e).src.size < s.size
  | 0, s, e, h => absurd h (Nat.not_lt_zero _)
  | f + 1, s, e, h => by
    rw [nextF, advance_all]
    cases ha : advance s with
    | none => rfl
    | some x =>
      obtain ⟨e', s'⟩ := x
      have hs := advance_size ha
      dsimp only
      by_cases hm : m e' = true
      · rw [List.filter_cons_of_pos hm, if_pos hm]
        exact ⟨rfl, rfl, rfl, hs⟩
      · rw [List.filter_cons_of_neg hm, if_neg hm]
        have ih := nextF_spec m f s' e' (by omega)
        split at ih
        · exact ih
        · exact ⟨ih.1, ih.2.1, ih.2.2.1, by omega⟩

theorem walk_spec (m : Bytes → Bool) : ∀ (n f : Nat) (s : Source) (e : Bytes), s.size < f → s.size < n →
    walkIter m n (nextF m f s e) = s.all.filter m
  | 0, f, s, e, h, hn => absurd hn (Nat.not_lt_zero _)
  | n + 1, f, s, e, h, hn => by
    have hx := nextF_spec m f s e h
    rw [walkIter]
    split at hx
    · rename_i hl; rw [hl, hx]; rfl
    · rename_i x xs hl
      obtain ⟨h1, h2, h3, h4⟩ := hx
      rw [hl, if_pos h1, h2]
      unfold next
      rw [if_pos h1]
      dsimp only
      rw [walk_spec m n _ _ _ (by omega) (by omega), h3]

/-- **C79.** Iterating gives exactly the lines of the file (or the visible names of the directory) that match
the pattern, in order, and then ends; it never aborts on the way. -/
theorem C79_iterate (m : Bytes → Bool) (s : Source) : walkIter m (s.size + 1) (open_ m s) = s.all.filter m :=
  walk_spec m _ _ s [] (by omega) (by omega)

/-- **C79.** After the end, another step aborts. -/
theorem C79_end (m : Bytes → Bool) (it : Iter) : next m it = none ↔ it.valid = false := by
  unfold next
  cases it.valid <;> simp

/-- **C79.** The lines and the line ends between them are the text: nothing is lost or added but a last line end. -/
theorem C79_lines_text (s : Bytes) : (lines s).flatMap (fun l => l ++ [10]) = s ∨ (lines s).flatMap (fun l => l ++ [10]) = s ++ [10] := by
  have key : ∀ (n : Nat) (s : Bytes), s.length ≤ n → (lines s).flatMap (fun l => l ++ [10]) = s ∨ (lines s).flatMap (fun l => l ++ [10]) = s ++ [10] := by
    intro n
    induction n with
    | zero =>
      intro s h
      have : s = [] := List.length_eq_zero_iff.1 (by omega)
      subst this
      left; rw [lines_nil]; rfl
    | succ n ih =>
      intro s h
      have hl := getline_lines s
      cases hg : getline s with
      | none =>
        rw [hg] at hl
        cases s with
        | nil => left; rw [lines_nil]; rfl
        | cons c s =>
          exact absurd hg (getline_ne _ _)
      | some x =>
        obtain ⟨l, r⟩ := x
        rw [hg] at hl
        dsimp only at hl
        have hform := getline_form hg
        have hsz := getline_size hg
        rw [hl, List.flatMap_cons]
        rcases hform with e | ⟨e, rfl⟩
        · rcases ih r (by omega) with h | h
          · left; rw [h, e]; simp
          · right; rw [h, e]; simp
        · right; rw [lines_nil, e]; simp
  exact key _ s (Nat.le_refl _)
where getline_form : ∀ {s l r : Bytes}, getline s = some (l, r) → s = l ++ 10 :: r ∨ (s = l ∧ r = [])
  | [], _, _, h => by cases h
  | c :: s, l, r, h => by
    by_cases hc : c = 10
    · subst hc
      rw [getline] at h
      cases h; left; rfl
    · have hg := getline_cons hc s
      rw [hg] at h
      split at h
      · rename_i hs
        cases h
        cases s with
        | nil => right; exact ⟨rfl, rfl⟩
        | cons d s =>
          exact absurd hs (getline_ne _ _)
      · rename_i l' r' hs
        cases h
        rcases getline_form hs with e | ⟨e, rfl⟩
        · left; rw [e]; rfl
        · right; exact ⟨by rw [e], rfl⟩

example : walkIter (fun l => l.head? ≠ some 35) 20 (open_ (fun l => l.head? ≠ some 35) (.file (ascii "a=1\n#x\n\nb=2"))) =
    [ascii "a=1", [], ascii "b=2"] := by decide +kernel

end Fs
end Nebula
