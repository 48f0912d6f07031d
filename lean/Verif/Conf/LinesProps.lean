import Verif.Conf.Props
/-! # C97: the lines of a written configuration -/
namespace Nebula
namespace Conf
open Json
variable {F : Type}

/-! ## Specification -/

mutual
/-- The line ends of the indented text: each item of an array or object is on a line of its own, and so is the closing bracket. -/
def lines : Dyn F → Nat
  | .arr [] => 0
  | .arr (a :: l) => 1 + (linesList (a :: l))
  | .obj [] => 0
  | .obj (e :: l) => 1 + (linesEntries (e :: l))
  | _ => 0
/-- Of the elements of an array. -/
def linesList : List (Dyn F) → Nat
  | [] => 0
  | a :: l => 1 + lines a + linesList l
/-- Of the entries of an object. -/
def linesEntries : List (Bytes × Dyn F) → Nat
  | [] => 0
  | (_, a) :: l => 1 + lines a + linesEntries l
end

/-! ## Proof -/

/-- Line ends of a text. -/
abbrev ends (t : Bytes) : Nat := t.count 10

theorem ends_zero {t : Bytes} (h : (10 : UInt8) ∉ t) : ends t = 0 := List.count_eq_zero.2 h

theorem quote_ends (s : Bytes) : ends (quote s) = 0 := by
  apply ends_zero
  unfold quote
  simp only [List.mem_cons, List.mem_append, List.mem_flatMap, not_or, not_exists, not_and, List.not_mem_nil, not_false_iff, and_true]
  refine ⟨by decide, fun c _ => ?_, by decide⟩
  have : ∀ n : Fin 256, (10 : UInt8) ∉ esc (UInt8.ofNat n.1) := by decide +kernel
  have h := this ⟨c.toNat, c.toNat_lt⟩
  simpa using h

theorem intDec_ends (i : Int) : ends (intDec i) = 0 := by
  apply ends_zero
  have hn : ∀ n, (10 : UInt8) ∉ natDec n := fun n hm => by have := natDec_digits n _ hm; revert this; decide
  unfold intDec
  split
  · simp only [List.mem_cons, not_or]; exact ⟨by decide, hn _⟩
  · exact hn _

theorem commas_ends (nl : Bytes) : ∀ es : List Bytes, ends (commas nl es) = (es.map ends).sum + (es.length - 1) * ends nl
  | [] => by simp [commas, ends]
  | [e] => by simp [commas]
  | e :: f :: l => by
    have ih := commas_ends nl (f :: l)
    rw [commas]
    · have h1 : ends (e ++ 44 :: (nl ++ commas nl (f :: l))) = ends e + (ends nl + ends (commas nl (f :: l))) := by
        simp [ends, List.count_append, List.count_cons]
      rw [h1, ih]
      simp only [List.map_cons, List.sum_cons, List.length_cons, Nat.add_sub_cancel, Nat.add_mul, Nat.one_mul]
      omega
    · simp

theorem newline_ends : ∀ p : Option Nat, ends (newline p) = if p.isSome then 1 else 0
  | none => rfl
  | some n => by simp [newline, ends, List.count_cons, List.count_replicate]

theorem bracket_ends (o c : UInt8) (ho : o ≠ 10) (hc : c ≠ 10) (p : Option Nat) (es : List Bytes) :
    ends (bracket o c p es) = (es.map ends).sum + if p.isSome ∧ es ≠ [] then es.length + 1 else 0 := by
  unfold bracket
  split
  · rename_i h; subst h; simp [ends, List.count_cons, ho, hc]
  · rename_i h
    have h1 := newline_ends (deeper p)
    have h2 := newline_ends p
    have h3 := commas_ends (newline (deeper p)) es
    have hl : 0 < es.length := by cases es <;> simp_all
    simp only [ends, List.count_cons, List.count_append, List.count_nil] at h1 h2 h3 ⊢
    rw [h1] at h3 ⊢
    rw [h2, h3]
    cases p with
    | none => simp [deeper, ho, hc]
    | some n =>
      simp [deeper, ho, hc, h]
      omega

mutual
theorem dump_ends (D : Doubles F) (hD : ∀ d, (10 : UInt8) ∉ D.text d) {ord : List Bytes → List Bytes} (hord : ∀ l, (ord l).Perm l) (p : Option Nat) :
    ∀ (c : Dyn F) (text : Bytes), dump D ord p c = some text → ends text = if p.isSome then lines c else 0
  | .null, text, h => by rw [dump] at h; cases h; rw [ends_zero (by decide +kernel)]; simp [lines]
  | .bool b, text, h => by rw [dump] at h; cases h; rw [ends_zero (by cases b <;> decide +kernel)]; simp [lines]
  | .int i, text, h => by rw [dump] at h; cases h; rw [intDec_ends]; simp [lines]
  | .dbl d, text, h => by
    rw [dump] at h
    split at h
    · cases h; rw [ends_zero (hD d)]; simp [lines]
    · cases h
  | .str s, text, h => by rw [dump] at h; cases h; rw [quote_ends]; simp [lines]
  | .arr [], text, h => by rw [dump, dumpList] at h; cases h; simp [bracket, ends, lines]
  | .arr (a :: l), text, h => by
    rw [dump] at h
    cases hl : dumpList D ord (deeper p) (a :: l) with
    | none => simp [hl] at h
    | some es =>
      rw [hl] at h
      cases h
      obtain ⟨h1, h2⟩ := dumpList_ends D hD hord (deeper p) (a :: l) es hl
      rw [bracket_ends _ _ (by decide) (by decide), h2]
      have hne : es ≠ [] := by rintro rfl; simp at h2
      cases p with
      | none => simpa [deeper] using h1
      | some n => simp [deeper, hne, lines] at h1 ⊢; omega
  | .obj [], text, h => by
    rw [dump, dumpEntries] at h
    cases h
    have : ord [] = [] := (hord []).eq_nil
    simp [this, bracket, ends, lines]
  | .obj (e :: l), text, h => by
    rw [dump] at h
    cases hl : dumpEntries D ord (deeper p) (e :: l) with
    | none => simp [hl] at h
    | some es =>
      rw [hl] at h
      cases h
      obtain ⟨h1, h2⟩ := dumpEntries_ends D hD hord (deeper p) (e :: l) es hl
      rw [bracket_ends _ _ (by decide) (by decide), ((hord es).map ends).sum_nat, (hord es).length_eq, h2]
      have hne : ord es ≠ [] := by intro h0; have := (hord es).length_eq; rw [h0, h2] at this; simp at this
      cases p with
      | none => simpa [deeper] using h1
      | some n => simp [deeper, hne, lines] at h1 ⊢; omega
theorem dumpList_ends (D : Doubles F) (hD : ∀ d, (10 : UInt8) ∉ D.text d) {ord : List Bytes → List Bytes} (hord : ∀ l, (ord l).Perm l) (p : Option Nat) :
    ∀ (l : List (Dyn F)) (es : List Bytes), dumpList D ord p l = some es → (es.map ends).sum + (if p.isSome then l.length else 0) = (if p.isSome then linesList l else 0) ∧ es.length = l.length
  | [], es, h => by rw [dumpList] at h; cases h; simp [linesList]
  | a :: l, es, h => by
    rw [dumpList] at h
    cases ha : dump D ord p a with
    | none => simp [ha] at h
    | some t =>
      cases hl : dumpList D ord p l with
      | none => simp [ha, hl] at h
      | some es' =>
        simp only [ha, hl, Option.bind_some, Option.map_some, Option.some.injEq] at h
        subst h
        have h1 := dump_ends D hD hord p a t ha
        obtain ⟨h2, h3⟩ := dumpList_ends D hD hord p l es' hl
        refine ⟨?_, by simp [h3]⟩
        cases p <;> simp_all [linesList] <;> omega
theorem dumpEntries_ends (D : Doubles F) (hD : ∀ d, (10 : UInt8) ∉ D.text d) {ord : List Bytes → List Bytes} (hord : ∀ l, (ord l).Perm l) (p : Option Nat) :
    ∀ (l : List (Bytes × Dyn F)) (es : List Bytes), dumpEntries D ord p l = some es → (es.map ends).sum + (if p.isSome then l.length else 0) = (if p.isSome then linesEntries l else 0) ∧ es.length = l.length
  | [], es, h => by rw [dumpEntries] at h; cases h; simp [linesEntries]
  | (k, a) :: l, es, h => by
    rw [dumpEntries] at h
    cases ha : dump D ord p a with
    | none => simp [ha] at h
    | some t =>
      cases hl : dumpEntries D ord p l with
      | none => simp [ha, hl] at h
      | some es' =>
        simp only [ha, hl, Option.bind_some, Option.map_some, Option.some.injEq] at h
        subst h
        have h1 := dump_ends D hD hord p a t ha
        obtain ⟨h2, h3⟩ := dumpEntries_ends D hD hord p l es' hl
        have hk : ends (quote k ++ (colon p ++ t)) = ends t := by
          have := quote_ends k
          have hc : List.count 10 (colon p) = 0 := by cases p <;> rfl
          simp only [ends, List.count_append] at this ⊢
          omega
        refine ⟨?_, by simp [h3]⟩
        rw [List.map_cons, List.sum_cons, hk]
        cases p <;> simp_all [linesEntries] <;> omega
end

/-- **C97 (lines).** The plain text of a configuration is one line, whatever line ends its strings contain, and of the indented text each item and each closing bracket begins a line. -/
theorem C97_lines (D : Doubles F) (hD : ∀ d, (10 : UInt8) ∉ D.text d) {ord : List Bytes → List Bytes} (hord : ∀ l, (ord l).Perm l) (pretty : Bool) (c : Dyn F) (text : Bytes)
    (h : dumpTo D ord pretty c = some text) : text.count 10 = if pretty then lines c else 0 := by
  have := dump_ends D hD hord (if pretty then some 0 else none) c text h
  cases pretty <;> simpa [ends] using this

example : lines (F := Nat) (.obj [(ascii "pi", .dbl 31), (ascii "n", .arr [.int (-4)])]) = 5 := by decide +kernel

end Conf
end Nebula
