import Verif.Value.Text
import Verif.Time.Props
import Verif.Time.ParseProps
/-!
# C119: the text of a value tells which value it is
-/
namespace Nebula
open Spec

/-! ## Specification -/

/-- Letters, digits and the underscore. -/
def isWord (c : UInt8) : Bool := isDigit c || (65 ≤ c && c ≤ 90) || (97 ≤ c && c ≤ 122) || c == 95

/-- A name: a letter or underscore, then letters, digits and underscores. -/
def IsName : Bytes → Prop
  | [] => False
  | c :: cs => isDigit c = false ∧ ∀ x ∈ c :: cs, isWord x = true

instance : (k : Bytes) → Decidable (IsName k)
  | [] => inferInstanceAs (Decidable False)
  | c :: cs => inferInstanceAs (Decidable (isDigit c = false ∧ ∀ x ∈ c :: cs, isWord x = true))

/-- The values this property is about: no floats, vertices, edges, paths and data sets, no quotation marks in strings, dates and times that exist, no empty sets and maps, keys that are
names. -/
inductive PlainV : Value → Prop
  | empty : PlainV .empty
  | null (n) : PlainV (.null n)
  | bool (b) : PlainV (.bool b)
  | int (i) : PlainV (.int i)
  | str (s) : 34 ∉ s → PlainV (.str s)
  | date (d) : ValidDate leapGreg d → PlainV (.date d)
  | time (t : Time) : ValidTime t → 0 ≤ t.microsec → t.microsec ≤ 999999 → PlainV (.time t)
  | datetime (d : DateTime) : ValidDT d → 0 ≤ d.microsec → d.microsec ≤ 999999 → PlainV (.datetime d)
  | list (vs) : (∀ v ∈ vs, PlainV v) → PlainV (.list vs)
  | set (vs) : vs ≠ [] → (∀ v ∈ vs, PlainV v) → PlainV (.set vs)
  | map (kvs) : kvs ≠ [] → (∀ kv ∈ kvs, IsName kv.1) → (∀ kv ∈ kvs, PlainV kv.2) → PlainV (.map kvs)

/-! ## Bytes -/

theorem forall_byte {P : UInt8 → Prop} (h : ∀ n : Fin 256, P (UInt8.ofNat n.val)) (c : UInt8) : P c := by
  have := h ⟨c.toNat, UInt8.toNat_lt c⟩
  simpa using this

theorem digit_word {c : UInt8} (h : isDigit c = true) : isWord c = true := by simp [isWord, h]

theorem digit_ne {c d : UInt8} (h : isDigit c = true) (hd : isDigit d = false) : c ≠ d := by
  rintro rfl; rw [h] at hd; cases hd

theorem span_eq {p : UInt8 → Bool} : ∀ {a b r s : Bytes}, (∀ c ∈ a, p c = true) → (∀ c ∈ b, p c = true) → (∀ c cs, r = c :: cs → p c = false) →
    (∀ c cs, s = c :: cs → p c = false) → a ++ r = b ++ s → a = b ∧ r = s
  | [], [], _, _, _, _, _, _, h => ⟨rfl, h⟩
  | [], y :: b, r, s, _, hb, hr, _, h => by
    have := hr y (b ++ s) (by simpa using h)
    rw [hb y (List.mem_cons_self ..)] at this; cases this
  | x :: a, [], r, s, ha, _, _, hs, h => by
    have := hs x (a ++ r) (by simpa using h.symm)
    rw [ha x (List.mem_cons_self ..)] at this; cases this
  | x :: a, y :: b, r, s, ha, hb, hr, hs, h => by
    simp only [List.cons_append, List.cons.injEq] at h
    obtain ⟨e1, e2⟩ := span_eq (fun c hc => ha c (List.mem_cons_of_mem _ hc)) (fun c hc => hb c (List.mem_cons_of_mem _ hc)) hr hs h.2
    exact ⟨by rw [h.1, e1], e2⟩

theorem not_mem_span {x : UInt8} {a b r s : Bytes} (ha : x ∉ a) (hb : x ∉ b) (h : a ++ x :: r = b ++ x :: s) : a = b ∧ r = s := by
  obtain ⟨e1, e2⟩ := span_eq (p := fun c => c != x) (r := x :: r) (s := x :: s) (fun c hc => by simp; rintro rfl; exact ha hc)
    (fun c hc => by simp; rintro rfl; exact hb hc) (by intro c cs h; simp at h; simp [h.1]) (by intro c cs h; simp at h; simp [h.1]) h
  injection e2 with _ e2
  exact ⟨e1, e2⟩

/-! ## Numbers of fixed width -/

theorem digitsVal_zeros' (s : Bytes) : ∀ k : Nat, digitsVal 0 (List.replicate k (48 : UInt8) ++ s) = digitsVal 0 s
  | 0 => rfl
  | k + 1 => by
    rw [List.replicate_succ, List.cons_append]
    exact digitsVal_zeros' s k

theorem natDec_le : ∀ (k n : Nat), n < 10 ^ (k + 1) → (natDec n).length ≤ k + 1
  | 0, n, h => by rw [natDec_eq, if_pos (by simpa using h)]; simp
  | k + 1, n, h => by
    rw [natDec_eq]
    split
    · simp
    · have := natDec_le k (n / 10) (by rw [Nat.pow_succ] at h; omega)
      simp only [List.length_append, List.length_singleton]
      omega

theorem pad_fixed {w : Nat} {i : Int} (hw : 0 < w) (h0 : 0 ≤ i) (h1 : i < 10 ^ w) :
    (padDec w i).length = w ∧ (∀ c ∈ padDec w i, isDigit c = true) ∧ (digitsVal 0 (padDec w i) : Int) = i := by
  obtain ⟨n, rfl⟩ := Int.eq_ofNat_of_zero_le h0
  obtain ⟨k, rfl⟩ : ∃ k, w = k + 1 := ⟨w - 1, by omega⟩
  have hn : n < 10 ^ (k + 1) := by exact_mod_cast h1
  have hl := natDec_le k n hn
  have e : padDec (k + 1) (n : Int) = List.replicate (k + 1 - (natDec n).length) 48 ++ natDec n := by
    simp only [padDec, Int.natAbs_natCast]
    rw [if_neg (by omega)]
  rw [e]
  refine ⟨by simp; omega, ?_, by rw [digitsVal_zeros', digitsVal_natDec]⟩
  intro c hc
  rcases List.mem_append.1 hc with hc | hc
  · rw [List.eq_of_mem_replicate hc]; decide
  · exact natDec_digits _ c hc

theorem pad_cut {w : Nat} {i j : Int} {r s : Bytes} (hw : 0 < w) (h0 : 0 ≤ i) (h1 : i < 10 ^ w) (h2 : 0 ≤ j) (h3 : j < 10 ^ w)
    (h : padDec w i ++ r = padDec w j ++ s) : i = j ∧ r = s := by
  obtain ⟨a1, _, a3⟩ := pad_fixed hw h0 h1
  obtain ⟨b1, _, b3⟩ := pad_fixed hw h2 h3
  obtain ⟨e1, e2⟩ := List.append_inj h (by rw [a1, b1])
  exact ⟨by rw [← a3, ← b3, e1], e2⟩

/-- The text of a number: a digit, or a dash and digits; no dash after the first byte. -/
theorem intDec_shape (i : Int) : ∃ c cs, intDec i = c :: cs ∧ (isDigit c = true ∨ c = 45) ∧ (∀ x ∈ cs, isDigit x = true) := by
  unfold intDec
  cases h : natDec i.natAbs with
  | nil => exact absurd h (natDec_ne_nil _)
  | cons c cs =>
    have hd : ∀ x ∈ c :: cs, isDigit x = true := h ▸ natDec_digits i.natAbs
    split
    · exact ⟨45, c :: cs, rfl, .inr rfl, hd⟩
    · exact ⟨c, cs, rfl, .inl (hd c (List.mem_cons_self ..)), fun x hx => hd x (List.mem_cons_of_mem _ hx)⟩

theorem intDec_cut {i j : Int} {r s : Bytes} (hr : ∀ c cs, r = c :: cs → isDigit c = false) (hs : ∀ c cs, s = c :: cs → isDigit c = false)
    (h : intDec i ++ r = intDec j ++ s) : i = j ∧ r = s := by
  obtain ⟨a, as, ea, ha, has⟩ := intDec_shape i
  obtain ⟨b, bs, eb, hb, hbs⟩ := intDec_shape j
  have h' := h
  rw [ea, eb] at h'
  simp only [List.cons_append, List.cons.injEq] at h'
  obtain ⟨e1, e2⟩ := span_eq has hbs hr hs h'.2
  exact ⟨intDec_inj (by rw [ea, eb, h'.1, e1]), e2⟩

/-! ## Texts of scalars -/

/-- The bytes that end an element. -/
def isEnd (c : UInt8) : Bool := c == 44 || c == 93 || c == 125 || c == 41 || c == 124 || c == 32

/-- A text that begins with the end of an element, or is at its end. -/
def Ended (r : Bytes) : Prop := ∀ c cs, r = c :: cs → isEnd c = true

theorem end_not_digit {c : UInt8} (h : isEnd c = true) : isDigit c = false := by
  revert h; exact forall_byte (P := fun c => isEnd c = true → isDigit c = false) (by decide +kernel) c

theorem digit_not_end {c : UInt8} (h : isDigit c = true) : isEnd c = false := by
  revert h; exact forall_byte (P := fun c => isDigit c = true → isEnd c = false) (by decide +kernel) c

theorem end_not_word {c : UInt8} (h : isEnd c = true) : isWord c = false := by
  revert h; exact forall_byte (P := fun c => isEnd c = true → isWord c = false) (by decide +kernel) c

theorem word_not_end {c : UInt8} (h : isWord c = true) : isEnd c = false := by
  revert h; exact forall_byte (P := fun c => isWord c = true → isEnd c = false) (by decide +kernel) c

namespace Value

/-- The words. -/
def IsWordV : Value → Prop
  | .empty | .null _ | .bool _ => True
  | _ => False

/-- The numbers, dates and times. -/
def IsNumV : Value → Prop
  | .int _ | .date _ | .time _ | .datetime _ => True
  | _ => False

theorem wordV_text (fmt : F64 → Bytes) {v : Value} (h : IsWordV v) : IsName (text fmt v) := by
  have key : (IsName (ascii "__EMPTY__") ∧ IsName (ascii "true") ∧ IsName (ascii "false")) := by
    decide +kernel
  cases v <;> simp only [IsWordV] at h
  · rw [text]; exact key.1
  · rename_i n
    rw [text]
    cases n <;> decide +kernel
  · rename_i b
    rw [text]
    cases b
    · exact key.2.2
    · exact key.2.1

theorem wordV_inj (fmt : F64 → Bytes) {v w : Value} (hv : IsWordV v) (hw : IsWordV w) (h : text fmt v = text fmt w) : v = w := by
  cases v <;> simp only [IsWordV] at hv <;> cases w <;> simp only [IsWordV] at hw <;> simp only [text] at h
  · rfl
  · rename_i n; cases n <;> exact absurd h (by decide +kernel)
  · rename_i b; cases b <;> exact absurd h (by decide +kernel)
  · rename_i n; cases n <;> exact absurd h (by decide +kernel)
  · rename_i m n; revert h; cases m <;> cases n <;> first | (intro _; rfl) | (intro h; exact absurd h (by decide +kernel))
  · rename_i n b; cases n <;> cases b <;> exact absurd h (by decide +kernel)
  · rename_i b; cases b <;> exact absurd h (by decide +kernel)
  · rename_i b n; cases n <;> cases b <;> exact absurd h (by decide +kernel)
  · rename_i a b; revert h; cases a <;> cases b <;> first | (intro _; rfl) | (intro h; exact absurd h (by decide +kernel))

/-- The text of a number, a date or a time: how it begins, that it has no end in it, and what tells the kinds apart. -/
theorem numV_text (fmt : F64 → Bytes) {v : Value} (hp : PlainV v) (h : IsNumV v) :
    ∃ c cs, text fmt v = c :: cs ∧ (isDigit c = true ∨ c = 45) ∧ (∀ x ∈ c :: cs, isEnd x = false) ∧
      (45 ∈ cs ↔ (∃ d, v = .date d) ∨ ∃ d, v = .datetime d) ∧ (58 ∈ cs ↔ (∃ d, v = .time d) ∨ ∃ d, v = .datetime d) := by
  have dig : ∀ {l : Bytes}, (∀ x ∈ l, isDigit x = true) → (45 : UInt8) ∉ l ∧ (58 : UInt8) ∉ l ∧ ∀ x ∈ l, isEnd x = false := fun h =>
    ⟨fun hm => digit_ne (h _ hm) (by decide) rfl, fun hm => digit_ne (h _ hm) (by decide) rfl, fun x hx => digit_not_end (h x hx)⟩
  cases hp <;> simp only [IsNumV] at h
  · rename_i i
    obtain ⟨c, cs, e, h1, h2⟩ := intDec_shape i
    obtain ⟨d1, d2, d3⟩ := dig h2
    refine ⟨c, cs, by rw [text, e], h1, ?_, by simp [d1], by simp [d2]⟩
    intro x hx
    rcases List.mem_cons.1 hx with rfl | hx
    · rcases h1 with h1 | rfl
      · exact digit_not_end h1
      · decide
    · exact d3 x hx
  · rename_i d hd
    obtain ⟨_, _, h3, h4, h5, h6⟩ := id hd
    have hl := monthLen_le leapGreg d.year d.month
    obtain ⟨c, cs, e, h1, h2⟩ := intDec_shape d.year
    obtain ⟨_, m2, _⟩ := pad_fixed (w := 2) (i := d.month) (by decide) (by omega) (by omega)
    obtain ⟨_, n2, _⟩ := pad_fixed (w := 2) (i := d.day) (by decide) (by omega) (by omega)
    obtain ⟨a1, a2, a3⟩ := dig h2
    obtain ⟨b1, b2, b3⟩ := dig m2
    obtain ⟨c1, c2, c3⟩ := dig n2
    refine ⟨c, cs ++ 45 :: padDec 2 d.month ++ 45 :: padDec 2 d.day, by rw [text, Date.toText, e]; simp, h1, ?_, by simp, by simp [a2, b2, c2]⟩
    intro x hx
    simp only [List.mem_cons, List.mem_append] at hx
    rcases hx with rfl | (hx | rfl | hx) | rfl | hx
    · rcases h1 with h1 | rfl
      · exact digit_not_end h1
      · decide
    · exact a3 x hx
    · decide
    · exact b3 x hx
    · decide
    · exact c3 x hx
  · rename_i t ht u1 u2
    obtain ⟨h1, h2, h3, h4, h5, h6⟩ := ht
    obtain ⟨l1, m1, _⟩ := pad_fixed (w := 2) (i := t.hour) (by decide) (by omega) (by omega)
    obtain ⟨_, m2, _⟩ := pad_fixed (w := 2) (i := t.minute) (by decide) (by omega) (by omega)
    obtain ⟨_, m3, _⟩ := pad_fixed (w := 2) (i := t.sec) (by decide) (by omega) (by omega)
    obtain ⟨_, m4, _⟩ := pad_fixed (w := 6) (i := t.microsec) (by decide) (by omega) (by omega)
    obtain ⟨a1, a2, a3⟩ := dig m1
    obtain ⟨b1, b2, b3⟩ := dig m2
    obtain ⟨c1, c2, c3⟩ := dig m3
    obtain ⟨d1, d2, d3⟩ := dig m4
    cases hh : padDec 2 t.hour with
    | nil => rw [hh] at l1; cases l1
    | cons c cs =>
      rw [hh] at a1 a2 a3 m1
      refine ⟨c, cs ++ 58 :: padDec 2 t.minute ++ 58 :: padDec 2 t.sec ++ 46 :: padDec 6 t.microsec, by rw [text, Time.toText, hh]; simp, .inl (m1 c (List.mem_cons_self ..)), ?_, ?_, by simp⟩
      · intro x hx
        simp only [List.mem_cons, List.mem_append] at hx
        rcases hx with rfl | ((hx | rfl | hx) | rfl | hx) | rfl | hx
        · exact a3 _ (List.mem_cons_self ..)
        · exact a3 x (List.mem_cons_of_mem _ hx)
        · decide
        · exact b3 x hx
        · decide
        · exact c3 x hx
        · decide
        · exact d3 x hx
      · have : (45 : UInt8) ∉ cs := fun hm => a1 (List.mem_cons_of_mem _ hm)
        simp [this, b1, c1, d1]
  · rename_i d hd u1 u2
    obtain ⟨hd, t1, t2, t3, t4, t5, t6⟩ := hd
    obtain ⟨_, _, h3, h4, h5, h6⟩ := id hd
    simp only at h3 h4 h5 h6
    have hl := monthLen_le leapGreg d.year d.month
    obtain ⟨c, cs, e, h1, h2⟩ := intDec_shape d.year
    obtain ⟨_, m1, _⟩ := pad_fixed (w := 2) (i := d.month) (by decide) (by omega) (by omega)
    obtain ⟨_, m2, _⟩ := pad_fixed (w := 2) (i := d.day) (by decide) (by omega) (by omega)
    obtain ⟨_, m3, _⟩ := pad_fixed (w := 2) (i := d.hour) (by decide) (by omega) (by omega)
    obtain ⟨_, m4, _⟩ := pad_fixed (w := 2) (i := d.minute) (by decide) (by omega) (by omega)
    obtain ⟨_, m5, _⟩ := pad_fixed (w := 2) (i := d.sec) (by decide) (by omega) (by omega)
    have m6 : ∀ x ∈ intDec d.microsec, isDigit x = true := by rw [intDec, if_neg (by omega)]; exact natDec_digits _
    obtain ⟨_, _, a3⟩ := dig h2
    obtain ⟨_, _, b3⟩ := dig m1
    obtain ⟨_, _, c3⟩ := dig m2
    obtain ⟨_, _, d3⟩ := dig m3
    obtain ⟨_, _, e3⟩ := dig m4
    obtain ⟨_, _, f3⟩ := dig m5
    obtain ⟨_, _, g3⟩ := dig m6
    refine ⟨c, cs ++ 45 :: padDec 2 d.month ++ 45 :: padDec 2 d.day ++ 84 :: padDec 2 d.hour ++ 58 :: padDec 2 d.minute ++ 58 :: padDec 2 d.sec ++ 46 :: intDec d.microsec,
      by rw [text, DateTime.toText, e]; simp, h1, ?_, by simp, by simp⟩
    intro x hx
    simp only [List.mem_cons, List.mem_append] at hx
    rcases hx with rfl | (((((hx | rfl | hx) | rfl | hx) | rfl | hx) | rfl | hx) | rfl | hx) | rfl | hx
    · rcases h1 with h1 | rfl
      · exact digit_not_end h1
      · decide
    · exact a3 x hx
    · decide
    · exact b3 x hx
    · decide
    · exact c3 x hx
    · decide
    · exact d3 x hx
    · decide
    · exact e3 x hx
    · decide
    · exact f3 x hx
    · decide
    · exact g3 x hx

theorem date_inj {d e : Date} {r s : Bytes} (hd : ValidDate leapGreg d) (he : ValidDate leapGreg e) (h : d.toText ++ r = e.toText ++ s) : d = e ∧ r = s := by
  obtain ⟨_, _, h3, h4, h5, h6⟩ := hd
  obtain ⟨_, _, k3, k4, k5, k6⟩ := he
  have hl := monthLen_le leapGreg d.year d.month
  have kl := monthLen_le leapGreg e.year e.month
  rw [Date.toText, Date.toText] at h
  simp only [List.append_assoc, List.cons_append] at h
  obtain ⟨e1, h⟩ := intDec_cut (by intro c cs h; simp at h; rw [← h.1]; decide) (by intro c cs h; simp at h; rw [← h.1]; decide) h
  injection h with _ h
  obtain ⟨e2, h⟩ := pad_cut (by decide) (by omega) (by omega) (by omega) (by omega) h
  injection h with _ h
  obtain ⟨e3, h⟩ := pad_cut (by decide) (by omega) (by omega) (by omega) (by omega) h
  refine ⟨?_, h⟩
  cases d; cases e; simp_all

theorem num_inj (fmt : F64 → Bytes) {v w : Value} (hv : PlainV v) (hw : PlainV w) (nv : IsNumV v) (nw : IsNumV w) (h : text fmt v = text fmt w) : v = w := by
  obtain ⟨c, cs, e, _, _, a1, a2⟩ := numV_text fmt hv nv
  obtain ⟨c', cs', e', _, _, b1, b2⟩ := numV_text fmt hw nw
  rw [e, e'] at h
  injection h with h1 h2
  rw [h2] at a1 a2
  have d1 := a1.symm.trans b1
  have d2 := a2.symm.trans b2
  have h : text fmt v = text fmt w := by rw [e, e', h1, h2]
  clear e e' a1 a2 b1 b2 h1 h2
  cases hv <;> simp only [IsNumV] at nv <;> cases hw <;> simp only [IsNumV] at nw <;> simp at d1 d2
  · rw [text, text] at h; rw [intDec_inj h]
  · rename_i d hd e he
    rw [text, text] at h
    rw [(date_inj (r := []) (s := []) hd he (by simpa using h)).1]
  · rename_i t ht u1 u2 t' ht' u1' u2'
    obtain ⟨h1, h2, h3, h4, h5, h6⟩ := ht
    obtain ⟨k1, k2, k3, k4, k5, k6⟩ := ht'
    rw [text, text, Time.toText, Time.toText] at h
    simp only [List.append_assoc, List.cons_append] at h
    obtain ⟨e1, h⟩ := pad_cut (by decide) (by omega) (by omega) (by omega) (by omega) h
    injection h with _ h
    obtain ⟨e2, h⟩ := pad_cut (by decide) (by omega) (by omega) (by omega) (by omega) h
    injection h with _ h
    obtain ⟨e3, h⟩ := pad_cut (by decide) (by omega) (by omega) (by omega) (by omega) h
    injection h with _ h
    obtain ⟨e4, _⟩ := pad_cut (i := t.microsec) (j := t'.microsec) (r := []) (s := []) (w := 6) (by decide) (by omega) (by omega) (by omega) (by omega) (by simpa using h)
    cases t; cases t'; simp only at e1 e2 e3 e4; rw [e1, e2, e3, e4]
  · rename_i d hd u1 u2 d' hd' u1' u2'
    obtain ⟨hd, t1, t2, t3, t4, t5, t6⟩ := hd
    obtain ⟨hd', t1', t2', t3', t4', t5', t6'⟩ := hd'
    obtain ⟨_, _, h3, h4, h5, h6⟩ := hd
    obtain ⟨_, _, k3, k4, k5, k6⟩ := hd'
    have hl := monthLen_le leapGreg d.year d.month
    have kl := monthLen_le leapGreg d'.year d'.month
    simp only at h3 h4 h5 h6 k3 k4 k5 k6
    rw [text, text, DateTime.toText, DateTime.toText] at h
    simp only [List.append_assoc, List.cons_append] at h
    obtain ⟨e1, h⟩ := intDec_cut (by intro c cs h; simp at h; rw [← h.1]; decide) (by intro c cs h; simp at h; rw [← h.1]; decide) h
    injection h with _ h
    obtain ⟨e2, h⟩ := pad_cut (by decide) (by omega) (by omega) (by omega) (by omega) h
    injection h with _ h
    obtain ⟨e3, h⟩ := pad_cut (by decide) (by omega) (by omega) (by omega) (by omega) h
    injection h with _ h
    obtain ⟨e4, h⟩ := pad_cut (by decide) (by omega) (by omega) (by omega) (by omega) h
    injection h with _ h
    obtain ⟨e5, h⟩ := pad_cut (by decide) (by omega) (by omega) (by omega) (by omega) h
    injection h with _ h
    obtain ⟨e6, h⟩ := pad_cut (by decide) (by omega) (by omega) (by omega) (by omega) h
    injection h with _ h
    have e7 := intDec_inj h
    cases d; cases d'; simp_all

/-! ## Nested values -/

/-- The text of a plain value: its first byte tells whether it is a word, a number, a string, a list, or a set or map. -/
theorem first_byte (fmt : F64 → Bytes) {v : Value} (hp : PlainV v) : ∃ c cs, text fmt v = c :: cs ∧ isEnd c = false ∧
    ((IsWordV v ∧ isWord c = true ∧ isDigit c = false) ∨ (IsNumV v ∧ (isDigit c = true ∨ c = 45)) ∨ ((∃ s, v = .str s ∧ 34 ∉ s) ∧ c = 34) ∨ ((∃ l, v = .list l) ∧ c = 91) ∨
      ((∃ l, v = .set l) ∨ ∃ m, v = .map m) ∧ c = 123) := by
  have word : ∀ {v}, IsWordV v → ∃ c cs, text fmt v = c :: cs ∧ isEnd c = false ∧
    ((IsWordV v ∧ isWord c = true ∧ isDigit c = false) ∨ (IsNumV v ∧ (isDigit c = true ∨ c = 45)) ∨ ((∃ s, v = .str s ∧ 34 ∉ s) ∧ c = 34) ∨ ((∃ l, v = .list l) ∧ c = 91) ∨
      ((∃ l, v = .set l) ∨ ∃ m, v = .map m) ∧ c = 123) := by
    intro v hv
    have := wordV_text fmt hv
    cases h : text fmt v with
    | nil => rw [h] at this; exact this.elim
    | cons c cs =>
      rw [h] at this
      exact ⟨c, cs, rfl, word_not_end (this.2 c (List.mem_cons_self ..)), .inl ⟨hv, this.2 c (List.mem_cons_self ..), this.1⟩⟩
  have num : ∀ {v}, PlainV v → IsNumV v → ∃ c cs, text fmt v = c :: cs ∧ isEnd c = false ∧
    ((IsWordV v ∧ isWord c = true ∧ isDigit c = false) ∨ (IsNumV v ∧ (isDigit c = true ∨ c = 45)) ∨ ((∃ s, v = .str s ∧ 34 ∉ s) ∧ c = 34) ∨ ((∃ l, v = .list l) ∧ c = 91) ∨
      ((∃ l, v = .set l) ∨ ∃ m, v = .map m) ∧ c = 123) := by
    intro v hp hv
    obtain ⟨c, cs, e, h1, h2, _⟩ := numV_text fmt hp hv
    exact ⟨c, cs, e, h2 c (List.mem_cons_self ..), .inr (.inl ⟨hv, h1⟩)⟩
  cases hp with
  | empty => exact word trivial
  | null n => exact word trivial
  | bool b => exact word trivial
  | int i => exact num (.int i) trivial
  | str s h => exact ⟨34, _, by rw [text], by decide, .inr (.inr (.inl ⟨⟨s, rfl, h⟩, rfl⟩))⟩
  | date d h => exact num (.date d h) trivial
  | time t h1 h2 h3 => exact num (.time t h1 h2 h3) trivial
  | datetime d h1 h2 h3 => exact num (.datetime d h1 h2 h3) trivial
  | list l h => exact ⟨91, joinComma (texts fmt l) ++ [93], by rw [text]; rfl, by decide, .inr (.inr (.inr (.inl ⟨⟨l, rfl⟩, rfl⟩)))⟩
  | set l h h' => exact ⟨123, joinComma (texts fmt l) ++ [125], by rw [text]; rfl, by decide, .inr (.inr (.inr (.inr ⟨.inl ⟨l, rfl⟩, rfl⟩)))⟩
  | map l h h' h'' => exact ⟨123, joinComma (textProps fmt l) ++ [125], by rw [text]; rfl, by decide, .inr (.inr (.inr (.inr ⟨.inr ⟨l, rfl⟩, rfl⟩)))⟩

/-- What is to be shown of a value: its text is recognised in front of the end of an element, or of anything if it has an end of its own. -/
def Cuts (fmt : F64 → Bytes) (v : Value) : Prop :=
  ∀ w r s, PlainV w → (IsWordV v ∨ IsNumV v → Ended r ∧ Ended s) → text fmt v ++ r = text fmt w ++ s → v = w ∧ r = s

theorem joinComma_cons (t : Bytes) (ts : List Bytes) (r : Bytes) : joinComma (t :: ts) ++ r = t ++ (match ts with | [] => r | _ => 44 :: (joinComma ts ++ r)) := by
  cases ts with
  | nil => rfl
  | cons u us => rw [joinComma]; simp

theorem ended_close {c : UInt8} (h : isEnd c = true) (r : Bytes) : Ended (c :: r) := by
  intro d ds e; simp at e; rw [← e.1]; exact h

/-- The elements of a list or set. -/
theorem cuts_texts (fmt : F64 → Bytes) {x : UInt8} (hx : isEnd x = true) (hc : x ≠ 44) : ∀ {vs ws : List Value} {r s : Bytes}, (∀ v ∈ vs, PlainV v ∧ Cuts fmt v) → (∀ w ∈ ws, PlainV w) →
    joinComma (texts fmt vs) ++ x :: r = joinComma (texts fmt ws) ++ x :: s → vs = ws ∧ r = s
  | [], [], r, s, _, _, h => by simpa [texts, joinComma] using h
  | [], w :: ws, r, s, _, hw, h => by
    obtain ⟨c, cs, e, h1, _⟩ := first_byte fmt (hw w (List.mem_cons_self ..))
    rw [texts, texts, joinComma_cons, e] at h
    simp only [joinComma, List.nil_append, List.cons_append, List.cons.injEq] at h
    rw [← h.1, hx] at h1; cases h1
  | v :: vs, [], r, s, hv, _, h => by
    obtain ⟨c, cs, e, h1, _⟩ := first_byte fmt (hv v (List.mem_cons_self ..)).1
    rw [texts, texts, joinComma_cons, e] at h
    simp only [joinComma, List.nil_append, List.cons_append, List.cons.injEq] at h
    rw [h.1, hx] at h1; cases h1
  | v :: vs, w :: ws, r, s, hv, hw, h => by
    rw [texts, texts, joinComma_cons, joinComma_cons] at h
    have hr : ∀ (us : List Value) (r : Bytes), Ended (match texts fmt us with | [] => x :: r | _ => 44 :: (joinComma (texts fmt us) ++ x :: r)) := by
      intro us r
      cases us with
      | nil => rw [texts]; exact ended_close hx r
      | cons u us => rw [texts]; exact ended_close (by decide) _
    obtain ⟨e1, e2⟩ := (hv v (List.mem_cons_self ..)).2 w _ _ (hw w (List.mem_cons_self ..)) (fun _ => ⟨hr vs r, hr ws s⟩) h
    subst e1
    cases vs with
    | nil =>
      cases ws with
      | nil => simp only [texts] at e2; injection e2 with _ e2; exact ⟨rfl, e2⟩
      | cons w2 ws => simp only [texts] at e2; injection e2 with e2 _; exact absurd e2 hc
    | cons v2 vs =>
      cases ws with
      | nil => simp only [texts] at e2; injection e2 with e2 _; exact absurd e2.symm hc
      | cons w2 ws =>
        have e2 : joinComma (texts fmt (v2 :: vs)) ++ x :: r = joinComma (texts fmt (w2 :: ws)) ++ x :: s := by
          simp only [texts] at e2 ⊢; injection e2
        obtain ⟨e3, e4⟩ := cuts_texts fmt hx hc (fun u hu => hv u (List.mem_cons_of_mem _ hu)) (fun u hu => hw u (List.mem_cons_of_mem _ hu)) e2
        exact ⟨by rw [e3], e4⟩

theorem name_word {k : Bytes} (h : IsName k) : ∀ c ∈ k, isWord c = true := by
  cases k with
  | nil => exact h.elim
  | cons c cs => exact h.2

/-- The entries of a map. -/
theorem cuts_props (fmt : F64 → Bytes) {x : UInt8} (hx : isEnd x = true) (hc : x ≠ 44) : ∀ {vs ws : List (Bytes × Value)} {r s : Bytes}, vs ≠ [] → ws ≠ [] → (∀ v ∈ vs, IsName v.1 ∧ Cuts fmt v.2) → (∀ w ∈ ws, IsName w.1 ∧ PlainV w.2) →
    joinComma (textProps fmt vs) ++ x :: r = joinComma (textProps fmt ws) ++ x :: s → vs = ws ∧ r = s
  | [], _, _, _, h, _, _, _, _ => absurd rfl h
  | _, [], _, _, _, h, _, _, _ => absurd rfl h
  | (k, v) :: vs, (l, w) :: ws, r, s, _, _, hv, hw, h => by
    rw [textProps, textProps, joinComma_cons, joinComma_cons] at h
    simp only [List.append_assoc, List.cons_append] at h
    obtain ⟨k1, c1⟩ := hv (k, v) (List.mem_cons_self ..)
    obtain ⟨k2, p2⟩ := hw (l, w) (List.mem_cons_self ..)
    simp only at k1 c1 k2 p2
    obtain ⟨e0, h'⟩ := span_eq (name_word k1) (name_word k2) (by intro c cs h; simp at h; rw [← h.1]; decide) (by intro c cs h; simp at h; rw [← h.1]; decide) h
    injection h' with _ h'
    clear h
    subst e0
    have hr : ∀ (us : List (Bytes × Value)) (r : Bytes), Ended (match textProps fmt us with | [] => x :: r | _ => 44 :: (joinComma (textProps fmt us) ++ x :: r)) := by
      intro us r
      cases us with
      | nil => rw [textProps]; exact ended_close hx r
      | cons u us => rw [textProps]; exact ended_close (by decide) _
    obtain ⟨e1, e2⟩ := c1 w _ _ p2 (fun _ => ⟨hr vs r, hr ws s⟩) h'
    subst e1
    cases vs with
    | nil =>
      cases ws with
      | nil => simp only [textProps] at e2; injection e2 with _ e2; exact ⟨rfl, e2⟩
      | cons w2 ws => simp only [textProps] at e2; injection e2 with e2 _; exact absurd e2 hc
    | cons v2 vs =>
      cases ws with
      | nil => simp only [textProps] at e2; injection e2 with e2 _; exact absurd e2.symm hc
      | cons w2 ws =>
        have e2 : joinComma (textProps fmt (v2 :: vs)) ++ x :: r = joinComma (textProps fmt (w2 :: ws)) ++ x :: s := by
          simp only [textProps] at e2 ⊢; injection e2
        obtain ⟨e3, e4⟩ := cuts_props fmt hx hc (by simp) (by simp) (fun u hu => hv u (List.mem_cons_of_mem _ hu)) (fun u hu => hw u (List.mem_cons_of_mem _ hu)) e2
        exact ⟨by rw [e3], e4⟩

/-- A set is not taken for a map. -/
theorem set_not_map (fmt : F64 → Bytes) {vs : List Value} {ws : List (Bytes × Value)} {r s : Bytes} (h0 : vs ≠ []) (h1 : ws ≠ []) (hv : ∀ v ∈ vs, PlainV v) (hw : ∀ w ∈ ws, IsName w.1) :
    joinComma (texts fmt vs) ++ 125 :: r ≠ joinComma (textProps fmt ws) ++ 125 :: s := by
  cases vs with
  | nil => exact absurd rfl h0
  | cons v vs =>
    cases ws with
    | nil => exact absurd rfl h1
    | cons kw ws =>
      obtain ⟨k, w⟩ := kw
      intro h
      have hk := hw (k, w) (List.mem_cons_self ..)
      simp only at hk
      obtain ⟨c, cs, e, _, hc⟩ := first_byte fmt (hv v (List.mem_cons_self ..))
      rw [texts, textProps, joinComma_cons, joinComma_cons] at h
      simp only [List.append_assoc, List.cons_append] at h
      have hr : Ended (match texts fmt vs with | [] => 125 :: r | _ => 44 :: (joinComma (texts fmt vs) ++ 125 :: r)) := by
        cases vs with
        | nil => rw [texts]; exact ended_close (by decide) r
        | cons u us => rw [texts]; exact ended_close (by decide) _
      cases hkk : k with
      | nil => rw [hkk] at hk; exact hk.elim
      | cons c' k' =>
        have hk' := hk
        rw [hkk] at hk'
        have ec : c = c' := by
          rw [e, hkk] at h
          simp only [List.cons_append, List.cons.injEq] at h
          exact h.1
        subst ec
        have hcw := hk'.2 c (List.mem_cons_self ..)
        rcases hc with ⟨hv', _⟩ | ⟨_, hd | hd⟩ | ⟨_, hd⟩ | ⟨_, hd⟩ | ⟨_, hd⟩
        · obtain ⟨_, e2⟩ := span_eq (name_word (wordV_text fmt hv')) (name_word hk) (fun c cs e => end_not_word (hr c cs e)) (by intro c cs h; simp at h; rw [← h.1]; decide) h
          have := hr 58 _ e2
          exact absurd this (by decide)
        · have := hk'.1; rw [hd] at this; cases this
        · rw [hd] at hcw; exact absurd hcw (by decide)
        · rw [hd] at hcw; exact absurd hcw (by decide)
        · rw [hd] at hcw; exact absurd hcw (by decide)
        · rw [hd] at hcw; exact absurd hcw (by decide)

theorem word_num_ne {c : UInt8} (h : isWord c = true ∧ isDigit c = false) (h2 : isDigit c = true ∨ c = 45) : False := by
  rcases h2 with h2 | rfl
  · rw [h.2] at h2; cases h2
  · exact absurd h.1 (by decide)

theorem cuts_any (fmt : F64 → Bytes) {v : Value} (hp : PlainV v) : Cuts fmt v := by
  have scalar : ∀ {v : Value}, PlainV v → IsWordV v ∨ IsNumV v → Cuts fmt v := by
    intro v hp hv w r s hw hrs h
    obtain ⟨hr, hs⟩ := hrs hv
    obtain ⟨c, cs, e, _, hc⟩ := first_byte fmt hp
    obtain ⟨c', cs', e', _, hc'⟩ := first_byte fmt hw
    have ec : c = c' := by rw [e, e'] at h; simp only [List.cons_append, List.cons.injEq] at h; exact h.1
    subst ec
    have hall : ∀ {u : Value}, PlainV u → IsWordV u ∨ IsNumV u → ∀ c ∈ text fmt u, (!isEnd c) = true := by
      intro u hu hk c hc
      rcases hk with hk | hk
      · simp [word_not_end (name_word (wordV_text fmt hk) c hc)]
      · obtain ⟨_, _, e, _, h2, _⟩ := numV_text fmt hu hk
        rw [e] at hc; simp [h2 c hc]
    have hw2 : IsWordV v ∧ IsWordV w ∨ IsNumV v ∧ IsNumV w := by
      rcases hv with hv | hv
      · rcases hc with ⟨_, hc⟩ | ⟨hn, _⟩ | ⟨⟨_, rfl, _⟩, _⟩ | ⟨⟨_, rfl⟩, _⟩ | ⟨⟨_, rfl⟩ | ⟨_, rfl⟩, _⟩
        · rcases hc' with ⟨hw', _⟩ | ⟨_, hc'⟩ | ⟨_, rfl⟩ | ⟨_, rfl⟩ | ⟨_, rfl⟩
          · exact .inl ⟨hv, hw'⟩
          · exact (word_num_ne hc hc').elim
          all_goals exact absurd hc.1 (by decide)
        · cases v <;> simp_all [IsWordV, IsNumV]
        all_goals exact absurd hv (by simp [IsWordV])
      · rcases hc with ⟨hn, _⟩ | ⟨_, hc⟩ | ⟨⟨_, rfl, _⟩, _⟩ | ⟨⟨_, rfl⟩, _⟩ | ⟨⟨_, rfl⟩ | ⟨_, rfl⟩, _⟩
        · cases v <;> simp_all [IsWordV, IsNumV]
        · rcases hc' with ⟨_, hc'⟩ | ⟨hw', _⟩ | ⟨_, rfl⟩ | ⟨_, rfl⟩ | ⟨_, rfl⟩
          · exact (word_num_ne hc' hc).elim
          · exact .inr ⟨hv, hw'⟩
          all_goals exact absurd hc (by decide)
        all_goals exact absurd hv (by simp [IsNumV])
    have hk : (IsWordV v ∨ IsNumV v) ∧ (IsWordV w ∨ IsNumV w) := by
      rcases hw2 with ⟨a, b⟩ | ⟨a, b⟩
      · exact ⟨.inl a, .inl b⟩
      · exact ⟨.inr a, .inr b⟩
    obtain ⟨e1, e2⟩ := span_eq (hall hp hk.1) (hall hw hk.2) (fun c cs e => by simp [hr c cs e]) (fun c cs e => by simp [hs c cs e]) h
    refine ⟨?_, e2⟩
    rcases hw2 with ⟨a, b⟩ | ⟨a, b⟩
    · exact wordV_inj fmt a b e1
    · exact num_inj fmt hp hw a b e1
  induction hp with
  | empty => exact scalar .empty (.inl trivial)
  | null n => exact scalar (.null n) (.inl trivial)
  | bool b => exact scalar (.bool b) (.inl trivial)
  | int i => exact scalar (.int i) (.inr trivial)
  | date d h => exact scalar (.date d h) (.inr trivial)
  | time t h1 h2 h3 => exact scalar (.time t h1 h2 h3) (.inr trivial)
  | datetime d h1 h2 h3 => exact scalar (.datetime d h1 h2 h3) (.inr trivial)
  | str s hs =>
    intro w r q hw _ h
    obtain ⟨c, cs, e, _, hc⟩ := first_byte fmt hw
    have ec : (34 : UInt8) = c := by rw [text, e] at h; simp only [List.cons_append, List.cons.injEq] at h; exact h.1
    subst ec
    rcases hc with ⟨_, hc, _⟩ | ⟨_, hc⟩ | ⟨⟨s', rfl, hs'⟩, _⟩ | ⟨_, hc⟩ | ⟨_, hc⟩
    · exact absurd hc (by decide)
    · exact absurd hc (by decide)
    · rw [text, text] at h
      simp only [List.cons_append, List.append_assoc, List.nil_append, List.cons.injEq, true_and] at h
      obtain ⟨e1, e2⟩ := not_mem_span hs hs' h
      exact ⟨by rw [e1], e2⟩
    · exact absurd hc (by decide)
    · exact absurd hc (by decide)
  | list vs hvs ih =>
    intro w r q hw _ h
    obtain ⟨c, cs, e, _, hc⟩ := first_byte fmt hw
    have ec : (91 : UInt8) = c := by rw [text, e] at h; simp only [List.cons_append, List.cons.injEq] at h; exact h.1
    subst ec
    rcases hc with ⟨_, hc, _⟩ | ⟨_, hc⟩ | ⟨_, hc⟩ | ⟨⟨l, rfl⟩, _⟩ | ⟨_, hc⟩
    · exact absurd hc (by decide)
    · exact absurd hc (by decide)
    · exact absurd hc (by decide)
    · rw [text, text] at h
      simp only [List.cons_append, List.append_assoc, List.nil_append, List.cons.injEq, true_and] at h
      cases hw with
      | list _ hl =>
        obtain ⟨e1, e2⟩ := cuts_texts fmt (by decide) (by decide) (fun v hv => ⟨hvs v hv, ih v hv⟩) hl h
        exact ⟨by rw [e1], e2⟩
    · exact absurd hc (by decide)
  | set vs h0 hvs ih =>
    intro w r q hw _ h
    obtain ⟨c, cs, e, _, hc⟩ := first_byte fmt hw
    have ec : (123 : UInt8) = c := by rw [text, e] at h; simp only [List.cons_append, List.cons.injEq] at h; exact h.1
    subst ec
    rcases hc with ⟨_, hc, _⟩ | ⟨_, hc⟩ | ⟨_, hc⟩ | ⟨_, hc⟩ | ⟨⟨l, rfl⟩ | ⟨l, rfl⟩, _⟩
    · exact absurd hc (by decide)
    · exact absurd hc (by decide)
    · exact absurd hc (by decide)
    · exact absurd hc (by decide)
    · rw [text, text] at h
      simp only [List.cons_append, List.append_assoc, List.nil_append, List.cons.injEq, true_and] at h
      cases hw with
      | set _ _ hl =>
        obtain ⟨e1, e2⟩ := cuts_texts fmt (by decide) (by decide) (fun v hv => ⟨hvs v hv, ih v hv⟩) hl h
        exact ⟨by rw [e1], e2⟩
    · rw [text, text] at h
      simp only [List.cons_append, List.append_assoc, List.nil_append, List.cons.injEq, true_and] at h
      cases hw with
      | map _ h1 hl _ => exact absurd h (set_not_map fmt h0 h1 hvs hl)
  | map kvs h0 hks hvs ih =>
    intro w r q hw _ h
    obtain ⟨c, cs, e, _, hc⟩ := first_byte fmt hw
    have ec : (123 : UInt8) = c := by rw [text, e] at h; simp only [List.cons_append, List.cons.injEq] at h; exact h.1
    subst ec
    rcases hc with ⟨_, hc, _⟩ | ⟨_, hc⟩ | ⟨_, hc⟩ | ⟨_, hc⟩ | ⟨⟨l, rfl⟩ | ⟨l, rfl⟩, _⟩
    · exact absurd hc (by decide)
    · exact absurd hc (by decide)
    · exact absurd hc (by decide)
    · exact absurd hc (by decide)
    · rw [text, text] at h
      simp only [List.cons_append, List.append_assoc, List.nil_append, List.cons.injEq, true_and] at h
      cases hw with
      | set _ h1 hl => exact absurd h.symm (set_not_map fmt h1 h0 hl hks)
    · rw [text, text] at h
      simp only [List.cons_append, List.append_assoc, List.nil_append, List.cons.injEq, true_and] at h
      cases hw with
      | map _ h1 hk hl =>
        obtain ⟨e1, e2⟩ := cuts_props fmt (by decide) (by decide) h0 h1 (fun v hv => ⟨hks v hv, ih v hv⟩) (fun v hv => ⟨hk v hv, hl v hv⟩) h
        exact ⟨by rw [e1], e2⟩

theorem cuts (fmt : F64 → Bytes) {v : Value} (hp : PlainV v) (w : Value) (r s : Bytes) (hw : PlainV w) (hr : Ended r) (hs : Ended s) (h : text fmt v ++ r = text fmt w ++ s) :
    v = w ∧ r = s := cuts_any fmt hp w r s hw (fun _ => ⟨hr, hs⟩) h

/-! ## In front of a tag -/

theorem digits_last {a l : Bytes} (hl : l ≠ []) (hd : ∀ x ∈ l, isDigit x = true) : (a ++ l).getLast? ≠ some 84 := by
  rw [List.getLast?_append, List.getLast?_eq_some_getLast hl, Option.some_or]
  intro h
  have := hd _ (List.getLast_mem hl)
  rw [Option.some.inj h] at this
  exact absurd this (by decide)

theorem pad_ne {w : Nat} {i : Int} (hw : 0 < w) (h0 : 0 ≤ i) (h1 : i < 10 ^ w) : padDec w i ≠ [] := by
  intro h
  have := (pad_fixed hw h0 h1).1
  rw [h] at this
  simp at this
  omega

/-- Numbers, dates and times have no `a` in them and do not end with a `T`. -/
theorem numV_tail (fmt : F64 → Bytes) {v : Value} (hp : PlainV v) (h : IsNumV v) : (97 : UInt8) ∉ text fmt v ∧ (text fmt v).getLast? ≠ some 84 := by
  have dig : ∀ {l : Bytes}, (∀ x ∈ l, isDigit x = true) → (97 : UInt8) ∉ l := fun h hm => digit_ne (h _ hm) (by decide) rfl
  have int : ∀ i : Int, (97 : UInt8) ∉ intDec i := by
    intro i
    obtain ⟨c, cs, e, h1, h2⟩ := intDec_shape i
    rw [e, List.mem_cons, not_or]
    exact ⟨by rintro rfl; revert h1; decide, dig h2⟩
  have nat : ∀ i : Int, 0 ≤ i → (intDec i ≠ [] ∧ ∀ x ∈ intDec i, isDigit x = true) := by
    intro i hi
    rw [intDec, if_neg (by omega)]
    exact ⟨natDec_ne_nil _, natDec_digits _⟩
  cases hp <;> simp only [IsNumV] at h
  · rename_i i
    rw [text]
    refine ⟨int i, ?_⟩
    unfold intDec
    split
    · exact digits_last (a := [45]) (natDec_ne_nil _) (natDec_digits _)
    · exact digits_last (a := []) (natDec_ne_nil _) (natDec_digits _)
  · rename_i d hd
    obtain ⟨_, _, h3, h4, h5, h6⟩ := id hd
    have hl := monthLen_le leapGreg d.year d.month
    obtain ⟨_, m2, _⟩ := pad_fixed (w := 2) (i := d.month) (by decide) (by omega) (by omega)
    obtain ⟨_, n2, _⟩ := pad_fixed (w := 2) (i := d.day) (by decide) (by omega) (by omega)
    rw [text, Date.toText]
    constructor
    · simp [int, dig m2, dig n2]
    · have e : ∀ a b c : Bytes, a ++ 45 :: b ++ 45 :: c = (a ++ 45 :: b ++ [45]) ++ c := by simp
      rw [e]
      exact digits_last (pad_ne (by decide) (by omega) (by omega)) n2
  · rename_i t ht u1 u2
    obtain ⟨h1, h2, h3, h4, h5, h6⟩ := ht
    obtain ⟨l1, m1, _⟩ := pad_fixed (w := 2) (i := t.hour) (by decide) (by omega) (by omega)
    obtain ⟨_, m2, _⟩ := pad_fixed (w := 2) (i := t.minute) (by decide) (by omega) (by omega)
    obtain ⟨_, m3, _⟩ := pad_fixed (w := 2) (i := t.sec) (by decide) (by omega) (by omega)
    obtain ⟨_, m4, _⟩ := pad_fixed (w := 6) (i := t.microsec) (by decide) (by omega) (by omega)
    rw [text, Time.toText]
    constructor
    · simp [dig m1, dig m2, dig m3, dig m4]
    · have e : ∀ a c : Bytes, a ++ 46 :: c = (a ++ [46]) ++ c := by simp
      rw [e]
      exact digits_last (pad_ne (by decide) (by omega) (by omega)) m4
  · rename_i d hd u1 u2
    obtain ⟨hd, t1, t2, t3, t4, t5, t6⟩ := hd
    obtain ⟨_, _, h3, h4, h5, h6⟩ := id hd
    simp only at h3 h4 h5 h6
    have hl := monthLen_le leapGreg d.year d.month
    obtain ⟨_, m1, _⟩ := pad_fixed (w := 2) (i := d.month) (by decide) (by omega) (by omega)
    obtain ⟨_, m2, _⟩ := pad_fixed (w := 2) (i := d.day) (by decide) (by omega) (by omega)
    obtain ⟨_, m3, _⟩ := pad_fixed (w := 2) (i := d.hour) (by decide) (by omega) (by omega)
    obtain ⟨_, m4, _⟩ := pad_fixed (w := 2) (i := d.minute) (by decide) (by omega) (by omega)
    obtain ⟨_, m5, _⟩ := pad_fixed (w := 2) (i := d.sec) (by decide) (by omega) (by omega)
    obtain ⟨m6, m7⟩ := nat d.microsec (by omega)
    rw [text, DateTime.toText]
    constructor
    · simp [int, dig m1, dig m2, dig m3, dig m4, dig m5]
    · have e : ∀ a c : Bytes, a ++ 46 :: c = (a ++ [46]) ++ c := by simp
      rw [e]
      exact digits_last m6 m7

/-- What follows a value: the end of an element, or a tag. -/
def Followed (r : Bytes) : Prop := Ended r ∨ ∃ t, r = 84 :: 97 :: 103 :: 58 :: 32 :: t

/-- No word ends with `Tag`. -/
theorem wordV_tail (fmt : F64 → Bytes) {v w : Value} (_ : IsWordV v) (hw : IsWordV w) : text fmt v ++ [84, 97, 103] ≠ text fmt w := by
  intro h
  have key : ∀ {w : Value}, IsWordV w → (text fmt w).getLast? ≠ some 103 := by
    intro w hw
    cases w <;> simp only [IsWordV] at hw <;> simp only [text]
    · decide +kernel
    · rename_i n; cases n <;> decide +kernel
    · rename_i b; cases b <;> decide +kernel
  apply key hw
  rw [← h]
  simp

theorem cuts_tag (fmt : F64 → Bytes) {v w : Value} (hp : PlainV v) (hw : PlainV w) {r s : Bytes} (hr : Followed r) (hs : Followed s) (h : text fmt v ++ r = text fmt w ++ s) :
    v = w ∧ r = s := by
  by_cases hk : IsWordV v ∨ IsNumV v
  · obtain ⟨c, cs, e, _, hc⟩ := first_byte fmt hp
    obtain ⟨c', cs', e', _, hc'⟩ := first_byte fmt hw
    have ec : c = c' := by rw [e, e'] at h; simp only [List.cons_append, List.cons.injEq] at h; exact h.1
    subst ec
    have hw2 : IsWordV v ∧ IsWordV w ∨ IsNumV v ∧ IsNumV w := by
      rcases hk with hv | hv
      · rcases hc with ⟨_, hc⟩ | ⟨hn, _⟩ | ⟨⟨_, rfl, _⟩, _⟩ | ⟨⟨_, rfl⟩, _⟩ | ⟨⟨_, rfl⟩ | ⟨_, rfl⟩, _⟩
        · rcases hc' with ⟨hw', _⟩ | ⟨_, hc'⟩ | ⟨_, rfl⟩ | ⟨_, rfl⟩ | ⟨_, rfl⟩
          · exact .inl ⟨hv, hw'⟩
          · exact (word_num_ne hc hc').elim
          all_goals exact absurd hc.1 (by decide)
        · cases v <;> simp_all [IsWordV, IsNumV]
        all_goals exact absurd hv (by simp [IsWordV])
      · rcases hc with ⟨hn, _⟩ | ⟨_, hc⟩ | ⟨⟨_, rfl, _⟩, _⟩ | ⟨⟨_, rfl⟩, _⟩ | ⟨⟨_, rfl⟩ | ⟨_, rfl⟩, _⟩
        · cases v <;> simp_all [IsWordV, IsNumV]
        · rcases hc' with ⟨_, hc'⟩ | ⟨hw', _⟩ | ⟨_, rfl⟩ | ⟨_, rfl⟩ | ⟨_, rfl⟩
          · exact (word_num_ne hc' hc).elim
          · exact .inr ⟨hv, hw'⟩
          all_goals exact absurd hc (by decide)
        all_goals exact absurd hv (by simp [IsNumV])
    rcases hw2 with ⟨a, b⟩ | ⟨a, b⟩
    · -- words
      have split : ∀ {r : Bytes}, Followed r → ∃ p r', r = p ++ r' ∧ (p = [] ∨ p = [84, 97, 103]) ∧ ∀ c cs, r' = c :: cs → isWord c = false := by
        rintro r (h | ⟨t, rfl⟩)
        · exact ⟨[], r, rfl, .inl rfl, fun c cs e => end_not_word (h c cs e)⟩
        · exact ⟨[84, 97, 103], 58 :: 32 :: t, rfl, .inr rfl, by intro c cs h; simp at h; rw [← h.1]; decide⟩
      obtain ⟨p, r', rfl, hp1, hp2⟩ := split hr
      obtain ⟨q, s', rfl, hq1, hq2⟩ := split hs
      have hall : ∀ {u : Value} {p : Bytes}, IsWordV u → (p = [] ∨ p = [84, 97, 103]) → ∀ c ∈ text fmt u ++ p, isWord c = true := by
        intro u p hu hp c hc
        rcases List.mem_append.1 hc with hc | hc
        · exact name_word (wordV_text fmt hu) c hc
        · rcases hp with rfl | rfl
          · cases hc
          · exact (by decide : ∀ c ∈ ([84, 97, 103] : Bytes), isWord c = true) c hc
      obtain ⟨e1, e2⟩ := span_eq (hall a hp1) (hall b hq1) hp2 hq2 (by simpa using h)
      rcases hp1 with rfl | rfl <;> rcases hq1 with rfl | rfl
      · exact ⟨wordV_inj fmt a b (by simpa using e1), by rw [e2]⟩
      · exact absurd (by simpa using e1.symm) (wordV_tail fmt b a)
      · exact absurd (by simpa using e1) (wordV_tail fmt a b)
      · exact ⟨wordV_inj fmt a b (List.append_cancel_right e1), by rw [e2]⟩
    · -- numbers
      have split : ∀ {r : Bytes}, Followed r → ∃ p r', r = p ++ r' ∧ (p = [] ∨ p = [84]) ∧ ∀ c cs, r' = c :: cs → (!isEnd c && c != 97) = false := by
        rintro r (h | ⟨t, rfl⟩)
        · exact ⟨[], r, rfl, .inl rfl, fun c cs e => by simp [h c cs e]⟩
        · exact ⟨[84], 97 :: 103 :: 58 :: 32 :: t, rfl, .inr rfl, by intro c cs h; simp at h; rw [← h.1]; decide⟩
      obtain ⟨p, r', rfl, hp1, hp2⟩ := split hr
      obtain ⟨q, s', rfl, hq1, hq2⟩ := split hs
      have hall : ∀ {u : Value} {p : Bytes}, PlainV u → IsNumV u → (p = [] ∨ p = [84]) → ∀ c ∈ text fmt u ++ p, (!isEnd c && c != 97) = true := by
        intro u p hpu hu hp c hc
        rcases List.mem_append.1 hc with hc | hc
        · obtain ⟨_, _, e, _, h2, _⟩ := numV_text fmt hpu hu
          have h3 := (numV_tail fmt hpu hu).1
          have h4 : c ≠ 97 := by rintro rfl; exact h3 hc
          rw [e] at hc
          simp [h2 c hc, h4]
        · rcases hp with rfl | rfl
          · cases hc
          · exact (by decide : ∀ c ∈ ([84] : Bytes), (!isEnd c && c != 97) = true) c hc
      obtain ⟨e1, e2⟩ := span_eq (hall hp a hp1) (hall hw b hq1) hp2 hq2 (by simpa using h)
      rcases hp1 with rfl | rfl <;> rcases hq1 with rfl | rfl
      · exact ⟨num_inj fmt hp hw a b (by simpa using e1), by rw [e2]⟩
      · refine absurd ?_ (numV_tail fmt hp a).2
        rw [List.append_nil] at e1
        rw [e1]; simp
      · refine absurd ?_ (numV_tail fmt hw b).2
        rw [List.append_nil] at e1
        rw [← e1]; simp
      · exact ⟨num_inj fmt hp hw a b (List.append_cancel_right e1), by rw [e2]⟩
  · exact cuts_any fmt hp w r s hw (fun h => absurd h hk) h

/-- What follows the properties of a tag: the end of the vertex, or another tag. -/
def TagEnd (r : Bytes) : Prop := (∃ t, r = 41 :: t) ∨ ∃ t, r = 84 :: 97 :: 103 :: 58 :: 32 :: t

theorem tagEnd_followed {r : Bytes} (h : TagEnd r) : Followed r := by
  rcases h with ⟨t, rfl⟩ | h
  · exact .inl (ended_close (by decide) t)
  · exact .inr h

theorem tag_props_cons (fmt : F64 → Bytes) : ∀ {vs ws : List (Bytes × Value)} {r s : Bytes}, vs ≠ [] → ws ≠ [] → (∀ v ∈ vs, IsName v.1 ∧ PlainV v.2) → (∀ w ∈ ws, IsName w.1 ∧ PlainV w.2) →
    TagEnd r → TagEnd s → joinComma (textProps fmt vs) ++ r = joinComma (textProps fmt ws) ++ s → vs = ws ∧ r = s
  | [], _, _, _, h, _, _, _, _, _, _ => absurd rfl h
  | _ :: _, [], _, _, _, h, _, _, _, _, _ => absurd rfl h
  | (k, v) :: vs, (k', w) :: ws, r, s, _, _, hv, hw, hr, hs, h => by
    rw [textProps, textProps, joinComma_cons, joinComma_cons] at h
    obtain ⟨hk, hv1⟩ := hv _ (List.mem_cons_self ..)
    obtain ⟨hk', hw1⟩ := hw _ (List.mem_cons_self ..)
    simp only [List.append_assoc, List.cons_append] at h
    have hx := span_eq (name_word hk) (name_word hk') (by intro c cs h; simp at h; rw [← h.1]; decide) (by intro c cs h; simp at h; rw [← h.1]; decide) h
    clear h; obtain ⟨e1, h⟩ := hx
    injection h with _ h
    have hf : ∀ (us : List (Bytes × Value)) {r : Bytes}, TagEnd r → Followed (match textProps fmt us with | [] => r | _ => 44 :: (joinComma (textProps fmt us) ++ r)) := by
      intro us r hr
      cases us with
      | nil => rw [textProps]; exact tagEnd_followed hr
      | cons u us => rw [textProps]; exact .inl (ended_close (by decide) _)
    have hx := cuts_tag fmt hv1 hw1 (hf vs hr) (hf ws hs) h
    clear h; obtain ⟨e2, h⟩ := hx
    simp only at e1 e2
    subst e1; subst e2
    have ne : ∀ {r t : Bytes}, TagEnd r → (44 : UInt8) :: t ≠ r := by
      rintro r t (⟨u, rfl⟩ | ⟨u, rfl⟩) h <;> injection h with h _ <;> exact absurd h (by decide)
    cases vs with
    | nil =>
      cases ws with
      | nil => simp only [textProps] at h; exact ⟨rfl, h⟩
      | cons w2 ws => simp only [textProps] at h; exact absurd h.symm (ne hr)
    | cons v2 vs =>
      cases ws with
      | nil => simp only [textProps] at h; exact absurd h (ne hs)
      | cons w2 ws =>
        have h : joinComma (textProps fmt (v2 :: vs)) ++ r = joinComma (textProps fmt (w2 :: ws)) ++ s := by
          simp only [textProps] at h ⊢; injection h
        obtain ⟨e3, e4⟩ := tag_props_cons fmt (by simp) (by simp) (fun u hu => hv u (List.mem_cons_of_mem _ hu)) (fun u hu => hw u (List.mem_cons_of_mem _ hu)) hr hs h
        exact ⟨by rw [e3], e4⟩

end Value

/-! ## The property -/

/-- **C119 (texts of values).** Two values with the same text are the same value, at any depth, if they contain no floats, graph elements and data sets, no strings with quotation marks, no
empty sets and maps, and only keys that are names. -/
theorem C119_value_partial (fmt : F64 → Bytes) {v w : Value} (hv : PlainV v) (hw : PlainV w) (h : v.text fmt = w.text fmt) : v = w :=
  (Value.cuts fmt hv w [] [] hw (by intro c cs h; cases h) (by intro c cs h; cases h) (by simpa using h)).1

example : PlainV (.list [.int 7, .map [(ascii "k", .str (ascii "a,b]"))], .set [.null .null, .bool true]]) := by
  refine .list _ ?_
  intro v hv
  simp only [List.mem_cons, List.not_mem_nil, or_false] at hv
  rcases hv with rfl | rfl | rfl
  · exact .int 7
  · refine .map _ (by simp) (by decide +kernel) ?_
    intro kv hkv
    simp only [List.mem_singleton] at hkv
    subst hkv
    exact .str _ (by decide +kernel)
  · refine .set _ (by simp) ?_
    intro x hx
    simp only [List.mem_cons, List.not_mem_nil, or_false] at hx
    rcases hx with rfl | rfl
    · exact .null _
    · exact .bool true

/-- The edges and tags this property is about: names of letters, digits and underscores, and values as above. -/
def PlainProps (ps : List (Bytes × Value)) : Prop := ∀ kv ∈ ps, IsName kv.1 ∧ PlainV kv.2

/-- Properties, in front of the end of an element. -/
theorem Value.props_cut (fmt : F64 → Bytes) {x : UInt8} (hx : isEnd x = true) (hc : x ≠ 44) {ps qs : List (Bytes × Value)} {r s : Bytes} (hp : PlainProps ps) (hq : PlainProps qs)
    (h : joinComma (textProps fmt ps) ++ x :: r = joinComma (textProps fmt qs) ++ x :: s) : ps = qs ∧ r = s := by
  have ne : ∀ {k v} {us : List (Bytes × Value)} {r s : Bytes}, PlainProps ((k, v) :: us) → joinComma (textProps fmt ((k, v) :: us)) ++ r ≠ x :: s := by
    intro k v us r s hu e
    have hk := (hu (k, v) (List.mem_cons_self ..)).1
    simp only [textProps, joinComma_cons] at e
    cases k with
    | nil => exact hk.elim
    | cons c k =>
      simp only [List.cons_append, List.cons.injEq] at e
      have := word_not_end (hk.2 c (List.mem_cons_self ..))
      rw [e.1, hx] at this
      cases this
  cases ps with
  | nil =>
    cases qs with
    | nil => simpa [textProps, joinComma] using h
    | cons q qs => exact absurd h.symm (ne (k := q.1) (v := q.2) hq)
  | cons p ps =>
    cases qs with
    | nil => exact absurd h (ne (k := p.1) (v := p.2) hp)
    | cons q qs => exact cuts_props fmt hx hc (by simp) (by simp) (fun v hv => ⟨(hp v hv).1, cuts_any fmt (hp v hv).2⟩) hq h

/-- The properties at the end of a text. -/
theorem Value.props_inj (fmt : F64 → Bytes) {ps qs : List (Bytes × Value)} (hp : PlainProps ps) (hq : PlainProps qs)
    (h : joinComma (textProps fmt ps) = joinComma (textProps fmt qs)) : ps = qs :=
  (props_cut fmt (x := 125) (by decide) (by decide) hp hq (r := []) (s := []) (by rw [h])).1

/-- **C119 (texts of edges).** Two edges with the same text have the same ends, type, name, rank and properties, if their ends and the values of their properties are values as above and
their names and keys consist of letters, digits and underscores. -/
theorem C119_edge_partial (fmt : F64 → Bytes) {e f : Edge Value} (h1 : PlainV e.src) (h2 : PlainV e.dst) (h3 : ∀ c ∈ e.name, isWord c = true) (h4 : PlainProps e.props)
    (g1 : PlainV f.src) (g2 : PlainV f.dst) (g3 : ∀ c ∈ f.name, isWord c = true) (g4 : PlainProps f.props)
    (h : Value.text fmt (.edge e) = Value.text fmt (.edge f)) : e = f := by
  obtain ⟨s, d, t, n, r, ps⟩ := e
  obtain ⟨s', d', t', n', r', ps'⟩ := f
  simp only at h1 h2 h3 h4 g1 g2 g3 g4
  have a1 : ascii ")-[" = [41, 45, 91] := by decide +kernel
  have a2 : ascii ")]->(" = [41, 93, 45, 62, 40] := by decide +kernel
  have a3 : ascii ")@" = [41, 64] := by decide +kernel
  rw [Value.text, Value.text, a1, a2, a3] at h
  simp only [List.cons_append, List.append_assoc, List.nil_append, List.cons.injEq, true_and] at h
  have en : ∀ (x : Bytes), Ended (41 :: x) := fun x => Value.ended_close (by decide) x
  have hx := Value.cuts fmt h1 s' _ _ g1 (en _) (en _) h
  clear h; obtain ⟨e0, h⟩ := hx; subst e0
  simp only [List.cons.injEq, true_and] at h
  have hx := span_eq h3 g3 (by intro c cs h; simp at h; rw [← h.1]; decide) (by intro c cs h; simp at h; rw [← h.1]; decide) h
  clear h; obtain ⟨e0, h⟩ := hx; subst e0
  simp only [List.cons.injEq, true_and] at h
  have hx := intDec_cut (by intro c cs h; simp at h; rw [← h.1]; decide) (by intro c cs h; simp at h; rw [← h.1]; decide) h
  clear h; obtain ⟨e0, h⟩ := hx; subst e0
  simp only [List.cons.injEq, true_and] at h
  have hx := Value.cuts fmt h2 d' _ _ g2 (en _) (en _) h
  clear h; obtain ⟨e0, h⟩ := hx; subst e0
  simp only [List.cons.injEq, true_and] at h
  have hd : ∀ (us : List (Bytes × Value)) c cs, (match Value.textProps fmt us with | [] => [] | x => 32 :: Value.joinComma x) = c :: cs → isDigit c = false := by
    intro us c cs h
    cases us with
    | nil => simp [Value.textProps] at h
    | cons u us => simp only [Value.textProps, List.cons.injEq] at h; rw [← h.1]; decide
  have hx := intDec_cut (hd ps) (hd ps') h
  clear h; obtain ⟨e0, h⟩ := hx; subst e0
  have hh : Value.joinComma (Value.textProps fmt ps) = Value.joinComma (Value.textProps fmt ps') := by
    cases ps with
    | nil =>
      cases ps' with
      | nil => rfl
      | cons q qs => simp [Value.textProps] at h
    | cons p ps =>
      cases ps' with
      | nil => simp [Value.textProps] at h
      | cons q qs => simpa only [Value.textProps, List.cons.injEq, true_and] using h
  rw [Value.props_inj fmt h4 g4 hh]

example (fmt : F64 → Bytes) : Value.text fmt (.edge ⟨.str (ascii "a"), .int 2, 3, ascii "like", 0, [(ascii "w", .int 5)]⟩) = ascii "(\"a\")-[like(3)]->(2)@0 w:5" := by
  simp only [Value.text, Value.textProps, Value.joinComma]; decide +kernel

/-- The vertices this property is about: any number of tags, names of letters, digits and underscores, and values as above. -/
def PlainVertex (v : Vertex Value) : Prop := PlainV v.vid ∧ ∀ t ∈ v.tags, (∀ c ∈ t.name, isWord c = true) ∧ PlainProps t.props

/-- The properties of a tag. -/
theorem Value.tag_props_cut (fmt : F64 → Bytes) {ps qs : List (Bytes × Value)} {r s : Bytes} (hp : PlainProps ps) (hq : PlainProps qs) (hr : TagEnd r) (hs : TagEnd s)
    (h : joinComma (textProps fmt ps) ++ r = joinComma (textProps fmt qs) ++ s) : ps = qs ∧ r = s := by
  have ne : ∀ {k v} {us : List (Bytes × Value)} {r s : Bytes}, PlainProps ((k, v) :: us) → TagEnd s → joinComma (textProps fmt ((k, v) :: us)) ++ r ≠ s := by
    intro k v us r s hu hs e
    obtain ⟨hk, hv⟩ := hu (k, v) (List.mem_cons_self ..)
    simp only [textProps, joinComma_cons] at e
    rcases hs with ⟨t, rfl⟩ | ⟨t, rfl⟩
    · cases k with
      | nil => exact hk.elim
      | cons c k =>
        simp only [List.cons_append, List.cons.injEq] at e
        have := hk.2 c (List.mem_cons_self ..)
        rw [e.1] at this
        exact absurd this (by decide)
    · simp only [List.append_assoc, List.cons_append] at e
      obtain ⟨_, e⟩ := span_eq (p := isWord) (b := [84, 97, 103]) (s := 58 :: 32 :: t) (name_word hk) (by decide) (by intro c cs h; simp at h; rw [← h.1]; decide)
        (by intro c cs h; simp at h; rw [← h.1]; decide) e
      obtain ⟨c, cs, e', h1, _⟩ := first_byte fmt hv
      rw [e'] at e
      simp only [List.cons_append, List.cons.injEq, true_and] at e
      rw [e.1] at h1
      exact absurd h1 (by decide)
  cases ps with
  | nil =>
    cases qs with
    | nil => simpa [textProps, joinComma] using h
    | cons q qs => exact absurd h.symm (ne (k := q.1) (v := q.2) hq hr)
  | cons p ps =>
    cases qs with
    | nil => exact absurd h (ne (k := p.1) (v := p.2) hp hs)
    | cons q qs => exact tag_props_cons fmt (by simp) (by simp) hp hq hr hs h

theorem Value.tags_end (fmt : F64 → Bytes) (ts : List (Tag Value)) (r : Bytes) : TagEnd (textTags fmt ts ++ 41 :: r) := by
  have a1 : ascii "Tag: " = [84, 97, 103, 58, 32] := by decide +kernel
  cases ts with
  | nil => rw [textTags]; exact .inl ⟨r, rfl⟩
  | cons t ts => obtain ⟨n, ps⟩ := t; rw [textTags, a1]; exact .inr ⟨_, rfl⟩

/-- The tags of a vertex, in front of a closing parenthesis. -/
theorem Value.tags_cut (fmt : F64 → Bytes) : ∀ {ts us : List (Tag Value)} {r s : Bytes}, (∀ t ∈ ts, (∀ c ∈ t.name, isWord c = true) ∧ PlainProps t.props) →
    (∀ t ∈ us, (∀ c ∈ t.name, isWord c = true) ∧ PlainProps t.props) → textTags fmt ts ++ 41 :: r = textTags fmt us ++ 41 :: s → ts = us ∧ r = s
  | [], [], _, _, _, _, h => by simpa [textTags] using h
  | [], ⟨n, ps⟩ :: us, r, s, _, _, h => by
    have a1 : ascii "Tag: " = [84, 97, 103, 58, 32] := by decide +kernel
    rw [textTags, textTags, a1] at h
    simp at h
  | ⟨n, ps⟩ :: ts, [], r, s, _, _, h => by
    have a1 : ascii "Tag: " = [84, 97, 103, 58, 32] := by decide +kernel
    rw [textTags, textTags, a1] at h
    simp at h
  | ⟨n, ps⟩ :: ts, ⟨n', ps'⟩ :: us, r, s, ht, hu, h => by
    have a1 : ascii "Tag: " = [84, 97, 103, 58, 32] := by decide +kernel
    have a2 : ascii ", " = [44, 32] := by decide +kernel
    obtain ⟨b1, b2⟩ := ht _ (List.mem_cons_self ..)
    obtain ⟨c1, c2⟩ := hu _ (List.mem_cons_self ..)
    rw [textTags, textTags, a1, a2] at h
    simp only [List.append_assoc, List.cons_append, List.nil_append, List.cons.injEq, true_and] at h b1 b2 c1 c2
    have hx := span_eq b1 c1 (by intro c cs h; simp at h; rw [← h.1]; decide) (by intro c cs h; simp at h; rw [← h.1]; decide) h
    clear h; obtain ⟨e0, h⟩ := hx; subst e0
    simp only [List.cons.injEq, true_and] at h
    have hx := tag_props_cut fmt b2 c2 (tags_end fmt ts r) (tags_end fmt us s) h
    clear h; obtain ⟨e0, h⟩ := hx; subst e0
    obtain ⟨e1, e2⟩ := tags_cut fmt (fun t h' => ht t (List.mem_cons_of_mem _ h')) (fun t h' => hu t (List.mem_cons_of_mem _ h')) h
    exact ⟨by rw [e1], e2⟩

/-- A vertex, in front of a closing parenthesis. -/
theorem Value.vertex_cut (fmt : F64 → Bytes) {v w : Vertex Value} {r s : Bytes} (hv : PlainVertex v) (hw : PlainVertex w)
    (h : textVertex fmt v ++ 41 :: r = textVertex fmt w ++ 41 :: s) : v = w ∧ r = s := by
  obtain ⟨i, ts⟩ := v
  obtain ⟨j, us⟩ := w
  obtain ⟨h1, h3⟩ := hv
  obtain ⟨g1, g3⟩ := hw
  simp only at h1 h3 g1 g3
  have en : ∀ (x : Bytes), Ended (41 :: x) := fun x => Value.ended_close (by decide) x
  have key : ∀ (i : Value) (ts : List (Tag Value)) (r : Bytes), Value.textVertex fmt ⟨i, ts⟩ ++ (41 :: r : Bytes) = (40 : UInt8) :: (Value.text fmt i ++ 41 :: (match ts with
      | [] => 41 :: r
      | t :: ts => 32 :: (Value.textTags fmt (t :: ts) ++ 41 :: r))) := by
    intro i ts r
    cases ts with
    | nil => simp [Value.textVertex]
    | cons t ts => simp [Value.textVertex]
  rw [key i ts r, key j us s] at h
  simp only [List.cons.injEq, true_and] at h
  have hx := Value.cuts fmt h1 j _ _ g1 (en _) (en _) h
  clear h; obtain ⟨e0, h⟩ := hx; subst e0
  simp only [List.cons.injEq, true_and] at h
  cases ts with
  | nil =>
    cases us with
    | nil => simp at h; exact ⟨rfl, h⟩
    | cons _ _ => simp at h
  | cons t ts =>
    cases us with
    | nil => simp at h
    | cons u us =>
      simp only [List.cons.injEq, true_and] at h
      obtain ⟨e0, h⟩ := Value.tags_cut fmt h3 g3 h
      exact ⟨by rw [e0], h⟩

/-- **C119 (texts of vertices).** Two vertices with the same text are the same, if their ids and the values of their properties are values as above and their names and
keys consist of letters, digits and underscores. -/
theorem C119_vertex_partial (fmt : F64 → Bytes) {v w : Vertex Value} (hv : PlainVertex v) (hw : PlainVertex w)
    (h : Value.text fmt (.vertex v) = Value.text fmt (.vertex w)) : v = w := by
  rw [Value.text, Value.text] at h
  exact (Value.vertex_cut fmt hv hw (r := []) (s := []) (by rw [h])).1

example (fmt : F64 → Bytes) : Value.text fmt (.vertex ⟨.str (ascii "a"), [⟨ascii "player", [(ascii "age", .int 42), (ascii "ok", .bool true)]⟩]⟩) = ascii "(\"a\") Tag: player, age:42,ok:true" := by
  simp only [Value.text, Value.textVertex, Value.textTags, Value.textProps, Value.joinComma]; decide +kernel

/-- A vertex with three tags: the text of a number, and of the list of properties of a tag, is followed by the next tag without a separator. -/
example (fmt : F64 → Bytes) : Value.text fmt (.vertex ⟨.int 7, [⟨ascii "a", [(ascii "n", .int 1)]⟩, ⟨ascii "b", []⟩, ⟨ascii "c", [(ascii "ok", .bool true)]⟩]⟩) =
      ascii "(7) Tag: a, n:1Tag: b, Tag: c, ok:true" ∧
    PlainVertex ⟨.int 7, [⟨ascii "a", [(ascii "n", .int 1)]⟩, ⟨ascii "b", []⟩, ⟨ascii "c", [(ascii "ok", .bool true)]⟩]⟩ := by
  refine ⟨by simp only [Value.text, Value.textVertex, Value.textTags, Value.textProps, Value.joinComma]; decide +kernel, .int _, ?_⟩
  intro t ht
  simp only [List.mem_cons, List.not_mem_nil, or_false] at ht
  rcases ht with rfl | rfl | rfl
  · refine ⟨by decide +kernel, ?_⟩
    intro p hp
    simp only [List.mem_cons, List.not_mem_nil, or_false] at hp
    subst hp
    exact ⟨by decide +kernel, .int _⟩
  · exact ⟨by decide +kernel, fun p hp => by cases hp⟩
  · refine ⟨by decide +kernel, ?_⟩
    intro p hp
    simp only [List.mem_cons, List.not_mem_nil, or_false] at hp
    subst hp
    exact ⟨by decide +kernel, .bool _⟩

/-- The steps this property is about. -/
def PlainStep (s : Step Value) : Prop := PlainVertex s.dst ∧ (∀ c ∈ s.name, isWord c = true) ∧ PlainProps s.props

/-- The text of a step, without the removed character. -/
theorem Value.dropLast_props (a : Bytes) (l : List Bytes) : (a ++ 32 :: l.flatMap fun p => p ++ [44]).dropLast = a ++ (match l with | [] => [] | l => 32 :: joinComma l) := by
  have key : ∀ (t : Bytes) (l : List Bytes), ((t :: l).flatMap fun p => p ++ [44]) = joinComma (t :: l) ++ [44] := by
    intro t l
    induction l generalizing t with
    | nil => simp [joinComma]
    | cons u l ih => rw [List.flatMap_cons, ih, joinComma]; simp
  cases l with
  | nil => simp
  | cons t l =>
    rw [key]
    have : a ++ 32 :: (joinComma (t :: l) ++ [44]) = (a ++ 32 :: joinComma (t :: l)) ++ [44] := by simp
    rw [this, List.dropLast_concat]

theorem Value.steps_inj (fmt : F64 → Bytes) : ∀ {ss us : List (Step Value)}, (∀ s ∈ ss, PlainStep s) → (∀ u ∈ us, PlainStep u) → textSteps fmt ss = textSteps fmt us → ss = us := by
  have a1 : ascii "-[" = [45, 91] := by decide +kernel
  have a2 : ascii ")]->(" = [41, 93, 45, 62, 40] := by decide +kernel
  have a3 : ascii ")@" = [41, 64] := by decide +kernel
  have key : ∀ (v t n r ps) (ss : List (Step Value)), textSteps fmt (⟨v, t, n, r, ps⟩ :: ss) = 45 :: 91 :: (n ++ 40 :: (intDec t ++ 41 :: 93 :: 45 :: 62 :: 40 :: (textVertex fmt v ++
      41 :: 64 :: (intDec r ++ ((match textProps fmt ps with | [] => [] | l => 32 :: joinComma l) ++ 32 :: textSteps fmt ss))))) := by
    intro v t n r ps ss
    rw [textSteps, dropLast_props, a1, a2, a3]
    simp
  intro ss
  induction ss with
  | nil =>
    intro us _ _ h
    cases us with
    | nil => rfl
    | cons u us => obtain ⟨v, t, n, r, ps⟩ := u; rw [key, textSteps] at h; cases h
  | cons s ss ih =>
    intro us hs hu h
    obtain ⟨v, t, n, r, ps⟩ := s
    cases us with
    | nil => rw [key, textSteps] at h; cases h
    | cons u us =>
      obtain ⟨v', t', n', r', ps'⟩ := u
      obtain ⟨h1, h2, h3⟩ := hs _ (List.mem_cons_self ..)
      obtain ⟨g1, g2, g3⟩ := hu _ (List.mem_cons_self ..)
      simp only at h1 h2 h3 g1 g2 g3
      rw [key, key] at h
      simp only [List.cons.injEq, true_and] at h
      have hx := span_eq h2 g2 (by intro c cs h; simp at h; rw [← h.1]; decide) (by intro c cs h; simp at h; rw [← h.1]; decide) h
      clear h; obtain ⟨e0, h⟩ := hx; subst e0
      simp only [List.cons.injEq, true_and] at h
      have hx := intDec_cut (by intro c cs h; simp at h; rw [← h.1]; decide) (by intro c cs h; simp at h; rw [← h.1]; decide) h
      clear h; obtain ⟨e0, h⟩ := hx; subst e0
      simp only [List.cons.injEq, true_and] at h
      have hx := vertex_cut fmt h1 g1 h
      clear h; obtain ⟨e0, h⟩ := hx; subst e0
      simp only [List.cons.injEq, true_and] at h
      have hd : ∀ (us : List (Bytes × Value)) (x : Bytes) c cs, (match textProps fmt us with | [] => [] | l => 32 :: joinComma l) ++ 32 :: x = c :: cs → isDigit c = false := by
        intro us x c cs h
        cases us with
        | nil => simp only [textProps, List.nil_append, List.cons.injEq] at h; rw [← h.1]; decide
        | cons u us => simp only [textProps, List.cons_append, List.cons.injEq] at h; rw [← h.1]; decide
      have hx := intDec_cut (hd ps _) (hd ps' _) h
      clear h; obtain ⟨e0, h⟩ := hx; subst e0
      have hhead : ∀ (ss : List (Step Value)) c cs, textSteps fmt ss = c :: cs → c = 45 := by
        intro ss c cs h
        cases ss with
        | nil => rw [textSteps] at h; cases h
        | cons s ss => obtain ⟨v, t, n, r, ps⟩ := s; rw [key] at h; injection h with h _; exact h.symm
      have hne : ∀ (p : Bytes × Value) (ps : List (Bytes × Value)) (ss us : List (Step Value)), PlainProps (p :: ps) →
          joinComma (textProps fmt (p :: ps)) ++ 32 :: textSteps fmt ss ≠ textSteps fmt us := by
        intro p ps ss us hp e
        obtain ⟨k, w⟩ := p
        have hk := (hp _ (List.mem_cons_self ..)).1
        rw [textProps, joinComma_cons] at e
        cases k with
        | nil => exact hk.elim
        | cons c k =>
          simp only [List.cons_append] at e
          have := hhead us _ _ e.symm
          have hw := hk.2 c (List.mem_cons_self ..)
          rw [this] at hw
          exact absurd hw (by decide)
      have hh : ps = ps' ∧ textSteps fmt ss = textSteps fmt us := by
        cases ps with
        | nil =>
          cases ps' with
          | nil => simp only [textProps, List.nil_append, List.cons.injEq, true_and] at h; exact ⟨rfl, h⟩
          | cons q qs =>
            simp only [textProps, List.nil_append, List.cons_append, List.cons.injEq, true_and] at h
            exact absurd h.symm (by simpa only [textProps] using hne q qs us ss g3)
        | cons p ps =>
          cases ps' with
          | nil =>
            simp only [textProps, List.nil_append, List.cons_append, List.cons.injEq, true_and] at h
            exact absurd h (by simpa only [textProps] using hne p ps ss us h3)
          | cons q qs =>
            have h : joinComma (textProps fmt (p :: ps)) ++ 32 :: textSteps fmt ss = joinComma (textProps fmt (q :: qs)) ++ 32 :: textSteps fmt us := by
              simpa only [textProps, List.cons_append, List.cons.injEq, true_and] using h
            exact props_cut fmt (by decide) (by decide) h3 g3 h
      clear h; obtain ⟨e0, h⟩ := hh; subst e0
      rw [ih (fun s hs' => hs s (List.mem_cons_of_mem _ hs')) (fun s hs' => hu s (List.mem_cons_of_mem _ hs')) h]

/-- **C119 (texts of paths).** Two paths with the same text have the same start and the same steps, if they are made of vertices, names and values as above. -/
theorem C119_path_partial (fmt : F64 → Bytes) {p q : Path Value} (hp : PlainVertex p.src) (hps : ∀ s ∈ p.steps, PlainStep s) (hq : PlainVertex q.src) (hqs : ∀ s ∈ q.steps, PlainStep s)
    (h : Value.text fmt (.path p) = Value.text fmt (.path q)) : p = q := by
  obtain ⟨v, ss⟩ := p
  obtain ⟨w, us⟩ := q
  have a1 : ascii ") " = [41, 32] := by decide +kernel
  rw [Value.text, Value.text, a1] at h
  simp only [List.cons_append, List.append_assoc, List.nil_append, List.cons.injEq, true_and] at h
  obtain ⟨e0, h⟩ := Value.vertex_cut fmt hp hq h
  simp only [List.cons.injEq, true_and] at h
  have e0 : v = w := e0
  have e1 : ss = us := Value.steps_inj fmt hps hqs h
  rw [e0, e1]

example (fmt : F64 → Bytes) : Value.text fmt (.path ⟨⟨.int 1, []⟩, [⟨⟨.int 2, []⟩, 3, ascii "like", 0, []⟩, ⟨⟨.int 4, []⟩, -3, ascii "like", 7, [(ascii "w", .int 5)]⟩]⟩) =
    ascii "((1)) -[like(3)]->((2))@0 -[like(-3)]->((4))@7 w:5 " := by
  simp only [Value.text, Value.textVertex, Value.textSteps, Value.textProps, List.flatMap_cons, List.flatMap_nil]; decide +kernel

theorem Value.cells_cut (fmt : F64 → Bytes) : ∀ {vs ws : List Value} {r s : Bytes}, (∀ v ∈ vs, PlainV v) → (∀ w ∈ ws, PlainV w) →
    ((texts fmt vs).flatMap fun c => c ++ [124]) ++ 10 :: r = ((texts fmt ws).flatMap fun c => c ++ [124]) ++ 10 :: s → vs = ws ∧ r = s
  | [], [], r, s, _, _, h => by simpa [texts] using h
  | [], w :: ws, r, s, _, hw, h => by
    obtain ⟨c, cs, e, _, h1⟩ := first_byte fmt (hw w (List.mem_cons_self ..))
    rw [texts, texts, List.flatMap_cons, e] at h
    simp only [List.flatMap_nil, List.nil_append, List.cons_append, List.cons.injEq] at h
    rw [← h.1] at h1
    simp [isWord, isDigit] at h1
  | v :: vs, [], r, s, hv, _, h => by
    obtain ⟨c, cs, e, _, h1⟩ := first_byte fmt (hv v (List.mem_cons_self ..))
    rw [texts, texts, List.flatMap_cons, e] at h
    simp only [List.flatMap_nil, List.nil_append, List.cons_append, List.cons.injEq] at h
    rw [h.1] at h1
    simp [isWord, isDigit] at h1
  | v :: vs, w :: ws, r, s, hv, hw, h => by
    rw [texts, texts, List.flatMap_cons, List.flatMap_cons] at h
    simp only [List.append_assoc, List.cons_append, List.nil_append] at h
    obtain ⟨e0, h⟩ := cuts fmt (hv v (List.mem_cons_self ..)) w _ _ (hw w (List.mem_cons_self ..)) (ended_close (by decide) _) (ended_close (by decide) _) h
    injection h with _ h
    obtain ⟨e1, e2⟩ := cells_cut fmt (fun u hu => hv u (List.mem_cons_of_mem _ hu)) (fun u hu => hw u (List.mem_cons_of_mem _ hu)) h
    exact ⟨by rw [e0, e1], e2⟩

theorem Value.rows_inj (fmt : F64 → Bytes) : ∀ {rs us : List (List Value)}, (∀ r ∈ rs, ∀ v ∈ r, PlainV v) → (∀ r ∈ us, ∀ v ∈ r, PlainV v) →
    textRows fmt rs ++ [10] = textRows fmt us ++ [10] → rs = us
  | [], [], _, _, _ => rfl
  | [], u :: us, _, _, h => by
    have := congrArg List.length h
    rw [textRows, textRows] at this
    simp at this
    omega
  | r :: rs, [], _, _, h => by
    have := congrArg List.length h
    rw [textRows, textRows] at this
    simp at this
    omega
  | r :: rs, u :: us, hr, hu, h => by
    rw [textRows, textRows] at h
    simp only [List.append_assoc, List.cons_append] at h
    obtain ⟨e0, h⟩ := cells_cut fmt (hr r (List.mem_cons_self ..)) (hu u (List.mem_cons_self ..)) h
    rw [e0, rows_inj fmt (fun x hx => hr x (List.mem_cons_of_mem _ hx)) (fun x hx => hu x (List.mem_cons_of_mem _ hx)) h]

theorem Value.columns_cut : ∀ {cs ds : List Bytes} {r s : Bytes}, (∀ c ∈ cs, 124 ∉ c ∧ 10 ∉ c) → (∀ c ∈ ds, 124 ∉ c ∧ 10 ∉ c) →
    (cs.flatMap fun c => c ++ [124]) ++ 10 :: r = (ds.flatMap fun c => c ++ [124]) ++ 10 :: s → cs = ds ∧ r = s
  | [], [], r, s, _, _, h => by simpa using h
  | [], d :: ds, r, s, _, hd, h => by
    rw [List.flatMap_cons] at h
    simp only [List.flatMap_nil, List.nil_append] at h
    have := (hd d (List.mem_cons_self ..)).2
    cases d with
    | nil => simp at h
    | cons x d => simp at h; simp [← h.1] at this
  | c :: cs, [], r, s, hc, _, h => by
    rw [List.flatMap_cons] at h
    simp only [List.flatMap_nil, List.nil_append] at h
    have := (hc c (List.mem_cons_self ..)).2
    cases c with
    | nil => simp at h
    | cons x d => simp at h; simp [h.1] at this
  | c :: cs, d :: ds, r, s, hc, hd, h => by
    rw [List.flatMap_cons, List.flatMap_cons] at h
    simp only [List.append_assoc, List.cons_append, List.nil_append] at h
    obtain ⟨e0, h⟩ := not_mem_span (hc c (List.mem_cons_self ..)).1 (hd d (List.mem_cons_self ..)).1 h
    obtain ⟨e1, e2⟩ := columns_cut (fun u hu => hc u (List.mem_cons_of_mem _ hu)) (fun u hu => hd u (List.mem_cons_of_mem _ hu)) h
    exact ⟨by rw [e0, e1], e2⟩

/-- **C119 (texts of data sets).** Two data sets with the same text have the same columns and the same rows, if the cells are values as above and no column name contains a bar or a
new line. -/
theorem C119_dataset_partial (fmt : F64 → Bytes) {cs ds : List Bytes} {rs us : List (List Value)} (hc : ∀ c ∈ cs, 124 ∉ c ∧ 10 ∉ c) (hd : ∀ c ∈ ds, 124 ∉ c ∧ 10 ∉ c)
    (hr : ∀ r ∈ rs, ∀ v ∈ r, PlainV v) (hu : ∀ r ∈ us, ∀ v ∈ r, PlainV v) (h : Value.text fmt (.dataset cs rs) = Value.text fmt (.dataset ds us)) : cs = ds ∧ rs = us := by
  rw [Value.text, Value.text] at h
  simp only [List.append_assoc, List.cons_append] at h
  obtain ⟨e0, h⟩ := Value.columns_cut hc hd h
  exact ⟨e0, Value.rows_inj fmt hr hu h⟩

example (fmt : F64 → Bytes) : Value.text fmt (.dataset [ascii "a", ascii "b"] [[.int 1, .str (ascii "x|y")], [.null .null, .list []]]) = ascii "a|b|\n1|\"x|y\"|\nNULL|[]|\n\n" := by
  simp only [Value.text, Value.textRows, Value.texts, Value.joinComma, List.flatMap_cons, List.flatMap_nil]; decide +kernel

/-- **C119 fails for strings with quotation marks:** a list of one string and a list of two have the same text. -/
theorem C119_quote_violated (fmt : F64 → Bytes) :
    Value.text fmt (.list [.str (ascii "a\",\"b")]) = Value.text fmt (.list [.str (ascii "a"), .str (ascii "b")]) := by
  simp only [Value.text, Value.texts, Value.joinComma]; decide +kernel

/-- **C119 fails for the empty set and the empty map.** -/
theorem C119_empty_violated (fmt : F64 → Bytes) : Value.text fmt (.set []) = Value.text fmt (.map []) := by
  simp only [Value.text, Value.texts, Value.textProps, Value.joinComma]

/-- **C119 fails for keys:** they are not quoted. -/
theorem C119_key_violated (fmt : F64 → Bytes) :
    Value.text fmt (.map [(ascii "a:1,b", .int 2)]) = Value.text fmt (.map [(ascii "a", .int 1), (ascii "b", .int 2)]) := by
  simp only [Value.text, Value.textProps, Value.joinComma]; decide +kernel

/-- **C119 fails for floats that are whole numbers:** folly writes 1.0 as `1`. -/
theorem C119_float_violated (fmt : F64 → Bytes) (f : F64) (i : Int) (h : fmt f = intDec i) : Value.text fmt (.float f) = Value.text fmt (.int i) := by
  simp only [Value.text, h]

/-- **C119 fails for vertices:** the tags follow each other without a separator, so that two tags look like one whose name contains what is written between them. -/
theorem C119_vertex_violated (fmt : F64 → Bytes) : ∃ v w : Vertex Value, v.tags.length ≠ w.tags.length ∧ Value.text fmt (.vertex v) = Value.text fmt (.vertex w) := by
  refine ⟨⟨.int 1, [⟨ascii "a", []⟩, ⟨ascii "b", []⟩]⟩, ⟨.int 1, [⟨ascii "a, Tag: b", []⟩]⟩, by decide, ?_⟩
  simp only [Value.text, Value.textVertex, Value.textTags, Value.textProps, Value.joinComma]; decide +kernel

/-- The text of an id that is no scalar is the one used for hashing (C11). -/
theorem C119_hash_text (fmt : F64 → Bytes) (v : Value) : v.toText (Value.text fmt) = v.text fmt := by
  cases v <;> first | rfl | simp [Value.toText, Value.text]

end Nebula
