import Verif.Date.Spec
/-! Helper lemmas for the Date theorems. -/
namespace Nebula
open Spec

/-- Number of days before month `m` in a year. -/
def before (l : Bool) (m : Int) : Int :=
  let t : Int := if l then 1 else 0
  if m ≤ 1 then 0 else if m = 2 then 31 else if m = 3 then 59 + t else if m = 4 then 90 + t
  else if m = 5 then 120 + t else if m = 6 then 151 + t else if m = 7 then 181 + t
  else if m = 8 then 212 + t else if m = 9 then 243 + t else if m = 10 then 273 + t
  else if m = 11 then 304 + t else if m = 12 then 334 + t else 365 + t

def tbl (l : Bool) : List Int := if l then kLeapDaysSoFar else kDaysSoFar

theorem month_cases {m : Int} (h1 : 1 ≤ m) (h2 : m ≤ 12) :
    m = 1 ∨ m = 2 ∨ m = 3 ∨ m = 4 ∨ m = 5 ∨ m = 6 ∨ m = 7 ∨ m = 8 ∨ m = 9 ∨ m = 10 ∨ m = 11 ∨ m = 12 := by
  omega

theorem arrAt_before (l : Bool) {m : Int} (h1 : 1 ≤ m) (h2 : m ≤ 13) :
    arrAt (tbl l) (m - 1) = some (before l m) := by
  have : m = 13 ∨ m ≤ 12 := by omega
  rcases this with h | h2
  · subst h; cases l <;> decide
  · rcases month_cases h1 h2 with h | h | h | h | h | h | h | h | h | h | h | h <;> subst h <;>
      cases l <;> decide

theorem arrAt_before' (l : Bool) {m : Int} (h1 : 1 ≤ m) (h2 : m ≤ 12) :
    arrAt (tbl l) m = some (before l (m + 1)) := by
  have := arrAt_before l (m := m + 1) (by omega) (by omega)
  rwa [show m + 1 - 1 = m by omega] at this

theorem before_succ (l : Int → Bool) (y : Int) {m : Int} (h1 : 1 ≤ m) (h2 : m ≤ 12) :
    before (l y) (m + 1) = before (l y) m + monthLen l y m := by
  rcases month_cases h1 h2 with h | h | h | h | h | h | h | h | h | h | h | h <;> subst h <;>
    cases h : l y <;> simp [before, monthLen, h]

theorem before_one (l : Bool) : before l 1 = 0 := by simp [before]
theorem before_13 (l : Bool) : before l 13 = 365 + if l then 1 else 0 := by cases l <;> decide

theorem before_mono (l : Bool) {m n : Int} (h1 : 1 ≤ m) (h : m < n) (h2 : n ≤ 13) :
    before l m + 28 ≤ before l n := by
  have : n = 13 ∨ n ≤ 12 := by omega
  rcases this with e | h3
  · subst e
    rcases month_cases h1 (by omega) with h | h | h | h | h | h | h | h | h | h | h | h <;> subst h <;>
      cases l <;> decide
  · rcases month_cases h1 (by omega) with h | h | h | h | h | h | h | h | h | h | h | h <;> subst h <;>
    rcases month_cases (m := n) (by omega) h3 with h | h | h | h | h | h | h | h | h | h | h | h <;> subst h <;>
      first | omega | (cases l <;> decide)

namespace Date

/-- Closed form of the day number. -/
def num (d : Date) : Int :=
  let yp := d.year + 32768
  365 * yp + (yp + 3) / 4 + before (leap4 d.year) d.month + d.day - 1

theorem cmod4 (y : Int) : (cmod y 4 = 0) ↔ y % 4 = 0 := by
  unfold cmod cdiv; split <;> omega

theorem cmod4_yp (y : Int) : (cmod (y + 32768) 4 = 0) ↔ leap4 y = true := by
  rw [cmod4]; simp [leap4]; omega

theorem cmod4_y (y : Int) : (cmod y 4 = 0) ↔ leap4 y = true := by
  rw [cmod4]; simp [leap4]

theorem tbl_eq (c : Prop) [Decidable c] (b : Bool) (h : c ↔ b = true) :
    (if c then kLeapDaysSoFar else kDaysSoFar) = tbl b := by
  by_cases hc : c
  · simp [tbl, hc, h.mp hc]
  · have : b = false := by cases b <;> simp_all
    simp [tbl, hc, this]

theorem toInt_eq {d : Date} (hy : -32768 ≤ d.year) (h1 : 1 ≤ d.month) (h2 : d.month ≤ 12) :
    d.toInt = some d.num := by
  unfold toInt
  simp only [tbl_eq _ _ (cmod4_yp d.year), arrAt_before (leap4 d.year) h1 (by omega : d.month ≤ 13)]
  congr 1
  unfold num cdiv
  split <;> (try split) <;> simp only [] <;> omega

theorem toInt_valid {d : Date} (h : ValidDate leap4 d) : d.toInt = some d.num :=
  toInt_eq h.1 h.2.2.1 h.2.2.2.1

theorem monthLen_pos (l : Int → Bool) (y : Int) {m : Int} (h1 : 1 ≤ m) (h2 : m ≤ 12) :
    28 ≤ monthLen l y m ∧ monthLen l y m ≤ 31 := by
  rcases month_cases h1 h2 with h | h | h | h | h | h | h | h | h | h | h | h <;> subst h <;>
    cases h : l y <;> simp [monthLen, h]

theorem day_in_year (l : Int → Bool) {d : Date} (h : ValidDate l d) :
    1 ≤ before (l d.year) d.month + d.day ∧
    before (l d.year) d.month + d.day ≤ 365 + (if l d.year then 1 else 0) := by
  obtain ⟨_, _, m1, m2, d1, d2⟩ := h
  have hs := before_succ l d.year m1 m2
  have hb : 0 ≤ before (l d.year) d.month := by
    by_cases h : d.month = 1
    · rw [h, before_one]; omega
    · have := before_mono (l d.year) (m := 1) (n := d.month) (by omega) (by omega) (by omega)
      rw [before_one] at this; omega
  have hb2 : before (l d.year) (d.month + 1) ≤ before (l d.year) 13 := by
    by_cases h : d.month = 12
    · rw [h]; simp
    · have := before_mono (l d.year) (m := d.month + 1) (n := 13) (by omega) (by omega) (by omega)
      omega
  rw [before_13] at hb2
  omega

theorem leap4_eq (y : Int) : (leap4 y = true ∧ y % 4 = 0) ∨ (leap4 y = false ∧ y % 4 ≠ 0) := by
  by_cases h : y % 4 = 0 <;> simp [leap4, h]

/-- Day numbers are strictly monotone in the lexicographic order of valid dates. -/
theorem num_lt {a b : Date} (ha : ValidDate leap4 a) (hb : ValidDate leap4 b) (h : Earlier a b) :
    a.num < b.num := by
  have da := day_in_year _ ha
  have db := day_in_year _ hb
  have la := leap4_eq a.year
  have lb := leap4_eq b.year
  rcases h with h | ⟨he, h | ⟨hm, h⟩⟩
  · unfold num
    rcases la with ⟨la, la'⟩ | ⟨la, la'⟩ <;> rcases lb with ⟨lb, lb'⟩ | ⟨lb, lb'⟩ <;>
      simp only [la, lb] at * <;> simp at * <;> omega
  · obtain ⟨_, _, m1, m2, d1, d2⟩ := ha
    obtain ⟨_, _, n1, n2, e1, e2⟩ := hb
    have hs := before_succ leap4 a.year m1 m2
    have : before (leap4 a.year) (a.month + 1) ≤ before (leap4 a.year) b.month := by
      by_cases h' : a.month + 1 = b.month
      · rw [h']; omega
      · have := before_mono (leap4 a.year) (m := a.month + 1) (n := b.month) (by omega) (by omega) (by omega)
        omega
    unfold num
    simp only [← he]
    omega
  · unfold num; simp only [← he, ← hm]; omega

theorem earlier_trichotomy (a b : Date) : Earlier a b ∨ a = b ∨ Earlier b a := by
  unfold Earlier
  rcases Int.lt_trichotomy a.year b.year with h | h | h
  · exact Or.inl (Or.inl h)
  · rcases Int.lt_trichotomy a.month b.month with h2 | h2 | h2
    · exact Or.inl (Or.inr ⟨h, Or.inl h2⟩)
    · rcases Int.lt_trichotomy a.day b.day with h3 | h3 | h3
      · exact Or.inl (Or.inr ⟨h, Or.inr ⟨h2, h3⟩⟩)
      · exact Or.inr (Or.inl (by cases a; cases b; simp_all))
      · exact Or.inr (Or.inr (Or.inr ⟨h.symm, Or.inr ⟨h2.symm, h3⟩⟩))
    · exact Or.inr (Or.inr (Or.inr ⟨h.symm, Or.inl h2⟩))
  · exact Or.inr (Or.inr (Or.inl h))

theorem num_inj {a b : Date} (ha : ValidDate leap4 a) (hb : ValidDate leap4 b) (h : a.num = b.num) :
    a = b := by
  rcases earlier_trichotomy a b with h' | h' | h'
  · have := num_lt ha hb h'; omega
  · exact h'
  · have := num_lt hb ha h'; omega

theorem num_lt_iff {a b : Date} (ha : ValidDate leap4 a) (hb : ValidDate leap4 b) :
    a.num < b.num ↔ Earlier a b := by
  constructor
  · intro h
    rcases earlier_trichotomy a b with h' | h' | h'
    · exact h'
    · subst h'; omega
    · have := num_lt hb ha h'; omega
  · exact num_lt ha hb

theorem num_range {d : Date} (h : ValidDate leap4 d) : 0 ≤ d.num ∧ d.num ≤ 23937023 := by
  have hd := day_in_year _ h
  obtain ⟨y1, y2, _⟩ := h
  have ld := leap4_eq d.year
  unfold num
  rcases ld with ⟨l, l'⟩ | ⟨l, l'⟩ <;> simp only [l] at * <;> simp at * <;> omega

/-- First day number of the (unwrapped) year `y`, shifted by one: `S y + k` is the number (plus one)
of the `k`-th day of year `y`. -/
def S (y : Int) : Int := 365 * (y + 32768) + (y + 32768 + 3) / 4

theorem wrapI16_sub (y : Int) : wrapI16 (wrapI16 y - 1) = wrapI16 (y - 1) := by
  unfold wrapI16; omega

theorem leap4_wrap (y : Int) : leap4 (wrapI16 y) = leap4 y := by
  unfold leap4 wrapI16
  have : ((y + 32768) % 65536 - 32768) % 4 = y % 4 := by omega
  rw [this]

theorem yearLoop_spec : ∀ (fuel : Nat) (y diy : Int), (-diy).toNat < fuel → diy ≤ 365 →
    ∃ y' diy', yearLoop fuel (wrapI16 y) diy = (wrapI16 y', diy') ∧ S y' + diy' = S y + diy ∧
      1 ≤ diy' ∧ diy' ≤ 365 + (if leap4 y' then 1 else 0) := by
  intro fuel
  induction fuel with
  | zero => intro y diy h; omega
  | succ n ih =>
    intro y diy hf hle
    unfold yearLoop
    by_cases hd : diy ≤ 0
    · simp only [if_pos hd, wrapI16_sub]
      have hl := leap4_eq (y - 1)
      rcases hl with ⟨l, l'⟩ | ⟨l, l'⟩
      · have hc : cmod (wrapI16 (y - 1)) 4 = 0 := by rw [cmod4_y, leap4_wrap]; exact l
        simp only [if_pos hc]
        by_cases hd2 : diy + 366 = 366
        · refine ⟨y - 1, 366, ?_, ?_, by omega, by simp [l]⟩
          · rw [hd2]
            cases n with
            | zero => rfl
            | succ n => simp [yearLoop]
          · unfold S; omega
        · obtain ⟨y', d', e1, e2, e3, e4⟩ := ih (y - 1) (diy + 366) (by omega) (by omega)
          exact ⟨y', d', e1, by rw [e2]; unfold S; omega, e3, e4⟩
      · have hc : ¬ cmod (wrapI16 (y - 1)) 4 = 0 := by rw [cmod4_y, leap4_wrap]; simp [l]
        simp only [if_neg hc]
        by_cases hd2 : diy + 365 = 365
        · refine ⟨y - 1, 365, ?_, ?_, by omega, by simp [l]⟩
          · rw [hd2]
            cases n with
            | zero => rfl
            | succ n => simp [yearLoop]
          · unfold S; omega
        · obtain ⟨y', d', e1, e2, e3, e4⟩ := ih (y - 1) (diy + 365) (by omega) (by omega)
          exact ⟨y', d', e1, by rw [e2]; unfold S; omega, e3, e4⟩
    · simp only [if_neg hd]
      refine ⟨y, diy, rfl, rfl, by omega, ?_⟩
      split <;> omega

theorem monthLoop_spec (y diy : Int) : ∀ (fuel : Nat) (m : Int), 1 ≤ m → m ≤ 12 → 13 - m < fuel →
    before (leap4 y) m < diy → diy ≤ before (leap4 y) 13 →
    ∃ m' d', monthLoop fuel y diy m = some (m', d') ∧ 1 ≤ m' ∧ m' ≤ 12 ∧
      before (leap4 y) m' + d' = diy ∧ 1 ≤ d' ∧ d' ≤ monthLen leap4 y m' := by
  intro fuel
  induction fuel with
  | zero => intro m _ _ h; omega
  | succ n ih =>
    intro m m1 m2 hf hlo hhi
    unfold monthLoop
    simp only [tbl_eq _ _ (cmod4_y y), arrAt_before (leap4 y) m1 (by omega : m ≤ 13),
      arrAt_before' (leap4 y) m1 m2]
    have hs := before_succ leap4 y m1 m2
    have hl := monthLen_pos leap4 y m1 m2
    by_cases h : diy ≤ before (leap4 y) (m + 1)
    · simp only [if_pos h]
      refine ⟨m, _, rfl, m1, m2, ?_, ?_, ?_⟩ <;> unfold wrapI8 <;> omega
    · simp only [if_neg h]
      have hm : m ≠ 12 := by rintro rfl; exact h hhi
      have hw : wrapI8 (m + 1) = m + 1 := by unfold wrapI8; omega
      rw [hw]
      exact ih (m + 1) (by omega) (by omega) (by omega) (by omega) hhi

/-- `fromInt` on the whole range of day numbers. -/
theorem fromInt_spec {n : Int} (h0 : 0 ≤ n) (h1 : n ≤ 23937023) :
    ∃ d, fromInt n = some d ∧ ValidDate leap4 d ∧ d.num = n := by
  unfold fromInt
  -- the unwrapped first guess
  have hcd : cdiv (n + 1) 365 = (n + 1) / 365 := by unfold cdiv; split <;> omega
  have hcm : cmod (n + 1) 365 = (n + 1) % 365 := by unfold cmod; rw [hcd]; omega
  simp only [hcd, hcm]
  generalize hq : (n + 1) / 365 = q
  generalize hr : (n + 1) % 365 = r
  have hdiy : (if q > 0 then r - (cdiv (q - 1) 4 + 1) else r) = r - (q + 3) / 4 := by
    unfold cdiv; split <;> (try split) <;> omega
  rw [hdiy]
  obtain ⟨y', d', e1, e2, e3, e4⟩ :=
    yearLoop_spec ((-(r - (q + 3) / 4)).toNat + 1) (q - 32768) (r - (q + 3) / 4) (by omega) (by omega)
  rw [e1]
  simp only []
  have hl := leap4_eq y'
  have hyr : -32768 ≤ y' ∧ y' ≤ 32767 := by
    unfold S at e2
    rcases hl with ⟨l, l'⟩ | ⟨l, l'⟩ <;> simp only [l] at e4 <;> simp at e4 <;> omega
  have hw : wrapI16 y' = y' := by unfold wrapI16; omega
  rw [hw]
  obtain ⟨m', dd, f1, f2, f3, f4, f5, f6⟩ := monthLoop_spec y' d' 13 1 (by omega) (by omega) (by omega)
    (by rw [before_one]; omega) (by rw [before_13]; exact e4)
  rw [f1]
  refine ⟨_, rfl, ⟨hyr.1, hyr.2, f2, f3, f5, f6⟩, ?_⟩
  unfold num
  unfold S at e2
  simp only
  omega

/-- The next day has the next number. -/
theorem num_next {d : Date} (h : ValidDate leap4 d) (hne : d ≠ lastDay) :
    ValidDate leap4 (nextDay leap4 d) ∧ (nextDay leap4 d).num = d.num + 1 := by
  have h0 := h
  obtain ⟨y1, y2, m1, m2, d1, d2⟩ := h
  have hs := before_succ leap4 d.year m1 m2
  unfold nextDay
  split
  · rename_i hd
    exact ⟨⟨y1, y2, m1, m2, by simp only; omega, by simp only; omega⟩, by unfold num; simp only; omega⟩
  · rename_i hd
    have hd' : d.day = monthLen leap4 d.year d.month := by omega
    split
    · rename_i hm
      have := monthLen_pos leap4 d.year (m := d.month + 1) (by omega) (by omega)
      exact ⟨⟨y1, y2, by simp only; omega, by simp only; omega, by simp, by simp only; omega⟩,
        by unfold num; simp only; omega⟩
    · rename_i hm
      have hm' : d.month = 12 := by omega
      have hday : d.day = 31 := by rw [hd', hm']; simp [monthLen]
      have hy : d.year ≠ 32767 := by
        intro hy; apply hne; cases d; simp_all [lastDay]
      refine ⟨⟨by simp only; omega, by simp only; omega, by simp, by simp, by simp, by simp [monthLen]⟩, ?_⟩
      unfold num
      simp only [before_one, hm', hday]
      have hl := leap4_eq d.year
      rcases hl with ⟨l, l'⟩ | ⟨l, l'⟩ <;> simp only [l] <;> simp [before] <;> omega

end Date
end Nebula
