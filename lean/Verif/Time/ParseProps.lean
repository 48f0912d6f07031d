import Verif.Time.Parse
import Verif.Time.Props
/-!
# C118: dates and times survive being written and read
-/
namespace Nebula
open Spec

/-! ## What is assumed of the library -/

/-- A reader of numbers as `std::get_time` may have it: as many digits as the format has are read as their value if that is permitted; what is read is permitted; there is no number
without a digit. -/
structure ReadsNumbers (num : NumReader) : Prop where
  full : ∀ (min max : Int) (len : Nat) (ds r : Bytes), ds.length = len → 0 < len → (∀ c ∈ ds, isDigit c = true) → min ≤ (digitsVal 0 ds : Int) → (digitsVal 0 ds : Int) ≤ max →
    num min max len (ds ++ r) = some ((digitsVal 0 ds : Int), r)
  range : ∀ (min max : Int) (len : Nat) (s : Bytes) (v : Int) (r : Bytes), num min max len s = some (v, r) → min ≤ v ∧ v ≤ max
  digit : ∀ (min max : Int) (len : Nat) (c : UInt8) (s : Bytes), isDigit c = false → num min max len (c :: s) = none

theorem le_digitsVal : ∀ (ds : Bytes) (v : Nat), v ≤ digitsVal v ds
  | [], v => Nat.le_refl v
  | c :: cs, v => by
    have h := le_digitsVal cs (10 * v + (c.toNat - 48))
    have e : digitsVal v (c :: cs) = digitsVal (10 * v + (c.toNat - 48)) cs := rfl
    omega

theorem numLoop_full (max : Int) (r : Bytes) : ∀ (ds : Bytes) (v i : Nat), (∀ c ∈ ds, isDigit c = true) → (digitsVal v ds : Int) ≤ max →
    numLoop max ds.length v i (ds ++ r) = (digitsVal v ds, i + ds.length, r)
  | [], v, i, _, _ => by rw [List.length_nil, numLoop]; rfl
  | c :: cs, v, i, h, hm => by
    have e : digitsVal v (c :: cs) = digitsVal (10 * v + (c.toNat - 48)) cs := rfl
    rw [e] at hm ⊢
    have h1 := le_digitsVal cs (10 * v + (c.toNat - 48))
    rw [List.cons_append, List.length_cons, numLoop, if_pos (h c (List.mem_cons_self ..))]
    simp only
    rw [if_neg (by omega), numLoop_full max r cs _ _ (fun x hx => h x (List.mem_cons_of_mem _ hx)) hm]
    simp; omega

theorem readNum_library : ReadsNumbers readNum := by
  refine ⟨?_, ?_, ?_⟩
  · intro min max len ds r h1 h2 h3 h4 h5
    subst h1
    simp only [readNum]
    rw [numLoop_full max r ds 0 0 h3 h5]
    simp only
    rw [if_pos ⟨by omega, h4, h5⟩]
  · intro min max len s v r h
    simp only [readNum] at h
    split at h
    · rename_i hc; injection h with h; injection h with h _; subst h; exact ⟨hc.2.1, hc.2.2⟩
    · cases h
  · intro min max len c s h
    simp only [readNum]
    cases len with
    | zero => rw [numLoop]; simp
    | succ n => rw [numLoop]; simp [h]

theorem readFixed_library : ReadsNumbers readFixed := by
  refine ⟨?_, ?_, ?_⟩
  · intro min max len ds r h1 h2 h3 h4 h5
    subst h1
    have e : (ds ++ r).take ds.length = ds := List.take_left ..
    simp only [readFixed]
    rw [e, if_pos ⟨rfl, by omega, List.all_eq_true.2 h3, h4, h5⟩, List.drop_left]
  · intro min max len s v r h
    simp only [readFixed] at h
    split at h
    · rename_i hc; injection h with h; injection h with h _; subst h; exact ⟨hc.2.2.2.1, hc.2.2.2.2⟩
    · cases h
  · intro min max len c s h
    simp only [readFixed]
    rw [if_neg]
    rintro ⟨_, h2, h3, _⟩
    cases len with
    | zero => exact h2 rfl
    | succ n => simp [h] at h3

/-! ## Digits -/

theorem two_digits {i : Int} (h0 : 0 ≤ i) (h1 : i ≤ 99) : (padDec 2 i).length = 2 ∧ (∀ c ∈ padDec 2 i, isDigit c = true) ∧ (digitsVal 0 (padDec 2 i) : Int) = i := by
  have key : ∀ n : Fin 100, (padDec 2 (n.val : Int)).length = 2 ∧ (padDec 2 (n.val : Int)).all isDigit = true ∧ digitsVal 0 (padDec 2 (n.val : Int)) = n.val := by decide +kernel
  obtain ⟨n, rfl⟩ := Int.eq_ofNat_of_zero_le h0
  obtain ⟨k1, k2, k3⟩ := key ⟨n, by omega⟩
  exact ⟨k1, List.all_eq_true.1 k2, by exact_mod_cast k3⟩

theorem natDec_length : ∀ (k n : Nat), 10 ^ k ≤ n → n < 10 ^ (k + 1) → (natDec n).length = k + 1
  | 0, n, _, h2 => by rw [natDec_eq, if_pos (by omega)]; rfl
  | k + 1, n, h1, h2 => by
    have e1 : 10 ^ (k + 1) = 10 * 10 ^ k := by rw [Nat.pow_succ]; omega
    have e2 : 10 ^ (k + 1 + 1) = 10 * 10 ^ (k + 1) := by rw [Nat.pow_succ]; omega
    have hp : 0 < 10 ^ k := Nat.pos_of_ne_zero (by simp)
    rw [natDec_eq, if_neg (by omega), List.length_append, natDec_length k (n / 10) (by omega) (by omega)]
    rfl

theorem four_digits {i : Int} (h0 : 1000 ≤ i) (h1 : i ≤ 9999) : (intDec i).length = 4 ∧ (∀ c ∈ intDec i, isDigit c = true) ∧ (digitsVal 0 (intDec i) : Int) = i := by
  rw [intDec, if_neg (by omega)]
  exact ⟨natDec_length 3 _ (by omega) (by omega), natDec_digits _, by rw [digitsVal_natDec]; omega⟩

/-! ## Reading a part of the format -/

theorem field_more {num : NumReader} (hn : ReadsNumbers num) (f : TmField) (fs : List FmtItem) (tm : Tm) {ds : Bytes} {v : Int} (x : UInt8) (r : Bytes)
    (h : ds.length = f.range.2.2 ∧ (∀ c ∈ ds, isDigit c = true) ∧ (digitsVal 0 ds : Int) = v) (h1 : f.range.1 ≤ v) (h2 : v ≤ f.range.2.1) :
    getLoop num (.field f :: fs) (ds ++ x :: r) tm = getLoop num fs (x :: r) (tm.set f v) := by
  obtain ⟨h3, h4, h5⟩ := h
  have hl : 0 < f.range.2.2 := by cases f <;> decide
  have e := hn.full f.range.1 f.range.2.1 f.range.2.2 ds (x :: r) h3 hl h4 (by omega) (by omega)
  cases ds with
  | nil => simp at h3; omega
  | cons c cs =>
    rw [List.cons_append] at e ⊢
    rw [getLoop, e, h5]
    simp

theorem field_end {num : NumReader} (hn : ReadsNumbers num) (f : TmField) (fs : List FmtItem) (tm : Tm) {ds : Bytes} {v : Int}
    (h : ds.length = f.range.2.2 ∧ (∀ c ∈ ds, isDigit c = true) ∧ (digitsVal 0 ds : Int) = v) (h1 : f.range.1 ≤ v) (h2 : v ≤ f.range.2.1) :
    getLoop num (.field f :: fs) ds tm = (true, tm.set f v) := by
  obtain ⟨h3, h4, h5⟩ := h
  have hl : 0 < f.range.2.2 := by cases f <;> decide
  have e := hn.full f.range.1 f.range.2.1 f.range.2.2 ds [] h3 hl h4 (by omega) (by omega)
  rw [List.append_nil] at e
  cases ds with
  | nil => simp at h3; omega
  | cons c cs =>
    rw [getLoop, e, h5]
    simp

theorem lit_step (num : NumReader) (l : UInt8) (fs : List FmtItem) (s : Bytes) (tm : Tm) : getLoop num (.lit l :: fs) (l :: s) tm = getLoop num fs s tm := by
  rw [getLoop, if_pos rfl]

theorem isDigit_space {c : UInt8} (h : isDigit c = true) : isSpace c = false := by
  rw [isDigit_iff] at h
  cases hs : isSpace c with
  | false => rfl
  | true =>
    exfalso
    unfold isSpace at hs
    simp only [Bool.or_eq_true, beq_iff_eq, Bool.and_eq_true, decide_eq_true_eq] at hs
    rcases hs with rfl | ⟨h1, h2⟩
    · revert h; decide
    · have := UInt8.le_iff_toNat_le.1 h2
      have : (13 : UInt8).toNat = 13 := rfl
      omega

theorem getTime_digit (num : NumReader) (fmt : List FmtItem) (tm : Tm) {ds : Bytes} (r : Bytes) (hne : ds ≠ []) (h : ∀ c ∈ ds, isDigit c = true) :
    getTime num fmt (ds ++ r) tm = getLoop num fmt (ds ++ r) tm := by
  cases ds with
  | nil => exact absurd rfl hne
  | cons c cs =>
    have : ((c :: cs) ++ r).dropWhile isSpace = c :: (cs ++ r) := by
      rw [List.cons_append, List.dropWhile_cons, isDigit_space (h c (List.mem_cons_self ..))]; rfl
    rw [getTime, this]; rfl

theorem monthLen_le (leap : Int → Bool) (y m : Int) : monthLen leap y m ≤ 31 := by
  unfold monthLen; repeat' split
  all_goals omega

theorem date_more {num : NumReader} (hn : ReadsNumbers num) {d : Date} (h : ValidDate leapGreg d) (h1 : 1000 ≤ d.year) (h2 : d.year ≤ 9999) (fs : List FmtItem) (x : UInt8) (r : Bytes) (tm : Tm) :
    getTime num (dateFmt ++ fs) (d.toText ++ x :: r) tm = getLoop num fs (x :: r) { tm with year := some (d.year - 1900), mon := some (d.month - 1), mday := some d.day } := by
  obtain ⟨_, _, h3, h4, h5, h6⟩ := h
  have hl := monthLen_le leapGreg d.year d.month
  have y := four_digits h1 h2
  have m := two_digits (i := d.month) (by omega) (by omega)
  have dd := two_digits (i := d.day) (by omega) (by omega)
  have e : d.toText ++ x :: r = intDec d.year ++ 45 :: (padDec 2 d.month ++ 45 :: (padDec 2 d.day ++ x :: r)) := by simp [Date.toText]
  rw [e, getTime_digit num _ _ _ (by intro h; rw [h] at y; simp at y) y.2.1]
  simp only [dateFmt, List.cons_append, List.nil_append]
  rw [field_more hn .year _ _ _ _ y (by simp [TmField.range]; omega) (by simp [TmField.range]; omega), lit_step,
    field_more hn .mon _ _ _ _ m (by simp [TmField.range]; omega) (by simp [TmField.range]; omega), lit_step,
    field_more hn .mday _ _ _ _ dd (by simp [TmField.range]; omega) (by simp [TmField.range]; omega)]
  rfl

theorem date_end {num : NumReader} (hn : ReadsNumbers num) {d : Date} (h : ValidDate leapGreg d) (h1 : 1000 ≤ d.year) (h2 : d.year ≤ 9999) (fs : List FmtItem) (tm : Tm) :
    getTime num (dateFmt ++ fs) d.toText tm = (true, { tm with year := some (d.year - 1900), mon := some (d.month - 1), mday := some d.day }) := by
  obtain ⟨_, _, h3, h4, h5, h6⟩ := h
  have hl := monthLen_le leapGreg d.year d.month
  have y := four_digits h1 h2
  have m := two_digits (i := d.month) (by omega) (by omega)
  have dd := two_digits (i := d.day) (by omega) (by omega)
  have e : d.toText = intDec d.year ++ 45 :: (padDec 2 d.month ++ 45 :: padDec 2 d.day) := by simp [Date.toText]
  rw [e, getTime_digit num _ _ _ (by intro h; rw [h] at y; simp at y) y.2.1]
  simp only [dateFmt, List.cons_append, List.nil_append]
  rw [field_more hn .year _ _ _ _ y (by simp [TmField.range]; omega) (by simp [TmField.range]; omega), lit_step,
    field_more hn .mon _ _ _ _ m (by simp [TmField.range]; omega) (by simp [TmField.range]; omega), lit_step,
    field_end hn .mday _ _ dd (by simp [TmField.range]; omega) (by simp [TmField.range]; omega)]
  rfl

/-- The time of day without the fraction. -/
def hms (h m s : Int) : Bytes := padDec 2 h ++ 58 :: padDec 2 m ++ 58 :: padDec 2 s

theorem time_more {num : NumReader} (hn : ReadsNumbers num) {h m s : Int} (h0 : 0 ≤ h ∧ h ≤ 23) (m0 : 0 ≤ m ∧ m ≤ 59) (s0 : 0 ≤ s ∧ s ≤ 59) (r : Bytes) (tm : Tm) :
    getLoop num timeFmt (hms h m s ++ r) tm = (true, { tm with hour := some h, min := some m, sec := some s }) := by
  have a := two_digits (i := h) (by omega) (by omega)
  have b := two_digits (i := m) (by omega) (by omega)
  have c := two_digits (i := s) (by omega) (by omega)
  have e : hms h m s ++ r = padDec 2 h ++ 58 :: (padDec 2 m ++ 58 :: (padDec 2 s ++ r)) := by simp [hms]
  rw [e, timeFmt, field_more hn .hour _ _ _ _ a (by simp [TmField.range]; omega) (by simp [TmField.range]; omega), lit_step,
    field_more hn .min _ _ _ _ b (by simp [TmField.range]; omega) (by simp [TmField.range]; omega), lit_step]
  cases r with
  | nil => rw [List.append_nil, field_end hn .sec _ _ c (by simp [TmField.range]; omega) (by simp [TmField.range]; omega)]; rfl
  | cons x r =>
    rw [field_more hn .sec _ _ _ _ c (by simp [TmField.range]; omega) (by simp [TmField.range]; omega), getLoop]; rfl

/-! ## Written and read -/

theorem validated_ok {α : Type} {y m d : Int} (a : α) (h : ValidDate leapGreg ⟨y, m, d⟩) : validated y m d a = .ok a :=
  (validated_iff y m d a a h.2.2.1 h.2.2.2.1 h.2.2.2.2.1 ⟨h.1, h.2.1⟩).1.2 ⟨rfl, h⟩

theorem mk'_valid {y m d : Int} (h : ValidDate leapGreg ⟨y, m, d⟩) : Date.mk' y m d = ⟨y, m, d⟩ := by
  obtain ⟨h1, h2, h3, h4, h5, h6⟩ := h
  have := monthLen_le leapGreg y m
  simp only at *
  simp only [Date.mk', Date.mk.injEq]
  unfold wrapI16 wrapI8
  omega

/-- **C118 (dates).** A date with a year of four digits is read back from its text. -/
theorem C118_date {num : NumReader} (hn : ReadsNumbers num) {d : Date} (h : ValidDate leapGreg d) (h1 : 1000 ≤ d.year) (h2 : d.year ≤ 9999) :
    parseDate num d.toText = .ok d := by
  have e := date_end hn h h1 h2 [] {}
  rw [List.append_nil] at e
  rw [parseDate, e]
  simp only
  have hv : ValidDate leapGreg ⟨d.year, d.month, d.day⟩ := h
  rw [show d.year - 1900 + 1900 = d.year by omega, show d.month - 1 + 1 = d.month by omega, mk'_valid hv]
  exact validated_ok _ h

/-- **C118 (times of day).** A time is read back from its text, to the second. -/
theorem C118_time {num : NumReader} (hn : ReadsNumbers num) {t : Time} (h : ValidTime t) : parseTime num t.toText = .ok { t with microsec := 0 } := by
  obtain ⟨h1, h2, h3, h4, h5, h6⟩ := h
  have e : t.toText = hms t.hour t.minute t.sec ++ 46 :: padDec 6 t.microsec := by simp [Time.toText, hms]
  have a := two_digits (i := t.hour) (by omega) (by omega)
  have g : getTime num timeFmt t.toText {} = getLoop num timeFmt t.toText {} := by
    have : t.toText = padDec 2 t.hour ++ (58 :: padDec 2 t.minute ++ 58 :: padDec 2 t.sec ++ 46 :: padDec 6 t.microsec) := by simp [Time.toText]
    rw [this]; exact getTime_digit num _ _ _ (by intro h; rw [h] at a; simp at a) a.2.1
  rw [parseTime, g, e, time_more hn ⟨h1, h2⟩ ⟨h3, h4⟩ ⟨h5, h6⟩]
  simp only [R.ok.injEq, Time.mk.injEq, and_true]
  unfold wrapI8
  omega

theorem dateTimeOf_valid {d : DateTime} (h : ValidDT d) :
    dateTimeOf ⟨some (d.year - 1900), some (d.month - 1), some d.day, some d.hour, some d.minute, some d.sec⟩ = .ok { d with microsec := 0 } := by
  obtain ⟨hd, h1, h2, h3, h4, h5, h6⟩ := h
  have hm := monthLen_le leapGreg d.year d.month
  obtain ⟨d1, d2, d3, d4, d5, d6⟩ := id hd
  simp only at d1 d2 d3 d4 d5 d6
  simp only [dateTimeOf]
  have e : (⟨wrapI16 (d.year - 1900 + 1900), wrapU 4 (d.month - 1 + 1), wrapU 5 d.day, wrapU 5 d.hour, wrapU 6 d.minute, wrapU 6 d.sec, 0⟩ : DateTime) = { d with microsec := 0 } := by
    simp only [DateTime.mk.injEq, and_true]
    unfold wrapI16 wrapU
    omega
  have e1 := congrArg DateTime.year e
  have e2 := congrArg DateTime.month e
  have e3 := congrArg DateTime.day e
  simp only at e1 e2 e3
  rw [e, e1, e2, e3]
  exact validated_ok _ hd

/-- **C118 (points in time).** A point in time with a year of four digits is read back from its text, to the second; a blank may stand for the T. -/
theorem C118_datetime {num : NumReader} (hn : ReadsNumbers num) {d : DateTime} (h : ValidDT d) (h1 : 1000 ≤ d.year) (h2 : d.year ≤ 9999) :
    parseDateTime num d.toText = .ok { d with microsec := 0 } ∧
    ∀ r, parseDateTime num (Date.toText ⟨d.year, d.month, d.day⟩ ++ 32 :: (hms d.hour d.minute d.sec ++ r)) = .ok { d with microsec := 0 } := by
  have hv := dateTimeOf_valid h
  obtain ⟨hd, h3, h4, h5, h6, h7, h8⟩ := h
  have a := two_digits (i := d.hour) (by omega) (by omega)
  refine ⟨?_, fun r => ?_⟩
  · have e : d.toText = Date.toText ⟨d.year, d.month, d.day⟩ ++ 84 :: (hms d.hour d.minute d.sec ++ 46 :: intDec d.microsec) := by simp [DateTime.toText, Date.toText, hms]
    rw [parseDateTime, e, date_more hn hd h1 h2, lit_step, time_more hn ⟨h3, h4⟩ ⟨h5, h6⟩ ⟨h7, h8⟩]
    exact hv
  · rw [parseDateTime, date_more hn hd h1 h2, getLoop, if_neg (by decide)]
    simp only
    rw [date_more hn hd h1 h2, getLoop]
    have : (32 :: (hms d.hour d.minute d.sec ++ r)).dropWhile isSpace = hms d.hour d.minute d.sec ++ r := by
      rw [List.dropWhile_cons, if_pos (by decide)]
      have e : hms d.hour d.minute d.sec ++ r = padDec 2 d.hour ++ (58 :: padDec 2 d.minute ++ 58 :: padDec 2 d.sec ++ r) := by simp [hms]
      rw [e]
      cases hp : padDec 2 d.hour with
      | nil => rw [hp] at a; simp at a
      | cons c cs => rw [List.cons_append, List.dropWhile_cons, isDigit_space (a.2.1 c (by rw [hp]; exact List.mem_cons_self ..))]; rfl
    rw [this, time_more hn ⟨h3, h4⟩ ⟨h5, h6⟩ ⟨h7, h8⟩]
    exact hv

example : ValidDT ⟨2021, 2, 28, 23, 59, 59, 5⟩ ∧ ReadsNumbers readNum ∧ ReadsNumbers readFixed ∧ DateTime.toText ⟨2021, 2, 28, 23, 59, 59, 5⟩ = ascii "2021-02-28T23:59:59.5" :=
  ⟨by decide, readNum_library, readFixed_library, by decide +kernel⟩

/-! ## What is accepted -/

/-- The members that were set have permitted values. -/
def Tm.Ok (tm : Tm) : Prop :=
  (∀ v ∈ tm.year, -1900 ≤ v ∧ v ≤ 8099) ∧ (∀ v ∈ tm.mon, 0 ≤ v ∧ v ≤ 11) ∧ (∀ v ∈ tm.mday, 1 ≤ v ∧ v ≤ 31) ∧
  (∀ v ∈ tm.hour, 0 ≤ v ∧ v ≤ 23) ∧ (∀ v ∈ tm.min, 0 ≤ v ∧ v ≤ 59) ∧ (∀ v ∈ tm.sec, 0 ≤ v ∧ v ≤ 60)

theorem set_ok {tm : Tm} (h : tm.Ok) (f : TmField) {v : Int} (h1 : f.range.1 ≤ v) (h2 : v ≤ f.range.2.1) : (tm.set f v).Ok := by
  obtain ⟨a, b, c, d, e, g⟩ := h
  cases f <;> simp only [TmField.range] at h1 h2 <;> simp only [Tm.Ok, Tm.set, Option.mem_some_iff] <;>
    refine ⟨?_, ?_, ?_, ?_, ?_, ?_⟩ <;> first | assumption | (rintro _ rfl; omega)

theorem getLoop_ok {num : NumReader} (hn : ReadsNumbers num) : ∀ (fs : List FmtItem) (s : Bytes) (tm : Tm), tm.Ok → (getLoop num fs s tm).2.Ok
  | [], _, tm, h => by rw [getLoop]; exact h
  | _ :: _, [], tm, h => by rw [getLoop]; exact h
  | .field f :: fs, c :: s, tm, h => by
    rw [getLoop]
    split
    · exact h
    · rename_i v r e
      obtain ⟨h1, h2⟩ := hn.range _ _ _ _ _ _ e
      split
      · exact set_ok h f h1 h2
      · exact getLoop_ok hn fs r _ (set_ok h f h1 h2)
  | .space :: fs, c :: s, tm, h => by rw [getLoop]; exact getLoop_ok hn fs _ _ h
  | .lit l :: fs, c :: s, tm, h => by
    rw [getLoop]
    split
    · exact getLoop_ok hn fs _ _ h
    · exact h

theorem getTime_ok {num : NumReader} (hn : ReadsNumbers num) (fs : List FmtItem) (s : Bytes) (tm : Tm) (h : tm.Ok) : (getTime num fs s tm).2.Ok := by
  rw [getTime]; split
  · exact h
  · exact getLoop_ok hn fs _ _ h

theorem tm_empty : Tm.Ok {} := by simp [Tm.Ok]

/-- **C118 (only dates that exist).** What is read is a date of the calendar with a year from 0 to 9999; of a time of day hours, minutes and seconds are in range, but for second 60. -/
theorem C118_exists {num : NumReader} (hn : ReadsNumbers num) (s : Bytes) :
    (∀ d, parseDate num s = .ok d → ValidDate leapGreg d ∧ 0 ≤ d.year ∧ d.year ≤ 9999) ∧
    (∀ t, parseTime num s = .ok t → (ValidTime t ∨ 0 ≤ t.hour ∧ t.hour ≤ 23 ∧ 0 ≤ t.minute ∧ t.minute ≤ 59 ∧ t.sec = 60) ∧ t.microsec = 0) ∧
    (∀ d, parseDateTime num s = .ok d → ValidDate leapGreg ⟨d.year, d.month, d.day⟩ ∧ 0 ≤ d.year ∧ d.year ≤ 9999 ∧
      (ValidDT d ∨ 0 ≤ d.hour ∧ d.hour ≤ 23 ∧ 0 ≤ d.minute ∧ d.minute ≤ 59 ∧ d.sec = 60) ∧ d.microsec = 0) := by
  refine ⟨?_, ?_, ?_⟩
  · intro d h
    have hk := getTime_ok hn dateFmt s {} tm_empty
    rw [parseDate] at h
    split at h
    · cases h
    · rename_i tm e
      rw [e] at hk
      split at h
      · rename_i y m dd e1 e2 e3
        obtain ⟨k1, k2, k3, _⟩ := hk
        obtain ⟨k1, k1'⟩ := k1 y e1
        obtain ⟨k2, k2'⟩ := k2 m e2
        obtain ⟨k3, k3'⟩ := k3 dd e3
        have hmk : Date.mk' (y + 1900) (m + 1) dd = ⟨y + 1900, m + 1, dd⟩ := by
          simp only [Date.mk', Date.mk.injEq]; unfold wrapI16 wrapI8; omega
        rw [hmk] at h
        simp only at h
        obtain ⟨rfl, hv⟩ := (validated_iff _ _ _ _ _ (by omega) (by omega) (by omega) (by omega)).1.1 h
        exact ⟨hv, by simp only; omega, by simp only; omega⟩
      · cases h
  · intro t h
    have hk := getTime_ok hn timeFmt s {} tm_empty
    rw [parseTime] at h
    split at h
    · cases h
    · rename_i tm e
      rw [e] at hk
      split at h
      · rename_i a b c e1 e2 e3
        obtain ⟨_, _, _, k1, k2, k3⟩ := hk
        obtain ⟨k1, k1'⟩ := k1 a e1
        obtain ⟨k2, k2'⟩ := k2 b e2
        obtain ⟨k3, k3'⟩ := k3 c e3
        injection h with h; subst h
        refine ⟨?_, rfl⟩
        simp only [ValidTime]
        unfold wrapI8
        omega
      · cases h
  · intro d h
    have fin_ : ∀ tm : Tm, tm.Ok → dateTimeOf tm = .ok d → ValidDate leapGreg ⟨d.year, d.month, d.day⟩ ∧ 0 ≤ d.year ∧ d.year ≤ 9999 ∧
      (ValidDT d ∨ 0 ≤ d.hour ∧ d.hour ≤ 23 ∧ 0 ≤ d.minute ∧ d.minute ≤ 59 ∧ d.sec = 60) ∧ d.microsec = 0 := by
      intro tm hk h
      rw [dateTimeOf] at h
      split at h
      · rename_i y mo dd hh mi c e1 e2 e3 e4 e5 e6
        obtain ⟨k1, k2, k3, k4, k5, k6⟩ := hk
        obtain ⟨k1, k1'⟩ := k1 y e1
        obtain ⟨k2, k2'⟩ := k2 mo e2
        obtain ⟨k3, k3'⟩ := k3 dd e3
        obtain ⟨k4, k4'⟩ := k4 hh e4
        obtain ⟨k5, k5'⟩ := k5 mi e5
        obtain ⟨k6, k6'⟩ := k6 c e6
        have hmk : (⟨wrapI16 (y + 1900), wrapU 4 (mo + 1), wrapU 5 dd, wrapU 5 hh, wrapU 6 mi, wrapU 6 c, 0⟩ : DateTime) = ⟨y + 1900, mo + 1, dd, hh, mi, c, 0⟩ := by
          simp only [DateTime.mk.injEq, and_true]; unfold wrapI16 wrapU; omega
        rw [hmk] at h
        simp only at h
        obtain ⟨rfl, hv⟩ := (validated_iff _ _ _ _ _ (by omega) (by omega) (by omega) (by omega)).1.1 h
        refine ⟨hv, by simp only; omega, by simp only; omega, ?_, rfl⟩
        by_cases h60 : c = 60
        · right; simp only; omega
        · left; exact ⟨hv, by simp only; omega⟩
      · cases h
    rw [parseDateTime] at h
    have hk := getTime_ok hn (dateFmt ++ .lit 84 :: timeFmt) s {} tm_empty
    split at h
    · rename_i tm e; rw [e] at hk; exact fin_ _ hk h
    · rename_i tm e
      rw [e] at hk
      have hk' := getTime_ok hn (dateFmt ++ .space :: timeFmt) s tm hk
      split at h
      · cases h
      · rename_i tm' e'; rw [e'] at hk'; exact fin_ _ hk' h

/-! ## Exactly what is accepted as a date (libstdc++ 13) -/

/-- One to `len` digits, as many as there are. -/
def Number (len : Nat) (ds rest : Bytes) : Prop :=
  ds ≠ [] ∧ ds.length ≤ len ∧ (∀ c ∈ ds, isDigit c = true) ∧ (ds.length = len ∨ ∀ c cs, rest = c :: cs → isDigit c = false)

theorem numLoop_some (max : Int) : ∀ (len : Nat) (v i : Nat) (s : Bytes), (v : Int) ≤ max → ((numLoop max len v i s).1 : Int) ≤ max →
    ∃ ds, s = ds ++ (numLoop max len v i s).2.2 ∧ ds.length ≤ len ∧ (∀ c ∈ ds, isDigit c = true) ∧
      (ds.length = len ∨ ∀ c cs, (numLoop max len v i s).2.2 = c :: cs → isDigit c = false) ∧
      (numLoop max len v i s).1 = digitsVal v ds ∧ (numLoop max len v i s).2.1 = i + ds.length
  | 0, v, i, s, _, _ => ⟨[], by rw [numLoop]; exact ⟨rfl, Nat.le_refl _, by simp, .inl rfl, rfl, rfl⟩⟩
  | n + 1, v, i, [], _, _ => ⟨[], by rw [numLoop]; exact ⟨rfl, by simp, by simp, .inr (by simp), rfl, rfl⟩⟩
  | n + 1, v, i, c :: s, hv, hm => by
    rw [numLoop] at hm ⊢
    by_cases hd : isDigit c = true
    · rw [if_pos hd] at hm ⊢
      simp only at hm ⊢
      by_cases hx : ((10 * v + (c.toNat - 48) : Nat) : Int) > max
      · rw [if_pos hx] at hm; simp only at hm; omega
      · rw [if_neg hx] at hm ⊢
        obtain ⟨ds, h1, h2, h3, h4, h5, h6⟩ := numLoop_some max n _ (i + 1) s (by omega) hm
        refine ⟨c :: ds, by rw [List.cons_append, ← h1], by simp; omega, ?_, ?_, h5, ?_⟩
        · intro x hx
          rcases List.mem_cons.1 hx with rfl | hx
          · exact hd
          · exact h3 x hx
        · rcases h4 with h4 | h4
          · left; simp [h4]
          · exact .inr h4
        · rw [h6]; simp; omega
    · rw [if_neg hd] at hm ⊢
      refine ⟨[], rfl, by simp, by simp, .inr ?_, rfl, rfl⟩
      intro x xs hx
      simp only [List.cons.injEq] at hx
      rw [← hx.1]; simpa using hd

theorem numLoop_stop (max : Int) : ∀ (ds : Bytes) (len : Nat) (v i : Nat) (r : Bytes), (∀ c ∈ ds, isDigit c = true) → (digitsVal v ds : Int) ≤ max → ds.length ≤ len →
    (ds.length = len ∨ ∀ c cs, r = c :: cs → isDigit c = false) → numLoop max len v i (ds ++ r) = (digitsVal v ds, i + ds.length, r)
  | [], len, v, i, r, _, hm, _, h => by
    cases len with
    | zero => rw [numLoop]; rfl
    | succ n =>
      cases r with
      | nil => rw [List.nil_append, numLoop]; rfl
      | cons c cs =>
        rcases h with h | h
        · simp at h
        · rw [List.nil_append, numLoop, if_neg (by rw [h c cs rfl]; simp)]; rfl
  | c :: ds, len, v, i, r, hd, hm, hl, h => by
    have e : digitsVal v (c :: ds) = digitsVal (10 * v + (c.toNat - 48)) ds := rfl
    rw [e] at hm ⊢
    have h1 := le_digitsVal ds (10 * v + (c.toNat - 48))
    cases len with
    | zero => simp at hl
    | succ n =>
      rw [List.cons_append, numLoop, if_pos (hd c (List.mem_cons_self ..))]
      simp only
      rw [if_neg (by omega), numLoop_stop max ds n _ _ r (fun x hx => hd x (List.mem_cons_of_mem _ hx)) hm (by simpa using hl) (by simpa using h)]
      simp; omega

theorem readNum_iff {min max : Int} (h0 : 0 ≤ max) {len : Nat} {s r : Bytes} {v : Int} :
    readNum min max len s = some (v, r) ↔ ∃ ds, s = ds ++ r ∧ Number len ds r ∧ v = digitsVal 0 ds ∧ min ≤ v ∧ v ≤ max := by
  constructor
  · intro h
    simp only [readNum] at h
    split at h
    · rename_i hc
      obtain ⟨ds, h1, h2, h3, h4, h5, h6⟩ := numLoop_some max len 0 0 s (by exact_mod_cast h0) hc.2.2
      injection h with h; injection h with hv hr
      rw [hr] at h1 h4
      refine ⟨ds, h1, ⟨?_, h2, h3, h4⟩, by rw [← hv, h5], by rw [← hv]; exact hc.2.1, by rw [← hv]; exact hc.2.2⟩
      rintro rfl
      exact hc.1 (by rw [h6]; rfl)
    · cases h
  · rintro ⟨ds, rfl, ⟨h1, h2, h3, h4⟩, rfl, h5, h6⟩
    simp only [readNum]
    rw [numLoop_stop max ds len 0 0 r h3 h6 h2 h4]
    simp only
    have : ds.length ≠ 0 := fun e => h1 (List.length_eq_zero_iff.1 e)
    rw [if_pos ⟨by omega, h5, h6⟩]

theorem digitsVal_lt : ∀ (ds : Bytes) (v k : Nat), (∀ c ∈ ds, isDigit c = true) → v < 10 ^ k → digitsVal v ds < 10 ^ (k + ds.length)
  | [], v, k, _, h => h
  | c :: cs, v, k, hd, h => by
    have hc := (isDigit_iff c).1 (hd c (List.mem_cons_self ..))
    have e : digitsVal v (c :: cs) = digitsVal (10 * v + (c.toNat - 48)) cs := rfl
    have h2 := digitsVal_lt cs (10 * v + (c.toNat - 48)) (k + 1) (fun x hx => hd x (List.mem_cons_of_mem _ hx)) (by rw [Nat.pow_succ]; omega)
    have e2 : k + 1 + cs.length = k + (c :: cs).length := by rw [List.length_cons]; omega
    rw [e, ← e2]
    exact h2

theorem number_dash {len : Nat} {ds r : Bytes} (h1 : ds ≠ []) (h2 : ds.length ≤ len) (h3 : ∀ c ∈ ds, isDigit c = true) : Number len ds (45 :: r) :=
  ⟨h1, h2, h3, .inr (by intro c cs h; simp at h; rw [← h.1]; decide)⟩

theorem lower_dash {c : UInt8} (h : lowerByte c = lowerByte 45) : c = 45 := by
  have key : ∀ n : Fin 256, lowerByte (UInt8.ofNat n.val) = lowerByte 45 → UInt8.ofNat n.val = 45 := by decide +kernel
  have e : UInt8.ofNat c.toNat = c := by simp
  have := key ⟨c.toNat, UInt8.toNat_lt c⟩
  simp only [e] at this
  exact this h

theorem numbers_span {s r : Bytes} {v : Int} {f : TmField} (h : readNum f.range.1 f.range.2.1 f.range.2.2 s = some (v, r)) :
    ∃ ds, s = ds ++ r ∧ Number f.range.2.2 ds r ∧ v = digitsVal 0 ds ∧ f.range.1 ≤ v ∧ v ≤ f.range.2.1 :=
  (readNum_iff (by cases f <;> decide)).1 h

/-- **C118 (what is a date).** With libstdc++ 13 the texts read as a date are: blanks, then one to four digits, a dash, one or two digits, a dash, one or two digits (as many as there
are), which name a day of the calendar; whatever follows is ignored. -/
theorem C118_accepts (s : Bytes) (d : Date) : parseDate readNum s = .ok d ↔
    ∃ ws ys ms ds rest, s = ws ++ (ys ++ 45 :: (ms ++ 45 :: (ds ++ rest))) ∧ (∀ c ∈ ws, isSpace c = true) ∧
      (ys ≠ [] ∧ ys.length ≤ 4 ∧ ∀ c ∈ ys, isDigit c = true) ∧ (ms ≠ [] ∧ ms.length ≤ 2 ∧ ∀ c ∈ ms, isDigit c = true) ∧ Number 2 ds rest ∧
      d = ⟨digitsVal 0 ys, digitsVal 0 ms, digitsVal 0 ds⟩ ∧ ValidDate leapGreg d := by
  constructor
  · intro h
    have hv := ((C118_exists readNum_library s).1 d h).1
    have hsp : s = s.takeWhile isSpace ++ s.dropWhile isSpace := List.takeWhile_append_dropWhile.symm
    rw [parseDate, getTime] at h
    cases ht : s.dropWhile isSpace with
    | nil => rw [ht] at h; cases h
    | cons c0 t0 =>
      rw [ht] at h hsp
      simp only [dateFmt] at h
      rw [getLoop] at h
      split at h
      · cases h
      · rename_i tm hg
        split at hg
        · simp at hg
        · rename_i y r1 hr1
          obtain ⟨ys, e1, n1, v1, _, y2⟩ := numbers_span (f := .year) hr1
          split at hg
          · injection hg with _ hg; subst hg; simp [Tm.set] at h
          · cases r1 with
            | nil => contradiction
            | cons c1 r1 =>
              rw [getLoop] at hg
              split at hg
              · rename_i hc1
                have hc1 := lower_dash hc1
                subst hc1
                cases r1 with
                | nil => rw [getLoop] at hg; simp at hg
                | cons c2 r2 =>
                  rw [getLoop] at hg
                  split at hg
                  · simp at hg
                  · rename_i m r3 hr3
                    obtain ⟨ms, e2, n2, v2, m1, m2⟩ := numbers_span (f := .mon) hr3
                    split at hg
                    · injection hg with _ hg; subst hg; simp [Tm.set] at h
                    · cases r3 with
                      | nil => contradiction
                      | cons c3 r3 =>
                        rw [getLoop] at hg
                        split at hg
                        · rename_i hc3
                          have hc3 := lower_dash hc3
                          subst hc3
                          cases r3 with
                          | nil => rw [getLoop] at hg; simp at hg
                          | cons c4 r4 =>
                            rw [getLoop] at hg
                            split at hg
                            · simp at hg
                            · rename_i dd r5 hr5
                              obtain ⟨ds, e3, n3, v3, d1, d2⟩ := numbers_span (f := .mday) hr5
                              have hg : tm = (((({} : Tm).set .year y).set .mon m).set .mday dd) := by
                                split at hg
                                · injection hg with _ hg; exact hg.symm
                                · rw [getLoop] at hg; injection hg with _ hg; exact hg.symm
                              subst hg
                              simp only [Tm.set] at h
                              simp only [TmField.range] at m1 m2 d1 d2 y2
                              refine ⟨s.takeWhile isSpace, ys, ms, ds, r5, ?_, fun c hc => mem_takeWhile_sat _ _ c hc, ⟨n1.1, n1.2.1, n1.2.2.1⟩, ⟨n2.1, n2.2.1, n2.2.2.1⟩, n3, ?_, hv⟩
                              · rw [← e3, ← e2, ← e1]; exact hsp
                              · have hmk : Date.mk' (y - 1900 + 1900) (m - 1 + 1) dd = ⟨y, m, dd⟩ := by
                                  simp only [Date.mk', Date.mk.injEq]; unfold wrapI16 wrapI8; omega
                                rw [hmk] at h
                                simp only at h
                                have := ((validated_iff _ _ _ _ _ (by omega) (by omega) (by omega) (by omega)).1.1 h).1
                                rw [this, v1, v2, v3]
                        · simp at hg
              · simp at hg
  · rintro ⟨ws, ys, ms, ds, rest, rfl, hw, hy, hm, hd, rfl, hv⟩
    obtain ⟨_, _, h3, h4, h5, h6⟩ := id hv
    have hl := monthLen_le leapGreg (digitsVal 0 ys : Int) (digitsVal 0 ms : Int)
    have hy4 : (digitsVal 0 ys : Int) ≤ 9999 := by
      have h1 := digitsVal_lt ys 0 0 hy.2.2 (by decide)
      have h2 : 10 ^ (0 + ys.length) ≤ 10 ^ 4 := Nat.pow_le_pow_right (by decide) (by omega)
      omega
    simp only at h3 h4 h5 h6
    have hws : (ws ++ (ys ++ 45 :: (ms ++ 45 :: (ds ++ rest)))).dropWhile isSpace = ys ++ 45 :: (ms ++ 45 :: (ds ++ rest)) := by
      rw [List.dropWhile_append_of_pos hw]
      cases hys : ys with
      | nil => exact absurd hys hy.1
      | cons c cs => rw [List.cons_append, List.dropWhile_cons, isDigit_space (hy.2.2 c (by rw [hys]; exact List.mem_cons_self ..))]; rfl
    have r1 : readNum 0 9999 4 (ys ++ 45 :: (ms ++ 45 :: (ds ++ rest))) = some ((digitsVal 0 ys : Int), 45 :: (ms ++ 45 :: (ds ++ rest))) :=
      (readNum_iff (by decide)).2 ⟨ys, rfl, number_dash hy.1 hy.2.1 hy.2.2, rfl, by omega, hy4⟩
    have r2 : readNum 1 12 2 (ms ++ 45 :: (ds ++ rest)) = some ((digitsVal 0 ms : Int), 45 :: (ds ++ rest)) :=
      (readNum_iff (by decide)).2 ⟨ms, rfl, number_dash hm.1 hm.2.1 hm.2.2, rfl, by omega, by omega⟩
    have r3 : readNum 1 31 2 (ds ++ rest) = some ((digitsVal 0 ds : Int), rest) :=
      (readNum_iff (by decide)).2 ⟨ds, rfl, hd, rfl, by omega, by omega⟩
    have g : getTime readNum dateFmt (ws ++ (ys ++ 45 :: (ms ++ 45 :: (ds ++ rest)))) {} =
        (true, { year := some ((digitsVal 0 ys : Int) - 1900), mon := some ((digitsVal 0 ms : Int) - 1), mday := some (digitsVal 0 ds : Int) }) := by
      rw [getTime, hws]
      cases hys : ys with
      | nil => exact absurd hys hy.1
      | cons c cs =>
        rw [hys] at r1
        rw [List.cons_append] at r1 ⊢
        simp only [dateFmt]
        rw [getLoop]
        simp only [TmField.range]
        rw [r1]
        simp only [reduceCtorEq, if_false]
        rw [lit_step]
        cases hms : ms with
        | nil => exact absurd hms hm.1
        | cons c2 cs2 =>
          rw [hms] at r2
          rw [List.cons_append] at r2 ⊢
          rw [getLoop]
          simp only [TmField.range]
          rw [r2]
          simp only [reduceCtorEq, if_false]
          rw [lit_step]
          cases hds : ds with
          | nil => exact absurd hds hd.1
          | cons c3 cs3 =>
            rw [hds] at r3
            rw [List.cons_append] at r3 ⊢
            rw [getLoop]
            simp only [TmField.range]
            rw [r3]
            simp only [Tm.set]
            split
            · rfl
            · rw [getLoop]
    rw [parseDate, g]
    simp only
    rw [show (digitsVal 0 ys : Int) - 1900 + 1900 = digitsVal 0 ys by omega, show (digitsVal 0 ms : Int) - 1 + 1 = digitsVal 0 ms by omega, mk'_valid hv]
    exact validated_ok _ hv

example : parseDate readNum (ascii " 2021-2-3 and more") = .ok ⟨2021, 2, 3⟩ := by decide +kernel

/-- **C118 (undefined results).** With libstdc++ 13 reading a date is undefined exactly for the texts that end after the year or after the month: a member of the structure that was
never set is read. -/
theorem C118_undefined (s : Bytes) : parseDate readNum s = .ub ↔
    ∃ ws ys, (∀ c ∈ ws, isSpace c = true) ∧ (ys ≠ [] ∧ ys.length ≤ 4 ∧ ∀ c ∈ ys, isDigit c = true) ∧
      (s = ws ++ ys ∨ ∃ ms, (ms ≠ [] ∧ ms.length ≤ 2 ∧ ∀ c ∈ ms, isDigit c = true) ∧ 1 ≤ digitsVal 0 ms ∧ digitsVal 0 ms ≤ 12 ∧ s = ws ++ (ys ++ 45 :: ms)) := by
  constructor
  · intro h
    have hsp : s = s.takeWhile isSpace ++ s.dropWhile isSpace := List.takeWhile_append_dropWhile.symm
    have hws : ∀ c ∈ s.takeWhile isSpace, isSpace c = true := fun c hc => mem_takeWhile_sat _ _ c hc
    rw [parseDate, getTime] at h
    cases ht : s.dropWhile isSpace with
    | nil => rw [ht] at h; cases h
    | cons c0 t0 =>
      rw [ht] at h hsp
      simp only [dateFmt] at h
      rw [getLoop] at h
      split at h
      · cases h
      · rename_i tm hg
        split at hg
        · simp at hg
        · rename_i y r1 hr1
          obtain ⟨ys, e1, n1, v1, _, y2⟩ := numbers_span (f := .year) hr1
          split at hg
          · rename_i hr
            rw [hr, List.append_nil] at e1
            exact ⟨_, ys, hws, ⟨n1.1, n1.2.1, n1.2.2.1⟩, .inl (by rw [← e1]; exact hsp)⟩
          · cases r1 with
            | nil => contradiction
            | cons c1 r1 =>
              rw [getLoop] at hg
              split at hg
              · rename_i hc1
                have hc1 := lower_dash hc1
                subst hc1
                cases r1 with
                | nil => rw [getLoop] at hg; simp at hg
                | cons c2 r2 =>
                  rw [getLoop] at hg
                  split at hg
                  · simp at hg
                  · rename_i m r3 hr3
                    obtain ⟨ms, e2, n2, v2, m1, m2⟩ := numbers_span (f := .mon) hr3
                    simp only [TmField.range] at m1 m2
                    split at hg
                    · rename_i hr
                      rw [hr, List.append_nil] at e2
                      refine ⟨_, ys, hws, ⟨n1.1, n1.2.1, n1.2.2.1⟩, .inr ⟨ms, ⟨n2.1, n2.2.1, n2.2.2.1⟩, by omega, by omega, ?_⟩⟩
                      rw [← e2, ← e1]; exact hsp
                    · cases r3 with
                      | nil => contradiction
                      | cons c3 r3 =>
                        rw [getLoop] at hg
                        split at hg
                        · cases r3 with
                          | nil => rw [getLoop] at hg; simp at hg
                          | cons c4 r4 =>
                            rw [getLoop] at hg
                            split at hg
                            · simp at hg
                            · rename_i dd r5 hr5
                              obtain ⟨ds, e3, n3, v3, d1, d2⟩ := numbers_span (f := .mday) hr5
                              have hg : tm = (((({} : Tm).set .year y).set .mon m).set .mday dd) := by
                                split at hg
                                · injection hg with _ hg; exact hg.symm
                                · rw [getLoop] at hg; injection hg with _ hg; exact hg.symm
                              subst hg
                              simp only [Tm.set] at h
                              simp only [TmField.range] at d1 d2 y2
                              have hmk : Date.mk' (y - 1900 + 1900) (m - 1 + 1) dd = ⟨y, m, dd⟩ := by
                                simp only [Date.mk', Date.mk.injEq]; unfold wrapI16 wrapI8; omega
                              rw [hmk] at h
                              simp only at h
                              exact absurd h (validated_iff _ _ _ _ ⟨y, m, dd⟩ (by omega) (by omega) (by omega) (by omega)).2
                        · simp at hg
              · simp at hg
  · rintro ⟨ws, ys, hw, hy, h⟩
    have hy4 : (digitsVal 0 ys : Int) ≤ 9999 := by
      have h1 := digitsVal_lt ys 0 0 hy.2.2 (by decide)
      have h2 : 10 ^ (0 + ys.length) ≤ 10 ^ 4 := Nat.pow_le_pow_right (by decide) (by omega)
      omega
    have hdw : ∀ r, (ws ++ (ys ++ r)).dropWhile isSpace = ys ++ r := by
      intro r
      rw [List.dropWhile_append_of_pos hw]
      cases hys : ys with
      | nil => exact absurd hys hy.1
      | cons c cs => rw [List.cons_append, List.dropWhile_cons, isDigit_space (hy.2.2 c (by rw [hys]; exact List.mem_cons_self ..))]; rfl
    rcases h with rfl | ⟨ms, hm, m1, m2, rfl⟩
    · have r1 : readNum 0 9999 4 ys = some ((digitsVal 0 ys : Int), []) :=
        (readNum_iff (by decide)).2 ⟨ys, by simp, ⟨hy.1, hy.2.1, hy.2.2, .inr (by simp)⟩, rfl, by omega, hy4⟩
      have e := hdw []
      rw [List.append_nil] at e
      rw [parseDate, getTime, e]
      cases hys : ys with
      | nil => exact absurd hys hy.1
      | cons c cs =>
        rw [hys] at r1
        simp only [dateFmt]
        rw [getLoop]
        simp only [TmField.range]
        rw [r1]
        rfl
    · have r1 : readNum 0 9999 4 (ys ++ 45 :: ms) = some ((digitsVal 0 ys : Int), 45 :: ms) :=
        (readNum_iff (by decide)).2 ⟨ys, rfl, number_dash hy.1 hy.2.1 hy.2.2, rfl, by omega, hy4⟩
      have r2 : readNum 1 12 2 ms = some ((digitsVal 0 ms : Int), []) :=
        (readNum_iff (by decide)).2 ⟨ms, by simp, ⟨hm.1, hm.2.1, hm.2.2, .inr (by simp)⟩, rfl, by omega, by omega⟩
      rw [parseDate, getTime, hdw]
      cases hys : ys with
      | nil => exact absurd hys hy.1
      | cons c cs =>
        rw [hys] at r1
        rw [List.cons_append] at r1 ⊢
        simp only [dateFmt]
        rw [getLoop]
        simp only [TmField.range]
        rw [r1]
        simp only [reduceCtorEq, if_false]
        rw [lit_step]
        cases hms : ms with
        | nil => exact absurd hms hm.1
        | cons c2 cs2 =>
          rw [hms] at r2
          rw [getLoop]
          simp only [TmField.range]
          rw [r2]
          rfl

example : parseDate readNum (ascii "2021-7") = .ub ∧ parseDate readNum (ascii "2021-7-") = .error := by decide +kernel

/-! ## What goes wrong -/

/-- **C118 fails for texts that end early:** a date is taken for a point in time, whose hour, minute and second are whatever was in memory. -/
theorem C118_short_violated {num : NumReader} (hn : ReadsNumbers num) {d : Date} (h : ValidDate leapGreg d) (h1 : 1000 ≤ d.year) (h2 : d.year ≤ 9999) :
    parseDateTime num d.toText = .ub := by
  rw [parseDateTime, date_end hn h h1 h2]
  rfl

/-- The same for a year alone, and for a time without seconds. -/
theorem C118_year_only_violated : parseDate readNum (ascii "2021") = .ub ∧ parseTime readNum (ascii "12:30") = .ub := by decide +kernel

/-- **C118 fails for the fraction of a second:** it is written but not read. -/
theorem C118_fraction_violated {num : NumReader} (hn : ReadsNumbers num) {t : Time} (h : ValidTime t) (h1 : t.microsec ≠ 0) : parseTime num t.toText ≠ .ok t := by
  rw [C118_time hn h]
  intro e
  injection e with e
  exact h1 (by rw [← e])

/-- **C118 fails for the fraction of a point in time:** 5 microseconds are written as 0.5 seconds are. -/
theorem C118_padding_violated : Time.toText ⟨1, 2, 3, 5⟩ = ascii "01:02:03.000005" ∧ DateTime.toText ⟨2021, 1, 1, 1, 2, 3, 5⟩ = ascii "2021-01-01T01:02:03.5" := by decide +kernel

/-- **C118 fails for years that are negative or have five digits:** they are written but not read. -/
theorem C118_year_violated {num : NumReader} (hn : ReadsNumbers num) {d : Date} (h : ValidDate leapGreg d) (h1 : d.year < 0 ∨ 10000 ≤ d.year) : parseDate num d.toText = .error := by
  rcases h1 with h1 | h1
  · have e : d.toText = 45 :: (natDec d.year.natAbs ++ 45 :: padDec 2 d.month ++ 45 :: padDec 2 d.day) := by simp [Date.toText, intDec, h1]
    have : getTime num dateFmt d.toText {} = (false, {}) := by
      rw [getTime, e, List.dropWhile_cons, if_neg (by decide)]
      simp only [dateFmt]
      rw [getLoop, hn.digit _ _ _ _ _ (by decide)]
    rw [parseDate, this]
  · have hu := h.2.1
    obtain ⟨n, hy⟩ := Int.eq_ofNat_of_zero_le (show 0 ≤ d.year by omega)
    have e4 : (natDec (n / 10)).length = 4 := natDec_length 3 _ (by omega) (by omega)
    have hds := natDec_digits (n / 10)
    have hval : digitsVal 0 (natDec (n / 10)) = n / 10 := digitsVal_natDec _
    have e : d.toText = natDec (n / 10) ++ digit (n % 10) :: (45 :: padDec 2 d.month ++ 45 :: padDec 2 d.day) := by
      have : intDec d.year = natDec (n / 10) ++ [digit (n % 10)] := by
        rw [intDec, if_neg (by omega), show d.year.natAbs = n by omega, natDec_eq, if_neg (by omega)]
      rw [Date.toText, this]; simp
    have g : getTime num dateFmt d.toText {} = (false, ({} : Tm).set .year ((n / 10 : Nat) : Int)) := by
      rw [e, getTime_digit num _ _ _ (natDec_ne_nil _) hds]
      simp only [dateFmt]
      rw [field_more hn .year _ _ (v := ((n / 10 : Nat) : Int)) _ _ ⟨e4, hds, by exact_mod_cast hval⟩ (by simp only [TmField.range]; omega) (by simp only [TmField.range]; omega), getLoop, if_neg]
      intro hc
      have := lower_dash hc
      have hd := isDigit_digit (n := n % 10) (by omega)
      rw [this] at hd
      exact absurd hd (by decide)
    rw [parseDate, g]

/-- **C118 fails for second 60:** it is accepted, and is no time of day. -/
theorem C118_second_violated : parseTime readNum (ascii "23:59:60") = .ok ⟨23, 59, 60, 0⟩ ∧ ¬ ValidTime ⟨23, 59, 60, 0⟩ := by decide +kernel

/-- **C118 fails for texts with something behind the date:** it is ignored. -/
theorem C118_rest_violated {num : NumReader} (hn : ReadsNumbers num) {d : Date} (h : ValidDate leapGreg d) (h1 : 1000 ≤ d.year) (h2 : d.year ≤ 9999) (x : UInt8) (r : Bytes) :
    parseDate num (d.toText ++ x :: r) = .ok d := by
  have e := date_more hn h h1 h2 [] x r {}
  rw [List.append_nil] at e
  rw [parseDate, e, getLoop]
  simp only
  have hv : ValidDate leapGreg ⟨d.year, d.month, d.day⟩ := h
  rw [show d.year - 1900 + 1900 = d.year by omega, show d.month - 1 + 1 = d.month by omega, mk'_valid hv]
  exact validated_ok _ h

end Nebula
