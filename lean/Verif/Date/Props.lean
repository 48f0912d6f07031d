import Verif.Date.Lemmas
import Verif.Host.Model
/-!
# Properties C01, C02, C03

The day numbers of `Date` are 0 .. 23937023 (`C01_range`): 65536 years of which every fourth has
366 days.
-/
namespace Nebula
open Spec

/-- C01: the range of the day numbers is attained at the first and last representable day. -/
theorem C01_range : firstDay.toInt = some 0 ∧ lastDay.toInt = some 23937023 := by decide

/-- C01: converting a calendar-valid date to its number and back gives the date. -/
theorem C01_date_roundtrip (d : Date) (h : ValidDate leap4 d) :
    ∃ n, d.toInt = some n ∧ 0 ≤ n ∧ n ≤ 23937023 ∧ Date.fromInt n = some d := by
  have hr := Date.num_range h
  obtain ⟨e, h1, h2, h3⟩ := Date.fromInt_spec hr.1 hr.2
  exact ⟨d.num, Date.toInt_valid h, hr.1, hr.2, by rw [h1, Date.num_inj h2 h h3]⟩

example : ValidDate leap4 ⟨2020, 2, 29⟩ := by decide
example : ValidDate leap4 ⟨-32768, 1, 1⟩ ∧ ValidDate leap4 ⟨32767, 12, 31⟩ := by decide

/-- C01: converting an in-range number to a date and back gives the number, and the date exists
in the calendar. -/
theorem C01_number_roundtrip (n : Int) (h0 : 0 ≤ n) (h1 : n ≤ 23937023) :
    ∃ d, Date.fromInt n = some d ∧ ValidDate leap4 d ∧ d.toInt = some n := by
  obtain ⟨d, e1, e2, e3⟩ := Date.fromInt_spec h0 h1
  exact ⟨d, e1, e2, by rw [Date.toInt_valid e2, e3]⟩

example : Date.fromInt 12706221 = some ⟨2019, 9, 27⟩ := by decide

/-- C01: number `n` is the date reached from the first day by stepping `n` times to the next day
of the calendar. -/
theorem C01_number_counts_days (n : Nat) (h : n ≤ 23937023) :
    Date.fromInt (n : Int) = some (daysAfter leap4 n firstDay) := by
  have key : ∀ n : Nat, n ≤ 23937023 →
      ValidDate leap4 (daysAfter leap4 n firstDay) ∧ (daysAfter leap4 n firstDay).num = n := by
    intro n
    induction n with
    | zero => intro _; exact ⟨by decide, by decide⟩
    | succ k ih =>
      intro hk
      obtain ⟨v, e⟩ := ih (by omega)
      have hne : daysAfter leap4 k firstDay ≠ lastDay := by
        intro heq
        rw [heq] at e
        have : lastDay.num = 23937023 := by decide
        omega
      obtain ⟨v', e'⟩ := Date.num_next v hne
      exact ⟨v', by unfold daysAfter; omega⟩
  obtain ⟨v, e⟩ := key n h
  obtain ⟨d, e1, e2, e3⟩ := Date.fromInt_spec (n := (n : Int)) (by omega) (by omega)
  rw [e1, Date.num_inj e2 v (by omega)]

example : daysAfter leap4 60 firstDay = ⟨-32768, 3, 1⟩ := by decide +kernel

/-- Outside the range nothing exact is returned: the day after the last representable day is
computed to be the first one (the year wraps around), and the day before the first one the last. -/
theorem C02_out_of_range_violated :
    lastDay.add 1 = some firstDay ∧ firstDay.sub 1 = some lastDay := by decide

/-- C02: `d + n`, when the day number stays in range, exists in the calendar and its number is
that of `d` plus `n`; likewise `d - n`. -/
theorem C02_add_number (d : Date) (k n : Int) (hk : d.toInt = some k)
    (h0 : 0 ≤ k + n) (h1 : k + n ≤ 23937023) :
    ∃ e, d.add n = some e ∧ d.sub (-n) = some e ∧ ValidDate leap4 e ∧ e.toInt = some (k + n) := by
  obtain ⟨e, e1, e2, e3⟩ := C01_number_roundtrip (k + n) h0 h1
  refine ⟨e, ?_, ?_, e2, e3⟩
  · unfold Date.add
    rw [hk]
    simp only
    rw [if_pos (by omega), e1]
  · unfold Date.sub
    rw [hk]
    simp only
    rw [if_pos (by omega), show k - -n = k + n by omega, e1]

example : (⟨2020, 2, 28⟩ : Date).add 2 = some ⟨2020, 3, 1⟩ := by decide
example : (⟨2020, 3, 1⟩ : Date).sub 1 = some ⟨2020, 2, 29⟩ := by decide

/-- C02: adding `k` days is stepping `k` times to the next day, while the calendar lasts. -/
theorem C02_add_steps (d : Date) (h : ValidDate leap4 d) (i : Int) (hi : d.toInt = some i) (k : Nat)
    (hk : i + k ≤ 23937023) : d.add k = some (daysAfter leap4 k d) := by
  have hnum : i = d.num := by
    have := Date.toInt_valid h; rw [hi] at this; exact Option.some.inj this
  have hr := Date.num_range h
  have key : ∀ k : Nat, i + k ≤ 23937023 →
      ValidDate leap4 (daysAfter leap4 k d) ∧ (daysAfter leap4 k d).num = i + k := by
    intro k
    induction k with
    | zero => intro _; exact ⟨h, by simp [daysAfter, hnum]⟩
    | succ k ih =>
      intro hk
      obtain ⟨v, e⟩ := ih (by omega)
      have hne : daysAfter leap4 k d ≠ lastDay := by
        intro heq
        rw [heq] at e
        have : lastDay.num = 23937023 := by decide
        omega
      obtain ⟨v', e'⟩ := Date.num_next v hne
      exact ⟨v', by unfold daysAfter; omega⟩
  obtain ⟨v, e⟩ := key k hk
  obtain ⟨e', a1, _, a3, a4⟩ := C02_add_number d i k hi (by omega) hk
  rw [a1]
  have : e'.num = i + k := by
    have := Date.toInt_valid a3; rw [a4] at this; exact (Option.some.inj this).symm
  rw [Date.num_inj a3 v (by omega)]

/-- C02: `(d + m) + n = d + (m + n)` as long as both results are in range. -/
theorem C02_add_add (d e : Date) (k m n : Int) (hk : d.toInt = some k)
    (hm : 0 ≤ k + m ∧ k + m ≤ 23937023) (hmn : 0 ≤ k + (m + n) ∧ k + (m + n) ≤ 23937023)
    (he : d.add m = some e) : e.add n = d.add (m + n) := by
  obtain ⟨e', a1, _, a3, a4⟩ := C02_add_number d k m hk hm.1 hm.2
  rw [a1] at he; cases Option.some.inj he
  obtain ⟨f, b1, _, b3, b4⟩ := C02_add_number d k (m + n) hk hmn.1 hmn.2
  obtain ⟨g, c1, _, c3, c4⟩ := C02_add_number e (k + m) n a4 (by omega) (by omega)
  rw [b1, c1]
  have : g.num = f.num := by
    have x := Date.toInt_valid c3; rw [c4] at x
    have y := Date.toInt_valid b3; rw [b4] at y
    have := Option.some.inj x; have := Option.some.inj y; omega
  rw [Date.num_inj c3 b3 this]

/-- C02: `(d + n) - n = d`. -/
theorem C02_add_sub_cancel (d e : Date) (h : ValidDate leap4 d) (k n : Int) (hk : d.toInt = some k)
    (h0 : 0 ≤ k + n) (h1 : k + n ≤ 23937023) (he : d.add n = some e) : e.sub n = some d := by
  obtain ⟨e', a1, _, a3, a4⟩ := C02_add_number d k n hk h0 h1
  rw [a1] at he; cases Option.some.inj he
  obtain ⟨k', b1, b2, b3, b4⟩ := C01_date_roundtrip d h
  rw [hk] at b1; cases b1
  obtain ⟨g, _, c2, c3, c4⟩ := C02_add_number e (k + n) (-n) a4 (by omega) (by omega)
  rw [Int.neg_neg] at c2
  rw [c2]
  obtain ⟨x, y1, _, _, y4⟩ := C01_date_roundtrip g c3
  rw [c4] at y1; cases y1
  rw [show k + n + -n = k by omega] at y4
  rw [b4] at y4
  exact y4.symm

/-- C02: a later shift gives a strictly later date. -/
theorem C02_add_strictMono (d e f : Date) (k m n : Int) (hk : d.toInt = some k)
    (hm : 0 ≤ k + m) (hmn : m < n) (hn : k + n ≤ 23937023)
    (he : d.add m = some e) (hf : d.add n = some f) : e.lt f = true := by
  obtain ⟨e', a1, _, a3, a4⟩ := C02_add_number d k m hk hm (by omega)
  obtain ⟨f', b1, _, b3, b4⟩ := C02_add_number d k n hk (by omega) hn
  rw [a1] at he; cases Option.some.inj he
  rw [b1] at hf; cases Option.some.inj hf
  have x := Date.toInt_valid a3; rw [a4] at x
  have y := Date.toInt_valid b3; rw [b4] at y
  have hlt : e.num < f.num := by
    have := Option.some.inj x; have := Option.some.inj y; omega
  have := (Date.num_lt_iff a3 b3).mp hlt
  unfold Date.lt
  unfold Earlier at this
  rcases this with h | ⟨h, h' | ⟨h', h''⟩⟩
  · have : ¬ e.year = f.year := by omega
    simp [this, h]
  · have : ¬ e.month = f.month := by omega
    simp [h, this, h']
  · have : ¬ e.day = f.day := by omega
    simp [h, h', this, h'']

/-- C03: dates are totally ordered, and the order is "earlier". -/
theorem C03_date_order : StrictTotalOrder Date.lt Date.beq ∧
    ∀ a b : Date, a.lt b = true ↔ Earlier a b := by
  have hlt : ∀ a b : Date, a.lt b = true ↔ Earlier a b := by
    intro a b
    unfold Date.lt Earlier
    by_cases h1 : a.year = b.year <;> by_cases h2 : a.month = b.month <;> by_cases h3 : a.day = b.day <;>
      simp [h1, h2, h3]
    all_goals omega
  have hf : ∀ a b : Date, a.lt b = false ↔ ¬ Earlier a b := by
    intro a b; rw [← hlt]; simp
  have heq : ∀ a b : Date, a.beq b = true ↔ a = b := by
    intro a b; cases a; cases b; simp [Date.beq, and_assoc]
  refine ⟨⟨?_, ?_, ?_, ?_, heq⟩, hlt⟩
  · intro a; rw [hf]; unfold Earlier; omega
  · intro a b c; rw [hlt, hlt, hlt]; unfold Earlier; omega
  · intro a b; rw [hlt, hlt, heq]; exact Date.earlier_trichotomy a b
  · intro a b; rw [hf, hf, heq]
    constructor
    · rintro rfl; unfold Earlier; omega
    · rintro ⟨h1, h2⟩
      rcases Date.earlier_trichotomy a b with h | h | h
      · exact absurd h h1
      · exact h
      · exact absurd h h2

/-- C03: on valid dates the order of the dates is the order of their day numbers. -/
theorem C03_date_order_is_day_order (a b : Date) (ha : ValidDate leap4 a) (hb : ValidDate leap4 b)
    (m n : Int) (hm : a.toInt = some m) (hn : b.toInt = some n) : a.lt b = true ↔ m < n := by
  rw [C03_date_order.2, ← Date.num_lt_iff ha hb]
  have x := Date.toInt_valid ha; rw [hm] at x
  have y := Date.toInt_valid hb; rw [hn] at y
  rw [Option.some.inj x, Option.some.inj y]

/-- Lexicographic orders on lists of integers of the same length, used to read the chained
comparisons of Time and DateTime. -/
def lexLt : List Int → List Int → Prop
  | a :: as, b :: bs => a < b ∨ (a = b ∧ lexLt as bs)
  | _, _ => False

def Time.fields (t : Time) : List Int := [t.hour, t.minute, t.sec, t.microsec]
def DateTime.fields (t : DateTime) : List Int :=
  [t.year, t.month, t.day, t.hour, t.minute, t.sec, t.microsec]

/-- C03: times of day are totally ordered, lexicographically by hour, minute, second, microsecond. -/
theorem C03_time_order : StrictTotalOrder Time.lt Time.beq ∧
    ∀ a b : Time, a.lt b = true ↔ lexLt a.fields b.fields := by
  have hlt : ∀ a b : Time, a.lt b = true ↔ lexLt a.fields b.fields := by
    intro a b
    unfold Time.lt
    simp only [Time.fields, lexLt, and_false, or_false]
    by_cases h1 : a.hour = b.hour <;> by_cases h2 : a.minute = b.minute <;> by_cases h3 : a.sec = b.sec <;>
      by_cases h4 : a.microsec = b.microsec <;> simp [h1, h2, h3, h4] <;> omega
  have hf : ∀ a b : Time, a.lt b = false ↔ ¬ lexLt a.fields b.fields := by
    intro a b; rw [← hlt]; simp
  have heq : ∀ a b : Time, a.beq b = true ↔ a = b := by
    intro a b; cases a; cases b; simp [Time.beq, and_assoc]
  have htri : ∀ a b : Time, lexLt a.fields b.fields ∨ a = b ∨ lexLt b.fields a.fields := by
    intro a b
    cases a; cases b
    simp only [Time.fields, lexLt, and_false, or_false, Time.mk.injEq]
    omega
  refine ⟨⟨?_, ?_, ?_, ?_, heq⟩, hlt⟩
  · intro a; rw [hf]; simp only [Time.fields, lexLt, and_false, or_false]; omega
  · intro a b c; rw [hlt, hlt, hlt]; simp only [Time.fields, lexLt, and_false, or_false]; omega
  · intro a b; rw [hlt, hlt, heq]; exact htri a b
  · intro a b; rw [hf, hf, heq]
    constructor
    · rintro rfl; simp only [Time.fields, lexLt, and_false, or_false]; omega
    · rintro ⟨h1, h2⟩
      rcases htri a b with h | h | h
      · exact absurd h h1
      · exact h
      · exact absurd h h2

/-- C03: datetimes are totally ordered, lexicographically. -/
theorem C03_datetime_order : StrictTotalOrder DateTime.lt DateTime.beq ∧
    ∀ a b : DateTime, a.lt b = true ↔ lexLt a.fields b.fields := by
  have hlt : ∀ a b : DateTime, a.lt b = true ↔ lexLt a.fields b.fields := by
    intro a b
    unfold DateTime.lt
    simp only [DateTime.fields, lexLt, and_false, or_false]
    by_cases h1 : a.year = b.year
    · by_cases h2 : a.month = b.month
      · by_cases h3 : a.day = b.day
        · by_cases h4 : a.hour = b.hour
          · by_cases h5 : a.minute = b.minute
            · by_cases h6 : a.sec = b.sec
              · by_cases h7 : a.microsec = b.microsec <;> simp [h1, h2, h3, h4, h5, h6, h7]
              · simp [h1, h2, h3, h4, h5, h6]
            · simp [h1, h2, h3, h4, h5]
          · simp [h1, h2, h3, h4]
        · simp [h1, h2, h3]
      · simp [h1, h2]
    · simp [h1]
  have hf : ∀ a b : DateTime, a.lt b = false ↔ ¬ lexLt a.fields b.fields := by
    intro a b; rw [← hlt]; simp
  have heq : ∀ a b : DateTime, a.beq b = true ↔ a = b := by
    intro a b; cases a; cases b; simp [DateTime.beq, and_assoc]
  have htri : ∀ a b : DateTime, lexLt a.fields b.fields ∨ a = b ∨ lexLt b.fields a.fields := by
    intro a b
    cases a; cases b
    simp only [DateTime.fields, lexLt, and_false, or_false, DateTime.mk.injEq]
    omega
  refine ⟨⟨?_, ?_, ?_, ?_, heq⟩, hlt⟩
  · intro a; rw [hf]; simp only [DateTime.fields, lexLt, and_false, or_false]; omega
  · intro a b c; rw [hlt, hlt, hlt]; simp only [DateTime.fields, lexLt, and_false, or_false]; omega
  · intro a b; rw [hlt, hlt, heq]; exact htri a b
  · intro a b; rw [hf, hf, heq]
    constructor
    · rintro rfl; simp only [DateTime.fields, lexLt, and_false, or_false]; omega
    · rintro ⟨h1, h2⟩
      rcases htri a b with h | h | h
      · exact absurd h h1
      · exact h
      · exact absurd h h2

/-- C03: host addresses are totally ordered. -/
theorem C03_host_order : StrictTotalOrder HostAddr.lt HostAddr.beq := by
  have heq : ∀ a b : HostAddr, a.beq b = true ↔ a = b := by
    intro a b; cases a; cases b; simp [HostAddr.beq]
  have htot : ∀ a b : HostAddr, a.lt b = true ∨ a = b ∨ b.lt a = true := by
    intro a b
    by_cases h : a.host = b.host
    · rcases Int.lt_trichotomy a.port b.port with h' | h' | h'
      · simp [HostAddr.lt, h, h']
      · exact Or.inr (Or.inl (by cases a; cases b; simp_all))
      · simp [HostAddr.lt, h, h']
    · have h2 : ¬ b.host = a.host := fun e => h e.symm
      rcases bytesLt_total a.host b.host with h' | h' | h'
      · simp [HostAddr.lt, h, h']
      · exact absurd h' h
      · simp [HostAddr.lt, h2, h']
  have hirr : ∀ a : HostAddr, a.lt a = false := by intro a; simp [HostAddr.lt]
  have htr : ∀ a b c : HostAddr, a.lt b = true → b.lt c = true → a.lt c = true := by
    intro a b c h1 h2
    unfold HostAddr.lt at *
    by_cases hab : a.host = b.host <;> by_cases hbc : b.host = c.host
    · simp only [hab, hbc, beq_self_eq_true, if_true, decide_eq_true_eq] at *; omega
    · simp only [hab, beq_self_eq_true, if_true, decide_eq_true_eq, beq_iff_eq, hbc, if_false] at *; exact h2
    · simp only [hbc, beq_self_eq_true, if_true, decide_eq_true_eq, beq_iff_eq] at *
      rw [if_neg hab] at h1 ⊢; exact h1
    · simp only [beq_iff_eq] at *
      rw [if_neg hab] at h1; rw [if_neg hbc] at h2
      have h3 := bytesLt_trans _ _ _ h1 h2
      have : ¬ a.host = c.host := by
        intro e; rw [e, bytesLt_irrefl] at h3; cases h3
      rw [if_neg this]; exact h3
  refine ⟨hirr, htr, ?_, ?_, heq⟩
  · intro a b; rw [heq]; exact htot a b
  · intro a b; rw [heq]
    constructor
    · rintro rfl; exact ⟨hirr a, hirr a⟩
    · rintro ⟨h1, h2⟩
      rcases htot a b with h | h | h
      · rw [h1] at h; cases h
      · exact h
      · rw [h2] at h; cases h

/-- C03: key/value pairs are totally ordered. -/
theorem C03_keyvalue_order : StrictTotalOrder KeyValue.lt KeyValue.beq := by
  have heq : ∀ a b : KeyValue, a.beq b = true ↔ a = b := by
    intro a b; cases a; cases b; simp [KeyValue.beq]
  have htot : ∀ a b : KeyValue, a.lt b = true ∨ a = b ∨ b.lt a = true := by
    intro a b
    by_cases h : a.key = b.key
    · rcases bytesLt_total a.value b.value with h' | h' | h'
      · simp [KeyValue.lt, h, h']
      · exact Or.inr (Or.inl (by cases a; cases b; simp_all))
      · simp [KeyValue.lt, h, h']
    · have h2 : ¬ b.key = a.key := fun e => h e.symm
      rcases bytesLt_total a.key b.key with h' | h' | h'
      · simp [KeyValue.lt, h, h']
      · exact absurd h' h
      · simp [KeyValue.lt, h2, h']
  have hirr : ∀ a : KeyValue, a.lt a = false := by intro a; simp [KeyValue.lt, bytesLt_irrefl]
  have htr : ∀ a b c : KeyValue, a.lt b = true → b.lt c = true → a.lt c = true := by
    intro a b c h1 h2
    unfold KeyValue.lt at *
    simp only [bne_iff_ne, ne_eq, ite_not] at *
    by_cases hab : a.key = b.key <;> by_cases hbc : b.key = c.key
    · rw [if_pos hab] at h1; rw [if_pos hbc] at h2; rw [if_pos (hab.trans hbc)]
      exact bytesLt_trans _ _ _ h1 h2
    · rw [if_neg hbc] at h2
      rw [if_neg (fun e => hbc (hab.symm.trans e)), hab]; exact h2
    · rw [if_neg hab] at h1
      rw [if_neg (fun e => hab (e.trans hbc.symm)), ← hbc]; exact h1
    · rw [if_neg hab] at h1; rw [if_neg hbc] at h2
      have h3 := bytesLt_trans _ _ _ h1 h2
      rw [if_neg (fun e => by rw [e, bytesLt_irrefl] at h3; cases h3)]; exact h3
  refine ⟨hirr, htr, ?_, ?_, heq⟩
  · intro a b; rw [heq]; exact htot a b
  · intro a b; rw [heq]
    constructor
    · rintro rfl; exact ⟨hirr a, hirr a⟩
    · rintro ⟨h1, h2⟩
      rcases htot a b with h | h | h
      · rw [h1] at h; cases h
      · exact h
      · rw [h2] at h; cases h

/-- The bit-field ranges of a DateTime object (Date.h:140-146): any stored DateTime satisfies them. -/
def DateTime.Stored (d : DateTime) : Prop :=
  -32768 ≤ d.year ∧ d.year ≤ 32767 ∧ 0 ≤ d.month ∧ d.month < 16 ∧ 0 ≤ d.day ∧ d.day < 32 ∧
  0 ≤ d.hour ∧ d.hour < 32 ∧ 0 ≤ d.minute ∧ d.minute < 64 ∧ 0 ≤ d.sec ∧ d.sec < 64 ∧
  0 ≤ d.microsec ∧ d.microsec < 4194304

/-- C03: equal values hash equally; the DateTime hash is even injective on stored values, so the
hash never identifies different datetimes. -/
theorem C03_hash (H : FnvHash) (fs : Bytes → Nat) (fp : Int → Nat) :
    (∀ a b : Date, a.beq b = true → a.hash H = b.hash H) ∧
    (∀ a b : Time, a.beq b = true → a.hash H = b.hash H) ∧
    (∀ a b : HostAddr, a.beq b = true → a.hash fs fp = b.hash fs fp) ∧
    (∀ a b : DateTime, a.Stored → b.Stored → (a.beq b = true ↔ a.qword = b.qword)) := by
  refine ⟨?_, ?_, ?_, ?_⟩
  · intro a b h; rw [(C03_date_order.1.eq_sound a b).mp h]
  · intro a b h; rw [(C03_time_order.1.eq_sound a b).mp h]
  · intro a b h; rw [(C03_host_order.eq_sound a b).mp h]
  · intro a b ha hb
    rw [C03_datetime_order.1.eq_sound a b]
    constructor
    · rintro rfl; rfl
    · intro h
      unfold DateTime.qword at h
      unfold DateTime.Stored at ha hb
      obtain ⟨y, m, d, hh, mm, ss, us⟩ := a
      obtain ⟨y', m', d', hh', mm', ss', us'⟩ := b
      simp only [DateTime.mk.injEq] at *
      omega

example : DateTime.Stored ⟨-5, 2, 29, 23, 59, 59, 999999⟩ := by unfold DateTime.Stored; decide

end Nebula
