import Verif.Time.Lemmas
/-!
# Properties C04, C05, C06, C07

The representable second counts are those of the years -32768 .. 32767:
-1096225401600 .. 971890963199 (`C04_range`).
-/
namespace Nebula
open Spec

/-- C04: the first and last representable seconds. -/
theorem C04_range :
    dateTimeToUnixSeconds ⟨-32768, 1, 1, 0, 0, 0, 0⟩ = some (-1096225401600) ∧
    dateTimeToUnixSeconds ⟨32767, 12, 31, 23, 59, 59, 0⟩ = some 971890963199 := by decide

theorem lo_eq : 86400 * yearStart (-32768) = -1096225401600 := by decide
theorem hi_eq : 86400 * yearStart 32768 = 971890963200 := by decide

/-- C04: converting a second count gives an existing Gregorian date and time of day, and converting
back gives the same count. -/
theorem C04_seconds_roundtrip (s : Int) (h0 : -1096225401600 ≤ s) (h1 : s ≤ 971890963199) :
    ∃ d, unixSecondsToDateTime s = some d ∧ ValidDT d ∧ d.microsec = 0 ∧
      dateTimeToUnixSeconds d = some s := by
  obtain ⟨d, e1, e2, e3, e4⟩ := unix_spec (s := s) (by rw [lo_eq]; omega) (by rw [hi_eq]; omega)
  exact ⟨d, e1, e2, e3, by rw [diff_epoch e2.1.2.2.1 e2.1.2.2.2.1, e4]⟩

example : unixSecondsToDateTime (-1) = some ⟨1969, 12, 31, 23, 59, 59, 0⟩ := by decide
example : unixSecondsToDateTime 951782400 = some ⟨2000, 2, 29, 0, 0, 0, 0⟩ := by decide +kernel

/-- C04: converting any existing date and time to seconds and back gives the same date and time
(seconds carry no microseconds). -/
theorem C04_datetime_roundtrip (d : DateTime) (h : ValidDT d) :
    ∃ s, dateTimeToUnixSeconds d = some s ∧ -1096225401600 ≤ s ∧ s ≤ 971890963199 ∧
      unixSecondsToDateTime s = some { d with microsec := 0 } := by
  have hs := diff_epoch (d := d) h.1.2.2.1 h.1.2.2.2.1
  have hr := dayNum_range h.1
  have := lo_eq
  have := hi_eq
  obtain ⟨v, t⟩ := h
  refine ⟨_, hs, by omega, by omega, ?_⟩
  obtain ⟨d', e1, e2, e3, e4⟩ := unix_spec
    (s := 86400 * dayNum ⟨d.year, d.month, d.day⟩ + d.hour * 3600 + d.minute * 60 + d.sec)
    (by omega) (by omega)
  rw [e1]
  obtain ⟨a, b, c, e, f, g⟩ := seconds_inj e2 ⟨v, t⟩ e4
  cases d'; cases d; simp_all

example : ValidDT ⟨2000, 2, 29, 23, 59, 59, 7⟩ := by decide
example : ValidDT ⟨-400, 2, 29, 0, 0, 0, 0⟩ ∧ ¬ ValidDT ⟨1900, 2, 29, 0, 0, 0, 0⟩ := by decide

/-- C04: midnight of the epoch day is 0 and each next calendar day is 86400 seconds later; within a
day the time of day is added.  Together with the round trips this pins the conversion down. -/
theorem C04_counts_days :
    dateTimeToUnixSeconds kEpoch = some 0 ∧
    (∀ d : Date, ValidDate leapGreg d → d ≠ lastDay → ∃ s, dateToUnixSeconds d = some s ∧
      ValidDate leapGreg (nextDay leapGreg d) ∧
      dateToUnixSeconds (nextDay leapGreg d) = some (s + 86400)) ∧
    (∀ d : DateTime, ValidDT d → ∃ s, dateToUnixSeconds ⟨d.year, d.month, d.day⟩ = some s ∧
      dateTimeToUnixSeconds d = some (s + d.hour * 3600 + d.minute * 60 + d.sec)) := by
  refine ⟨by decide, ?_, ?_⟩
  · intro d h hne
    obtain ⟨v, e⟩ := dayNum_next h hne
    refine ⟨_, dateSeconds h, v, ?_⟩
    rw [dateSeconds v, e]; congr 1; omega
  · intro d h
    refine ⟨_, dateSeconds h.1, ?_⟩
    rw [diff_epoch h.1.2.2.1 h.1.2.2.2.1]

/-- C04: later times have larger second counts (order is preserved and reflected). -/
theorem C04_monotone (a b : DateTime) (ha : ValidDT a) (hb : ValidDT b) (hm : a.microsec = b.microsec)
    (s t : Int) (hs : dateTimeToUnixSeconds a = some s) (ht : dateTimeToUnixSeconds b = some t) :
    a.lt b = true ↔ s < t := by
  rw [diff_epoch ha.1.2.2.1 ha.1.2.2.2.1] at hs
  rw [diff_epoch hb.1.2.2.1 hb.1.2.2.2.1] at ht
  have hs := Option.some.inj hs
  have ht := Option.some.inj ht
  have h1 : Earlier ⟨a.year, a.month, a.day⟩ ⟨b.year, b.month, b.day⟩ → dayNum ⟨a.year, a.month, a.day⟩ <
      dayNum ⟨b.year, b.month, b.day⟩ := dayNum_lt ha.1 hb.1
  have h2 : Earlier ⟨b.year, b.month, b.day⟩ ⟨a.year, a.month, a.day⟩ → dayNum ⟨b.year, b.month, b.day⟩ <
      dayNum ⟨a.year, a.month, a.day⟩ := dayNum_lt hb.1 ha.1
  obtain ⟨va, ta⟩ := ha
  obtain ⟨vb, tb⟩ := hb
  have htri := Date.earlier_trichotomy ⟨a.year, a.month, a.day⟩ ⟨b.year, b.month, b.day⟩
  unfold DateTime.lt
  rcases htri with h | h | h
  · have := h1 h
    unfold Earlier at h
    constructor
    · intro _; omega
    · intro _
      simp only at h
      by_cases y : a.year = b.year <;> by_cases m : a.month = b.month <;> by_cases d : a.day = b.day <;>
        simp [y, m, d] at h ⊢ <;> omega
  · simp only [Date.mk.injEq] at h
    obtain ⟨y, m, d⟩ := h
    rw [y, m, d] at hs
    by_cases hh : a.hour = b.hour <;> by_cases mm : a.minute = b.minute <;> by_cases ss : a.sec = b.sec <;>
      simp [y, m, d, hh, mm, ss, hm] <;> omega
  · have := h2 h
    unfold Earlier at h
    constructor
    · intro hl
      exfalso
      simp only at h
      by_cases y : a.year = b.year <;> by_cases m : a.month = b.month <;> by_cases d : a.day = b.day <;>
        simp [y, m, d] at h hl <;> omega
    · intro _; omega

/-- C05: shifting a datetime by an offset moves its second count by the offset and keeps the
microseconds; the result exists in the calendar. -/
theorem C05_shift_seconds (d : DateTime) (h : ValidDT d) (s off : Int)
    (hs : dateTimeToUnixSeconds d = some s) (h0 : -1096225401600 ≤ s + off) (h1 : s + off ≤ 971890963199) :
    ∃ e, dateTimeShift d off = some e ∧ ValidDT e ∧ e.microsec = d.microsec ∧
      dateTimeToUnixSeconds e = some (s + off) := by
  unfold dateTimeShift
  by_cases hz : off = 0
  · subst hz
    exact ⟨d, by simp, h, rfl, by simpa using hs⟩
  · obtain ⟨e, e1, e2, e3, e4⟩ := C04_seconds_roundtrip (s + off) h0 h1
    rw [if_neg hz, hs]
    simp only [e1, Option.map_some]
    refine ⟨_, rfl, e2, rfl, ?_⟩
    rw [← e4]
    rfl

/-- C05: datetime shifts compose additively; in particular a shift is undone by the opposite one. -/
theorem C05_shift_compose (d e : DateTime) (h : ValidDT d) (s a b : Int)
    (hs : dateTimeToUnixSeconds d = some s)
    (ha : -1096225401600 ≤ s + a ∧ s + a ≤ 971890963199)
    (hb : -1096225401600 ≤ s + a + b ∧ s + a + b ≤ 971890963199)
    (he : dateTimeShift d a = some e) : dateTimeShift e b = dateTimeShift d (a + b) := by
  obtain ⟨e', e1, e2, e3, e4⟩ := C05_shift_seconds d h s a hs ha.1 ha.2
  rw [e1] at he; cases Option.some.inj he
  obtain ⟨f, f1, f2, f3, f4⟩ := C05_shift_seconds e e2 (s + a) b e4 hb.1 hb.2
  obtain ⟨g, g1, g2, g3, g4⟩ := C05_shift_seconds d h s (a + b) hs (by omega) (by omega)
  rw [f1, g1]
  obtain ⟨x, x1, _, _, x4⟩ := C04_datetime_roundtrip f f2
  obtain ⟨y, y1, _, _, y4⟩ := C04_datetime_roundtrip g g2
  rw [f4] at x1; rw [g4] at y1
  have hx := Option.some.inj x1
  have hy := Option.some.inj y1
  have : x = y := by omega
  rw [this, y4] at x4
  have := Option.some.inj x4
  have hmic : f.microsec = g.microsec := by rw [f3, e3, g3]
  cases f; cases g; simp_all

theorem C05_shift_inverse (d e : DateTime) (h : ValidDT d) (s a : Int)
    (hs : dateTimeToUnixSeconds d = some s)
    (ha : -1096225401600 ≤ s + a ∧ s + a ≤ 971890963199)
    (he : dateTimeShift d a = some e) : dateTimeShift e (-a) = some d := by
  obtain ⟨x, x1, x2, x3, _⟩ := C04_datetime_roundtrip d h
  rw [hs] at x1
  have hx := Option.some.inj x1
  rw [C05_shift_compose d e h s a (-a) hs ha (by omega) he]
  simp [dateTimeShift, show a + -a = 0 by omega]

example : dateTimeShift ⟨2021, 3, 1, 1, 30, 0, 5⟩ (-7200) = some ⟨2021, 2, 28, 23, 30, 0, 5⟩ := by decide +kernel

/-- C05: shifting a time of day adds the offset modulo one day and keeps the microseconds. -/
theorem C05_time_shift (t : Time) (h : ValidTime t) (off : Int)
    (h0 : -1096225401600 ≤ off) (h1 : off ≤ 971890876799) :
    ∃ r, timeShift t off = some r ∧ ValidTime r ∧ r.microsec = t.microsec ∧
      timeToSeconds r = (timeToSeconds t + off) % 86400 := by
  obtain ⟨a, b, c, d, e, f⟩ := h
  unfold timeShift
  by_cases hz : off = 0
  · subst hz
    refine ⟨t, by simp, ⟨a, b, c, d, e, f⟩, rfl, ?_⟩
    unfold timeToSeconds; omega
  · rw [if_neg hz]
    unfold unixSecondsToTime
    have hb : 0 ≤ timeToSeconds t ∧ timeToSeconds t < 86400 := by unfold timeToSeconds; omega
    obtain ⟨g, g1, g2, g3, g4⟩ := unix_spec (s := timeToSeconds t + off)
      (by rw [lo_eq]; omega) (by rw [hi_eq]; omega)
    rw [g1]
    obtain ⟨_, i1, i2, i3, i4, i5, i6⟩ := g2
    have w1 : wrapI8 g.hour = g.hour := by unfold wrapI8; omega
    have w2 : wrapI8 g.minute = g.minute := by unfold wrapI8; omega
    have w3 : wrapI8 g.sec = g.sec := by unfold wrapI8; omega
    simp only [Option.map_some, w1, w2, w3]
    refine ⟨_, rfl, ⟨i1, i2, i3, i4, i5, i6⟩, rfl, ?_⟩
    rw [← g4]
    unfold timeToSeconds
    simp only
    omega

/-- C05: shifts of a time of day compose, and the opposite shift undoes a shift. -/
theorem C05_time_shift_compose (t r : Time) (h : ValidTime t) (a b : Int)
    (ha : -500000000000 ≤ a ∧ a ≤ 480000000000) (hb : -500000000000 ≤ b ∧ b ≤ 480000000000)
    (hr : timeShift t a = some r) :
    timeShift r b = timeShift t (a + b) ∧ timeShift r (-a) = some t := by
  obtain ⟨r', e1, e2, e3, e4⟩ := C05_time_shift t h a (by omega) (by omega)
  rw [e1] at hr; cases Option.some.inj hr
  have inj : ∀ x y : Time, ValidTime x → ValidTime y → x.microsec = y.microsec →
      timeToSeconds x = timeToSeconds y → x = y := by
    intro x y hx hy hm hs
    unfold ValidTime at hx hy
    unfold timeToSeconds at hs
    cases x; cases y
    simp only [Time.mk.injEq] at *
    omega
  constructor
  · obtain ⟨x, x1, x2, x3, x4⟩ := C05_time_shift r e2 b (by omega) (by omega)
    obtain ⟨y, y1, y2, y3, y4⟩ := C05_time_shift t h (a + b) (by omega) (by omega)
    rw [x1, y1, inj x y x2 y2 (by rw [x3, y3, e3]) (by omega)]
  · obtain ⟨x, x1, x2, x3, x4⟩ := C05_time_shift r e2 (-a) (by omega) (by omega)
    have hb : 0 ≤ timeToSeconds t ∧ timeToSeconds t < 86400 := by
      unfold ValidTime at h; unfold timeToSeconds; omega
    rw [x1, inj x t x2 h (by rw [x3, e3]) (by omega)]

example : timeShift ⟨23, 30, 0, 9⟩ 3600 = some ⟨0, 30, 0, 9⟩ := by decide +kernel

/-- C05, date part: shifting a Date is *not* invertible in the code, because the time of day is
dropped: one hour back and one hour forth loses a day. -/
theorem C05_date_shift_violated :
    ∃ d e f : Date, ValidDate leapGreg d ∧ dateShift d (-3600) = some e ∧
      dateShift e 3600 = some f ∧ f ≠ d :=
  ⟨⟨2021, 3, 1⟩, ⟨2021, 2, 28⟩, ⟨2021, 2, 28⟩, by decide, by decide +kernel, by decide +kernel, by decide⟩

/-- C05, date part that does hold: shifting by a whole number of days is exact and invertible. -/
theorem C05_date_shift_partial (d : Date) (h : ValidDate leapGreg d) (s k : Int)
    (hs : dateToUnixSeconds d = some s)
    (h0 : -1096225401600 ≤ s + 86400 * k) (h1 : s + 86400 * k ≤ 971890963199) :
    ∃ e, dateShift d (86400 * k) = some e ∧ ValidDate leapGreg e ∧
      dateToUnixSeconds e = some (s + 86400 * k) ∧ dateShift e (-(86400 * k)) = some d := by
  have step : ∀ (d : Date) (k : Int), ValidDate leapGreg d →
      -1096225401600 ≤ 86400 * dayNum d + 86400 * k → 86400 * dayNum d + 86400 * k ≤ 971890963199 →
      ∃ e, dateShift d (86400 * k) = some e ∧ ValidDate leapGreg e ∧ dayNum e = dayNum d + k := by
    intro d k h h0 h1
    unfold dateShift
    by_cases hz : 86400 * k = 0
    · exact ⟨d, by simp [hz], h, by omega⟩
    · rw [if_neg hz, dateSeconds h]
      simp only [unixSecondsToDate]
      obtain ⟨g, g1, g2, g3, g4⟩ := unix_spec (s := 86400 * dayNum d + 86400 * k)
        (by rw [lo_eq]; omega) (by rw [hi_eq]; omega)
      rw [g1]
      obtain ⟨v, i⟩ := g2
      have v' := v
      obtain ⟨y1, y2, m1, m2, d1, d2⟩ := v
      have := Date.monthLen_pos leapGreg g.year m1 m2
      simp only at y1 y2 m1 m2 d1 d2 this
      have w1 : wrapI16 g.year = g.year := by unfold wrapI16; omega
      have w2 : wrapI8 g.month = g.month := by unfold wrapI8; omega
      have w3 : wrapI8 g.day = g.day := by unfold wrapI8; omega
      simp only [Option.map_some, Date.mk', w1, w2, w3]
      refine ⟨_, rfl, v', ?_⟩
      omega
  rw [dateSeconds h] at hs
  have hs := Option.some.inj hs
  obtain ⟨e, e1, e2, e3⟩ := step d k h (by omega) (by omega)
  have hr := dayNum_range h
  have := lo_eq
  have := hi_eq
  obtain ⟨f, f1, f2, f3⟩ := step e (-k) e2 (by omega) (by omega)
  refine ⟨e, e1, e2, by rw [dateSeconds e2]; congr 1; omega, ?_⟩
  rw [show -(86400 * k) = 86400 * -k by omega, f1, dayNum_inj f2 h (by omega)]

/-! ## C06 -/

theorem validated_iff {α : Type} (y m d : Int) (a r : α) (h1 : 1 ≤ m) (h2 : m ≤ 12) (hd : 1 ≤ d)
    (hy : -32768 ≤ y ∧ y ≤ 32767) :
    (validated y m d a = .ok r ↔ r = a ∧ ValidDate leapGreg ⟨y, m, d⟩) ∧ validated y m d a ≠ .ub := by
  unfold validated validateYMD
  simp only [isLeapYear_eq, tbl_bool]
  rw [arrAt_before _ h1 (by omega), arrAt_before' _ h1 h2]
  have hs := before_succ leapGreg y h1 h2
  simp only
  by_cases h : before (leapGreg y) (m + 1) - before (leapGreg y) m < d
  · simp only [h, decide_true, Bool.not_true]
    refine ⟨⟨by simp, ?_⟩, by simp⟩
    rintro ⟨_, v⟩
    have := v.2.2.2.2.2
    simp only at this
    omega
  · simp only [h, decide_false, Bool.not_false]
    refine ⟨⟨?_, ?_⟩, by simp⟩
    · intro e
      cases e
      exact ⟨rfl, hy.1, hy.2, h1, h2, hd, by simp only; omega⟩
    · rintro ⟨rfl, _⟩; rfl

theorem comp_cons_ne {k k' : String} {v : Option Int} {m : List (String × Option Int)} {x : Int}
    (h : k ≠ k') : comp ((k', v) :: m) k x = comp m k x := by
  have : (k == k') = false := by simpa using h
  unfold comp; simp [List.lookup, this]

theorem comp_cons_eq {k : String} {i : Int} {m : List (String × Option Int)} {x : Int} :
    comp ((k, some i) :: m) k x = i := by
  unfold comp; simp [List.lookup]

theorem comp_not_mem {k : String} {m : List (String × Option Int)} {x : Int}
    (h : k ∉ m.map Prod.fst) : comp m k x = x := by
  induction m with
  | nil => rfl
  | cons p m ih =>
    obtain ⟨k', v⟩ := p
    simp only [List.map_cons, List.mem_cons, not_or] at h
    rw [comp_cons_ne h.1]; exact ih h.2

theorem comp_range {range : String → Option (Int × Int)} {m : List (String × Option Int)}
    (h : ∀ kv ∈ m, Acceptable range kv) {k : String} {lo hi x : Int} (hk : range k = some (lo, hi))
    (hx : lo ≤ x ∧ x ≤ hi) : lo ≤ comp m k x ∧ comp m k x ≤ hi := by
  induction m with
  | nil => simpa [comp] using hx
  | cons p m ih =>
    obtain ⟨k', v⟩ := p
    have h1 := h (k', v) (by simp)
    have h2 := ih (fun kv hkv => h kv (by simp [hkv]))
    by_cases hkk : k = k'
    · subst hkk
      obtain ⟨i, lo', hi', e1, e2, e3, e4⟩ := h1
      simp only at e1 e2
      rw [hk] at e2; cases e2
      rw [e1, comp_cons_eq]; exact ⟨e3, e4⟩
    · rw [comp_cons_ne hkk]; exact h2

/-- The generic loop lemma: `set` accepts exactly the acceptable entries and then changes exactly
the named component; `get` reads components and determines the object. -/
theorem mapLoop_iff {α : Type} (set : α → String → Option Int → R α)
    (range : String → Option (Int × Int)) (get : α → String → Int)
    (hset : ∀ a k v, (∃ a', set a k v = .ok a') ↔ Acceptable range (k, v))
    (hub : ∀ a k v, set a k v ≠ .ub)
    (hput : ∀ a a' k i, set a k (some i) = .ok a' →
      ∀ f, (range f).isSome → get a' f = if f = k then i else get a f)
    (hext : ∀ a b, (∀ f, (range f).isSome → get a f = get b f) → a = b)
    (m : List (String × Option Int)) (hn : (m.map Prod.fst).Nodup) (a r : α) :
    (mapLoop set a m = .ok r ↔
      (∀ kv ∈ m, Acceptable range kv) ∧ ∀ f, (range f).isSome → get r f = comp m f (get a f)) ∧
    mapLoop set a m ≠ .ub := by
  induction m generalizing a with
  | nil =>
    refine ⟨?_, by simp [mapLoop]⟩
    simp only [mapLoop, R.ok.injEq, List.not_mem_nil, false_implies, implies_true, true_and]
    constructor
    · rintro rfl; intro f _; rfl
    · intro h; exact (hext r a h).symm
  | cons p m ih =>
    obtain ⟨k, v⟩ := p
    simp only [List.map_cons, List.nodup_cons] at hn
    simp only [mapLoop, List.forall_mem_cons]
    cases hs : set a k v with
    | error =>
      refine ⟨⟨by simp, ?_⟩, by simp⟩
      rintro ⟨⟨h, _⟩, _⟩
      obtain ⟨a', ha⟩ := (hset a k v).mpr h
      rw [hs] at ha; cases ha
    | ub => exact absurd hs (hub a k v)
    | ok a' =>
      simp only
      have hacc := (hset a k v).mp ⟨a', hs⟩
      obtain ⟨i, _, _, hv, _⟩ := id hacc
      simp only at hv
      subst hv
      have hp := hput a a' k i hs
      obtain ⟨ih1, ih2⟩ := ih hn.2 a'
      refine ⟨?_, ih2⟩
      rw [ih1]
      have hfe : (∀ f, (range f).isSome → get r f = comp m f (get a' f)) ↔
          (∀ f, (range f).isSome → get r f = comp ((k, some i) :: m) f (get a f)) := by
        have : ∀ f, (range f).isSome → comp m f (get a' f) = comp ((k, some i) :: m) f (get a f) := by
          intro f hf
          rw [hp f hf]
          by_cases hfk : f = k
          · subst hfk; rw [comp_cons_eq, comp_not_mem hn.1]; simp
          · rw [comp_cons_ne hfk]; simp [hfk]
        constructor
        · intro h f hf; rw [h f hf, this f hf]
        · intro h f hf; rw [h f hf, this f hf]
      rw [hfe]
      constructor
      · rintro ⟨x, y⟩; exact ⟨⟨hacc, x⟩, y⟩
      · rintro ⟨⟨_, x⟩, y⟩; exact ⟨x, y⟩

theorem acceptable_some {range : String → Option (Int × Int)} {k : String} {lo hi : Int} {i : Int}
    (h : range k = some (lo, hi)) : Acceptable range (k, some i) ↔ lo ≤ i ∧ i ≤ hi := by
  unfold Acceptable
  constructor
  · rintro ⟨i', lo', hi', e1, e2, e3⟩
    simp only at e1 e2
    rw [h] at e2; cases e2; cases e1; exact e3
  · intro hh; exact ⟨i, lo, hi, rfl, h, hh⟩

theorem not_acceptable_none {range : String → Option (Int × Int)} {k : String} :
    ¬ Acceptable range (k, none) := by
  rintro ⟨i, _, _, h, _⟩; cases h

theorem not_acceptable_key {range : String → Option (Int × Int)} {k : String} {v : Option Int}
    (h : range k = none) : ¬ Acceptable range (k, v) := by
  rintro ⟨i, _, _, _, h', _⟩; simp only at h'; rw [h] at h'; cases h'

def Date.get (d : Date) (f : String) : Int :=
  if f = "year" then d.year else if f = "month" then d.month else d.day
def Time.get (t : Time) (f : String) : Int :=
  if f = "hour" then t.hour else if f = "minute" then t.minute else if f = "second" then t.sec
  else t.microsec
def DateTime.get (d : DateTime) (f : String) : Int :=
  if f = "year" then d.year else if f = "month" then d.month else if f = "day" then d.day
  else if f = "hour" then d.hour else if f = "minute" then d.minute else if f = "second" then d.sec
  else d.microsec

/-- All components of a datetime. -/
def dateTimeRange (k : String) : Option (Int × Int) := (dateRange k).or (timeRange k)

theorem dateRange_keys {f : String} (h : (dateRange f).isSome) : f = "year" ∨ f = "month" ∨ f = "day" := by
  unfold dateRange at h; split at h <;> simp_all
theorem timeRange_keys {f : String} (h : (timeRange f).isSome) :
    f = "hour" ∨ f = "minute" ∨ f = "second" ∨ f = "microsecond" := by
  unfold timeRange at h; split at h <;> simp_all
theorem dateTimeRange_keys {f : String} (h : (dateTimeRange f).isSome) :
    f = "year" ∨ f = "month" ∨ f = "day" ∨ f = "hour" ∨ f = "minute" ∨ f = "second" ∨ f = "microsecond" := by
  unfold dateTimeRange at h
  rw [Option.isSome_or, Bool.or_eq_true] at h
  rcases h with h | h
  · rcases dateRange_keys h with h | h | h <;> simp [h]
  · rcases timeRange_keys h with h | h | h | h <;> simp [h]
theorem none_of_not_keys {range : String → Option (Int × Int)} {f : String} (h : ¬ (range f).isSome = true) :
    range f = none := by simpa using h

theorem dateSet_facts :
    (∀ a k v, (∃ a', dateSet a k v = .ok a') ↔ Acceptable dateRange (k, v)) ∧
    (∀ a k v, dateSet a k v ≠ .ub) ∧
    (∀ a a' k i, dateSet a k (some i) = .ok a' →
      ∀ f, (dateRange f).isSome → a'.get f = if f = k then i else a.get f) ∧
    (∀ a b : Date, (∀ f, (dateRange f).isSome → a.get f = b.get f) → a = b) := by
  refine ⟨?_, ?_, ?_, ?_⟩
  · intro a k v
    cases v with
    | none => simp [dateSet, not_acceptable_none]
    | some i =>
      by_cases hk : (dateRange k).isSome = true
      · rcases dateRange_keys hk with h | h | h <;> subst h <;>
          rw [acceptable_some (by rfl)] <;> simp only [dateSet] <;> simp <;>
          split <;> simp <;> omega
      · simp only [not_acceptable_key (none_of_not_keys hk), iff_false]
        rintro ⟨a', h⟩
        simp only [dateSet] at h
        apply hk
        repeat' split at h
        all_goals first | cases h | skip
        all_goals simp_all [dateRange]
  · intro a k v; cases v with
    | none => simp [dateSet]
    | some i => simp only [dateSet]; repeat' split
                all_goals simp
  · intro a a' k i h f hf
    simp only [dateSet] at h
    repeat' split at h
    all_goals first | cases h | skip
    all_goals (subst_vars; rcases dateRange_keys hf with e | e | e <;> subst e <;> simp [Date.get])
  · intro a b h
    have h1 := h "year" rfl
    have h2 := h "month" rfl
    have h3 := h "day" rfl
    simp [Date.get] at h1 h2 h3
    cases a; cases b; simp_all

theorem timeSet_facts :
    (∀ a k v, (∃ a', timeSet a k v = .ok a') ↔ Acceptable timeRange (k, v)) ∧
    (∀ a k v, timeSet a k v ≠ .ub) ∧
    (∀ a a' k i, timeSet a k (some i) = .ok a' →
      ∀ f, (timeRange f).isSome → a'.get f = if f = k then i else a.get f) ∧
    (∀ a b : Time, (∀ f, (timeRange f).isSome → a.get f = b.get f) → a = b) := by
  refine ⟨?_, ?_, ?_, ?_⟩
  · intro a k v
    cases v with
    | none => simp [timeSet, not_acceptable_none]
    | some i =>
      by_cases hk : (timeRange k).isSome = true
      · rcases timeRange_keys hk with h | h | h | h <;> subst h <;>
          rw [acceptable_some (by rfl)] <;> simp only [timeSet] <;> simp <;>
          split <;> simp <;> omega
      · simp only [not_acceptable_key (none_of_not_keys hk), iff_false]
        rintro ⟨a', h⟩
        simp only [timeSet] at h
        apply hk
        repeat' split at h
        all_goals first | cases h | skip
        all_goals simp_all [timeRange]
  · intro a k v; cases v with
    | none => simp [timeSet]
    | some i => simp only [timeSet]; repeat' split
                all_goals simp
  · intro a a' k i h f hf
    simp only [timeSet] at h
    repeat' split at h
    all_goals first | cases h | skip
    all_goals (subst_vars; rcases timeRange_keys hf with e | e | e | e <;> subst e <;> simp [Time.get])
  · intro a b h
    have h1 := h "hour" rfl
    have h2 := h "minute" rfl
    have h3 := h "second" rfl
    have h4 := h "microsecond" rfl
    simp [Time.get] at h1 h2 h3 h4
    cases a; cases b; simp_all

theorem dateTimeSet_facts :
    (∀ a k v, (∃ a', dateTimeSet a k v = .ok a') ↔ Acceptable dateTimeRange (k, v)) ∧
    (∀ a k v, dateTimeSet a k v ≠ .ub) ∧
    (∀ a a' k i, dateTimeSet a k (some i) = .ok a' →
      ∀ f, (dateTimeRange f).isSome → a'.get f = if f = k then i else a.get f) ∧
    (∀ a b : DateTime, (∀ f, (dateTimeRange f).isSome → a.get f = b.get f) → a = b) := by
  refine ⟨?_, ?_, ?_, ?_⟩
  · intro a k v
    cases v with
    | none => simp [dateTimeSet, not_acceptable_none]
    | some i =>
      by_cases hk : (dateTimeRange k).isSome = true
      · rcases dateTimeRange_keys hk with h | h | h | h | h | h | h <;> subst h <;>
          rw [acceptable_some (by rfl)] <;> simp only [dateTimeSet] <;> simp <;>
          split <;> simp <;> omega
      · simp only [not_acceptable_key (none_of_not_keys hk), iff_false]
        rintro ⟨a', h⟩
        simp only [dateTimeSet] at h
        apply hk
        repeat' split at h
        all_goals first | cases h | skip
        all_goals simp_all [dateTimeRange, dateRange, timeRange]
  · intro a k v; cases v with
    | none => simp [dateTimeSet]
    | some i => simp only [dateTimeSet]; repeat' split
                all_goals simp
  · intro a a' k i h f hf
    simp only [dateTimeSet] at h
    repeat' split at h
    all_goals first | cases h | skip
    all_goals (subst_vars; rcases dateTimeRange_keys hf with e | e | e | e | e | e | e <;> subst e <;> simp [DateTime.get])
  · intro a b h
    have h1 := h "year" rfl
    have h2 := h "month" rfl
    have h3 := h "day" rfl
    have h4 := h "hour" rfl
    have h5 := h "minute" rfl
    have h6 := h "second" rfl
    have h7 := h "microsecond" rfl
    simp [DateTime.get] at h1 h2 h3 h4 h5 h6 h7
    cases a; cases b; simp_all

/-- A map entry list as iterated by the code has distinct keys (it is an `unordered_map`). -/
def MapEntries (m : List (String × Option Int)) : Prop := (m.map Prod.fst).Nodup

/-- C06: a date is built from a map exactly if every entry names a date component and gives it an
integer in its range and the day exists in the Gregorian calendar; it consists of the given
components, with default 0000-01-01; no input leads to undefined behaviour. -/
theorem C06_date_from_map (m : List (String × Option Int)) (hm : MapEntries m) (r : Date) :
    (dateFromMap m = .ok r ↔
      (∀ kv ∈ m, Acceptable dateRange kv) ∧
      r = ⟨comp m "year" 0, comp m "month" 1, comp m "day" 1⟩ ∧ ValidDate leapGreg r) ∧
    dateFromMap m ≠ .ub := by
  obtain ⟨f1, f2, f3, f4⟩ := dateSet_facts
  have hl := fun r => mapLoop_iff dateSet dateRange Date.get f1 f2 f3 f4 m hm Date.default r
  have hfld : ∀ r : Date, (∀ f, (dateRange f).isSome → r.get f = comp m f (Date.default.get f)) ↔
      r = ⟨comp m "year" 0, comp m "month" 1, comp m "day" 1⟩ := by
    intro r
    constructor
    · intro h
      have h1 := h "year" rfl
      have h2 := h "month" rfl
      have h3 := h "day" rfl
      simp [Date.get, Date.default] at h1 h2 h3
      cases r; simp_all
    · rintro rfl f hf
      rcases dateRange_keys hf with e | e | e <;> subst e <;> simp [Date.get, Date.default]
  unfold dateFromMap
  cases hr : mapLoop dateSet Date.default m with
  | error =>
    refine ⟨⟨by simp, ?_⟩, by simp⟩
    rintro ⟨h1, h2, _⟩
    have := (hl r).1.mpr ⟨h1, (hfld r).mpr h2⟩
    rw [hr] at this; cases this
  | ub => exact absurd hr (hl r).2
  | ok d =>
    obtain ⟨h1, h2⟩ := (hl d).1.mp hr
    have h2 := (hfld d).mp h2
    have ry := comp_range h1 (k := "year") (x := 0) rfl (by omega)
    have rm := comp_range h1 (k := "month") (x := 1) rfl (by omega)
    have rd := comp_range h1 (k := "day") (x := 1) rfl (by omega)
    have hv := validated_iff d.year d.month d.day d r (by rw [h2]; exact rm.1) (by rw [h2]; exact rm.2)
      (by rw [h2]; exact rd.1) (by rw [h2]; exact ry)
    refine ⟨?_, hv.2⟩
    simp only
    rw [hv.1]
    constructor
    · rintro ⟨rfl, v⟩; exact ⟨h1, h2, v⟩
    · rintro ⟨_, e, v⟩
      have : r = d := by rw [e, h2]
      subst this
      exact ⟨rfl, v⟩

example : dateFromMap [("day", some 29), ("year", some 2020), ("month", some 2)] = .ok ⟨2020, 2, 29⟩ := by decide
example : dateFromMap [("day", some 29), ("year", some 1900), ("month", some 2)] = .error := by decide
example : dateFromMap [("hour", some 1)] = .error ∧ dateFromMap [("day", none)] = .error := by decide
example : MapEntries [("day", some 29), ("year", some 2020), ("month", some 2)] := by unfold MapEntries; decide

/-- C06: the same for datetimes. -/
theorem C06_datetime_from_map (m : List (String × Option Int)) (hm : MapEntries m) (r : DateTime) :
    (dateTimeFromMap m = .ok r ↔
      (∀ kv ∈ m, Acceptable dateRange kv ∨ Acceptable timeRange kv) ∧
      r = ⟨comp m "year" 0, comp m "month" 1, comp m "day" 1, comp m "hour" 0, comp m "minute" 0,
           comp m "second" 0, comp m "microsecond" 0⟩ ∧ ValidDT r) ∧
    dateTimeFromMap m ≠ .ub := by
  have hacc : ∀ kv, (Acceptable dateRange kv ∨ Acceptable timeRange kv) ↔ Acceptable dateTimeRange kv := by
    rintro ⟨k, v⟩
    cases v with
    | none => simp [not_acceptable_none]
    | some i =>
      by_cases h : (dateTimeRange k).isSome
      · rcases dateTimeRange_keys h with h | h | h | h | h | h | h <;> subst h
        · rw [acceptable_some (range := dateRange) (by rfl), acceptable_some (range := dateTimeRange) (by rfl)]
          simp [not_acceptable_key (range := timeRange) (k := "year") (by rfl)]
        · rw [acceptable_some (range := dateRange) (by rfl), acceptable_some (range := dateTimeRange) (by rfl)]
          simp [not_acceptable_key (range := timeRange) (k := "month") (by rfl)]
        · rw [acceptable_some (range := dateRange) (by rfl), acceptable_some (range := dateTimeRange) (by rfl)]
          simp [not_acceptable_key (range := timeRange) (k := "day") (by rfl)]
        · rw [acceptable_some (range := timeRange) (by rfl), acceptable_some (range := dateTimeRange) (by rfl)]
          simp [not_acceptable_key (range := dateRange) (k := "hour") (by rfl)]
        · rw [acceptable_some (range := timeRange) (by rfl), acceptable_some (range := dateTimeRange) (by rfl)]
          simp [not_acceptable_key (range := dateRange) (k := "minute") (by rfl)]
        · rw [acceptable_some (range := timeRange) (by rfl), acceptable_some (range := dateTimeRange) (by rfl)]
          simp [not_acceptable_key (range := dateRange) (k := "second") (by rfl)]
        · rw [acceptable_some (range := timeRange) (by rfl), acceptable_some (range := dateTimeRange) (by rfl)]
          simp [not_acceptable_key (range := dateRange) (k := "microsecond") (by rfl)]
      · have hn := none_of_not_keys h
        unfold dateTimeRange at hn
        rw [Option.or_eq_none_iff] at hn
        simp [not_acceptable_key hn.1, not_acceptable_key hn.2, not_acceptable_key (none_of_not_keys h)]
  simp only [hacc]
  obtain ⟨f1, f2, f3, f4⟩ := dateTimeSet_facts
  have hl := fun r => mapLoop_iff dateTimeSet dateTimeRange DateTime.get f1 f2 f3 f4 m hm DateTime.default r
  have hfld : ∀ r : DateTime, (∀ f, (dateTimeRange f).isSome → r.get f = comp m f (DateTime.default.get f)) ↔
      r = ⟨comp m "year" 0, comp m "month" 1, comp m "day" 1, comp m "hour" 0, comp m "minute" 0,
           comp m "second" 0, comp m "microsecond" 0⟩ := by
    intro r
    constructor
    · intro h
      have h1 := h "year" rfl
      have h2 := h "month" rfl
      have h3 := h "day" rfl
      have h4 := h "hour" rfl
      have h5 := h "minute" rfl
      have h6 := h "second" rfl
      have h7 := h "microsecond" rfl
      simp [DateTime.get, DateTime.default] at h1 h2 h3 h4 h5 h6 h7
      cases r; simp_all
    · rintro rfl f hf
      rcases dateTimeRange_keys hf with e | e | e | e | e | e | e <;> subst e <;>
        simp [DateTime.get, DateTime.default]
  unfold dateTimeFromMap
  cases hr : mapLoop dateTimeSet DateTime.default m with
  | error =>
    refine ⟨⟨by simp, ?_⟩, by simp⟩
    rintro ⟨h1, h2, _⟩
    have := (hl r).1.mpr ⟨h1, (hfld r).mpr h2⟩
    rw [hr] at this; cases this
  | ub => exact absurd hr (hl r).2
  | ok d =>
    obtain ⟨h1, h2⟩ := (hl d).1.mp hr
    have h2 := (hfld d).mp h2
    have ry := comp_range h1 (k := "year") (x := 0) rfl (by omega)
    have rm := comp_range h1 (k := "month") (x := 1) rfl (by omega)
    have rd := comp_range h1 (k := "day") (x := 1) rfl (by omega)
    have rh := comp_range h1 (k := "hour") (x := 0) rfl (by omega)
    have ri := comp_range h1 (k := "minute") (x := 0) rfl (by omega)
    have rs := comp_range h1 (k := "second") (x := 0) rfl (by omega)
    have hv := validated_iff d.year d.month d.day d r (by rw [h2]; exact rm.1) (by rw [h2]; exact rm.2)
      (by rw [h2]; exact rd.1) (by rw [h2]; exact ry)
    refine ⟨?_, hv.2⟩
    simp only
    rw [hv.1]
    constructor
    · rintro ⟨rfl, v⟩
      exact ⟨h1, h2, v, by rw [h2]; exact ⟨rh.1, rh.2, ri.1, ri.2, rs.1, rs.2⟩⟩
    · rintro ⟨_, e, v⟩
      have : r = d := by rw [e, h2]
      subst this
      exact ⟨rfl, v.1⟩

example : dateTimeFromMap [("second", some 59), ("year", some 2020), ("month", some 2), ("day", some 29)] =
    .ok ⟨2020, 2, 29, 0, 0, 59, 0⟩ := by decide

/-- C06: the same for times of day. -/
theorem C06_time_from_map (m : List (String × Option Int)) (hm : MapEntries m) (r : Time) :
    (timeFromMap m = .ok r ↔
      (∀ kv ∈ m, Acceptable timeRange kv) ∧
      r = ⟨comp m "hour" 0, comp m "minute" 0, comp m "second" 0, comp m "microsecond" 0⟩) ∧
    timeFromMap m ≠ .ub := by
  obtain ⟨f1, f2, f3, f4⟩ := timeSet_facts
  have hl := mapLoop_iff timeSet timeRange Time.get f1 f2 f3 f4 m hm Time.default r
  refine ⟨?_, hl.2⟩
  unfold timeFromMap
  rw [hl.1]
  refine and_congr_right fun _ => ?_
  constructor
  · intro h
    have h1 := h "hour" rfl
    have h2 := h "minute" rfl
    have h3 := h "second" rfl
    have h4 := h "microsecond" rfl
    simp [Time.get, Time.default] at h1 h2 h3 h4
    cases r; simp_all
  · rintro rfl f hf
    rcases timeRange_keys hf with e | e | e | e <;> subst e <;> simp [Time.get, Time.default]

example : timeFromMap [("minute", some 59), ("microsecond", some 999999)] = .ok ⟨0, 59, 0, 999999⟩ := by decide

/-! ## C07: two calendars -/

/-- C07 is violated: 2100-02-28 is accepted by the date validator, the next day computed by Date
arithmetic is 2100-02-29, and the validator rejects that. -/
theorem C07_closed_under_add_violated :
    ∃ d e : Date, validateYMD d.year d.month d.day = some true ∧ d.add 1 = some e ∧
      validateYMD e.year e.month e.day = some false :=
  ⟨⟨2100, 2, 28⟩, ⟨2100, 2, 29⟩, by decide, by decide, by decide⟩

/-- C07: consequently the same day has different distances in the two conversions: Date arithmetic
puts 2100-03-01 two days after 2100-02-28, the Unix-time conversion one day. -/
theorem C07_calendars_disagree_violated :
    ∃ d e : Date, ValidDate leapGreg d ∧ ValidDate leapGreg e ∧
      d.toInt.bind (fun m => e.toInt.map (· - m)) = some 2 ∧
      (dateToUnixSeconds d).bind (fun m => (dateToUnixSeconds e).map (· - m)) = some 86400 :=
  ⟨⟨2100, 2, 28⟩, ⟨2100, 3, 1⟩, by decide, by decide, by decide, by decide⟩

/-- C07, what holds: in the years 1901 to 2099 the two calendars agree, so Date arithmetic between
two days of that period (shifts up to 73000 days, more than the period has) stays valid and agrees with the
Unix-time conversion. -/
theorem C07_agree_1901_2099_partial (d e : Date) (n : Int) (hd : ValidDate leapGreg d)
    (hy : 1901 ≤ d.year ∧ d.year ≤ 2099) (h : d.add n = some e)
    (he : 1901 ≤ e.year ∧ e.year ≤ 2099) (hn : -73000 ≤ n ∧ n ≤ 73000) :
    ValidDate leapGreg e ∧ ∃ s, dateToUnixSeconds d = some s ∧
      dateToUnixSeconds e = some (s + 86400 * n) := by
  have hl : ∀ y : Int, 1901 ≤ y ∧ y ≤ 2099 → leapGreg y = leap4 y := by
    intro y hy
    rcases leapGreg_cases y with ⟨a, b, c⟩ | ⟨a, b⟩ <;>
      rcases Date.leap4_eq y with ⟨c, d⟩ | ⟨c, d⟩ <;> rw [a, c] <;> omega
  have hml : ∀ y m : Int, 1901 ≤ y ∧ y ≤ 2099 → monthLen leapGreg y m = monthLen leap4 y m := by
    intro y m h; unfold monthLen; rw [hl y h]
  have vd : ValidDate leap4 d := by
    unfold ValidDate at *; rw [← hml d.year d.month hy]; exact hd
  have hr := Date.num_range vd
  have hk := Date.toInt_valid vd
  have hin : 0 ≤ d.num + n ∧ d.num + n ≤ 23937023 := by
    have := Date.day_in_year _ vd
    have hl' := Date.leap4_eq d.year
    unfold Date.num
    simp only
    omega
  obtain ⟨f, f1, f2, f3⟩ := Date.fromInt_spec hin.1 hin.2
  have hef : e = f := by
    unfold Date.add at h
    rw [hk] at h
    simp only at h
    rw [if_pos (by omega), f1] at h
    exact (Option.some.inj h).symm
  subst hef
  have ve : ValidDate leapGreg e := by
    unfold ValidDate at *; rw [hml e.year e.month he]; exact f2
  refine ⟨ve, _, dateSeconds hd, ?_⟩
  rw [dateSeconds ve]
  congr 1
  have : dayNum e - e.num = dayNum d - d.num := by
    unfold dayNum Date.num yearStart
    rw [hl _ hy, hl _ he]
    simp only
    omega
  omega

example : (⟨2096, 2, 29⟩ : Date).add 366 = some ⟨2097, 3, 1⟩ := by decide

end Nebula
