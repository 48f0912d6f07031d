import Verif.Time.Zone
import Verif.Time.Props
import Verif.Text
/-!
# C137: the time zone of the process and the local clock
-/
namespace Nebula.Tz
open Nebula.Spec

/-! ## Specification -/

/-- The setting that counts: the flag, or the environment if the flag is empty. -/
def setting (o : Outside) (flag : Bytes) : Bytes := if flag = [] then o.tz.getD [] else flag

/-- The setting denotes the zone: a region of the zone file after a colon, otherwise a POSIX text. Regions
loaded before count as well. -/
def Denotes (o : Outside) (known : Bytes → Option Zone) (text : Bytes) (z : Zone) : Prop :=
  (∃ r f, text = 58 :: r ∧ o.file = some f ∧ (f r = some z ∨ (f r = none ∧ known r = some z))) ∨
  (∃ c r, text = c :: r ∧ c ≠ 58 ∧ o.posix text = some z)

/-! ## C137 -/

theorem choose_flag (o : Outside) (s : St) : (s.choose o).flag = setting o s.flag ∧ (s.choose o).db = s.db ∧ (s.choose o).zone = s.zone := by
  unfold St.choose setting
  split
  · rename_i h; simp [h]
  · exact ⟨rfl, rfl, rfl⟩

theorem take_spec (o : Outside) (t : St) : ((t.take o).2 = true ↔ ∃ z, Denotes o t.db t.flag z) ∧
    ((t.take o).2 = true → ∃ z, (t.take o).1.zone = some z ∧ Denotes o t.db t.flag z) := by
  unfold St.take
  cases ht : t.flag with
  | nil =>
    refine ⟨⟨by simp, ?_⟩, by simp⟩
    rintro ⟨z, ⟨r, f, h, _⟩ | ⟨c, r, h, _⟩⟩ <;> cases h
  | cons c r =>
    by_cases hc : c = 58
    · subst hc
      simp only [if_true]
      cases hfile : o.file with
      | none =>
        refine ⟨⟨by simp [St.load, hfile], ?_⟩, by simp [St.load, hfile]⟩
        rintro ⟨z, ⟨r', f, _, h, _⟩ | ⟨c, r', h, hn, _⟩⟩
        · rw [hfile] at h; cases h
        · cases h; exact absurd rfl hn
      | some f =>
        simp only [St.load, hfile, Option.map_some, St.fromDb]
        have dz : ∀ z, Denotes o t.db (58 :: r) z ↔ (f r).or (t.db r) = some z := by
          intro z
          constructor
          · rintro (⟨r', f', h1, h2, h3⟩ | ⟨c, r', h, hn, _⟩)
            · cases h1
              rw [hfile] at h2
              cases h2
              rcases h3 with h3 | ⟨h3, h4⟩
              · simp [h3]
              · simp [h3, h4]
            · cases h; exact absurd rfl hn
          · intro h
            refine .inl ⟨r, f, rfl, hfile, ?_⟩
            cases hfr : f r with
            | none => rw [hfr] at h; exact .inr ⟨rfl, by simpa using h⟩
            | some y => rw [hfr] at h; exact .inl (by simpa using h)
        constructor
        · rw [Option.isSome_iff_exists]; exact ⟨fun ⟨z, h⟩ => ⟨z, (dz z).2 h⟩, fun ⟨z, h⟩ => ⟨z, (dz z).1 h⟩⟩
        · rw [Option.isSome_iff_exists]; exact fun ⟨z, h⟩ => ⟨z, h, (dz z).2 h⟩
    · simp only [if_neg hc, St.fromPosix]
      have dz : ∀ z, Denotes o t.db (c :: r) z ↔ o.posix (c :: r) = some z := by
        intro z
        constructor
        · rintro (⟨r', f', h1, _⟩ | ⟨c', r', h, hn, hp⟩)
          · cases h1; exact absurd rfl hc
          · exact hp
        · intro h; exact .inr ⟨c, r, rfl, hc, h⟩
      simp only [dz]
      cases hp : o.posix (c :: r) with
      | none => simp
      | some z => simp

/-- C137: initialising succeeds exactly if the setting denotes a zone, and then that is the zone of the
process. -/
theorem C137_initialised (o : Outside) (s : St) :
    ((s.init o).2 = true ↔ ∃ z, Denotes o s.db (setting o s.flag) z) ∧
    ((s.init o).2 = true → ∃ z, (s.init o).1.zone = some z ∧ Denotes o s.db (setting o s.flag) z) := by
  have h := take_spec o (s.choose o)
  rw [(choose_flag o s).1, (choose_flag o s).2.1] at h
  exact h

/-- A world with a zone file of one region and one POSIX text. -/
def sample : Outside := ⟨some (ascii ":A/B"), some fun r => if r = ascii "A/B" then some ⟨28800, ascii "CST"⟩ else none,
  fun t => if t = ascii "EST-05:00:00" then some ⟨-18000, ascii "EST"⟩ else none⟩

example : (({ flag := [] } : St).init sample).2 = true ∧ (({ flag := [] } : St).init sample).1.utcOffset = some 28800 := by decide +kernel
example : (({ flag := ascii "EST-05:00:00" } : St).init sample).1.utcOffset = some (-18000) := by decide +kernel

theorem take_flag (o : Outside) (t : St) : (t.take o).1.flag = t.flag := by
  unfold St.take
  split
  · rfl
  · split
    · cases hf : o.file <;> simp [St.load, hf, St.fromDb]
    · simp only [St.fromPosix]; split <;> rfl

/-- C137: initialising again after success, whatever has become of the environment variable, gives the same
zone. -/
theorem C137_again (o : Outside) (s : St) (tz : Option Bytes) (h : (s.init o).2 = true) :
    ((s.init o).1.init { o with tz := tz }).2 = true ∧ ((s.init o).1.init { o with tz := tz }).1.zone = (s.init o).1.zone := by
  obtain ⟨z, hz, hd⟩ := (C137_initialised o s).2 h
  have hfl : (s.init o).1.flag = setting o s.flag := by
    unfold St.init
    rw [take_flag, (choose_flag o s).1]
  have hne : (s.init o).1.flag ≠ [] := by
    rw [hfl]
    intro h0
    rw [h0] at hd
    rcases hd with ⟨r, f, h, _⟩ | ⟨c, r, h, _⟩ <;> cases h
  have hch : (s.init o).1.choose { o with tz := tz } = (s.init o).1 := by unfold St.choose; rw [if_neg hne]
  rw [hz]
  have hgo : (s.init o).1.init { o with tz := tz } = (s.init o).1.take o := by
    rw [show (s.init o).1.init { o with tz := tz } = ((s.init o).1.choose { o with tz := tz }).take { o with tz := tz } from rfl, hch]
    rfl
  rw [hgo]
  rcases hd with ⟨r, f, h1, h2, h3⟩ | ⟨c, r, h1, h2, h3⟩
  · have hdb : (s.init o).1.db r = (f r).or (s.db r) := by
      unfold St.init St.take
      rw [(choose_flag o s).1, h1]
      simp [St.load, h2, St.fromDb, (choose_flag o s).2.1]
    unfold St.take
    rw [hfl, h1]
    have : (f r).or ((s.init o).1.db r) = some z := by
      rw [hdb]
      rcases h3 with h3 | ⟨h3, h4⟩
      · simp [h3]
      · simp [h3, h4]
    simp [St.load, h2, St.fromDb, this]
  · unfold St.take
    rw [hfl, h1]
    rw [h1] at h3
    simp [if_neg h2, St.fromPosix, h3]

/-- C137, for settings that are not regions: a failed initialisation leaves the zone as it was. -/
theorem C137_failed_partial (o : Outside) (s : St) (hr : ∀ r, setting o s.flag ≠ 58 :: r) (h : (s.init o).2 = false) :
    (s.init o).1.zone = s.zone := by
  revert h
  unfold St.init St.take
  rw [(choose_flag o s).1]
  split
  · intro _; exact (choose_flag o s).2.2
  · rename_i c r hh
    have : c ≠ 58 := by rintro rfl; exact hr r hh
    simp only [if_neg this, St.fromPosix]
    split
    · simp
    · intro _; exact (choose_flag o s).2.2

example : (({ flag := ascii "nonsense", zone := some ⟨0, []⟩ } : St).init sample).1.zone = some ⟨0, []⟩ := by decide +kernel

/-- C137 (violated): a region that is not in the zone file erases the zone the process had, and then
everything that asks for the local time follows a null pointer. -/
theorem C137_failed_violated (o : Outside) (s : St) (r : Bytes) (f : Bytes → Option Zone) (hr : s.flag = 58 :: r) (hf : o.file = some f)
    (hn : f r = none) (hd : s.db r = none) (ms : Nat) (d : DateTime) :
    (s.init o).2 = false ∧ (s.init o).1.utcOffset = none ∧ localDateTime (s.init o).1 ms = none ∧ utcToDateTime (s.init o).1 d = none := by
  have hz : (s.init o).1.zone = none := by
    simp [St.init, St.choose, St.take, hr, St.load, hf, St.fromDb, hn, hd]
  have h2 : (s.init o).2 = false := by
    simp [St.init, St.choose, St.take, hr, St.load, hf, St.fromDb, hn, hd]
  have h3 : (s.init o).1.utcOffset = none := by simp [St.utcOffset, hz]
  exact ⟨h2, h3, by simp [localDateTime, h3], by simp [utcToDateTime, h3]⟩

example : (({ flag := ascii ":No/Where", zone := some ⟨0, []⟩ } : St).init sample).1.zone = none := by decide +kernel

/-- Seconds a clock can show in the years of a `DateTime`. -/
def InRange (s : Int) : Prop := -1096225401600 ≤ s ∧ s ≤ 971890963199

/-- C137: a local time written in the zone of the process survives conversion to UTC and back, and the
other way round. -/
theorem C137_convert (s : St) (z : Zone) (hz : s.zone = some z) (d : DateTime) (h : ValidDT d) (u : Int) (hu : dateTimeToUnixSeconds d = some u) :
    (InRange (u - z.offset) → ∃ e, dateTimeToUTC s d = some e ∧ dateTimeToUnixSeconds e = some (u - z.offset) ∧ utcToDateTime s e = some d) ∧
    (InRange (u + z.offset) → ∃ e, utcToDateTime s d = some e ∧ dateTimeToUnixSeconds e = some (u + z.offset) ∧ dateTimeToUTC s e = some d) := by
  have ho : s.utcOffset = some z.offset := by simp [St.utcOffset, hz]
  constructor
  · intro hr
    obtain ⟨e, e1, _, _, e4⟩ := C05_shift_seconds d h u (-z.offset) hu hr.1 hr.2
    refine ⟨e, by simp [dateTimeToUTC, ho, e1], e4, ?_⟩
    have := C05_shift_inverse d e h u (-z.offset) hu hr e1
    simpa [utcToDateTime, ho] using this
  · intro hr
    obtain ⟨e, e1, _, _, e4⟩ := C05_shift_seconds d h u z.offset hu hr.1 hr.2
    refine ⟨e, by simp [utcToDateTime, ho, e1], e4, ?_⟩
    have := C05_shift_inverse d e h u z.offset hu hr e1
    simpa [dateTimeToUTC, ho] using this

theorem now {u : Int} (h : InRange u) (ms : Nat) : ∃ d, ((unixSecondsToDateTime u).map fun d => { d with microsec := ((ms % 1000 * 1000 : Nat) : Int) }) = some d ∧
    ValidDT d ∧ dateTimeToUnixSeconds d = some u ∧ d.microsec = (ms % 1000 * 1000 : Nat) := by
  obtain ⟨d, d1, d2, d3, d4⟩ := C04_seconds_roundtrip u h.1 h.2
  exact ⟨{ d with microsec := (ms % 1000 * 1000 : Nat) }, by rw [d1]; rfl, d2, d4, rfl⟩

/-- C137: the UTC clock shows the date and time of the clock of the process, to the millisecond. -/
theorem C137_utc (ms : Nat) (h : InRange (ms / 1000 : Nat)) : ∃ d, utcDateTime ms = some d ∧ ValidDT d ∧
    dateTimeToUnixSeconds d = some ((ms / 1000 : Nat) : Int) ∧ d.microsec = (ms % 1000 * 1000 : Nat) := now h ms

example : utcDateTime 1605542400123 = some ⟨2020, 11, 16, 16, 0, 0, 123000⟩ := by decide +kernel

/-- C137 (violated): the local clock goes the wrong way: in every zone with an offset it differs from the UTC
clock shifted to the zone, by twice the offset. -/
theorem C137_local_violated (s : St) (z : Zone) (hz : s.zone = some z) (hne : z.offset ≠ 0) (ms : Nat) (h0 : InRange (ms / 1000 : Nat))
    (hm : InRange ((ms / 1000 : Nat) - z.offset)) (hp : InRange ((ms / 1000 : Nat) + z.offset)) :
    ∃ d e u, localDateTime s ms = some d ∧ utcDateTime ms = some u ∧ utcToDateTime s u = some e ∧
      dateTimeToUnixSeconds d = some ((ms / 1000 : Nat) - z.offset) ∧ dateTimeToUnixSeconds e = some ((ms / 1000 : Nat) + z.offset) ∧ d ≠ e := by
  have ho : s.utcOffset = some z.offset := by simp [St.utcOffset, hz]
  obtain ⟨d, d1, _, d3, _⟩ := now hm ms
  obtain ⟨u, u1, u2, u3, _⟩ := C137_utc ms h0
  obtain ⟨e, e1, e2, _⟩ := (C137_convert s z hz u u2 _ u3).2 hp
  refine ⟨d, e, u, by simpa [localDateTime, ho] using d1, u1, e1, d3, e2, ?_⟩
  rintro rfl
  rw [d3] at e2
  have := Option.some.inj e2
  omega

example : localDateTime { flag := [], zone := some ⟨28800, []⟩ } 1605542400123 = some ⟨2020, 11, 16, 8, 0, 0, 123000⟩ := by decide +kernel

/-- C137, in zones without an offset: local and UTC clocks agree. -/
theorem C137_local_partial (s : St) (z : Zone) (hz : s.zone = some z) (h0 : z.offset = 0) (ms : Nat) (sec : Int) :
    localDateTime s ms = utcDateTime ms ∧ localTime s ms = utcTime ms ∧ localDate s sec = utcDate sec := by
  have ho : s.utcOffset = some 0 := by simp [St.utcOffset, hz, h0]
  exact ⟨by simp [localDateTime, ho, utcDateTime], by simp [localTime, ho, utcTime], by simp [localDate, ho, utcDate]⟩

/-- C137: a local time of day survives conversion to UTC and back, and the other way round; UTC is the local time less the offset, modulo days. -/
theorem C137_times (s : St) (z : Zone) (hz : s.zone = some z) (ho : -480000000000 ≤ z.offset ∧ z.offset ≤ 480000000000) (t : Time) (h : ValidTime t) :
    (∃ e, timeToUTC s t = some e ∧ ValidTime e ∧ e.microsec = t.microsec ∧ timeToSeconds e = (timeToSeconds t - z.offset) % 86400 ∧ utcToTime s e = some t) ∧
    ∃ e, utcToTime s t = some e ∧ ValidTime e ∧ e.microsec = t.microsec ∧ timeToSeconds e = (timeToSeconds t + z.offset) % 86400 ∧ timeToUTC s e = some t := by
  have hu : s.utcOffset = some z.offset := by simp [St.utcOffset, hz]
  constructor
  · obtain ⟨e, e1, e2, e3, e4⟩ := C05_time_shift t h (-z.offset) (by omega) (by omega)
    have := (C05_time_shift_compose t e h (-z.offset) 0 (by omega) (by omega) e1).2
    rw [Int.neg_neg] at this
    exact ⟨e, by simp [timeToUTC, hu, e1], e2, e3, by rw [e4]; rfl, by simp [utcToTime, hu, this]⟩
  · obtain ⟨e, e1, e2, e3, e4⟩ := C05_time_shift t h z.offset (by omega) (by omega)
    have := (C05_time_shift_compose t e h z.offset 0 (by omega) (by omega) e1).2
    exact ⟨e, by simp [utcToTime, hu, e1], e2, e3, e4, by simp [timeToUTC, hu, this]⟩

example : timeToUTC { flag := [], zone := some ⟨28800, []⟩ } ⟨1, 30, 0, 9⟩ = some ⟨17, 30, 0, 9⟩ := by decide +kernel

/-- C137: what the local time of day and the local date are. -/
theorem C137_local_time (s : St) (z : Zone) (hz : s.zone = some z) (ms : Nat) (h : InRange ((ms / 1000 : Nat) - z.offset)) :
    ∃ d, localDateTime s ms = some d ∧ localTime s ms = some ⟨d.hour, d.minute, d.sec, d.microsec⟩ ∧
      localDate s (ms / 1000 : Nat) = some (some ⟨d.year, d.month, d.day⟩) := by
  have ho : s.utcOffset = some z.offset := by simp [St.utcOffset, hz]
  obtain ⟨d, d1, d2, d3, d4⟩ := C04_seconds_roundtrip _ h.1 h.2
  refine ⟨{ d with microsec := (ms % 1000 * 1000 : Nat) }, by simp only [localDateTime, ho, Option.bind_some, d1]; rfl, ?_, ?_⟩
  · simp only [localTime, ho, Option.bind_some, unixSecondsToTime, d1, Option.map_some]
    obtain ⟨_, a, b, c, d', e, f⟩ := d2
    have w : ∀ x : Int, 0 ≤ x → x ≤ 59 → wrapI8 x = x := by intro x h1 h2; simp only [wrapI8]; omega
    rw [w _ a (by omega), w _ c d', w _ e f]
  · rw [localDate, if_neg (by omega)]
    simp only [ho, Option.bind_some, unixSecondsToDate, d1, Option.map_some]
    obtain ⟨⟨a, b, c, e, f, g⟩, _⟩ := d2
    have hm : monthLen leapGreg d.year d.month ≤ 31 := by unfold monthLen; repeat' split <;> omega
    have w : ∀ x : Int, 1 ≤ x → x ≤ 31 → wrapI8 x = x := by intro x h1 h2; simp only [wrapI8]; omega
    have w' : wrapI16 d.year = d.year := by dsimp only at a b; simp only [wrapI16]; omega
    dsimp only at c e f g
    rw [Date.mk', w', w _ c (by omega), w _ f (by omega)]

end Nebula.Tz
