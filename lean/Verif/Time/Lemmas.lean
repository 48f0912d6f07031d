import Verif.Time.Model
import Verif.Time.Spec
import Verif.Date.Lemmas
/-! Helper lemmas for the time conversion theorems. -/
namespace Nebula
open Spec

theorem leapGreg_cases (y : Int) :
    (leapGreg y = true ∧ y % 4 = 0 ∧ (y % 100 ≠ 0 ∨ y % 400 = 0)) ∨
    (leapGreg y = false ∧ (y % 4 ≠ 0 ∨ (y % 100 = 0 ∧ y % 400 ≠ 0))) := by
  unfold leapGreg
  by_cases h4 : y % 4 = 0 <;> by_cases h100 : y % 100 = 0 <;> by_cases h400 : y % 400 = 0 <;>
    simp [h4, h100, h400]

theorem isLeapYear_eq (y : Int) : isLeapYear y = leapGreg y := by
  unfold isLeapYear leapGreg
  have h4 : cmod y 4 = 0 ↔ y % 4 = 0 := by unfold cmod cdiv; split <;> omega
  have h100 : cmod y 100 = 0 ↔ y % 100 = 0 := by unfold cmod cdiv; split <;> omega
  have h400 : cmod y 400 = 0 ↔ y % 400 = 0 := by unfold cmod cdiv; split <;> omega
  by_cases a : y % 4 = 0 <;> by_cases b : y % 100 = 0 <;> by_cases c : y % 400 = 0 <;>
    simp [h4, h100, h400, a, b, c]

theorem DIV_4 (y : Int) : DIV y 4 = y / 4 := by
  unfold DIV cmod cdiv notNum
  by_cases h : 0 ≤ y
  · simp only [if_pos h]
    have : ¬ (y - 4 * (y / 4) < 0) := by omega
    simp [this]
  · simp only [if_neg h]
    by_cases h2 : y - 4 * -(-y / 4) < 0 <;> simp [h2] <;> omega
theorem DIV_100 (y : Int) : DIV y 100 = y / 100 := by
  unfold DIV cmod cdiv notNum
  by_cases h : 0 ≤ y
  · simp only [if_pos h]
    have : ¬ (y - 100 * (y / 100) < 0) := by omega
    simp [this]
  · simp only [if_neg h]
    by_cases h2 : y - 100 * -(-y / 100) < 0 <;> simp [h2] <;> omega
theorem DIV_400 (y : Int) : DIV y 400 = y / 400 := by
  unfold DIV cmod cdiv notNum
  by_cases h : 0 ≤ y
  · simp only [if_pos h]
    have : ¬ (y - 400 * (y / 400) < 0) := by omega
    simp [this]
  · simp only [if_neg h]
    by_cases h2 : y - 400 * -(-y / 400) < 0 <;> simp [h2] <;> omega
theorem DIV_365 (y : Int) : cdiv y 365 - notNum (cmod y 365 < 0) = y / 365 := by
  unfold cmod cdiv notNum
  by_cases h : 0 ≤ y
  · simp only [if_pos h]
    have : ¬ (y - 365 * (y / 365) < 0) := by omega
    simp [this]
  · simp only [if_neg h]
    by_cases h2 : y - 365 * -(-y / 365) < 0 <;> simp [h2] <;> omega

/-- Days from 1970-01-01 to the first day of year `y`. -/
def yearStart (y : Int) : Int :=
  365 * (y - 1970) + ((y - 1) / 4 - (y - 1) / 100 + (y - 1) / 400) - 477

theorem leaps_eq (y : Int) : leapsThruEndOf (y - 1) = (y - 1) / 4 - (y - 1) / 100 + (y - 1) / 400 := by
  unfold leapsThruEndOf; rw [DIV_4, DIV_100, DIV_400]

theorem yearStart_succ (y : Int) :
    yearStart (y + 1) = yearStart y + 365 + (if leapGreg y then 1 else 0) := by
  unfold yearStart
  rcases leapGreg_cases y with ⟨h, h1, h2⟩ | ⟨h, h1⟩ <;> simp only [h] <;> simp <;> omega

theorem yearStart_diff (y k : Int) (hk : 0 ≤ k) :
    365 * k ≤ yearStart (y + k) - yearStart y ∧
    yearStart (y + k) - yearStart y ≤ 365 * k + (k + 3) / 4 := by
  unfold yearStart; omega

theorem yearStart_mono {y z : Int} (h : y ≤ z) : yearStart y ≤ yearStart z := by
  have := (yearStart_diff y (z - y) (by omega)).1
  rw [show y + (z - y) = z by omega] at this
  omega

theorem yearSearch_stop {y days : Int} (hlo : yearStart (-32768) ≤ yearStart y + days)
    (hhi : yearStart y + days < yearStart 32768)
    (h : ¬ (days < 0 ∨ days ≥ (if isLeapYear (wrapI16 y) then 366 else 365))) :
    -32768 ≤ y ∧ y ≤ 32767 ∧ 0 ≤ days ∧ days < 365 + (if leapGreg y then 1 else 0) := by
  have hd : 0 ≤ days := by omega
  have hup : y ≤ 32767 := by
    refine Decidable.byContradiction fun hc => ?_
    have := yearStart_mono (y := 32768) (z := y) (by omega)
    omega
  have hdl : days < 366 := by
    by_cases hl : isLeapYear (wrapI16 y) = true <;> simp [hl] at h <;> omega
  have hlow : -32768 ≤ y := by
    refine Decidable.byContradiction fun hc => ?_
    have := (yearStart_diff y (-32768 - y) (by omega)).1
    rw [show y + (-32768 - y) = -32768 by omega] at this
    have hy : y = -32769 := by omega
    subst hy
    have : isLeapYear (wrapI16 (-32769)) = false := by decide
    simp only [this] at h
    simp at h
    omega
  have hw : wrapI16 y = y := by unfold wrapI16; omega
  rw [hw, isLeapYear_eq] at h
  refine ⟨hlow, hup, hd, ?_⟩
  by_cases hl : leapGreg y = true <;> simp [hl] at h ⊢ <;> omega

theorem yearSearch_spec : ∀ (fuel : Nat) (y days : Int), days.natAbs + 1 < fuel →
    yearStart (-32768) ≤ yearStart y + days → yearStart y + days < yearStart 32768 →
    ∃ y' d', yearSearch fuel y days = some (y', d') ∧ yearStart y' + d' = yearStart y + days ∧
      -32768 ≤ y' ∧ y' ≤ 32767 ∧ 0 ≤ d' ∧ d' < 365 + (if leapGreg y' then 1 else 0) := by
  intro fuel
  induction fuel with
  | zero => intro y days h; omega
  | succ n ih =>
    intro y days hf hlo hhi
    unfold yearSearch
    by_cases ht : days < 0 ∨ days ≥ (if isLeapYear (wrapI16 y) then 366 else 365)
    · simp only [if_pos ht]
      have hyg : y + cdiv days 365 - notNum (cmod days 365 < 0) = y + days / 365 := by
        have := DIV_365 days; omega
      rw [hyg]
      have hds : days - ((y + days / 365 - y) * 365 + leapsThruEndOf (y + days / 365 - 1) -
          leapsThruEndOf (y - 1)) = days + yearStart y - yearStart (y + days / 365) := by
        rw [leaps_eq, leaps_eq]; unfold yearStart; omega
      rw [hds]
      generalize hd' : days + yearStart y - yearStart (y + days / 365) = d'
      have hinv : yearStart (y + days / 365) + d' = yearStart y + days := by omega
      -- either the next test stops or the absolute value decreased
      by_cases hstop : d' < 0 ∨ d' ≥ (if isLeapYear (wrapI16 (y + days / 365)) then 366 else 365)
      · have hdec : d'.natAbs < days.natAbs := by
          by_cases hneg : days < 0
          · have hk := yearStart_diff (y + days / 365) (-(days / 365)) (by omega)
            rw [show y + days / 365 + -(days / 365) = y by omega] at hk
            by_cases hk1 : days / 365 = -1
            · -- one year back: the result fits in that year, so the test stops
              exfalso
              rw [hk1] at hstop hinv hd'
              have hs := yearStart_succ (y + -1)
              rw [show y + -1 + 1 = y by omega] at hs
              have hge : 0 ≤ d' := by
                rcases leapGreg_cases (y + -1) with ⟨h, _⟩ | ⟨h, _⟩ <;> simp only [h] at hs <;> simp at hs <;> omega
              have hup : y + -1 ≤ 32767 := by
                refine Decidable.byContradiction fun hc => ?_
                have := yearStart_mono (y := 32768) (z := y + -1) (by omega)
                omega
              by_cases hlow : -32768 ≤ y + -1
              · have hw : wrapI16 (y + -1) = y + -1 := by unfold wrapI16; omega
                rw [hw, isLeapYear_eq] at hstop
                rcases leapGreg_cases (y + -1) with ⟨h, _⟩ | ⟨h, _⟩ <;> simp only [h] at hs hstop <;>
                  simp at hs hstop <;> omega
              · have hb := (yearStart_diff (y + -1) (-32768 - (y + -1)) (by omega)).1
                rw [show y + -1 + (-32768 - (y + -1)) = -32768 by omega] at hb
                have : yearStart y ≤ yearStart (-32768) := yearStart_mono (by omega)
                omega
            · rcases hstop with h | h
              · omega
              · omega
          · have hpos : 365 ≤ days := by
              by_cases hl : isLeapYear (wrapI16 y) = true <;> simp [hl] at ht <;> omega
            have hk := yearStart_diff y (days / 365) (by omega)
            rcases hstop with h | h
            · omega
            · exfalso
              have : d' ≤ 364 := by omega
              by_cases hl : isLeapYear (wrapI16 (y + days / 365)) = true <;> simp [hl] at h <;> omega
        obtain ⟨y', e, r1, r2, r3⟩ := ih (y + days / 365) d' (by omega) (by omega) (by omega)
        exact ⟨y', e, r1, by omega, r3⟩
      · have hs := yearSearch_stop (y := y + days / 365) (days := d') (by omega) (by omega) hstop
        cases n with
        | zero => omega
        | succ n =>
          refine ⟨y + days / 365, d', ?_, hinv, hs⟩
          unfold yearSearch
          simp only [if_neg hstop]
    · simp only [if_neg ht]
      exact ⟨y, days, rfl, rfl, yearSearch_stop hlo hhi ht⟩

/-- Days from 1970-01-01 to `d`. -/
def dayNum (d : Date) : Int := yearStart d.year + before (leapGreg d.year) d.month + d.day - 1

theorem tbl_bool (b : Bool) : (if b = true then kLeapDaysSoFar else kDaysSoFar) = tbl b := rfl

theorem leapA_eq (y : Int) :
    leapA4 y = (y - 1) / 4 ∧ leapA100 (leapA4 y) = (y - 1) / 100 ∧
    shr (leapA100 (leapA4 y)) 2 = (y - 1) / 400 := by
  have h4 : leapA4 y = (y - 1) / 4 := by
    unfold leapA4 shr notNum
    by_cases h : y % 4 = 0 <;> simp [h] <;> omega
  have h100 : leapA100 (leapA4 y) = (y - 1) / 100 := by
    rw [h4]
    unfold leapA100 cdiv notNum
    by_cases h : (y - 1) / 4 < 0
    · simp only [h, decide_true, if_true]
      split <;> omega
    · simp only [h, decide_false]
      simp
      omega
  refine ⟨h4, h100, ?_⟩
  rw [h100]; unfold shr; omega

theorem diff_epoch {d : DateTime} (h1 : 1 ≤ d.month) (h2 : d.month ≤ 12) :
    dateTimeToUnixSeconds d =
      some (86400 * dayNum ⟨d.year, d.month, d.day⟩ + d.hour * 3600 + d.minute * 60 + d.sec) := by
  unfold dateTimeToUnixSeconds dateTimeDiffSeconds
  obtain ⟨a4, a100, a400⟩ := leapA_eq d.year
  obtain ⟨b4, b100, b400⟩ := leapA_eq kEpoch.year
  have hb : arrAt (if isLeapYear kEpoch.year = true then kLeapDaysSoFar else kDaysSoFar)
      (kEpoch.month - 1) = some 0 := by decide
  rw [a100] at a400
  rw [b100] at b400
  rw [a4] at a100
  rw [b4] at b100
  simp only [a4, b4, a100, b100, a400, b400, hb]
  rw [isLeapYear_eq, tbl_bool, arrAt_before _ h1 (by omega)]
  simp only [kEpoch]
  congr 1
  unfold dayNum yearStart
  simp only
  omega

theorem monthSearch_spec (l : Bool) (days : Int) : ∀ i : Nat, i ≤ 11 → 0 ≤ days →
    days < before l ((i : Int) + 2) →
    ∃ m, monthSearch (tbl l) days i = some m ∧ 0 ≤ m ∧ m ≤ 11 ∧
      before l (m + 1) ≤ days ∧ days < before l (m + 2) := by
  intro i
  induction i with
  | zero =>
    intro _ h0 h1
    have := arrAt_before l (m := 1) (by omega) (by omega)
    rw [before_one] at this
    simp only [Int.sub_self] at this
    unfold monthSearch
    rw [this]
    simp only
    rw [if_neg (by omega)]
    exact ⟨0, rfl, by omega, by omega, by simp [before_one]; omega, h1⟩
  | succ i ih =>
    intro hi h0 h1
    have := arrAt_before l (m := (i : Int) + 2) (by omega) (by omega)
    unfold monthSearch
    rw [show (i : Int) + 2 - 1 = (i : Int) + 1 by omega] at this
    rw [this]
    simp only
    by_cases hd : days < before l ((i : Int) + 2)
    · rw [if_pos hd]
      exact ih (by omega) h0 hd
    · rw [if_neg hd]
      refine ⟨_, rfl, by omega, by omega, ?_, ?_⟩
      · rw [show (i : Int) + 1 + 1 = (i : Int) + 2 by omega]; omega
      · rw [show ((i + 1 : Nat) : Int) + 2 = (i : Int) + 1 + 2 by omega] at h1; exact h1

theorem unix_spec {s : Int} (hlo : 86400 * yearStart (-32768) ≤ s) (hhi : s < 86400 * yearStart 32768) :
    ∃ d, unixSecondsToDateTime s = some d ∧ ValidDT d ∧ d.microsec = 0 ∧
      86400 * dayNum ⟨d.year, d.month, d.day⟩ + d.hour * 3600 + d.minute * 60 + d.sec = s := by
  unfold unixSecondsToDateTime
  have hdr : (if cmod s 86400 < 0 then (cmod s 86400 + 86400, cdiv s 86400 - 1)
      else (cmod s 86400, cdiv s 86400)) = (s % 86400, s / 86400) := by
    have hx : cmod s 86400 = s - 86400 * cdiv s 86400 := rfl
    by_cases h : cmod s 86400 < 0
    · rw [if_pos h]; unfold cmod cdiv at *; congr 1 <;> (split <;> simp_all <;> omega)
    · rw [if_neg h]; unfold cmod cdiv at *; congr 1 <;> (split <;> simp_all <;> omega)
  simp only [hdr]
  have hys : yearStart 1970 = 0 := by decide
  obtain ⟨y, dd, e1, e2, e3, e4, e5, e6⟩ := yearSearch_spec ((s / 86400).natAbs + 2) 1970 (s / 86400)
    (by omega) (by rw [hys]; omega) (by rw [hys]; omega)
  rw [e1]
  have hw : wrapI16 y = y := by unfold wrapI16; omega
  simp only [hw]
  rw [isLeapYear_eq, tbl_bool]
  obtain ⟨m, f1, f2, f3, f4, f5⟩ := monthSearch_spec (leapGreg y) dd 11 (by omega) e5
    (by
      have := before_13 (leapGreg y)
      rw [show ((11 : Nat) : Int) + 2 = 13 by omega, this]; exact e6)
  rw [f1]
  simp only
  have hb := arrAt_before (leapGreg y) (m := m + 1) (by omega) (by omega)
  rw [show m + 1 - 1 = m by omega] at hb
  rw [hb]
  simp only
  have hs := before_succ leapGreg y (m := m + 1) (by omega) (by omega)
  rw [show m + 1 + 1 = m + 2 by omega] at hs
  have hl := Date.monthLen_pos leapGreg y (m := m + 1) (by omega) (by omega)
  have w1 : wrapU 4 (m + 1) = m + 1 := by unfold wrapU; omega
  have w2 : wrapU 5 (dd - before (leapGreg y) (m + 1) + 1) = dd - before (leapGreg y) (m + 1) + 1 := by
    unfold wrapU; omega
  have hh : wrapU 5 (cdiv (s % 86400) 3600) = (s % 86400) / 3600 := by
    unfold wrapU cdiv; rw [if_pos (by omega)]; omega
  have hmr : cmod (s % 86400) 3600 = (s % 86400) % 3600 := by
    unfold cmod cdiv; rw [if_pos (by omega)]; omega
  have hm : wrapU 6 (cdiv ((s % 86400) % 3600) 60) = (s % 86400) % 3600 / 60 := by
    unfold wrapU cdiv; rw [if_pos (by omega)]; omega
  have hsc : wrapU 6 (cmod ((s % 86400) % 3600) 60) = (s % 86400) % 3600 % 60 := by
    unfold wrapU cmod cdiv; rw [if_pos (by omega)]; omega
  rw [w1, w2, hh, hmr, hm, hsc]
  refine ⟨_, rfl, ⟨⟨e3, e4, ?_, ?_, ?_, ?_⟩, ?_, ?_, ?_, ?_, ?_, ?_⟩, rfl, ?_⟩
  · simp only; omega
  · simp only; omega
  · simp only; omega
  · simp only; omega
  · simp only; omega
  · simp only; omega
  · simp only; omega
  · simp only; omega
  · simp only; omega
  · simp only; omega
  · unfold dayNum
    simp only
    omega

/-- Gregorian day numbers are strictly monotone. -/
theorem dayNum_lt {a b : Date} (ha : ValidDate leapGreg a) (hb : ValidDate leapGreg b)
    (h : Earlier a b) : dayNum a < dayNum b := by
  have da := Date.day_in_year _ ha
  have db := Date.day_in_year _ hb
  rcases h with h | ⟨he, h | ⟨hm, h⟩⟩
  · have hs := yearStart_succ a.year
    have := yearStart_mono (y := a.year + 1) (z := b.year) (by omega)
    unfold dayNum
    omega
  · obtain ⟨_, _, m1, m2, d1, d2⟩ := ha
    obtain ⟨_, _, n1, n2, e1, e2⟩ := hb
    have hs := before_succ leapGreg a.year m1 m2
    have : before (leapGreg a.year) (a.month + 1) ≤ before (leapGreg a.year) b.month := by
      by_cases h' : a.month + 1 = b.month
      · rw [h']; omega
      · have := before_mono (leapGreg a.year) (m := a.month + 1) (n := b.month) (by omega) (by omega) (by omega)
        omega
    unfold dayNum
    simp only [← he]
    omega
  · unfold dayNum; simp only [← he, ← hm]; omega

theorem dayNum_inj {a b : Date} (ha : ValidDate leapGreg a) (hb : ValidDate leapGreg b)
    (h : dayNum a = dayNum b) : a = b := by
  rcases Date.earlier_trichotomy a b with h' | h' | h'
  · have := dayNum_lt ha hb h'; omega
  · exact h'
  · have := dayNum_lt hb ha h'; omega

theorem dayNum_range {d : Date} (h : ValidDate leapGreg d) :
    yearStart (-32768) ≤ dayNum d ∧ dayNum d < yearStart 32768 := by
  have hd := Date.day_in_year _ h
  obtain ⟨y1, y2, _⟩ := h
  have hs := yearStart_succ d.year
  have l := yearStart_mono (y := -32768) (z := d.year) y1
  have u := yearStart_mono (y := d.year + 1) (z := 32768) (by omega)
  unfold dayNum
  omega

theorem dayNum_next {d : Date} (h : ValidDate leapGreg d) (hne : d ≠ lastDay) :
    ValidDate leapGreg (nextDay leapGreg d) ∧ dayNum (nextDay leapGreg d) = dayNum d + 1 := by
  obtain ⟨y1, y2, m1, m2, d1, d2⟩ := h
  have hs := before_succ leapGreg d.year m1 m2
  unfold nextDay
  split
  · exact ⟨⟨y1, y2, m1, m2, by simp only; omega, by simp only; omega⟩, by unfold dayNum; simp only; omega⟩
  · have hd' : d.day = monthLen leapGreg d.year d.month := by omega
    split
    · have := Date.monthLen_pos leapGreg d.year (m := d.month + 1) (by omega) (by omega)
      exact ⟨⟨y1, y2, by simp only; omega, by simp only; omega, by simp, by simp only; omega⟩,
        by unfold dayNum; simp only; omega⟩
    · have hm' : d.month = 12 := by omega
      have hday : d.day = 31 := by rw [hd', hm']; simp [monthLen]
      have hy : d.year ≠ 32767 := by
        intro hy; apply hne; cases d; simp_all [lastDay]
      refine ⟨⟨by simp only; omega, by simp only; omega, by simp, by simp, by simp, by simp [monthLen]⟩, ?_⟩
      unfold dayNum
      simp only [before_one, hm', hday]
      have hsu := yearStart_succ d.year
      have : before (leapGreg d.year) 12 = 334 + (if leapGreg d.year then 1 else 0) := by
        cases leapGreg d.year <;> decide
      omega

theorem seconds_inj {a b : DateTime} (ha : ValidDT a) (hb : ValidDT b)
    (h : 86400 * dayNum ⟨a.year, a.month, a.day⟩ + a.hour * 3600 + a.minute * 60 + a.sec =
         86400 * dayNum ⟨b.year, b.month, b.day⟩ + b.hour * 3600 + b.minute * 60 + b.sec) :
    a.year = b.year ∧ a.month = b.month ∧ a.day = b.day ∧ a.hour = b.hour ∧ a.minute = b.minute ∧
      a.sec = b.sec := by
  obtain ⟨va, _⟩ := ha
  obtain ⟨vb, _⟩ := hb
  have hd : dayNum ⟨a.year, a.month, a.day⟩ = dayNum ⟨b.year, b.month, b.day⟩ := by omega
  have := dayNum_inj va vb hd
  simp only [Date.mk.injEq] at this
  omega

theorem ofDate_valid {d : Date} (h : ValidDate leapGreg d) :
    DateTime.ofDate d = ⟨d.year, d.month, d.day, 0, 0, 0, 0⟩ := by
  obtain ⟨_, _, m1, m2, d1, d2⟩ := h
  have := Date.monthLen_pos leapGreg d.year m1 m2
  unfold DateTime.ofDate
  have w1 : wrapU 4 d.month = d.month := by unfold wrapU; omega
  have w2 : wrapU 5 d.day = d.day := by unfold wrapU; omega
  rw [w1, w2]

theorem dateSeconds {d : Date} (h : ValidDate leapGreg d) :
    dateToUnixSeconds d = some (86400 * dayNum d) := by
  have := diff_epoch (d := ⟨d.year, d.month, d.day, 0, 0, 0, 0⟩) h.2.2.1 h.2.2.2.1
  unfold dateToUnixSeconds
  rw [ofDate_valid h]
  unfold dateTimeToUnixSeconds at this
  rw [this]
  simp

end Nebula
