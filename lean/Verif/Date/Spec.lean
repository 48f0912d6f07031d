import Verif.Date.Model
/-!
# Specification of the calendars, written from the English description only

Two calendars appear in the code base: the one of `Date` arithmetic ("every fourth year is a
leap year") and the Gregorian one of `TimeConversion`/`validateDate`.  Both are described here
only by their month lengths and the "next day" relation.
-/
namespace Nebula.Spec

/-- Leap years of the calendar used by Date arithmetic. -/
def leap4 (y : Int) : Bool := y % 4 == 0

/-- Gregorian leap years. -/
def leapGreg (y : Int) : Bool := y % 4 == 0 && (y % 100 != 0 || y % 400 == 0)

/-- Length of month `m` (1..12); 0 for anything else. -/
def monthLen (leap : Int → Bool) (y m : Int) : Int :=
  if m = 2 then (if leap y then 29 else 28)
  else if m = 4 ∨ m = 6 ∨ m = 9 ∨ m = 11 then 30
  else if 1 ≤ m ∧ m ≤ 12 then 31 else 0

/-- A date that exists in the calendar and fits the `int16_t` year. -/
def ValidDate (leap : Int → Bool) (d : Date) : Prop :=
  -32768 ≤ d.year ∧ d.year ≤ 32767 ∧ 1 ≤ d.month ∧ d.month ≤ 12 ∧
  1 ≤ d.day ∧ d.day ≤ monthLen leap d.year d.month

instance (leap : Int → Bool) (d : Date) : Decidable (ValidDate leap d) := by
  unfold ValidDate; infer_instance

/-- The day after `d`. -/
def nextDay (leap : Int → Bool) (d : Date) : Date :=
  if d.day < monthLen leap d.year d.month then ⟨d.year, d.month, d.day + 1⟩
  else if d.month < 12 then ⟨d.year, d.month + 1, 1⟩
  else ⟨d.year + 1, 1, 1⟩

/-- `n` days after `d`. -/
def daysAfter (leap : Int → Bool) : Nat → Date → Date
  | 0, d => d
  | n + 1, d => nextDay leap (daysAfter leap n d)

/-- The first representable day. -/
def firstDay : Date := ⟨-32768, 1, 1⟩
/-- The last representable day. -/
def lastDay : Date := ⟨32767, 12, 31⟩

/-- Earlier-than on dates: lexicographic on year, month, day. -/
def Earlier (a b : Date) : Prop :=
  a.year < b.year ∨ (a.year = b.year ∧ (a.month < b.month ∨ (a.month = b.month ∧ a.day < b.day)))

/-- A relation together with an equality is a strict total order. -/
structure StrictTotalOrder {α : Type} (lt eq : α → α → Bool) : Prop where
  irrefl : ∀ a, lt a a = false
  trans : ∀ a b c, lt a b = true → lt b c = true → lt a c = true
  total : ∀ a b, lt a b = true ∨ eq a b = true ∨ lt b a = true
  eq_iff : ∀ a b, eq a b = true ↔ (lt a b = false ∧ lt b a = false)
  eq_sound : ∀ a b, eq a b = true ↔ a = b

end Nebula.Spec
