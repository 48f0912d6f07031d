import Verif.Date.Spec
/-! # Specification for time points and for the map constructors -/
namespace Nebula.Spec

/-- A point in time that exists: Gregorian date and time of day. -/
def ValidDT (d : DateTime) : Prop :=
  ValidDate leapGreg ⟨d.year, d.month, d.day⟩ ∧ 0 ≤ d.hour ∧ d.hour ≤ 23 ∧
  0 ≤ d.minute ∧ d.minute ≤ 59 ∧ 0 ≤ d.sec ∧ d.sec ≤ 59

instance (d : DateTime) : Decidable (ValidDT d) := by unfold ValidDT; infer_instance

/-- A time of day that exists. -/
def ValidTime (t : Time) : Prop :=
  0 ≤ t.hour ∧ t.hour ≤ 23 ∧ 0 ≤ t.minute ∧ t.minute ≤ 59 ∧ 0 ≤ t.sec ∧ t.sec ≤ 59

instance (t : Time) : Decidable (ValidTime t) := by unfold ValidTime; infer_instance

/-- The permitted values of each named date component. -/
def dateRange : String → Option (Int × Int)
  | "year" => some (-32768, 32767)
  | "month" => some (1, 12)
  | "day" => some (1, 31)
  | _ => none

/-- The permitted values of each named time component. -/
def timeRange : String → Option (Int × Int)
  | "hour" => some (0, 23)
  | "minute" => some (0, 59)
  | "second" => some (0, 59)
  | "microsecond" => some (0, 999999)
  | _ => none

/-- An entry (name, integer value or something else) is acceptable. -/
def Acceptable (range : String → Option (Int × Int)) (kv : String × Option Int) : Prop :=
  ∃ i lo hi, kv.2 = some i ∧ range kv.1 = some (lo, hi) ∧ lo ≤ i ∧ i ≤ hi

/-- The value a map gives to a component, or its default. -/
def comp (m : List (String × Option Int)) (k : String) (dflt : Int) : Int :=
  match m.lookup k with
  | some (some i) => i
  | _ => dflt

end Nebula.Spec
