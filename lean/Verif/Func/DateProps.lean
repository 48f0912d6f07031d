import Verif.Func.Model
import Verif.Time.ParseProps
import Verif.Time.Props
/-!
# Properties of the built-in functions: dates and times as text (C85, C118)
-/
namespace Nebula
namespace Func
open Spec

/-- **C118 (date and toString).** For every day of the calendar whose year has four digits, `date(toString(d))` is `d`; the same for a time and a point in time with no fraction of a
second, in a process whose time zone is UTC. -/
theorem C118_functions (L : FLib) (w : World) (hn : ReadsNumbers L.num) :
    (∀ d : Date, ValidDate leapGreg d → 1000 ≤ d.year → d.year ≤ 9999 →
      ∃ s, call L w (ascii "toString") [.date d] = some (.val (.str s)) ∧ call L w (ascii "date") [.str s] = some (.val (.date d))) ∧
    (L.utcOffset = 0 → ∀ t : Time, ValidTime t → t.microsec = 0 →
      ∃ s, call L w (ascii "toString") [.time t] = some (.val (.str s)) ∧ call L w (ascii "time") [.str s] = some (.val (.time t))) ∧
    (L.utcOffset = 0 → ∀ d : DateTime, ValidDT d → 1000 ≤ d.year → d.year ≤ 9999 → d.microsec = 0 →
      ∃ s, call L w (ascii "toString") [.datetime d] = some (.val (.str s)) ∧ call L w (ascii "datetime") [.str s] = some (.val (.datetime d))) := by
  have g0 : getInternal (ascii "toString") 1 = some .tostring := by decide +kernel
  have g1 : getInternal (ascii "date") 1 = some .date := by decide +kernel
  have g2 : getInternal (ascii "time") 1 = some .time := by decide +kernel
  have g3 : getInternal (ascii "datetime") 1 = some .datetime := by decide +kernel
  refine ⟨fun d h h1 h2 => ⟨d.toText, ?_, ?_⟩, fun ho t h h0 => ⟨t.toText, ?_, ?_⟩, fun ho d h h1 h2 h0 => ⟨d.toText, ?_, ?_⟩⟩
  · simp only [call, List.length_singleton, g0]; rfl
  · simp only [call, List.length_singleton, g1, Option.map_some, body, C118_date hn h h1 h2, ofR, ofOpt]
  · simp only [call, List.length_singleton, g0]; rfl
  · have e : ({ t with microsec := 0 } : Time) = t := by rw [← h0]
    simp only [call, List.length_singleton, g2, Option.map_some, body, C118_time hn h, e, ofR, ho, timeShift]; rfl
  · simp only [call, List.length_singleton, g0]; rfl
  · have e : ({ d with microsec := 0 } : DateTime) = d := by rw [← h0]
    simp only [call, List.length_singleton, g3, Option.map_some, body, (C118_datetime hn h h1 h2).1, e, ofR, ho, dateTimeShift]; rfl

example : ReadsNumbers readNum ∧ ValidDate leapGreg ⟨2024, 2, 29⟩ := ⟨readNum_library, by decide⟩

/-- **C85 fails for `datetime` and `timestamp`:** the call with the text of a date has no defined result. -/
theorem C85_datetime_violated (L : FLib) (w : World) (hn : ReadsNumbers L.num) (d : Date) (h : ValidDate leapGreg d) (h1 : 1000 ≤ d.year) (h2 : d.year ≤ 9999) :
    call L w (ascii "datetime") [.str d.toText] = some .undef ∧ call L w (ascii "timestamp") [.str d.toText] = some .undef := by
  have g3 : getInternal (ascii "datetime") 1 = some .datetime := by decide +kernel
  have g4 : getInternal (ascii "timestamp") 1 = some .timestamp := by decide +kernel
  refine ⟨?_, ?_⟩
  · simp only [call, List.length_singleton, g3, Option.map_some, body, C118_short_violated hn h h1 h2, ofR]
  · simp only [call, List.length_singleton, g4, Option.map_some, body, arg, toTimestamp, C118_short_violated hn h h1 h2, List.getElem?_cons_zero]; rfl

/-- C88 (`timestamp` of a text): the text is read as a date and time; whole seconds only, counted from 1970 and within
the range of `C88_timestamp`. -/
theorem C88_timestamp_text (L : FLib) (w : World) (s : Bytes) (dt : DateTime) (t : Int) (hp : parseDateTime L.num s = .ok dt)
    (ht : dateTimeToUnixSeconds dt = some t) :
    body L w .timestamp [.str s] =
      if dt.microsec = 0 ∧ 0 ≤ t ∧ t ≤ 9223372036 then .val (.int t) else .val (.null .badData) := by
  show toTimestamp L (.str s) = _
  simp only [toTimestamp, hp, ht]
  by_cases h : dt.microsec = 0
  · rw [if_neg (fun x => x h)]
    unfold checkTimestamp
    by_cases h2 : 0 ≤ t ∧ t ≤ 9223372036
    · rw [if_neg (by unfold kMaxTimestamp; omega), if_pos ⟨h, h2⟩]
    · rw [if_pos (by unfold kMaxTimestamp; omega), if_neg (fun x => h2 x.2)]; rfl
  · rw [if_pos h, if_neg (fun x => h x.1)]; rfl

example : parseDateTime readNum (DateTime.toText ⟨2021, 2, 28, 23, 59, 59, 5⟩) = .ok ⟨2021, 2, 28, 23, 59, 59, 0⟩ ∧
    dateTimeToUnixSeconds ⟨2021, 2, 28, 23, 59, 59, 0⟩ = some 1614556799 :=
  ⟨(C118_datetime readNum_library (by decide) (by decide) (by decide)).1, by decide +kernel⟩

/-! ## Maps and local time -/

/-- The entries of a map: the name, and the number if the value is an INT. -/
def partsOf : List (Bytes × Value) → List (String × Option Int)
  | [] => []
  | (k, .int i) :: kvs => (keyText k, some i) :: partsOf kvs
  | (k, _) :: kvs => (keyText k, none) :: partsOf kvs

theorem partsOf_eq (kvs : List (Bytes × Value)) : mapEntries kvs = partsOf kvs := by
  induction kvs with
  | nil => rfl
  | cons kv kvs ih =>
    obtain ⟨k, v⟩ := kv
    unfold mapEntries at ih ⊢
    rw [List.map_cons, ih]
    cases v <;> rfl

/-- The moment that the entries name: absent parts are the first of January of year 0, midnight. -/
def momentOf (m : List (String × Option Int)) : DateTime :=
  ⟨comp m "year" 0, comp m "month" 1, comp m "day" 1, comp m "hour" 0, comp m "minute" 0, comp m "second" 0, comp m "microsecond" 0⟩

/-- The entries are INTs within their ranges, and the day exists. -/
def MomentOk (m : List (String × Option Int)) : Prop :=
  (∀ kv ∈ m, Acceptable dateRange kv ∨ Acceptable timeRange kv) ∧ ValidDT (momentOf m)

/-- **C85 (`datetime` of a map).** The moment named by the entries, taken as local time and given in UTC; an error if an entry is
not acceptable. -/
theorem C85_datetime_map (L : FLib) (w : World) (kvs : List (Bytes × Value)) (hm : MapEntries (partsOf kvs)) :
    (¬ MomentOk (partsOf kvs) → body L w .datetime [.map kvs] = .val (.null .badData)) ∧
    ∀ s, MomentOk (partsOf kvs) → dateTimeToUnixSeconds (momentOf (partsOf kvs)) = some s → -1096225401600 ≤ s - L.utcOffset → s - L.utcOffset ≤ 971890963199 →
      ∃ e, body L w .datetime [.map kvs] = .val (.datetime e) ∧ ValidDT e ∧ e.microsec = (momentOf (partsOf kvs)).microsec ∧
        dateTimeToUnixSeconds e = some (s - L.utcOffset) := by
  have hb : body L w .datetime [.map kvs] = ofR (dateTimeFromMap (partsOf kvs)) fun t => (dateTimeShift t (-L.utcOffset)).map .datetime := by
    rw [← partsOf_eq]; rfl
  constructor
  · intro hn
    have h1 := fun r => (C06_datetime_from_map (partsOf kvs) hm r)
    rw [hb]
    cases he : dateTimeFromMap (partsOf kvs) with
    | ok r =>
      obtain ⟨a, b, c⟩ := (h1 r).1.1 he
      exact absurd ⟨a, by rw [b] at c; exact c⟩ hn
    | error => rfl
    | ub => exact absurd he (h1 (momentOf [])).2
  · intro s ho hs h0 h1
    have := (C06_datetime_from_map (partsOf kvs) hm (momentOf (partsOf kvs))).1.2 ⟨ho.1, rfl, ho.2⟩
    obtain ⟨e, e1, e2, e3, e4⟩ := C05_shift_seconds _ ho.2 s (-L.utcOffset) hs (by omega) (by omega)
    refine ⟨e, ?_, e2, e3, e4⟩
    rw [hb, this]
    simp only [ofR, e1, Option.map_some, ofOpt]

/-- The time of day that the entries name. -/
def clockOf (m : List (String × Option Int)) : Time := ⟨comp m "hour" 0, comp m "minute" 0, comp m "second" 0, comp m "microsecond" 0⟩

/-- **C85 (`time` of a map).** The same for a time of day, modulo one day. -/
theorem C85_time_map (L : FLib) (w : World) (kvs : List (Bytes × Value)) (hm : MapEntries (partsOf kvs)) :
    ((¬ ∀ kv ∈ partsOf kvs, Acceptable timeRange kv) → body L w .time [.map kvs] = .val (.null .badData)) ∧
    ((∀ kv ∈ partsOf kvs, Acceptable timeRange kv) → ValidTime (clockOf (partsOf kvs)) → -971890876799 ≤ L.utcOffset → L.utcOffset ≤ 1096225401600 →
      ∃ r, body L w .time [.map kvs] = .val (.time r) ∧ ValidTime r ∧ r.microsec = (clockOf (partsOf kvs)).microsec ∧
        timeToSeconds r = (timeToSeconds (clockOf (partsOf kvs)) - L.utcOffset) % 86400) := by
  have hb : body L w .time [.map kvs] = ofR (timeFromMap (partsOf kvs)) fun t => (timeShift t (-L.utcOffset)).map .time := by
    rw [← partsOf_eq]; rfl
  constructor
  · intro hn
    have h1 := fun r => (C06_time_from_map (partsOf kvs) hm r)
    rw [hb]
    cases he : timeFromMap (partsOf kvs) with
    | ok r => exact absurd ((h1 r).1.1 he).1 hn
    | error => rfl
    | ub => exact absurd he (h1 (clockOf [])).2
  · intro ho hv h0 h1
    have := (C06_time_from_map (partsOf kvs) hm (clockOf (partsOf kvs))).1.2 ⟨ho, rfl⟩
    obtain ⟨e, e1, e2, e3, e4⟩ := C05_time_shift _ hv (-L.utcOffset) (by omega) (by omega)
    refine ⟨e, ?_, e2, e3, e4⟩
    rw [hb, this]
    simp only [ofR, e1, Option.map_some, ofOpt]

/-- **C85 (`date` of a map).** -/
theorem C85_date_map (L : FLib) (w : World) (kvs : List (Bytes × Value)) (hm : MapEntries (partsOf kvs)) :
    let d : Date := ⟨comp (partsOf kvs) "year" 0, comp (partsOf kvs) "month" 1, comp (partsOf kvs) "day" 1⟩
    ((¬ ((∀ kv ∈ partsOf kvs, Acceptable dateRange kv) ∧ ValidDate leapGreg d)) → body L w .date [.map kvs] = .val (.null .badData)) ∧
    ((∀ kv ∈ partsOf kvs, Acceptable dateRange kv) → ValidDate leapGreg d → body L w .date [.map kvs] = .val (.date d)) := by
  intro d
  have hb : body L w .date [.map kvs] = ofR (dateFromMap (partsOf kvs)) fun t => some (.date t) := by
    rw [← partsOf_eq]; rfl
  have h1 := fun r => (C06_date_from_map (partsOf kvs) hm r)
  constructor
  · intro hn
    rw [hb]
    cases he : dateFromMap (partsOf kvs) with
    | ok r =>
      obtain ⟨a, b, c⟩ := (h1 r).1.1 he
      exact absurd ⟨a, by rw [b] at c; exact c⟩ hn
    | error => rfl
    | ub => exact absurd he (h1 d).2
  · intro a c
    rw [hb, (h1 d).1.2 ⟨a, rfl, c⟩]
    rfl

/-- **C85 (`time` and `datetime` of a text).** The text of a moment, taken as local time and given in UTC. -/
theorem C85_local_text (L : FLib) (w : World) (hn : ReadsNumbers L.num) :
    (∀ t : Time, ValidTime t → -971890876799 ≤ L.utcOffset → L.utcOffset ≤ 1096225401600 →
      ∃ r, body L w .time [.str t.toText] = .val (.time r) ∧ ValidTime r ∧ r.microsec = 0 ∧
        timeToSeconds r = (timeToSeconds t - L.utcOffset) % 86400) ∧
    (∀ (d : DateTime) (s : Int), ValidDT d → 1000 ≤ d.year → d.year ≤ 9999 → dateTimeToUnixSeconds { d with microsec := 0 } = some s →
      -1096225401600 ≤ s - L.utcOffset → s - L.utcOffset ≤ 971890963199 →
      ∃ e, body L w .datetime [.str d.toText] = .val (.datetime e) ∧ ValidDT e ∧ e.microsec = 0 ∧ dateTimeToUnixSeconds e = some (s - L.utcOffset)) := by
  constructor
  · intro t hv h0 h1
    have hv0 : ValidTime { t with microsec := 0 } := by
      obtain ⟨a, b, c, d, e, f⟩ := hv
      exact ⟨a, b, c, d, e, f⟩
    obtain ⟨r, e1, e2, e3, e4⟩ := C05_time_shift { t with microsec := 0 } hv0 (-L.utcOffset) (by omega) (by omega)
    refine ⟨r, ?_, e2, e3, e4⟩
    show ofR (parseTime L.num t.toText) (fun t => (timeShift t (-L.utcOffset)).map .time) = _
    rw [C118_time hn hv]
    simp only [ofR, e1, Option.map_some, ofOpt]
  · intro d s hv y0 y1 hs h0 h1
    have hv0 : ValidDT { d with microsec := 0 } := by
      obtain ⟨a, b, c, d, e, f, g⟩ := hv
      exact ⟨a, b, c, d, e, f, g⟩
    obtain ⟨e, e1, e2, e3, e4⟩ := C05_shift_seconds _ hv0 s (-L.utcOffset) hs (by omega) (by omega)
    refine ⟨e, ?_, e2, e3, e4⟩
    show ofR (parseDateTime L.num d.toText) (fun t => (dateTimeShift t (-L.utcOffset)).map .datetime) = _
    rw [(C118_datetime hn hv y0 y1).1]
    simp only [ofR, e1, Option.map_some, ofOpt]

example : MapEntries (partsOf [(ascii "year", .int 2021), (ascii "month", .int 2)]) ∧
    MomentOk (partsOf [(ascii "year", .int 2021), (ascii "month", .int 2)]) := by
  have e : partsOf [(ascii "year", .int 2021), (ascii "month", .int 2)] = [("year", some 2021), ("month", some 2)] := by decide +kernel
  rw [e]
  constructor
  · unfold MapEntries; decide
  · refine ⟨?_, by decide +kernel⟩
    intro kv h
    simp only [List.mem_cons, List.not_mem_nil, or_false] at h
    rcases h with h | h <;> subst h <;> left <;> rw [acceptable_some (by rfl)] <;> decide

end Func
end Nebula
