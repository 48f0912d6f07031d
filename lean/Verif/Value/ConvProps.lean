import Verif.Value.ArithProps
/-!
# C16: texts that are converted to booleans, floats and integers
-/
namespace Nebula
open Value

/-! ## What the texts mean -/

/-- The word, in lower or upper case letters or a mixture of them. -/
def AnyCase (s : Bytes) (word : String) : Prop := List.Forall₂ (fun b c => b = c ∨ b = c - 32) s (ascii word)

/-- `t` is a sign or none, digits, and possibly a point and more digits; `q` is the number it stands for. -/
inductive DecimalText : Bytes → Rat → Prop
  | whole {sg ds : Bytes} : sg = [] ∨ sg = [43] ∨ sg = [45] → ds ≠ [] → (∀ c ∈ ds, isDigit c = true) →
      DecimalText (sg ++ ds) ((if sg = [45] then -1 else 1) * (digitsVal 0 ds : Rat))
  | point {sg ds fs : Bytes} : sg = [] ∨ sg = [43] ∨ sg = [45] → ds ≠ [] ∨ fs ≠ [] → (∀ c ∈ ds ++ fs, isDigit c = true) →
      DecimalText (sg ++ ds ++ 46 :: fs) ((if sg = [45] then -1 else 1) * ((digitsVal 0 (ds ++ fs) : Rat) / (10 ^ fs.length : Nat)))

/-- What is required of the C library's `strtod`: decimal texts are read to their end and give the nearest double; `errno` is only set if that is
infinite or between -1 and 1 (underflow). -/
def ReadsDecimals (strtod : StrToD) : Prop := ∀ t q, DecimalText t q →
  (strtod t).1 = F64.round q ∧ (strtod t).2.1 = [] ∧
    ((strtod t).2.2 = true → (∃ n, F64.round q = .inf n) ∨ ∃ r, F64.round q = .fin r ∧ -1 < r ∧ r < 1)

/-! ## Texts to booleans -/

theorem toLower_eq {b c : UInt8} (h1 : 97 ≤ c) (h2 : c ≤ 122) : toLower b = c ↔ b = c ∨ b = c - 32 := by
  unfold toLower
  rw [UInt8.le_iff_toNat_le] at h1 h2
  have e1 : (97 : UInt8).toNat = 97 := rfl
  have e2 : (122 : UInt8).toNat = 122 := rfl
  have e3 : (65 : UInt8).toNat = 65 := rfl
  have e4 : (90 : UInt8).toNat = 90 := rfl
  have e5 : (32 : UInt8).toNat = 32 := rfl
  have hb := b.toNat_lt
  have hc := c.toNat_lt
  have hs : (c - 32).toNat = c.toNat - 32 := by
    rw [UInt8.toNat_sub_of_le]; · rfl
    · rw [UInt8.le_iff_toNat_le]; omega
  split
  · rename_i h
    simp only [Bool.and_eq_true, decide_eq_true_eq, UInt8.le_iff_toNat_le] at h
    rw [← UInt8.toNat_inj, ← UInt8.toNat_inj, ← UInt8.toNat_inj, UInt8.toNat_add, hs]
    omega
  · rename_i h
    simp only [Bool.and_eq_true, decide_eq_true_eq, UInt8.le_iff_toNat_le] at h
    rw [← UInt8.toNat_inj, ← UInt8.toNat_inj, hs]
    omega

theorem lower_eq : ∀ (s w : Bytes), (∀ c ∈ w, 97 ≤ c ∧ c ≤ 122) → (s.map toLower = w ↔ List.Forall₂ (fun b c => b = c ∨ b = c - 32) s w)
  | [], [], _ => by simp
  | [], _ :: _, _ => by simp
  | _ :: _, [], _ => by simp
  | b :: s, c :: w, h => by
    have hc := h c (by simp)
    rw [List.map_cons, List.cons.injEq, List.forall₂_cons, toLower_eq hc.1 hc.2, lower_eq s w fun c hc => h c (List.mem_cons_of_mem _ hc)]

/-- C16: exactly the words true and false, in any case, convert to booleans; every other text gives NULL. -/
theorem C16_text_bool (s : Bytes) :
    (Value.toBool (.str s) = .bool true ↔ AnyCase s "true") ∧ (Value.toBool (.str s) = .bool false ↔ AnyCase s "false") ∧
    (¬ AnyCase s "true" → ¬ AnyCase s "false" → Value.toBool (.str s) = .null .null) := by
  have ht := lower_eq s (ascii "true") (by decide)
  have hf := lower_eq s (ascii "false") (by decide)
  have hne : ascii "true" ≠ ascii "false" := by decide
  unfold AnyCase
  rw [← ht, ← hf]
  simp only [Value.toBool]
  by_cases h1 : s.map toLower = ascii "true"
  · simp [h1, hne]
  · by_cases h2 : s.map toLower = ascii "false"
    · simp [h2, Ne.symm hne]
    · simp [h1, h2, Value.kNull]

example : AnyCase (ascii "TrUe") "true" ∧ ¬ AnyCase (ascii "yes") "true" := by
  constructor
  · exact (lower_eq _ _ (by decide)).mp (by decide)
  · exact fun h => absurd ((lower_eq (ascii "yes") (ascii "true") (by decide)).mpr h) (by decide)

/-! ## Texts to floats -/

theorem decimal_nul {t : Bytes} {q : Rat} (h : DecimalText t q) : (0 : UInt8) ∉ t := by
  have hd : ∀ c, isDigit c = true → c ≠ 0 := fun c h => by rintro rfl; exact absurd h (by decide)
  have hs : ∀ sg : Bytes, sg = [] ∨ sg = [43] ∨ sg = [45] → (0 : UInt8) ∉ sg := by rintro sg (rfl | rfl | rfl) <;> decide
  cases h with
  | whole h1 _ h3 =>
    intro h0
    rcases List.mem_append.mp h0 with h0 | h0
    · exact hs _ h1 h0
    · exact hd _ (h3 _ h0) rfl
  | point h1 _ h3 =>
    intro h0
    rcases List.mem_append.mp h0 with h0 | h0
    · rcases List.mem_append.mp h0 with h0 | h0
      · exact hs _ h1 h0
      · exact hd _ (h3 _ (List.mem_append_left _ h0)) rfl
    · rcases List.mem_cons.mp h0 with h0 | h0
      · exact absurd h0 (by decide)
      · exact hd _ (h3 _ (List.mem_append_right _ h0)) rfl

/-- C16: a decimal text converts to the nearest double. -/
theorem C16_text_float {strtod : StrToD} (hs : ReadsDecimals strtod) {t : Bytes} {q : Rat} (h : DecimalText t q) :
    Value.toFloat strtod (.str t) = .float (F64.round q) := by
  obtain ⟨h1, h2, _⟩ := hs t q h
  simp only [Value.toFloat, cstr_of_no_nul (decimal_nul h), h1, h2]
  simp

/-! ## Texts with a point to integers -/

theorem cast_of_range {r : Rat} (h1 : -9223372036854775808 ≤ r) (h2 : r < 9223372036854775808) (strtod : StrToD) :
    ∃ i, castI64 (.fin r) = some i ∧ Value.toInt strtod (.float (.fin r)) = some (.int i) ∧ (-1 < r → i ≠ -9223372036854775808) ∧ i ≠ 9223372036854775807 ∨
      castI64 (.fin r) = some i ∧ Value.toInt strtod (.float (.fin r)) = some (.int i) ∧ (-1 < r → i ≠ -9223372036854775808) ∧ 1 ≤ r := by
  have e1 : F64.ofInt (-9223372036854775808) = .fin (-9223372036854775808) := by decide +kernel
  have e2 : F64.ofInt 9223372036854775807 = .fin 9223372036854775808 := by decide +kernel
  obtain ⟨i, hi, _, _, hb⟩ := C16_float_to_int strtod r
  rcases lt_or_eq_of_le h1 with h1' | h1'
  · have hn1 : ¬ r ≤ -9223372036854775808 := not_le.mpr h1'
    have hn2 : ¬ (9223372036854775808 : Rat) ≤ r := not_le.mpr h2
    have hc : castI64 (.fin r) = some i := by
      have := hi
      simp only [Value.toInt, e1, e2, F64.le, hn1, hn2, decide_false, Bool.false_eq_true, if_false, Option.map_eq_some_iff] at this
      obtain ⟨j, hj, hj'⟩ := this
      cases hj'
      exact hj
    have hb := hb h1' h2
    have hmin : -1 < r → i ≠ -9223372036854775808 := by
      rintro hr rfl
      rcases le_total 0 r with h | h
      · have := (hb.1 h).2; push_cast at this; linarith
      · have := (hb.2 h).1; push_cast at this; linarith
    by_cases hr : 1 ≤ r
    · exact ⟨i, Or.inr ⟨hc, hi, hmin, hr⟩⟩
    · refine ⟨i, Or.inl ⟨hc, hi, hmin, ?_⟩⟩
      rintro rfl
      rcases le_total 0 r with h | h
      · have := (hb.1 h).1; push_cast at this; linarith
      · have := (hb.2 h).2; push_cast at this; linarith
  · subst h1'
    refine ⟨-9223372036854775808, Or.inl ⟨by decide +kernel, ?_, by intro h; exact absurd h (by decide +kernel), by decide⟩⟩
    simp [Value.toInt, e1, F64.le]

/-- C16: a decimal text with a point converts to the integer that the nearest double converts to, if that is in the range of the integers. -/
theorem C16_text_point_partial {strtod : StrToD} (hs : ReadsDecimals strtod) {t : Bytes} {q : Rat} (h : DecimalText t q) (hp : (46 : UInt8) ∈ t)
    {r : Rat} (hr : F64.round q = .fin r) (h1 : -9223372036854775808 ≤ r) (h2 : r < 9223372036854775808) :
    Value.toInt strtod (.str t) = Value.toInt strtod (.float (F64.round q)) := by
  obtain ⟨s1, s2, s3⟩ := hs t q h
  have hdot : t.all (· ≠ 46) = false := by
    rw [List.all_eq_false]; exact ⟨46, hp, by simp⟩
  have hpair : strtod t = (.fin r, [], (strtod t).2.2) := by
    rw [← hr, ← s1, ← s2]
  obtain ⟨i, hi⟩ := cast_of_range h1 h2 strtod
  have key : castI64 (.fin r) = some i ∧ Value.toInt strtod (.float (.fin r)) = some (.int i) := by
    rcases hi with ⟨a, b, _⟩ | ⟨a, b, _⟩ <;> exact ⟨a, b⟩
  have hno : ¬ ((i = 9223372036854775807 ∨ i = -9223372036854775808) ∧ (strtod t).2.2 = true) := by
    rintro ⟨hm, he⟩
    rcases s3 he with ⟨n, hn⟩ | ⟨r', hr', h3, h4⟩
    · rw [hr] at hn; exact absurd hn (by simp)
    · rw [hr] at hr'; cases hr'
      rcases hi with ⟨_, _, c, d⟩ | ⟨_, _, c, d⟩
      · rcases hm with hm | hm
        · exact d hm
        · exact c h3 hm
      · linarith
  rw [hr, key.2]
  simp only [Value.toInt, hdot, Bool.false_eq_true, if_false, cstr_of_no_nul (decimal_nul h)]
  rw [hpair]
  simp only [key.1, Option.map_some, ne_eq, not_true, if_false, if_neg hno]

/-- C16 violated: a decimal text with a point whose number is out of the range of the integers is not reported: the behaviour is undefined. -/
theorem C16_text_point_violated {strtod : StrToD} (hs : ReadsDecimals strtod) {t : Bytes} {q : Rat} (h : DecimalText t q) (hp : (46 : UInt8) ∈ t)
    (hr : ∀ r, F64.round q = .fin r → r ≤ -9223372036854775809 ∨ 9223372036854775808 ≤ r) : Value.toInt strtod (.str t) = none := by
  obtain ⟨s1, s2, s3⟩ := hs t q h
  have hdot : t.all (· ≠ 46) = false := by
    rw [List.all_eq_false]; exact ⟨46, hp, by simp⟩
  have hc : castI64 (F64.round q) = none := by
    cases hq : F64.round q with
    | nan => rfl
    | inf n => rfl
    | fin r =>
      simp only [castI64, ite_eq_right_iff, reduceCtorEq, imp_false]
      unfold InI64 F64.trunc
      rcases hr r hq with hlo | hhi
      · have hneg : ¬ (0 : Rat) ≤ r := by intro h0; linarith
        rw [if_neg hneg]
        have := Rat.le_floor_iff (x := (9223372036854775809 : Int)) (a := -r) |>.mpr (by push_cast; linarith)
        omega
      · have hpos : (0 : Rat) ≤ r := by linarith
        rw [if_pos hpos]
        have := Rat.le_floor_iff (x := (9223372036854775808 : Int)) (a := r) |>.mpr (by push_cast; linarith)
        omega
  simp only [Value.toInt, hdot, Bool.false_eq_true, if_false, cstr_of_no_nul (decimal_nul h)]
  rw [show strtod t = (F64.round q, [], (strtod t).2.2) by rw [← s1, ← s2]]
  simp [hc]

/-- C16 violated: what follows a NUL byte in a text is not seen, whatever it is. -/
theorem C16_text_nul_violated (strtod : StrToD) (i : Int) (h : InI64 i) (rest : Bytes) (hdot : (46 : UInt8) ∉ rest) :
    Value.toInt strtod (.str (intDec i ++ 0 :: rest)) = some (.int i) := by
  have hrt := C16_text_roundtrip strtod i h
  have hd : ∀ c ∈ intDec i, c ≠ 46 ∧ c ≠ 0 := by
    intro c hc
    unfold intDec at hc
    have hd : ∀ c ∈ natDec i.natAbs, c ≠ 46 ∧ c ≠ 0 := by
      intro c hc
      have := natDec_digits _ c hc
      rw [isDigit_iff] at this
      constructor <;> (rintro rfl; simp at this)
    split at hc
    · rcases List.mem_cons.mp hc with rfl | hc
      · decide
      · exact hd c hc
    · exact hd c hc
  have a1 : (intDec i).all (· ≠ 46) = true := by
    rw [List.all_eq_true]; intro c hc; simpa using (hd c hc).1
  have a2 : (intDec i ++ 0 :: rest).all (· ≠ 46) = true := by
    rw [List.all_eq_true]; intro c hc
    rcases List.mem_append.mp hc with hc | hc
    · simpa using (hd c hc).1
    · rcases List.mem_cons.mp hc with rfl | hc
      · decide
      · simp only [ne_eq, decide_eq_true_eq]; rintro rfl; exact hdot hc
  have b1 : cstr (intDec i ++ 0 :: rest) = intDec i := by
    unfold cstr
    rw [List.takeWhile_append_of_pos (by intro c hc; simpa using (hd c hc).2)]
    simp
  have b2 : cstr (intDec i) = intDec i := cstr_of_no_nul (fun h0 => (hd 0 h0).2 rfl)
  simp only [Value.toInt, a1, b2] at hrt
  simp only [Value.toInt, a2, b1]
  exact hrt

/-! ## A library that does what is required -/

/-- Reads a sign, digits, and a point with digits. -/
def sampleStrtod (s : Bytes) : F64 × Bytes × Bool :=
  let neg := s.head? = some 45
  let t := if s.head? = some 43 ∨ s.head? = some 45 then s.tail else s
  let ds := t.takeWhile isDigit
  match t.dropWhile isDigit with
  | 46 :: r =>
    let fs := r.takeWhile isDigit
    (F64.round ((if neg then -1 else 1) * ((digitsVal 0 (ds ++ fs) : Rat) / (10 ^ fs.length : Nat))), r.dropWhile isDigit, false)
  | r => (F64.round ((if neg then -1 else 1) * (digitsVal 0 ds : Rat)), r, false)

theorem take_digits {ds r : Bytes} (h : ∀ c ∈ ds, isDigit c = true) (hr : ∀ c ∈ r.head?, isDigit c = false) :
    (ds ++ r).takeWhile isDigit = ds ∧ (ds ++ r).dropWhile isDigit = r := by
  induction ds with
  | nil => cases r with
    | nil => simp
    | cons c r => simp [hr c rfl]
  | cons d ds ih =>
    have := ih fun c hc => h c (List.mem_cons_of_mem _ hc)
    simp [h d (by simp), this]

theorem sign_strip {sg t : Bytes} (hs : sg = [] ∨ sg = [43] ∨ sg = [45]) (ht : ∀ c ∈ t.head?, c ≠ 43 ∧ c ≠ 45) :
    (if (sg ++ t).head? = some 43 ∨ (sg ++ t).head? = some 45 then (sg ++ t).tail else sg ++ t) = t ∧ ((sg ++ t).head? = some 45 ↔ sg = [45]) := by
  rcases hs with rfl | rfl | rfl
  · cases t with
    | nil => simp
    | cons c t =>
      have := ht c rfl
      simp [this.1, this.2]
  · simp
  · simp

theorem digit_head {ds : Bytes} (h : ∀ c ∈ ds, isDigit c = true) : ∀ c ∈ ds.head?, c ≠ 43 ∧ c ≠ 45 := by
  intro c hc
  have := h c (List.mem_of_mem_head? hc)
  constructor <;> (rintro rfl; exact absurd this (by decide))

theorem sampleStrtod_reads : ReadsDecimals sampleStrtod := by
  intro t q h
  cases h with
  | @whole sg ds h1 h2 h3 =>
    obtain ⟨a, b⟩ := sign_strip h1 (digit_head h3)
    obtain ⟨c, d⟩ := take_digits (r := []) h3 (by simp)
    rw [List.append_nil] at c d
    simp only [sampleStrtod, a, c, d]
    refine ⟨?_, trivial, by simp⟩
    by_cases hn : sg = [45]
    · simp only [b.mpr hn, if_pos hn, if_true]
    · simp only [if_neg hn, if_neg fun h => hn (b.mp h)]
  | @point sg ds fs h1 h2 h3 =>
    have hd : ∀ c ∈ ds, isDigit c = true := fun c hc => h3 c (List.mem_append_left _ hc)
    have hf : ∀ c ∈ fs, isDigit c = true := fun c hc => h3 c (List.mem_append_right _ hc)
    have hh : ∀ c ∈ (ds ++ 46 :: fs).head?, c ≠ 43 ∧ c ≠ 45 := by
      cases ds with
      | nil => simp
      | cons x ds => exact digit_head (ds := x :: ds) hd
    rw [List.append_assoc]
    obtain ⟨a, b⟩ := sign_strip h1 hh
    obtain ⟨c, d⟩ := take_digits (r := 46 :: fs) hd (by simp; decide)
    obtain ⟨e, f⟩ := take_digits (r := []) hf (by simp)
    rw [List.append_nil] at e f
    simp only [sampleStrtod, a, c, d, e, f]
    refine ⟨?_, trivial, by simp⟩
    by_cases hn : sg = [45]
    · simp only [b.mpr hn, if_pos hn, if_true]
    · simp only [if_neg hn, if_neg fun h => hn (b.mp h)]

theorem sample_in : DecimalText (ascii "-12.75") (-51 / 4) := by
  have := DecimalText.point (sg := [45]) (ds := ascii "12") (fs := ascii "75") (by simp) (by decide) (by decide)
  have e1 : [45] ++ ascii "12" ++ 46 :: ascii "75" = ascii "-12.75" := by decide +kernel
  have e2 : ((if ([45] : Bytes) = [45] then -1 else 1) * ((digitsVal 0 (ascii "12" ++ ascii "75") : Rat) / (10 ^ (ascii "75").length : Nat))) = -51 / 4 := by decide +kernel
  rw [e1, e2] at this
  exact this

theorem sample_out : DecimalText (ascii "9223372036854775808.0") 9223372036854775808 := by
  have := DecimalText.point (sg := []) (ds := ascii "9223372036854775808") (fs := ascii "0") (by simp) (by decide) (by decide)
  have e1 : [] ++ ascii "9223372036854775808" ++ 46 :: ascii "0" = ascii "9223372036854775808.0" := by decide +kernel
  have e2 : ((if ([] : Bytes) = [45] then -1 else 1) * ((digitsVal 0 (ascii "9223372036854775808" ++ ascii "0") : Rat) / (10 ^ (ascii "0").length : Nat))) = 9223372036854775808 := by decide +kernel
  rw [e1, e2] at this
  exact this

example : Value.toInt sampleStrtod (.str (ascii "-12.75")) = some (.int (-12)) := by
  rw [C16_text_point_partial sampleStrtod_reads sample_in (by decide +kernel) (r := -51 / 4) (by decide +kernel) (by decide +kernel) (by decide +kernel)]
  decide +kernel
example : Value.toInt sampleStrtod (.str (ascii "9223372036854775808.0")) = none :=
  C16_text_point_violated sampleStrtod_reads sample_out (by decide +kernel) fun r hr => by
    have : F64.round 9223372036854775808 = .fin 9223372036854775808 := by decide +kernel
    rw [this] at hr; cases hr; exact Or.inr (le_refl _)
example : Value.toFloat sampleStrtod (.str (ascii "-12.75")) = .float (.fin (-51 / 4)) := by
  rw [C16_text_float sampleStrtod_reads sample_in]; decide +kernel

end Nebula
