import Verif.Value.Rounding
import Verif.Value.RoundSpec
import Verif.Value.OrderLemmas
/-! # C117: floating-point results are correctly rounded -/
namespace Nebula
open Spec
namespace F64

theorem isDouble_of_pos {p : Rat} (hp : 0 < p) (h : Representable p) : IsDouble p := by
  unfold Representable at h
  rw [round_pos hp] at h
  split at h
  · cases h
  · rename_i hb
    injection h with h
    have hb : p < pow2 1024 := by rw [← h]; exact not_le.1 hb
    have hl : ilog2 p < 1024 := pow2_lt_iff.1 (lt_of_le_of_lt (ilog2_le hp) hb)
    refine ⟨roundEven (p / pow2 (spacing p)), spacing p, ?_, by unfold spacing; omega, by unfold spacing; omega, by rw [← pow2_zpow]; exact h.symm⟩
    have hpos := pow2_pos (spacing p)
    have e : ((roundEven (p / pow2 (spacing p)) : Int) : Rat) = p / pow2 (spacing p) := by
      rw [eq_div_iff hpos.ne']; exact h
    have h1 : p < pow2 (spacing p) * 2 ^ 53 := by
      have : pow2 (ilog2 p + 1) ≤ pow2 (spacing p) * 2 ^ 53 := by
        have e2 : pow2 (spacing p) * 2 ^ 53 = pow2 (spacing p + 53) := by
          rw [pow2_zpow, pow2_zpow, zpow_add₀ (by norm_num)]; norm_num
        rw [e2]; exact pow2_le (by unfold spacing; omega)
      exact lt_of_lt_of_le (lt_ilog2 hp) this
    have h2 : ((roundEven (p / pow2 (spacing p)) : Int) : Rat) < ((2 ^ 53 : Int) : Rat) := by
      rw [e, div_lt_iff₀ hpos]; push_cast; linarith
    have h3 : (0 : Rat) ≤ ((roundEven (p / pow2 (spacing p)) : Int) : Rat) := by rw [e]; positivity
    have h2' : roundEven (p / pow2 (spacing p)) < 2 ^ 53 := by exact_mod_cast h2
    have h3' : 0 ≤ roundEven (p / pow2 (spacing p)) := by exact_mod_cast h3
    rw [abs_of_nonneg h3']; exact h2'

theorem representable_neg {p : Rat} : Representable (-p) ↔ Representable p := by
  have key : ∀ {p : Rat}, Representable p → Representable (-p) := fun {p} h => by
    unfold Representable at h ⊢; rw [round_neg', h]; rfl
  exact ⟨fun h => by have := key h; rwa [neg_neg] at this, key⟩

theorem isDouble_neg {p : Rat} : IsDouble (-p) ↔ IsDouble p := by
  have key : ∀ {p : Rat}, IsDouble p → IsDouble (-p) := by
    rintro p ⟨m, e, h1, h2, h3, h4⟩
    exact ⟨-m, e, by rwa [abs_neg], h2, h3, by rw [h4]; push_cast; ring⟩
  exact ⟨fun h => by have := key h; rwa [neg_neg] at this, key⟩

theorem representable_of_pos {p : Rat} (hp : 0 < p) (h : IsDouble p) : Representable p := by
  obtain ⟨m, e, h1, h2, h3, h4⟩ := h
  rw [← pow2_zpow] at h4
  have he := pow2_pos e
  have hm : (m : Rat) < 2 ^ 53 := by
    have : m < 2 ^ 53 := lt_of_le_of_lt (le_abs_self m) h1
    exact_mod_cast this
  have hlt : p < pow2 (e + 53) := by
    rw [h4, pow2_zpow (e + 53), zpow_add₀ (by norm_num), ← pow2_zpow, mul_comm]
    have : (2 : Rat) ^ (53 : Int) = 2 ^ 53 := by norm_num
    rw [this]
    exact mul_lt_mul_of_pos_left hm he
  have hl : ilog2 p < e + 53 := pow2_lt_iff.1 (lt_of_le_of_lt (ilog2_le hp) hlt)
  obtain ⟨N, hN⟩ := grid_pow (u := spacing p) (e := e) (by unfold spacing; omega)
  have hr : roundR p = p := roundR_grid (N := m * N) (by rw [h4] at hN ⊢; push_cast; rw [mul_assoc, ← hN])
  unfold Representable
  rw [round_pos hp, hr, if_neg]
  exact not_le.2 (lt_of_lt_of_le hlt (pow2_le (by omega)))

/-- The numbers that rounding leaves alone are those of IEEE-754 binary64. -/
theorem representable_iff (p : Rat) : Representable p ↔ IsDouble p := by
  rcases lt_trichotomy p 0 with hp | rfl | hp
  · rw [← representable_neg, ← isDouble_neg]
    exact ⟨isDouble_of_pos (by linarith), representable_of_pos (by linarith)⟩
  · exact ⟨fun _ => ⟨0, 0, by norm_num, by norm_num, by norm_num, by norm_num⟩, fun _ => rfl⟩
  · exact ⟨isDouble_of_pos hp, representable_of_pos hp⟩

theorem max_isDouble : IsDouble maxDouble := ⟨2 ^ 53 - 1, 971, by norm_num, by norm_num, by norm_num, by
  unfold maxDouble
  have : (2 : Rat) ^ (971 : Int) = 2 ^ 971 := zpow_natCast 2 971
  rw [this]; push_cast; ring⟩

/-- Rounding gives the right number. -/
theorem round_correct (q : Rat) : Correct (round q) q := by
  have hmax : round maxDouble = .fin maxDouble := (representable_iff _).2 max_isDouble
  have hmin : round (-maxDouble) = .fin (-maxDouble) := by rw [round_neg', hmax]; rfl
  cases h : round q with
  | nan =>
    exfalso
    rcases lt_trichotomy q 0 with hq | rfl | hq
    · have h' : round (-q) = .nan := by rw [round_neg', h]; rfl
      rw [round_pos (by linarith)] at h'
      split at h' <;> cases h'
    · cases h
    · rw [round_pos hq] at h
      split at h <;> cases h
  | inf s =>
    cases s with
    | false =>
      refine .inr (.inl ⟨rfl, not_le.1 fun hle => ?_⟩)
      have := round_mono hle
      rw [h, hmax] at this; simp [le] at this
    | true =>
      refine .inr (.inr ⟨rfl, not_le.1 fun hle => ?_⟩)
      have := round_mono hle
      rw [h, hmin] at this; simp [le] at this
  | fin r =>
    exact .inl ⟨r, rfl, (representable_iff r).1 (round_representable h), fun p hp => round_nearest h ((representable_iff p).2 hp)⟩

end F64

namespace Value
open F64

theorem numberOf_cases {v : Value} {x : Rat} (h : numberOf v = some x) :
    (∃ i : Int, v = .int i ∧ F64.ofInt i = .fin x) ∨ v = .float (.fin x) := by
  unfold numberOf at h
  split at h
  · rename_i i
    split at h
    · rename_i hi
      injection h with h
      exact .inl ⟨i, rfl, by rw [ofInt_small i hi.1 hi.2, h]⟩
    · cases h
  · injection h with h; subst h; exact .inr rfl
  · cases h

/-- One operand at least is a float. -/
def oneFloat : Value → Value → Bool
  | .float _, _ => true
  | _, .float _ => true
  | _, _ => false

/-- **C117 (sums, differences, products).** The result of an operation with a float is the `double` nearest to the exact result, or an infinity beyond the largest. -/
theorem C117_arithmetic (fmt : F64 → Bytes) {a b : Value} {x y : Rat} (ha : numberOf a = some x) (hb : numberOf b = some y) (hf : oneFloat a b = true) :
    (∃ f, add fmt a b = some (.float f) ∧ Correct f (x + y)) ∧ (∃ f, sub a b = some (.float f) ∧ Correct f (x - y)) ∧ (∃ f, mul a b = some (.float f) ∧ Correct f (x * y)) := by
  have hsub : ∀ x y : Rat, F64.sub (.fin x) (.fin y) = F64.round (x - y) := fun x y => by
    show F64.round (x + -y) = _; rw [← sub_eq_add_neg]
  rcases numberOf_cases ha with ⟨i, rfl, hi⟩ | rfl <;> rcases numberOf_cases hb with ⟨j, rfl, hj⟩ | rfl
  · cases hf
  · refine ⟨⟨F64.round (x + y), ?_, round_correct _⟩, ⟨F64.round (x - y), ?_, round_correct _⟩, ⟨F64.round (x * y), ?_, round_correct _⟩⟩
    · simp [add, propagate, isNull, isEmpty, hi, F64.add]
    · simp [sub, propagate, isNull, isEmpty, hi, hsub]
    · simp [mul, propagate, isNull, isEmpty, hi, F64.mul]
  · refine ⟨⟨F64.round (x + y), ?_, round_correct _⟩, ⟨F64.round (x - y), ?_, round_correct _⟩, ⟨F64.round (x * y), ?_, round_correct _⟩⟩
    · simp [add, propagate, isNull, isEmpty, hj, F64.add]
    · simp [sub, propagate, isNull, isEmpty, hj, hsub]
    · simp [mul, propagate, isNull, isEmpty, hj, F64.mul]
  · refine ⟨⟨F64.round (x + y), ?_, round_correct _⟩, ⟨F64.round (x - y), ?_, round_correct _⟩, ⟨F64.round (x * y), ?_, round_correct _⟩⟩
    · simp [add, propagate, isNull, isEmpty, F64.add]
    · simp [sub, propagate, isNull, isEmpty, hsub]
    · simp [mul, propagate, isNull, isEmpty, F64.mul]

/-- The divisor counts as zero: an integer 0, or a float of at most 1e-8 (as a `double`). -/
def CountsAsZero : Value → Prop
  | .int i => i = 0
  | .float f => F64.lt F64.eps (F64.abs f) = false
  | _ => False

theorem eps_pos : ∃ e : Rat, F64.eps = .fin e ∧ 0 < e := ⟨3022314549036573 / 302231454903657293676544, by decide +kernel, by norm_num⟩

theorem not_zero_float {y : Rat} (h : ¬ CountsAsZero (.float (.fin y))) : y ≠ 0 := by
  rintro rfl
  apply h
  obtain ⟨e, he, h0⟩ := eps_pos
  simp only [CountsAsZero, he, F64.abs, F64.lt]
  simp only [lt_irrefl, if_false, decide_eq_false_iff_not, not_lt]
  exact h0.le

theorem lt_of_counts {f : F64} (h : ¬ CountsAsZero (.float f)) : F64.lt F64.eps (F64.abs f) = true := by
  simpa [CountsAsZero] using h

/-- **C117 (quotients).** A quotient with a float is the `double` nearest to the exact quotient, unless the divisor counts as zero, which gives the division NULL. -/
theorem C117_division {a b : Value} {x y : Rat} (ha : numberOf a = some x) (hb : numberOf b = some y) (hf : oneFloat a b = true) :
    (CountsAsZero b → div a b = some kNullDivByZero) ∧ (¬ CountsAsZero b → y ≠ 0 ∧ ∃ f, div a b = some (.float f) ∧ Correct f (x / y)) := by
  have hdiv : ∀ x y : Rat, y ≠ 0 → F64.div (.fin x) (.fin y) = F64.round (x / y) := fun x y h => by
    show (if y = 0 then _ else _) = _; rw [if_neg h]
  rcases numberOf_cases ha with ⟨i, rfl, hi⟩ | rfl <;> rcases numberOf_cases hb with ⟨j, rfl, hj⟩ | rfl
  · cases hf
  · refine ⟨fun h => ?_, fun h => ⟨not_zero_float h, _, ?_, round_correct _⟩⟩
    · simp only [CountsAsZero] at h
      simp [div, propagate, isNull, isEmpty, h]
    · have := lt_of_counts h
      simp [div, propagate, isNull, isEmpty, this, hi, hdiv x y (not_zero_float h)]
  · have hy : j ≠ 0 → y ≠ 0 := fun h hy => by
      subst hy
      have hb' : (if -9007199254740992 ≤ j ∧ j ≤ 9007199254740992 then some (j : Rat) else none) = some 0 := hb
      split at hb'
      · injection hb' with hb'; exact h (by exact_mod_cast hb')
      · cases hb'
    refine ⟨fun h => ?_, fun h => ⟨hy h, _, ?_, round_correct _⟩⟩
    · simp only [CountsAsZero] at h
      simp [div, propagate, isNull, isEmpty, h]
    · simp only [CountsAsZero] at h
      simp [div, propagate, isNull, isEmpty, h, hj, hdiv x y (hy h)]
  · refine ⟨fun h => ?_, fun h => ⟨not_zero_float h, _, ?_, round_correct _⟩⟩
    · simp only [CountsAsZero] at h
      simp [div, propagate, isNull, isEmpty, h]
    · have := lt_of_counts h
      simp [div, propagate, isNull, isEmpty, this, hdiv x y (not_zero_float h)]

/-- **C117 fails for small divisors:** 1.0 / 1e-9 is a division by zero, although the quotient is 10^9. -/
theorem C117_small_violated : ∃ y, IsDouble y ∧ y ≠ 0 ∧ div (.float (.fin 1)) (.float (.fin y)) = some kNullDivByZero :=
  ⟨1 / 2 ^ 30, ⟨1, -30, by norm_num, by norm_num, by norm_num, by norm_num⟩, by norm_num, by decide +kernel⟩

theorem ne_nan_add {a c : F64} {x : Rat} (h : a = .fin x) : F64.add a c = .nan → c = .nan := by
  subst h
  cases c with
  | nan => intro _; rfl
  | inf s => intro h; cases h
  | fin y =>
    intro h
    rcases round_correct (x + y) with ⟨r, hr, _⟩ | ⟨hr, _⟩ | ⟨hr, _⟩ <;> (rw [show F64.add (.fin x) (.fin y) = F64.round (x + y) from rfl, hr] at h; cases h)

theorem le_total_inf (f : F64) (h : f ≠ .nan) : F64.le f (.inf false) = true ∧ F64.le (.inf true) f = true := by
  cases f with
  | nan => exact absurd rfl h
  | inf s => cases s <;> decide
  | fin q => exact ⟨rfl, rfl⟩

theorem round_ne_nan (q : Rat) : F64.round q ≠ .nan := by
  intro h
  rcases round_correct q with ⟨r, hr, _⟩ | ⟨hr, _⟩ | ⟨hr, _⟩ <;> (rw [hr] at h; cases h)

/-- **C117 (order).** Adding the same number, or multiplying by the same number that is not negative, keeps the order. -/
theorem C117_monotone (fmt : F64 → Bytes) {f g h : F64} (hle : F64.le f g = true) :
    (∀ r s, add fmt (.float f) (.float h) = some (.float r) → add fmt (.float g) (.float h) = some (.float s) → r ≠ .nan → s ≠ .nan → F64.le r s = true) ∧
    (F64.le (.fin 0) h = true → ∀ r s, mul (.float f) (.float h) = some (.float r) → mul (.float g) (.float h) = some (.float s) → r ≠ .nan → s ≠ .nan → F64.le r s = true) := by
  have e1 : ∀ x y : F64, add fmt (.float x) (.float y) = some (.float (F64.add x y)) := fun x y => by simp [add, propagate, isNull, isEmpty]
  have e2 : ∀ x y : F64, mul (.float x) (.float y) = some (.float (F64.mul x y)) := fun x y => by simp [mul, propagate, isNull, isEmpty]
  constructor
  · intro r s hr hs hrn hsn
    rw [e1] at hr hs
    injection hr with hr; injection hr with hr
    injection hs with hs; injection hs with hs
    subst hr hs
    cases f with
    | nan => cases hle
    | inf u =>
      cases g with
      | nan => cases hle
      | inf v => cases h <;> cases u <;> cases v <;> simp_all [F64.le, F64.add] <;> (rename_i w; cases w <;> simp_all)
      | fin y =>
        cases u with
        | false => cases hle
        | true =>
          cases h with
          | nan => exact absurd rfl hrn
          | inf w => cases w with
            | false => exact absurd rfl hrn
            | true => rfl
          | fin z => exact (le_total_inf _ hsn).2
    | fin x =>
      cases g with
      | nan => cases hle
      | inf v =>
        cases v with
        | true => cases hle
        | false =>
          cases h with
          | nan => exact absurd rfl hrn
          | inf w => cases w with
            | false => rfl
            | true => exact absurd rfl hsn
          | fin z => exact (le_total_inf _ hrn).1
      | fin y =>
        cases h with
        | nan => exact absurd rfl hrn
        | inf w => cases w <;> rfl
        | fin z =>
          simp only [F64.le, decide_eq_true_eq] at hle
          exact round_mono (by linarith)
  · intro h0 r s hr hs hrn hsn
    rw [e2] at hr hs
    injection hr with hr; injection hr with hr
    injection hs with hs; injection hs with hs
    subst hr hs
    cases h with
    | nan => cases h0
    | inf w =>
      cases w with
      | true => cases h0
      | false =>
        cases f with
        | nan => cases hle
        | inf u => cases g with
          | nan => cases hle
          | inf v => cases u <;> cases v <;> simp_all [F64.le, F64.mul]
          | fin y => cases u with
            | false => cases hle
            | true => exact (le_total_inf _ hsn).2
        | fin x =>
          by_cases hx : x = 0
          · simp [F64.mul, hx] at hrn
          · cases g with
            | nan => cases hle
            | inf v => cases v with
              | true => cases hle
              | false => exact (le_total_inf _ hrn).1
            | fin y =>
              by_cases hy : y = 0
              · simp [F64.mul, hy] at hsn
              · simp only [F64.le, decide_eq_true_eq] at hle
                simp only [F64.mul, if_neg hx, if_neg hy, F64.le]
                by_cases h1 : x < 0
                · simp [h1]
                · have : ¬ y < 0 := by linarith [not_lt.1 h1]
                  simp [h1, this]
    | fin z =>
      simp only [F64.le, decide_eq_true_eq] at h0
      cases f with
      | nan => cases hle
      | inf u =>
        by_cases hz : z = 0
        · simp [F64.mul, hz] at hrn
        · have hz' : ¬ z < 0 := not_lt.2 h0
          cases g with
          | nan => cases hle
          | inf v => cases u <;> cases v <;> simp_all [F64.le, F64.mul]
          | fin y => cases u with
            | false => cases hle
            | true => simp only [F64.mul, if_neg hz, hz', decide_false, Bool.bne_false]; exact (le_total_inf _ hsn).2
      | fin x =>
        cases g with
        | nan => cases hle
        | inf v => cases v with
          | true => cases hle
          | false =>
            by_cases hz : z = 0
            · simp [F64.mul, hz] at hsn
            · have hz' : ¬ z < 0 := not_lt.2 h0
              simp only [F64.mul, if_neg hz, hz', decide_false, Bool.bne_false]
              exact (le_total_inf _ hrn).1
        | fin y =>
          simp only [F64.le, decide_eq_true_eq] at hle
          exact round_mono (mul_le_mul_of_nonneg_right hle h0)

/-- **C117 (remainders).** The remainder of two doubles is again a double: it is exact. -/
theorem C117_remainder {x y : Rat} (hx : IsDouble x) (hy : IsDouble y) (hz : ¬ CountsAsZero (.float (.fin y))) :
    ∃ r, mod (.float (.fin x)) (.float (.fin y)) = some (.float (.fin r)) ∧ IsDouble r ∧ (∃ k : Int, x = y * k + r) ∧ |r| < |y| ∧ 0 ≤ x * r := by
  have hy0 := not_zero_float hz
  have hl := lt_of_counts hz
  refine ⟨x - y * (F64.trunc (x / y) : Rat), by simp [mod, propagate, isNull, isEmpty, hl, F64.fmod, hy0], ?_⟩
  have htr : ∀ q : Rat, |q - (F64.trunc q : Rat)| < 1 ∧ 0 ≤ q * (q - (F64.trunc q : Rat)) ∧ |q - (F64.trunc q : Rat)| ≤ |q| := by
    intro q
    unfold F64.trunc
    split
    · rename_i h
      have h1 : ((q.floor : Int) : Rat) ≤ q := Rat.floor_le q
      have h2 : q < (q.floor : Rat) + 1 := by have := Rat.lt_floor_add_one q; push_cast at this; exact this
      have h3 : (0 : Rat) ≤ (q.floor : Rat) := by
        have : (0 : Int) ≤ q.floor := Rat.le_floor_iff.2 (by simpa using h)
        exact_mod_cast this
      have h4 : 0 ≤ q - (q.floor : Rat) := by linarith
      refine ⟨by rw [abs_of_nonneg h4]; linarith, mul_nonneg h h4, ?_⟩
      rw [abs_of_nonneg h4, abs_of_nonneg h]; linarith
    · rename_i h
      have h := not_le.1 h
      have h1 : (((-q).floor : Int) : Rat) ≤ -q := Rat.floor_le _
      have h2 : -q < ((-q).floor : Rat) + 1 := by have := Rat.lt_floor_add_one (-q); push_cast at this; exact this
      have h3 : (0 : Rat) ≤ ((-q).floor : Rat) := by
        have : (0 : Int) ≤ (-q).floor := Rat.le_floor_iff.2 (by push_cast; linarith)
        exact_mod_cast this
      have h4 : q - ((-(-q).floor : Int) : Rat) ≤ 0 := by push_cast; linarith
      refine ⟨by rw [abs_of_nonpos h4]; push_cast; linarith, mul_nonneg_of_nonpos_of_nonpos h.le h4, ?_⟩
      rw [abs_of_nonpos h4, abs_of_neg h]; push_cast; linarith
  obtain ⟨t1, t2, t3⟩ := htr (x / y)
  generalize F64.trunc (x / y) = t at *
  have er : x - y * (t : Rat) = y * (x / y - t) := by field_simp
  have ypos : 0 < |y| := abs_pos.2 hy0
  have r1 : |x - y * (t : Rat)| < |y| := by rw [er, abs_mul]; nlinarith
  have r2 : |x - y * (t : Rat)| ≤ |x| := by
    rw [er, abs_mul]
    calc |y| * |x / y - t| ≤ |y| * |x / y| := mul_le_mul_of_nonneg_left t3 ypos.le
      _ = |x| := by rw [← abs_mul]; congr 1; field_simp
  have r3 : 0 ≤ x * (x - y * (t : Rat)) := by
    have : x * (x - y * (t : Rat)) = y * y * (x / y * (x / y - t)) := by field_simp
    rw [this]; exact mul_nonneg (mul_self_nonneg y) t2
  refine ⟨?_, ⟨t, by ring⟩, r1, r3⟩
  obtain ⟨m, e, m1, e1, e2, hx⟩ := hx
  obtain ⟨n, f, n1, f1, f2, hy⟩ := hy
  have fin_ : ∀ (k g : Int) (b : Int), |b| < 2 ^ 53 → -1074 ≤ g → g ≤ 971 → x - y * (t : Rat) = (k : Rat) * (2 : Rat) ^ g → |x - y * (t : Rat)| ≤ |(b : Rat) * (2 : Rat) ^ g| → IsDouble (x - y * (t : Rat)) := by
    intro k g b hb g1 g2 hk hle
    refine ⟨k, g, ?_, g1, g2, hk⟩
    rw [hk, abs_mul, abs_mul] at hle
    have hp : (0 : Rat) < |(2 : Rat) ^ g| := abs_pos.2 (zpow_pos (by norm_num) g).ne'
    have h1 : |(k : Rat)| ≤ |(b : Rat)| := le_of_mul_le_mul_right hle hp
    have h2 : |k| ≤ |b| := by exact_mod_cast h1
    omega
  rcases le_total f e with hfe | hfe
  · obtain ⟨d, hd⟩ := Int.eq_ofNat_of_zero_le (show 0 ≤ e - f by omega)
    have he : e = (d : Int) + f := by omega
    refine fin_ (m * 2 ^ d - n * t) f n n1 f1 f2 ?_ (by rw [← hy]; exact r1.le)
    rw [hx, hy, he, zpow_add₀ (by norm_num), zpow_natCast]; push_cast; ring
  · obtain ⟨d, hd⟩ := Int.eq_ofNat_of_zero_le (show 0 ≤ f - e by omega)
    have he : f = (d : Int) + e := by omega
    refine fin_ (m - n * 2 ^ d * t) e m m1 e1 e2 ?_ (by rw [← hx]; exact r2)
    rw [hx, hy, he, zpow_add₀ (by norm_num), zpow_natCast]; push_cast; ring

/-- **C117 (exact cases).** A double plus 0, times 1 or divided by 1 is itself, and different doubles have a difference that is not 0. -/
theorem C117_exact (fmt : F64 → Bytes) {x y : Rat} (hx : IsDouble x) (hy : IsDouble y) :
    add fmt (.float (.fin x)) (.float (.fin 0)) = some (.float (.fin x)) ∧ mul (.float (.fin x)) (.float (.fin 1)) = some (.float (.fin x)) ∧
    div (.float (.fin x)) (.float (.fin 1)) = some (.float (.fin x)) ∧
    (sub (.float (.fin x)) (.float (.fin y)) = some (.float (.fin 0)) ↔ x = y) := by
  have hr : F64.round x = .fin x := (representable_iff x).2 hx
  have one : F64.lt F64.eps (F64.abs (.fin 1)) = true := by decide +kernel
  refine ⟨?_, ?_, ?_, ?_⟩
  · simp [add, propagate, isNull, isEmpty, F64.add, hr]
  · simp [mul, propagate, isNull, isEmpty, F64.mul, hr]
  · simp [div, propagate, isNull, isEmpty, F64.div, one, hr]
  · have e : sub (.float (.fin x)) (.float (.fin y)) = some (.float (F64.round (x - y))) := by
      simp [sub, propagate, isNull, isEmpty, F64.sub, F64.neg, F64.add, sub_eq_add_neg]
    rw [e]
    constructor
    · intro h
      injection h with h; injection h with h
      refine Classical.byContradiction fun hne => ?_
      -- the difference is a multiple of 2^-1074
      obtain ⟨m, e, _, e1, _, hx⟩ := hx
      obtain ⟨n, f, _, f1, _, hy⟩ := hy
      rw [← pow2_zpow] at hx hy
      obtain ⟨M, hM⟩ := grid_pow (u := -1074) (e := e) e1
      obtain ⟨N, hN⟩ := grid_pow (u := -1074) (e := f) f1
      have hk : x - y = ((m * M - n * N : Int) : Rat) * pow2 (-1074) := by rw [hx, hy, hM, hN]; push_cast; ring
      have hk0 : m * M - n * N ≠ 0 := by
        intro h0; rw [h0] at hk; apply hne; push_cast at hk; linarith
      have hp := pow2_pos (-1074)
      have tiny : IsDouble (pow2 (-1074)) := ⟨1, -1074, by norm_num, by norm_num, by norm_num, by rw [pow2_zpow]; push_cast; ring⟩
      have tr : F64.round (pow2 (-1074)) = .fin (pow2 (-1074)) := (representable_iff _).2 tiny
      have tn : F64.round (-pow2 (-1074)) = .fin (-pow2 (-1074)) := by rw [round_neg', tr]; rfl
      rcases lt_or_gt_of_ne hk0 with hlt | hgt
      · have h1 : ((m * M - n * N : Int) : Rat) ≤ -1 := by exact_mod_cast (by omega : m * M - n * N ≤ -1)
        have := round_mono (p := x - y) (q := -pow2 (-1074)) (by rw [hk]; nlinarith)
        rw [h, tn] at this
        simp only [F64.le, decide_eq_true_eq] at this
        linarith
      · have h1 : (1 : Rat) ≤ ((m * M - n * N : Int) : Rat) := by exact_mod_cast (by omega : (1 : Int) ≤ m * M - n * N)
        have := round_mono (p := pow2 (-1074)) (q := x - y) (by rw [hk]; nlinarith)
        rw [h, tr] at this
        simp only [F64.le, decide_eq_true_eq] at this
        linarith
    · rintro rfl; rw [sub_self]; rfl

example : IsDouble (1 / 4) ∧ numberOf (.float (.fin (1 / 4))) = some (1 / 4) ∧ numberOf (.int 3) = some 3 ∧ oneFloat (.int 3) (.float (.fin (1 / 4))) = true ∧ ¬ CountsAsZero (.float (.fin (1 / 4))) :=
  ⟨⟨1, -2, by norm_num, by norm_num, by norm_num, by norm_num⟩, rfl, by decide +kernel, rfl, by unfold CountsAsZero; decide +kernel⟩

end Value
end Nebula
