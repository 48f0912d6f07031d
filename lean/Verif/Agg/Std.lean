import Verif.Agg.Props
import Mathlib.Algebra.Order.Field.Rat
import Mathlib.Tactic.FieldSimp
/-!
# STD and the variance (C47)

The textbook recurrence of the variance, over any notion `R q r` of taking a number `r` for an exact result `q`.  With equality it gives the population variance;
with rounding to `double` it is what the code does.
-/
namespace Nebula
namespace F64

theorem pow2_zpow (e : Int) : pow2 e = (2 : Rat) ^ e := by
  unfold pow2
  split
  · next h =>
    obtain ⟨n, rfl⟩ := Int.eq_ofNat_of_zero_le h
    simp
  · next h =>
    obtain ⟨n, hn⟩ := Int.eq_ofNat_of_zero_le (show 0 ≤ -e by omega)
    have : e = -(n : Int) := by omega
    subst this
    simp

theorem pow2_pos (e : Int) : 0 < pow2 e := by rw [pow2_zpow]; exact zpow_pos (by norm_num) e

theorem ilog2_le {q : Rat} (hq : 0 < q) : pow2 (ilog2 q) ≤ q := by
  unfold ilog2
  dsimp only
  split
  · assumption
  · rw [pow2_zpow]
    have hn : 0 < q.num := Rat.num_pos.2 hq
    have h1 : 2 ^ (q.num.natAbs.log2) ≤ q.num.natAbs := Nat.log2_self_le (by omega)
    have h2 : q.den < 2 ^ (q.den.log2 + 1) := Nat.lt_log2_self
    have hd : (0 : Rat) < q.den := by exact_mod_cast q.den_pos
    have e : q = (q.num.natAbs : Rat) / q.den := by
      have h3 : (q.num.natAbs : Rat) = (q.num : Rat) := by
        conv_rhs => rw [← Int.natAbs_of_nonneg hn.le]
        exact (Int.cast_natCast _).symm
      rw [h3, Rat.num_div_den]
    have h1' : ((2 : Rat) ^ (q.num.natAbs.log2)) ≤ (q.num.natAbs : Rat) := by exact_mod_cast h1
    have h2' : (q.den : Rat) ≤ (2 : Rat) ^ (q.den.log2 + 1) := by exact_mod_cast h2.le
    rw [show ((q.num.natAbs.log2 : Int) - (q.den.log2 : Int) - 1) = (q.num.natAbs.log2 : Int) - ((q.den.log2 + 1 : Nat) : Int) by push_cast; ring,
      zpow_sub₀ (by norm_num), zpow_natCast, zpow_natCast]
    conv_rhs => rw [e]
    exact div_le_div₀ (by positivity) h1' hd h2'

theorem roundEven_ge {N : Int} {x : Rat} (h : (N : Rat) ≤ x) : N ≤ roundEven x := by
  have hf : N ≤ x.floor := Rat.le_floor_iff.2 h
  unfold roundEven
  dsimp only
  split
  · exact hf
  split
  · omega
  split <;> omega

theorem round_pos_eq {q r : Rat} (hq : 0 < q) (h : round q = .fin r) :
    r = (roundEven (q / pow2 (max (ilog2 q - 52) (-1074))) : Rat) * pow2 (max (ilog2 q - 52) (-1074)) := by
  unfold round at h
  have hn : ¬ q < 0 := not_lt.2 hq.le
  rw [if_neg hq.ne'] at h
  simp only [if_neg hn] at h
  split at h
  · cases h
  · injection h with h; exact h.symm

/-- Rounding does not make a number negative. -/
theorem round_nonneg {q r : Rat} (hq : 0 ≤ q) (h : round q = .fin r) : 0 ≤ r := by
  rcases hq.eq_or_lt with rfl | hq
  · have : round 0 = .fin 0 := rfl
    rw [this] at h; injection h with h; rw [← h]
  · rw [round_pos_eq hq h]
    have : (0 : Int) ≤ roundEven (q / pow2 (max (ilog2 q - 52) (-1074))) :=
      roundEven_ge (by have := pow2_pos (max (ilog2 q - 52) (-1074)); push_cast; positivity)
    have h' : (0 : Rat) ≤ (roundEven (q / pow2 (max (ilog2 q - 52) (-1074))) : Rat) := by exact_mod_cast this
    exact mul_nonneg h' (pow2_pos _).le

/-- Rounding does not take a number below 1. -/
theorem round_ge_one {q r : Rat} (hq : 1 ≤ q) (h : round q = .fin r) : 1 ≤ r := by
  have h0 : 0 < q := by linarith
  rw [round_pos_eq h0 h]
  have hl := ilog2_le h0
  generalize hu : max (ilog2 q - 52) (-1074) = u
  have hpos := pow2_pos u
  by_cases hu0 : u ≤ 0
  · obtain ⟨k, hk⟩ := Int.eq_ofNat_of_zero_le (show 0 ≤ -u by omega)
    have e : u = -(k : Int) := by omega
    have hp : pow2 u = 1 / (2 : Rat) ^ k := by rw [pow2_zpow, e, zpow_neg, zpow_natCast, one_div]
    have hN : ((2 ^ k : Int) : Rat) ≤ q / pow2 u := by
      rw [hp]; push_cast
      have : (0 : Rat) < 2 ^ k := by positivity
      rw [div_div_eq_mul_div, div_one]
      nlinarith
    have h1 := roundEven_ge hN
    have h2 : ((2 ^ k : Int) : Rat) ≤ (roundEven (q / pow2 u) : Rat) := by exact_mod_cast h1
    calc (1 : Rat) = ((2 ^ k : Int) : Rat) * pow2 u := by rw [hp]; push_cast; field_simp
      _ ≤ _ := mul_le_mul_of_nonneg_right h2 hpos.le
  · have hle : pow2 u ≤ q := by
      refine le_trans ?_ hl
      rw [pow2_zpow, pow2_zpow]
      exact zpow_le_zpow_right₀ (by norm_num) (by omega)
    have h1 : (1 : Int) ≤ roundEven (q / pow2 u) := roundEven_ge (by push_cast; exact (one_le_div hpos).2 hle)
    have h2 : (1 : Rat) ≤ (roundEven (q / pow2 u) : Rat) := by exact_mod_cast h1
    have h3 : (1 : Rat) ≤ pow2 u := by
      rw [pow2_zpow]; exact one_le_zpow₀ (by norm_num) (by omega)
    nlinarith

end F64

open AggSpec Value Spec
namespace Agg

variable {L : Lib}

/-- One step of the recurrence: number of values, mean and variance. -/
def VarStep (R : Rat → Rat → Prop) (n m s x n' m' s' : Rat) : Prop :=
  ∃ c1 cc q d dd a q2 b e, R (n + 1) n' ∧ R (n' - 1) c1 ∧ R (n' * n') cc ∧ R (c1 / cc) q ∧ R (x - m) d ∧ R (d * d) dd ∧ R (q * dd) a ∧
    R (c1 / n') q2 ∧ R (q2 * s) b ∧ R (a + b) s' ∧ R (d / n') e ∧ R (m + e) m'

/-- The recurrence over a list, from given values. -/
inductive VarRun (R : Rat → Rat → Prop) : Rat → Rat → Rat → List Rat → Rat → Rat → Rat → Prop
  | nil (n m s) : VarRun R n m s [] n m s
  | cons {n m s x n1 m1 s1 xs n2 m2 s2} : VarStep R n m s x n1 m1 s1 → VarRun R n1 m1 s1 xs n2 m2 s2 → VarRun R n m s (x :: xs) n2 m2 s2

/-- The sum of the squared distances from `m`. -/
def sumSq (m : Rat) : List Rat → Rat
  | [] => 0
  | x :: xs => (x - m) ^ 2 + sumSq m xs

/-- The population variance. -/
def variance (xs : List Rat) : Rat := sumSq (sumR xs / ((xs.length : Int) : Rat)) xs / ((xs.length : Int) : Rat)

/-- The sum of the squares. -/
def sum2 : List Rat → Rat
  | [] => 0
  | x :: xs => x ^ 2 + sum2 xs

theorem sumSq_eq (m : Rat) (xs : List Rat) : sumSq m xs = sum2 xs - 2 * m * sumR xs + ((xs.length : Int) : Rat) * m ^ 2 := by
  induction xs with
  | nil => simp [sumSq, sum2, sumR]
  | cons x xs ih =>
    simp only [sumSq, sum2, sumR, List.length_cons, ih]
    push_cast
    ring

/-- What the recurrence keeps without rounding: `n` values with sum `t` and sum of squares `u`. -/
theorem varRun_exact {n m s : Rat} {xs : List Rat} {n' m' s' : Rat} (h : VarRun Eq n m s xs n' m' s') (hn : 0 ≤ n) (t u : Rat) (hm : n * m = t)
    (hs : n * s = u - n * m ^ 2) :
    n' = n + ((xs.length : Int) : Rat) ∧ n' * m' = t + sumR xs ∧ n' * s' = u + sum2 xs - n' * m' ^ 2 := by
  induction h generalizing t u with
  | nil n m s => simp [sumR, sum2, hm, hs]
  | @cons n m s x n1 m1 s1 xs n2 m2 s2 hstep _ ih =>
    obtain ⟨c1, cc, q, d, dd, a, q2, b, e, rfl, rfl, rfl, rfl, rfl, rfl, rfl, rfl, rfl, rfl, rfl, rfl⟩ := hstep
    have hne : n + 1 ≠ 0 := by linarith
    obtain ⟨h1, h2, h3⟩ := ih (by linarith) (t + x) (u + x ^ 2) (by field_simp; rw [← hm]; ring) (by
      have hu : u = n * s + n * m ^ 2 := by linarith
      rw [hu]; field_simp; ring)
    refine ⟨?_, ?_, ?_⟩
    · rw [h1, List.length_cons]; push_cast; ring
    · rw [h2, sumR]; ring
    · rw [h3, sum2]; ring

/-- **C47 (the formula of STD).** Without rounding the recurrence gives the population variance, the mean squared distance from the mean. -/
theorem C47_std_formula (xs : List Rat) (hne : xs ≠ []) {n m s : Rat} (h : VarRun Eq 0 0 0 xs n m s) :
    n = ((xs.length : Int) : Rat) ∧ m = sumR xs / ((xs.length : Int) : Rat) ∧ s = variance xs := by
  obtain ⟨h1, h2, h3⟩ := varRun_exact h (le_refl 0) 0 0 (by simp) (by simp)
  rw [zero_add] at h1 h2 h3
  have hpos : (0 : Rat) < ((xs.length : Int) : Rat) := by exact_mod_cast List.length_pos_iff.2 hne
  rw [← h1] at hpos
  have hm : m = sumR xs / n := by rw [eq_div_iff hpos.ne', mul_comm]; exact h2
  refine ⟨h1, by rw [hm, h1], ?_⟩
  have hs : s = (sum2 xs - n * m ^ 2) / n := by rw [eq_div_iff hpos.ne', mul_comm]; exact h3
  rw [variance, sumSq_eq, ← h1, hs, hm]
  congr 1
  field_simp
  ring

/-- The double of a number that is finite as a `double`. -/
def dblOf : Value → Option Rat
  | .int i => match F64.ofInt i with
    | .fin q => some q
    | _ => none
  | .float (.fin q) => some q
  | _ => none

/-- Rounding to a `double` without overflow. -/
def Rounds (q r : Rat) : Prop := F64.round q = .fin r

theorem std_skip (d : AggData) (v : Value) (hp : isPresent v = false) : stdStep L d v = some d := by
  cases v <;> simp [isPresent] at hp <;> simp [stdStep, isNull, isEmpty]

theorem run_skip_std (vs : List Value) (d : AggData) : run L .std false d vs = run L .std false d (present vs) := by
  induction vs generalizing d with
  | nil => rfl
  | cons v vs ih =>
    cases hp : isPresent v with
    | false =>
      have : present (v :: vs) = present vs := by simp [present, hp]
      rw [this, ← ih]
      simp [run, feed, step, std_skip d v hp]
    | true =>
      have : present (v :: vs) = v :: present vs := by simp [present, hp]
      rw [this]
      simp only [run]
      cases feed L .std false d v with
      | none => rfl
      | some d' => exact ih d'

theorem dblOf_numeric {v : Value} {q : Rat} (h : dblOf v = some q) : v.isNumeric = true ∧ v.isNull = false ∧ v.isEmpty = false := by
  cases v <;> simp [dblOf] at h <;> simp [isNumeric, isNull, isEmpty]

theorem sub_dbl {v : Value} {x m d : Rat} (hv : dblOf v = some x) (h : Rounds (x - m) d) : Value.sub v (.float (.fin m)) = some (.float (.fin d)) := by
  have e : F64.sub (.fin x) (.fin m) = .fin d := by
    show F64.round (x + -m) = _
    rw [← sub_eq_add_neg]; exact h
  cases v <;> simp only [dblOf, reduceCtorEq] at hv
  · rename_i i
    cases hi : F64.ofInt i with
    | nan => rw [hi] at hv; simp at hv
    | inf b => rw [hi] at hv; simp at hv
    | fin q =>
      rw [hi] at hv; simp at hv; subst hv
      show some (Value.float (F64.sub (F64.ofInt i) (.fin m))) = _
      rw [hi, e]
  · rename_i f
    cases f <;> simp at hv
    subst hv
    show some (Value.float (F64.sub (.fin _) (.fin m))) = _
    rw [e]

theorem div_dbl {a c r : Rat} (hc : 1 ≤ c) (h : Rounds (a / c) r) : Value.div (.float (.fin a)) (.float (.fin c)) = some (.float (.fin r)) := by
  have habs : F64.abs (.fin c) = .fin c := by simp [F64.abs]; intro h; linarith
  have heps : F64.lt F64.eps (.fin c) = true := by
    have h : F64.lt F64.eps (.fin 1) = true := by decide +kernel
    generalize F64.eps = e at h ⊢
    cases e with
    | nan => simp [F64.lt] at h
    | inf s => exact h
    | fin e => simp [F64.lt] at h ⊢; linarith
  have hne : c ≠ 0 := by intro h; linarith
  have hr : F64.round (a / c) = .fin r := h
  show some (if F64.lt F64.eps (F64.abs (.fin c)) then Value.float (F64.div (.fin a) (.fin c)) else kNullDivByZero) = _
  rw [habs, if_pos heps]
  simp [F64.div, hne, hr]

theorem mul_dbl {a b r : Rat} (h : Rounds (a * b) r) : Value.mul (.float (.fin a)) (.float (.fin b)) = some (.float (.fin r)) := by
  show some (Value.float (F64.round (a * b))) = _
  rw [h]

theorem add_dbl {fmt : F64 → Bytes} {a b r : Rat} (h : Rounds (a + b) r) : Value.add fmt (.float (.fin a)) (.float (.fin b)) = some (.float (.fin r)) := by
  show some (Value.float (F64.round (a + b))) = _
  rw [h]

theorem one_dbl : F64.ofInt 1 = .fin 1 := by decide +kernel

theorem std_step (d : AggData) (v : Value) {n m s x n' m' s' : Rat} (hv : dblOf v = some x) (hn : 0 ≤ n) (hs : 0 ≤ s) (h : VarStep Rounds n m s x n' m' s')
    (hb : d.result.isBadNull = false)
    (hd : (d.result.isNull = true ∧ n = 0 ∧ m = 0 ∧ s = 0) ∨
      (d.result.isNull = false ∧ d.cnt = .float (.fin n) ∧ d.avg = .float (.fin m) ∧ d.deviation = .float (.fin s))) :
    stdStep L d v = some { d with cnt := .float (.fin n'), avg := .float (.fin m'), deviation := .float (.fin s'), result := .float (L.sqrt (.fin s')) } ∧
    1 ≤ n' ∧ 0 ≤ s' := by
  obtain ⟨c1, cc, q, dd, d2, a, q2, b, e, r1, r2, r3, r4, r5, r6, r7, r8, r9, r10, r11, r12⟩ := h
  obtain ⟨hnum, n1, n2⟩ := dblOf_numeric hv
  have hn' : 1 ≤ n' := F64.round_ge_one (by linarith) r1
  have hcc : 1 ≤ cc := F64.round_ge_one (by nlinarith) r3
  have hc1 : 0 ≤ c1 := F64.round_nonneg (by linarith) r2
  have hq : 0 ≤ q := F64.round_nonneg (by positivity) r4
  have hd2 : 0 ≤ d2 := F64.round_nonneg (mul_self_nonneg _) r6
  have ha : 0 ≤ a := F64.round_nonneg (by positivity) r7
  have hq2 : 0 ≤ q2 := F64.round_nonneg (by positivity) r8
  have hb2 : 0 ≤ b := F64.round_nonneg (by positivity) r9
  have hs' : 0 ≤ s' := F64.round_nonneg (by linarith) r10
  refine ⟨?_, hn', hs'⟩
  have h1 : (if d.result.isNull then Value.float (.fin 0) else d.cnt) = .float (.fin n) := by
    rcases hd with ⟨h, rfl, rfl, rfl⟩ | ⟨h, h1, h2, h3⟩
    · simp [h]
    · simp [h, h1]
  have h2 : (if d.result.isNull then Value.float (.fin 0) else d.avg) = .float (.fin m) := by
    rcases hd with ⟨h, rfl, rfl, rfl⟩ | ⟨h, h1, h2, h3⟩
    · simp [h]
    · simp [h, h2]
  have h3 : (if d.result.isNull then Value.float (.fin 0) else d.deviation) = .float (.fin s) := by
    rcases hd with ⟨h, rfl, rfl, rfl⟩ | ⟨h, h1, h2, h3⟩
    · simp [h]
    · simp [h, h3]
  have v1 : Value.add L.fmt (.float (.fin n)) (.int 1) = some (.float (.fin n')) := by
    show some (Value.float (F64.add (.fin n) (F64.ofInt 1))) = _
    rw [one_dbl]
    show some (Value.float (F64.round (n + 1))) = _
    rw [r1]
  have v2 : Value.sub (.float (.fin n')) (.int 1) = some (.float (.fin c1)) := by
    show some (Value.float (F64.sub (.fin n') (F64.ofInt 1))) = _
    rw [one_dbl]
    show some (Value.float (F64.round (n' + -1))) = _
    rw [← sub_eq_add_neg, r2]
  have v3 := sub_dbl hv r5
  have v4 : newDeviation L (.float (.fin n')) (.float (.fin m)) (.float (.fin s)) v = some (.float (.fin s')) := by
    simp only [newDeviation, v2, mul_dbl r3, div_dbl hcc r4, v3, mul_dbl r6, mul_dbl r7, div_dbl hn' r8, mul_dbl r9, add_dbl r10, Option.bind_eq_bind, Option.bind_some]
  simp only [stdStep, hb, n1, n2, hnum, h1, h2, h3, v1, v3, v4, div_dbl hn' r11, add_dbl r12, Option.bind_eq_bind, Option.bind_some, Bool.false_eq_true, if_false,
    Bool.not_true, Bool.and_false, Bool.or_self]

/-- **C47 (STD).** STD over finite numbers is the square root of what the recurrence of the variance (C47_std_formula) gives when every result is rounded to a `double`, as long
as none of them overflows; nulls and empty values are skipped; the number under the root is never negative. -/
theorem C47_std (vs : List Value) (xs : List Rat) (hx : (present vs).map dblOf = xs.map some) (hne : xs ≠ []) {n m s : Rat} (h : VarRun Rounds 0 0 0 xs n m s) :
    (∃ d, run L .std false AggData.init vs = some d ∧ d.result = .float (L.sqrt (.fin s))) ∧ 0 ≤ s := by
  rw [run_skip_std]
  have key : ∀ (l : List Value) {xs : List Rat} {n m s n2 m2 s2 : Rat} (d : AggData), l.map dblOf = xs.map some → VarRun Rounds n m s xs n2 m2 s2 → 0 ≤ n → 0 ≤ s →
      d.result.isBadNull = false →
      ((d.result.isNull = true ∧ n = 0 ∧ m = 0 ∧ s = 0) ∨
        (d.result.isNull = false ∧ d.cnt = .float (.fin n) ∧ d.avg = .float (.fin m) ∧ d.deviation = .float (.fin s) ∧ d.result = .float (L.sqrt (.fin s)))) →
      (∃ d', run L .std false d l = some d' ∧ (xs ≠ [] ∨ d.result.isNull = false → d'.result = .float (L.sqrt (.fin s2)))) ∧ 0 ≤ s2 := by
    intro l
    induction l with
    | nil =>
      intro xs n m s n2 m2 s2 d hl hr hn hs hb hd
      cases hr with
      | cons _ _ => simp at hl
      | nil =>
        refine ⟨⟨d, rfl, ?_⟩, hs⟩
        rintro (h | h)
        · exact absurd rfl h
        · rcases hd with hd | hd
          · rw [hd.1] at h; cases h
          · exact hd.2.2.2.2
    | cons v l ih =>
      intro xs n m s n2 m2 s2 d hl hr hn hs hb hd
      cases hr with
      | nil => simp at hl
      | @cons _ _ _ x n1 m1 s1 xs _ _ _ h1 h2 =>
        simp only [List.map_cons, List.cons.injEq] at hl
        obtain ⟨e, hn1, hs1⟩ := std_step (L := L) d v hl.1 hn hs h1 hb (by
          rcases hd with hd | ⟨a, b, c, d, _⟩
          · exact .inl hd
          · exact .inr ⟨a, b, c, d⟩)
        obtain ⟨⟨d', e', h'⟩, hs2⟩ := ih { d with cnt := .float (.fin n1), avg := .float (.fin m1), deviation := .float (.fin s1), result := .float (L.sqrt (.fin s1)) } hl.2 h2
          (by linarith) hs1 rfl (.inr ⟨rfl, rfl, rfl, rfl, rfl⟩)
        exact ⟨⟨d', by simp only [run, feed, Bool.false_eq_true, if_false, step, e, e'], fun _ => h' (.inr rfl)⟩, hs2⟩
  obtain ⟨⟨d, e, h'⟩, hs⟩ := key (present vs) AggData.init hx h (le_refl 0) (le_refl 0) rfl (.inl ⟨rfl, rfl, rfl, rfl⟩)
  exact ⟨⟨d, e, h' (.inl hne)⟩, hs⟩

/-- The recurrence can be followed for every list. -/
theorem varRun_exists (xs : List Rat) : ∀ n m s, ∃ n' m' s', VarRun Eq n m s xs n' m' s' := by
  induction xs with
  | nil => intro n m s; exact ⟨n, m, s, .nil n m s⟩
  | cons x xs ih =>
    intro n m s
    obtain ⟨n', m', s', h⟩ := ih _ _ _
    exact ⟨n', m', s', .cons ⟨_, _, _, _, _, _, _, _, _, rfl, rfl, rfl, rfl, rfl, rfl, rfl, rfl, rfl, rfl, rfl, rfl⟩ h⟩

/-- The hypotheses can be met: 1, 3 (an integer) and a null. -/
example : ∃ d, run L .std false AggData.init [.float (.fin 1), kNull, .int 3] = some d ∧ d.result = .float (L.sqrt (.fin 1)) := by
  have r : ∀ q : Rat, F64.Representable q → Rounds q q := fun _ h => h
  refine (C47_std (L := L) [.float (.fin 1), kNull, .int 3] [1, 3] (by decide +kernel) (by simp) (n := 2) (m := 2) (s := 1) ?_).1
  refine .cons (n1 := 1) (m1 := 1) (s1 := 0) ⟨0, 1, 0, 1, 1, 0, 0, 0, 1, ?_⟩ (.cons ⟨1, 4, 1 / 4, 2, 4, 1, 1 / 2, 0, 1, ?_⟩ (.nil _ _ _))
  · unfold Rounds; decide +kernel
  · unfold Rounds; decide +kernel

example : variance [1, 2, 3, 6] = 7 / 2 := by decide +kernel

end Agg
end Nebula
