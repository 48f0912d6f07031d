import Verif.Value.Rounding
import Mathlib.Tactic.Linarith
import Mathlib.Tactic.Ring
import Mathlib.Tactic.FieldSimp
/-!
# How far STD can be from the exact result (C47)
-/
namespace Nebula
open AggSpec Value Spec
namespace Agg

variable {L : Lib}

/-- Numbers up to 2^1000 are rounded without overflow. -/
theorem rounds_exists {q : Rat} (h : |q| ≤ 2 ^ 1000) : ∃ r, Rounds q r := by
  obtain ⟨h1, h2⟩ := abs_le.1 h
  have a := F64.round_mono h1
  have b := F64.round_mono h2
  have e : F64.round (2 ^ 1000) = .fin (2 ^ 1000) := by decide +kernel
  have e' : F64.round (-2 ^ 1000) = .fin (-2 ^ 1000) := by decide +kernel
  rw [e'] at a; rw [e] at b
  unfold Rounds
  cases hr : F64.round q with
  | fin r => exact ⟨r, rfl⟩
  | nan => rw [hr] at a; simp [F64.le] at a
  | inf s => rw [hr] at a b; cases s <;> simp [F64.le] at a b

/-- Rounding a number of size at most `B`, where numbers of size `N` are far above the smallest `double`. -/
theorem rnd {q B N : Rat} (hq : |q| ≤ B) (hN : tiny ≤ eps * N) (hB : B ≤ 2 ^ 1000) : ∃ r, Rounds q r ∧ |r - q| ≤ eps * (B + N) := by
  obtain ⟨r, hr⟩ := rounds_exists (hq.trans hB)
  refine ⟨r, hr, (round_err hr).trans ?_⟩
  have := mul_le_mul_of_nonneg_left hq eps_nonneg
  linarith [mul_add eps B N]

theorem prod_err {x x' y y' α Y X β : Rat} (h1 : |x - x'| ≤ α) (h2 : |y| ≤ Y) (h3 : |x'| ≤ X) (h4 : |y - y'| ≤ β) : |x * y - x' * y'| ≤ α * Y + X * β := by
  have e : x * y - x' * y' = (x - x') * y + x' * (y - y') := by ring
  rw [e]
  refine (abs_add_le _ _).trans ?_
  rw [abs_mul, abs_mul]
  exact add_le_add (mul_le_mul h1 h2 (abs_nonneg _) ((abs_nonneg _).trans h1)) (mul_le_mul h3 h4 (abs_nonneg _) ((abs_nonneg _).trans h3))

theorem abs_near {x y α B : Rat} (h : |x - y| ≤ α) (hy : |y| ≤ B) : |x| ≤ B + α := by
  have e : x = (x - y) + y := by ring
  rw [e]; refine (abs_add_le _ _).trans ?_; linarith

theorem near_trans {x y z α β : Rat} (h1 : |x - y| ≤ α) (h2 : |y - z| ≤ β) : |x - z| ≤ α + β := by
  have e : x - z = (x - y) + (y - z) := by ring
  rw [e]; exact (abs_add_le _ _).trans (add_le_add h1 h2)

theorem near_add {x y x' y' α β : Rat} (h1 : |x - x'| ≤ α) (h2 : |y - y'| ≤ β) : |(x + y) - (x' + y')| ≤ α + β := by
  have e : (x + y) - (x' + y') = (x - x') + (y - y') := by ring
  rw [e]; exact (abs_add_le _ _).trans (add_le_add h1 h2)

theorem abs_add_le' {x y X Y : Rat} (h1 : |x| ≤ X) (h2 : |y| ≤ Y) : |x + y| ≤ X + Y := (abs_add_le _ _).trans (add_le_add h1 h2)

theorem abs_mul_le {x y X Y : Rat} (h1 : |x| ≤ X) (h2 : |y| ≤ Y) : |x * y| ≤ X * Y := by
  rw [abs_mul]; exact mul_le_mul h1 h2 (abs_nonneg _) ((abs_nonneg _).trans h1)

theorem le_big {x Q : Rat} (h : x ≤ 1000 * Q) (hQ : Q ≤ 2 ^ 990) : x ≤ 2 ^ 1000 := by
  have e : (2 : Rat) ^ 1000 = 2 ^ 10 * 2 ^ 990 := by rw [← pow_add]
  rw [e]
  have ht : (0 : Rat) < 2 ^ 990 := by positivity
  clear e
  generalize (2 : Rat) ^ 990 = t at *
  norm_num; linarith

/-- The mean: one step adds at most 16 roundings of a number of size `M`. -/
theorem mean_step {k m μ x M : Rat} (hM : tiny ≤ eps * M) (hMb : M ≤ 2 ^ 490) (hk : 1 ≤ k) (hkb : k ≤ 2 ^ 40) (hx : |x| ≤ M) (hμ : |μ| ≤ M)
    (hm : |m - μ| ≤ 16 * (eps * M) * (k - 1)) :
    ∃ d e m', Rounds (x - m) d ∧ Rounds (d / k) e ∧ Rounds (m + e) m' ∧ |d - (x - μ)| ≤ 16 * (eps * M) * k ∧ |d| ≤ 3 * M ∧
      |m' - (μ + (x - μ) / k)| ≤ 16 * (eps * M) * k := by
  have hM0 : 0 ≤ M := (abs_nonneg _).trans hx
  replace hMb : M ≤ 2 ^ 990 := hMb.trans (pow_le_pow_right₀ (by norm_num) (by norm_num))
  have big : ∀ c : Rat, c ≤ 1000 → c * M ≤ 2 ^ 1000 := fun c hc => le_big (mul_le_mul_of_nonneg_right hc hM0) hMb
  clear hMb
  have hu0 : 0 ≤ eps * M := mul_nonneg eps_nonneg hM0
  have hu : eps * M = M / 2 ^ 53 := by unfold eps; ring
  have huk : eps * M * k ≤ M / 2 ^ 13 := by
    have := mul_le_mul_of_nonneg_left hkb hu0
    rw [hu] at this ⊢
    refine this.trans (le_of_eq ?_); ring
  have hmb : |m - μ| ≤ M / 2 ^ 8 := by
    refine hm.trans ?_
    have : 16 * (eps * M) * (k - 1) ≤ 16 * (eps * M * k) := by nlinarith
    refine this.trans ?_
    linarith
  have b1 : |x - m| ≤ 9 / 4 * M := by
    have e : x - m = (x - μ) + -(m - μ) := by ring
    have h2 : |x - μ| ≤ M + M := by rw [sub_eq_add_neg]; exact abs_add_le' hx (by rwa [abs_neg])
    have := abs_add_le' h2 (show |-(m - μ)| ≤ M / 2 ^ 8 by rwa [abs_neg])
    rw [← e] at this
    linarith
  obtain ⟨d, rd, hd⟩ := rnd b1 hM (big (9 / 4) (by norm_num))
  have hdb : |d| ≤ 3 * M := by
    have := abs_near hd b1
    have e : eps * (9 / 4 * M + M) = 13 / 4 * (eps * M) := by ring
    rw [e, hu] at this
    linarith
  have hk0 : 0 < k := by linarith
  have b2 : |d / k| ≤ 3 * M := by
    rw [abs_div, abs_of_pos hk0]
    exact (div_le_self (abs_nonneg _) hk).trans hdb
  obtain ⟨e, re, he⟩ := rnd b2 hM (big 3 (by norm_num))
  have heb : |e| ≤ 4 * M := by
    have := abs_near he b2
    have e : eps * (3 * M + M) = 4 * (eps * M) := by ring
    rw [e, hu] at this
    linarith
  have hmm : |m| ≤ 2 * M := by
    have := abs_near hmb hμ
    linarith
  have b3 : |m + e| ≤ 6 * M := (abs_add_le' hmm heb).trans (by linarith)
  obtain ⟨m', rm, hm'⟩ := rnd b3 hM (big 6 (by norm_num))
  refine ⟨d, e, m', rd, re, rm, ?_, hdb, ?_⟩
  · have h1 : |(x - m) - (x - μ)| ≤ 16 * (eps * M) * (k - 1) := by
      rw [show (x - m) - (x - μ) = -(m - μ) by ring, abs_neg]; exact hm
    have := near_trans hd h1
    refine this.trans ?_
    nlinarith
  · have h1 : |e - (x - m) / k| ≤ eps * (3 * M + M) + eps * (9 / 4 * M + M) := by
      refine near_trans he ?_
      rw [← sub_div, abs_div, abs_of_pos hk0]
      exact (div_le_self (abs_nonneg _) hk).trans hd
    have h2 : |(m + (x - m) / k) - (μ + (x - μ) / k)| ≤ 16 * (eps * M) * (k - 1) := by
      have e : (m + (x - m) / k) - (μ + (x - μ) / k) = (m - μ) * ((k - 1) / k) := by field_simp; ring
      have hf : |(k - 1) / k| ≤ 1 := by
        rw [abs_of_nonneg (div_nonneg (by linarith) hk0.le), div_le_one hk0]; linarith
      rw [e]
      have := abs_mul_le hm hf
      linarith
    have h3 : |(m + e) - (m + (x - m) / k)| ≤ eps * (3 * M + M) + eps * (9 / 4 * M + M) := by
      rw [add_sub_add_left_eq_sub]; exact h1
    have := near_trans hm' (near_trans h3 h2)
    refine this.trans ?_
    nlinarith

/-- The variance: one step adds at most 256 roundings of a number of size `M²`. -/
theorem var_step {k d ξ s V M : Rat} (hM : tiny ≤ eps * M ^ 2) (hM0 : 0 ≤ M) (hMb : M ≤ 2 ^ 490) (hk : 1 ≤ k) (hkb : k ≤ 2 ^ 40) (hξ : |ξ| ≤ 2 * M) (hV : |V| ≤ M ^ 2)
    (hd : |d - ξ| ≤ 16 * (eps * M) * k) (hdb : |d| ≤ 3 * M) (hs : |s - V| ≤ 256 * (eps * M ^ 2) * (k - 1)) :
    ∃ cc q dd a q2 b s', Rounds (k * k) cc ∧ Rounds ((k - 1) / cc) q ∧ Rounds (d * d) dd ∧ Rounds (q * dd) a ∧ Rounds ((k - 1) / k) q2 ∧ Rounds (q2 * s) b ∧
      Rounds (a + b) s' ∧ |s' - ((k - 1) / (k * k) * (ξ * ξ) + (k - 1) / k * V)| ≤ 256 * (eps * M ^ 2) * k := by
  have hk0 : 0 < k := by linarith
  generalize hQ : M ^ 2 = Q at *
  have hQ' : M * M = Q := by rw [← hQ]; ring
  have hQ0 : 0 ≤ Q := by rw [← hQ]; positivity
  have hQb : Q ≤ 2 ^ 980 := by
    rw [← hQ]
    have := mul_le_mul hMb hMb hM0 (by positivity)
    calc M ^ 2 = M * M := by ring
      _ ≤ 2 ^ 490 * 2 ^ 490 := this
      _ = 2 ^ 980 := by rw [← pow_add]
  have hu : eps * Q = Q / 2 ^ 53 := by unfold eps; ring
  have hu0 : 0 ≤ eps * Q := mul_nonneg eps_nonneg hQ0
  have huk : eps * Q * k ≤ Q / 2 ^ 13 := by
    have := mul_le_mul_of_nonneg_left hkb hu0
    rw [hu] at this ⊢
    refine this.trans (le_of_eq ?_); ring
  have he : eps = 1 / 2 ^ 53 := rfl
  replace hQb : Q ≤ 2 ^ 990 := hQb.trans (pow_le_pow_right₀ (by norm_num) (by norm_num))
  have big : ∀ c : Rat, c ≤ 1000 → c * Q ≤ 2 ^ 1000 := fun c hc => le_big (mul_le_mul_of_nonneg_right hc hQ0) hQb
  have big1 : ∀ c : Rat, c ≤ 1000 → c ≤ 2 ^ 1000 := fun c hc => le_big (Q := 1) (by linarith) (one_le_pow₀ (by norm_num))
  clear hQb hMb
  have tiny1 : tiny ≤ eps * 1 := by
    unfold tiny eps
    rw [mul_one]
    exact one_div_le_one_div_of_le (by positivity) (pow_le_pow_right₀ (by norm_num) (by norm_num))
  have tinyk : tiny ≤ eps * (1 / k) := by
    have h1 : (1 : Rat) / 2 ^ 40 ≤ 1 / k := one_div_le_one_div_of_le hk0 hkb
    refine le_trans ?_ (mul_le_mul_of_nonneg_left h1 eps_nonneg)
    unfold tiny eps
    rw [div_mul_div_comm, one_mul, ← pow_add]
    exact one_div_le_one_div_of_le (by positivity) (pow_le_pow_right₀ (by norm_num) (by norm_num))
  -- the square of the count
  have hkk : (1 : Rat) ≤ k * k := by nlinarith
  have hkkb : k * k ≤ 2 ^ 80 := by
    have := mul_le_mul hkb hkb hk0.le (by positivity)
    calc k * k ≤ 2 ^ 40 * 2 ^ 40 := this
      _ = 2 ^ 80 := by norm_num
  have p80 : (2 : Rat) ^ 80 ≤ 2 ^ 1000 := pow_le_pow_right₀ (by norm_num) (by norm_num)
  obtain ⟨cc, rcc, hcc⟩ := rnd (q := k * k) (B := k * k) (N := k * k) (le_of_eq (abs_of_nonneg (by positivity)))
    (tiny1.trans (mul_le_mul_of_nonneg_left hkk eps_nonneg)) (hkkb.trans p80)
  have hccl : k * k / 2 ≤ cc := by
    have := (abs_le.1 hcc).1
    rw [he] at this
    linarith
  have hcc0 : 0 < cc := by nlinarith
  -- the first factor
  have hA0 : 0 ≤ (k - 1) / (k * k) := div_nonneg (by linarith) (by positivity)
  have hA : (k - 1) / (k * k) ≤ 1 / k := by
    rw [div_le_div_iff₀ (by positivity) hk0]; nlinarith
  have hk1 : 1 / k ≤ 1 := by rw [div_le_one hk0]; exact hk
  have hk1' : 0 < 1 / k := by positivity
  have hq1 : |(k - 1) / cc - (k - 1) / (k * k)| ≤ 4 * eps * (1 / k) := by
    have e : (k - 1) / cc - (k - 1) / (k * k) = (k - 1) / (k * k) * ((k * k - cc) / cc) := by field_simp
    rw [e]
    have h1 : |(k * k - cc) / cc| ≤ 4 * eps := by
      rw [abs_div, abs_of_pos hcc0, abs_sub_comm, div_le_iff₀ hcc0]
      refine hcc.trans ?_
      have := mul_le_mul_of_nonneg_left hccl eps_nonneg
      linarith
    have := abs_mul_le (show |(k - 1) / (k * k)| ≤ 1 / k by rw [abs_of_nonneg hA0]; exact hA) h1
    linarith
  have hq0 : |(k - 1) / cc| ≤ 2 * (1 / k) := by
    have := abs_near hq1 (show |(k - 1) / (k * k)| ≤ 1 / k by rw [abs_of_nonneg hA0]; exact hA)
    have h4 : 4 * eps * (1 / k) ≤ 1 / k := by rw [he]; linarith
    linarith
  obtain ⟨q, rq, hq⟩ := rnd hq0 tinyk (big1 _ (by linarith))
  have hqA : |q - (k - 1) / (k * k)| ≤ 7 * eps * (1 / k) := (near_trans hq hq1).trans (by linarith)
  have hqb : |q| ≤ 2 * (1 / k) := by
    have := abs_near hqA (show |(k - 1) / (k * k)| ≤ 1 / k by rw [abs_of_nonneg hA0]; exact hA)
    have h4 : 7 * eps * (1 / k) ≤ 1 / k := by rw [he]; linarith
    linarith
  -- the squared distance
  have hd2 : |d * d| ≤ 9 * Q := by have := abs_mul_le hdb hdb; rw [← hQ']; linarith
  obtain ⟨dd, rdd, hdd⟩ := rnd hd2 hM (big 9 (by norm_num))
  have hddb : |dd| ≤ 10 * Q := by
    have := abs_near hdd hd2
    have e : eps * (9 * Q + Q) = 10 * (eps * Q) := by ring
    rw [e, hu] at this; linarith
  have hdξ : |d * d - ξ * ξ| ≤ 80 * (eps * Q) * k := by
    have := prod_err hd hdb hξ hd
    refine this.trans (le_of_eq ?_)
    rw [← hQ']; ring
  have hddξ : |dd - ξ * ξ| ≤ 90 * (eps * Q) * k := by
    refine (near_trans hdd hdξ).trans ?_
    have huk1 : eps * Q ≤ eps * Q * k := le_mul_of_one_le_right hu0 hk
    linarith
  have hξ2 : |ξ * ξ| ≤ 4 * Q := by have := abs_mul_le hξ hξ; rw [← hQ']; linarith
  -- the first summand
  have hkQ : 1 / k * Q ≤ Q := mul_le_of_le_one_left hQ0 hk1
  have ha0 : |q * dd| ≤ 20 * Q := by
    have := abs_mul_le hqb hddb
    have e : 2 * (1 / k) * (10 * Q) = 20 * (1 / k * Q) := by ring
    rw [e] at this; linarith
  obtain ⟨a, ra, ha⟩ := rnd ha0 hM (big 20 (by norm_num))
  have hab : |a| ≤ 21 * Q := by
    have := abs_near ha ha0
    have e : eps * (20 * Q + Q) = 21 * (eps * Q) := by ring
    rw [e, hu] at this; linarith
  have hkeQ : 1 / k * (eps * Q) ≤ eps * Q := mul_le_of_le_one_left hu0 hk1
  have huk1 : eps * Q ≤ eps * Q * k := le_mul_of_one_le_right hu0 hk
  have haA : |a - (k - 1) / (k * k) * (ξ * ξ)| ≤ 181 * (eps * Q) := by
    have h1 := prod_err hqA hddb (show |(k - 1) / (k * k)| ≤ 1 / k by rw [abs_of_nonneg hA0]; exact hA) hddξ
    refine (near_trans ha h1).trans ?_
    have e : 1 / k * (90 * (eps * Q) * k) = 90 * (eps * Q) := by field_simp
    have e2 : 7 * eps * (1 / k) * (10 * Q) = 70 * (1 / k * (eps * Q)) := by ring
    rw [e, e2]
    linarith
  -- the second summand
  have hB : |(k - 1) / k| ≤ 1 := by
    rw [abs_of_nonneg (div_nonneg (by linarith) hk0.le), div_le_one hk0]; linarith
  obtain ⟨q2, rq2, hq2⟩ := rnd hB tiny1 (big1 1 (by norm_num))
  have hq2b : |q2| ≤ 2 := by
    have := abs_near hq2 hB
    rw [he] at this; linarith
  have hsb : |s| ≤ 2 * Q := by
    have := abs_near hs hV
    linarith
  have hb0 : |q2 * s| ≤ 4 * Q := by have := abs_mul_le hq2b hsb; linarith
  obtain ⟨b, rb, hb⟩ := rnd hb0 hM (big 4 (by norm_num))
  have hbb : |b| ≤ 5 * Q := by
    have := abs_near hb hb0
    have e : eps * (4 * Q + Q) = 5 * (eps * Q) := by ring
    rw [e, hu] at this; linarith
  have hbB : |b - (k - 1) / k * V| ≤ 9 * (eps * Q) + 256 * (eps * Q) * (k - 1) := by
    have h1 := prod_err hq2 hsb hB hs
    refine (near_trans hb h1).trans ?_
    linarith
  -- the sum
  obtain ⟨s', rs, hs'⟩ := rnd (abs_add_le' hab hbb) hM (by rw [← add_mul]; exact big _ (by norm_num))
  refine ⟨cc, q, dd, a, q2, b, s', rcc, rq, rdd, ra, rq2, rb, rs, ?_⟩
  refine (near_trans hs' (near_add haA hbB)).trans ?_
  linarith

/-- The exact recurrence keeps the mean and the variance within bounds. -/
theorem exact_step {k μ V x M : Rat} (hk : 1 ≤ k) (hx : |x| ≤ M) (hμ : |μ| ≤ M) (hV : 0 ≤ V) (hVμ : V + μ ^ 2 ≤ M ^ 2) :
    |μ + (x - μ) / k| ≤ M ∧ 0 ≤ (k - 1) / (k * k) * ((x - μ) * (x - μ)) + (k - 1) / k * V ∧
      (k - 1) / (k * k) * ((x - μ) * (x - μ)) + (k - 1) / k * V + (μ + (x - μ) / k) ^ 2 ≤ M ^ 2 := by
  have hk0 : 0 < k := by linarith
  have hB0 : 0 ≤ (k - 1) / k := div_nonneg (by linarith) hk0.le
  have hk1 : 0 ≤ 1 / k := by positivity
  have e1 : (k - 1) / k + 1 / k = 1 := by field_simp; ring
  refine ⟨?_, ?_, ?_⟩
  · have e : μ + (x - μ) / k = (k - 1) / k * μ + 1 / k * x := by field_simp; ring
    rw [e]
    have h1 := abs_mul_le (le_of_eq (abs_of_nonneg hB0)) hμ
    have h2 := abs_mul_le (le_of_eq (abs_of_nonneg hk1)) hx
    have := abs_add_le' h1 h2
    rwa [← add_mul, e1, one_mul] at this
  · have : 0 ≤ (k - 1) / (k * k) := div_nonneg (by linarith) (by positivity)
    have h2 := mul_self_nonneg (x - μ)
    positivity
  · have e : (k - 1) / (k * k) * ((x - μ) * (x - μ)) + (k - 1) / k * V + (μ + (x - μ) / k) ^ 2 = (k - 1) / k * (V + μ ^ 2) + 1 / k * x ^ 2 := by field_simp; ring
    rw [e]
    have hx2 : x ^ 2 ≤ M ^ 2 := sq_le_sq' (abs_le.1 hx).1 (abs_le.1 hx).2
    have h1 := mul_le_mul_of_nonneg_left hVμ hB0
    have h2 := mul_le_mul_of_nonneg_left hx2 hk1
    have := add_le_add h1 h2
    rwa [← add_mul, e1, one_mul] at this

/-- The rounded recurrence beside the exact one, from `k` values on. -/
theorem varRun_error (M : Rat) (hM : tiny ≤ eps * M) (hM2 : tiny ≤ eps * M ^ 2) (hMb : M ≤ 2 ^ 490) :
    ∀ (xs : List Rat) (k : Nat) (m s μ V : Rat), (∀ x ∈ xs, |x| ≤ M) → 0 ≤ M → k + xs.length ≤ 2 ^ 40 → |μ| ≤ M → 0 ≤ V → V + μ ^ 2 ≤ M ^ 2 →
      |m - μ| ≤ 16 * (eps * M) * (k : Rat) → |s - V| ≤ 256 * (eps * M ^ 2) * (k : Rat) →
      ∃ m' s' μ' V', VarRun Rounds (k : Rat) m s xs ((k + xs.length : Nat) : Rat) m' s' ∧ VarRun Eq (k : Rat) μ V xs ((k + xs.length : Nat) : Rat) μ' V' ∧
        |m' - μ'| ≤ 16 * (eps * M) * ((k + xs.length : Nat) : Rat) ∧ |s' - V'| ≤ 256 * (eps * M ^ 2) * ((k + xs.length : Nat) : Rat) := by
  intro xs
  induction xs with
  | nil =>
    intro k m s μ V _ _ _ _ _ _ h1 h2
    exact ⟨m, s, μ, V, .nil _ _ _, .nil _ _ _, h1, h2⟩
  | cons x xs ih =>
    intro k m s μ V hx hM0 hlen hμ hV hVμ hm hs
    rw [List.length_cons] at hlen
    have hkn : ((k + 1 : Nat) : Rat) - 1 = (k : Rat) := by push_cast; ring
    have hk1 : (1 : Rat) ≤ ((k + 1 : Nat) : Rat) := by exact_mod_cast Nat.succ_pos k
    have hkb : ((k + 1 : Nat) : Rat) ≤ 2 ^ 40 := by exact_mod_cast (by omega : k + 1 ≤ 2 ^ 40)
    have hx0 := hx x (by simp)
    rw [← hkn] at hm hs
    obtain ⟨d, e, m', rd, re, rm, hd, hdb, hm'⟩ := mean_step hM hMb hk1 hkb hx0 hμ hm
    have hξ : |x - μ| ≤ 2 * M := by
      rw [sub_eq_add_neg]; refine (abs_add_le' hx0 (show |-μ| ≤ M by rwa [abs_neg])).trans ?_; linarith
    have hVb : |V| ≤ M ^ 2 := by rw [abs_of_nonneg hV]; nlinarith [sq_nonneg μ]
    obtain ⟨cc, q, dd, a, q2, b, s', rcc, rq, rdd, ra, rq2, rb, rs, hs'⟩ := var_step hM2 hM0 hMb hk1 hkb hξ hVb hd hdb hs
    obtain ⟨e1, e2, e3⟩ := exact_step hk1 hx0 hμ hV hVμ
    obtain ⟨m2, s2, μ2, V2, g1, g2, g3, g4⟩ := ih (k + 1) m' s' _ _ (fun y hy => hx y (by simp [hy])) hM0 (by omega) e1 e2 e3 hm' hs'
    have hl : k + (x :: xs).length = k + 1 + xs.length := by rw [List.length_cons, Nat.add_assoc, Nat.add_comm 1]
    rw [hl]
    have rn : Rounds ((k : Rat) + 1) ((k + 1 : Nat) : Rat) := by
      have := succ_rep k (by omega)
      unfold F64.Representable at this
      unfold Rounds
      push_cast at this ⊢; exact this
    have rc : Rounds (((k + 1 : Nat) : Rat) - 1) (k : Rat) := by
      rw [hkn]
      have := F64.ofInt_small (k : Int) (by omega) (by omega)
      unfold Rounds
      rw [F64.ofInt] at this
      push_cast at this ⊢; exact this
    rw [hkn] at rq rq2
    refine ⟨m2, s2, μ2, V2, .cons ⟨k, cc, q, d, dd, a, q2, b, e, rn, rc, rcc, rq, rd, rdd, ra, rq2, rb, rs, re, rm⟩ g1, .cons ?_ g2, g3, g4⟩
    exact ⟨((k + 1 : Nat) : Rat) - 1, _, _, _, _, _, _, _, _, by push_cast; ring, rfl, rfl, rfl, rfl, rfl, rfl, rfl, rfl, rfl, rfl, rfl⟩

/-- **C47 (STD, accuracy).** STD over up to 2^40 finite numbers of size at most `M`, integers and doubles mixed with nulls in any order, never overflows: the result is the square
root of a number that is not negative and differs from the population variance by at most `n M² / 2^45`, for any `M` between 2^-511 and 2^490. -/
theorem C47_std_error (vs : List Value) (xs : List Rat) (hx : (present vs).map dblOf = xs.map some) (hne : xs ≠ []) (hlen : xs.length ≤ 2 ^ 40)
    (M : Rat) (hM1 : 1 / 2 ^ 511 ≤ M) (hM2 : M ≤ 2 ^ 490) (hM : ∀ x ∈ xs, |x| ≤ M) :
    ∃ d s, run L .std false AggData.init vs = some d ∧ d.result = .float (L.sqrt (.fin s)) ∧ 0 ≤ s ∧
      |s - variance xs| ≤ (xs.length : Rat) * M ^ 2 / 2 ^ 45 := by
  have hM0 : 0 ≤ M := le_trans (by positivity) hM1
  have t2 : tiny ≤ eps * M ^ 2 := by
    have h := mul_le_mul hM1 hM1 (by positivity) hM0
    have e : tiny = eps * (1 / 2 ^ 511 * (1 / 2 ^ 511)) := by
      unfold tiny eps
      rw [div_mul_div_comm, div_mul_div_comm, one_mul, one_mul, ← pow_add, ← pow_add]
    rw [e, sq]
    exact mul_le_mul_of_nonneg_left h eps_nonneg
  have t1 : tiny ≤ eps * M := by
    refine le_trans ?_ (mul_le_mul_of_nonneg_left hM1 eps_nonneg)
    unfold tiny eps
    rw [div_mul_div_comm, one_mul, ← pow_add]
    exact one_div_le_one_div_of_le (by positivity) (pow_le_pow_right₀ (by norm_num) (by norm_num))
  obtain ⟨m, s, μ, V, h1, h2, -, h4⟩ := varRun_error M t1 t2 hM2 xs 0 0 0 0 0 hM hM0 (by omega) (by simpa using hM0) (le_refl 0) (by simp; positivity) (by simp) (by simp)
  simp only [Nat.zero_add, Nat.cast_zero] at h1 h2 h4
  obtain ⟨⟨d, e, hr⟩, hs⟩ := C47_std (L := L) vs xs hx hne h1
  obtain ⟨-, -, hV⟩ := C47_std_formula xs hne h2
  refine ⟨d, s, e, hr, hs, ?_⟩
  rw [hV] at h4
  refine h4.trans (le_of_eq ?_)
  unfold eps; ring

/-- The hypotheses can be met: 0.1 (as a double), an integer, a null and a negative number. -/
example : ∃ d s, run L .std false AggData.init [.float (.fin (3602879701896397 / 2 ^ 55)), .int 7, kNull, .float (.fin (-5 / 2))] = some d ∧
    d.result = .float (L.sqrt (.fin s)) ∧ 0 ≤ s ∧ |s - variance [3602879701896397 / 2 ^ 55, 7, -5 / 2]| ≤ 147 / 2 ^ 45 := by
  obtain ⟨d, s, h1, h2, h3, h4⟩ := C47_std_error (L := L) [.float (.fin (3602879701896397 / 2 ^ 55)), .int 7, kNull, .float (.fin (-5 / 2))]
    [3602879701896397 / 2 ^ 55, 7, -5 / 2] (by decide +kernel) (by simp) (by simp) 7 (by decide +kernel) (by decide +kernel) (by decide +kernel)
  exact ⟨d, s, h1, h2, h3, h4.trans (le_of_eq (by norm_num))⟩

end Agg
end Nebula
