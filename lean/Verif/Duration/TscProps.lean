import Verif.Duration.Tsc
import Verif.Duration.Props
import Verif.Value.Rounding
/-! # C116: the fast clock -/
namespace Nebula
namespace Tsc
open F64

/-! ## Rounding of numbers of moderate size -/

theorem round_fin {q : Rat} (h0 : 0 < q) (h : q ≤ 2 ^ 250) : ∃ r, F64.round q = .fin r ∧ 0 ≤ r := by
  have hl : ilog2 q ≤ 250 := by
    have a := ilog2_le h0
    have : pow2 (ilog2 q) < pow2 251 := lt_of_le_of_lt (a.trans h) (by rw [pow2_zpow]; norm_num)
    have := pow2_lt_iff.1 this; omega
  have : roundR q ≤ pow2 251 := by
    obtain ⟨N, hN⟩ := grid_pow (u := spacing q) (e := 251) (by unfold spacing; omega)
    rw [hN]; apply roundR_le_grid; rw [← hN]
    exact (lt_ilog2 h0).le.trans (pow2_le (by omega))
  refine ⟨roundR q, ?_, roundR_pos_le h0⟩
  rw [round_pos h0, if_neg]
  intro hc
  have := hc.trans this
  exact absurd (pow2_lt_iff.2 (show (251 : Int) < 1024 by omega)) (not_lt.2 this)

theorem tiny_small : (1 : Rat) / 2 ^ 1075 ≤ 1 / 2 ^ 200 / 2 ^ 53 := by
  rw [div_div, ← pow_add]
  exact div_le_div_of_nonneg_left (by norm_num) (by positivity) (pow_le_pow_right₀ (by norm_num) (by norm_num))

/-- Numbers of moderate size are rounded with an error of at most one part in 2^52. -/
theorem round_rel {q : Rat} (h0 : 1 / 2 ^ 200 ≤ q) (h : q ≤ 2 ^ 250) : ∃ r, F64.round q = .fin r ∧ |r - q| ≤ q / 2 ^ 52 := by
  have hp : 0 < q := lt_of_lt_of_le (by positivity) h0
  obtain ⟨r, hr, _⟩ := round_fin hp h
  refine ⟨r, hr, (round_error_pos hp hr).trans ?_⟩
  have h1 : (1 : Rat) / 2 ^ 1075 ≤ q / 2 ^ 53 := tiny_small.trans (div_le_div_of_nonneg_right h0 (by positivity))
  have : q / 2 ^ 52 = q / 2 ^ 53 + q / 2 ^ 53 := by rw [pow_succ (2 : Rat) 52]; field_simp; norm_num
  linarith

/-- Relative closeness. -/
def Near (e r q : Rat) : Prop := (1 - e) * q ≤ r ∧ r ≤ (1 + e) * q

theorem near_of {r q : Rat} (h : |r - q| ≤ q / 2 ^ 52) : Near (1 / 2 ^ 52) r q := by
  rw [abs_le] at h
  exact ⟨by linarith [h.1], by linarith [h.2]⟩

theorem trunc_bounds {q : Rat} (h : 0 ≤ q) : 0 ≤ trunc q ∧ (trunc q : Rat) ≤ q ∧ q < (trunc q : Rat) + 1 := by
  unfold trunc
  rw [if_pos h]
  refine ⟨Rat.le_floor_iff.2 (by simpa using h), Rat.floor_le q, ?_⟩
  have := Rat.lt_floor_add_one q
  push_cast at this; exact this

theorem castU64_fin {q : Rat} (h : 0 ≤ q) (hb : q < 2 ^ 64) : ∃ n, castU64 (.fin q) = some n ∧ (n : Rat) ≤ q ∧ q < n + 1 := by
  obtain ⟨h1, h2, h3⟩ := trunc_bounds h
  have hlt : trunc q < 2 ^ 64 := by
    have : (trunc q : Rat) < ((2 ^ 64 : Int) : Rat) := by push_cast; linarith
    exact_mod_cast this
  refine ⟨(trunc q).toNat, ?_, ?_, ?_⟩
  · rw [castU64]; exact if_pos ⟨h1, hlt⟩
  all_goals
    have e : (((trunc q).toNat : Nat) : Rat) = ((trunc q : Int) : Rat) := by
      have := Int.toNat_of_nonneg h1
      conv_rhs => rw [← this]
      exact (Int.cast_natCast _).symm
    rw [e]; assumption

theorem castU64_mono {a b : F64} {m n : Nat} (h : le a b = true) (ha : le (.fin 0) a = true) (hm : castU64 a = some m) (hn : castU64 b = some n) : m ≤ n := by
  cases a with
  | nan => cases hm
  | inf => cases hm
  | fin p =>
    cases b with
    | nan => cases hn
    | inf => cases hn
    | fin q =>
      simp only [le, decide_eq_true_eq] at h ha
      have hp : trunc p ≤ trunc q := by
        unfold trunc
        rw [if_pos ha, if_pos (ha.trans h)]
        exact Rat.le_floor_iff.2 ((Rat.floor_le p).trans h)
      simp only [castU64] at hm hn
      split at hm
      · split at hn
        · injection hm with hm; injection hn with hn; omega
        · cases hn
      · cases hm

/-! ## One conversion -/

/-- `fl(ticks) * f + c` for a factor `f` near `1/d`. -/
theorem convert {ticks d : Nat} {f e : Rat} (ht : 0 < ticks) (htb : ticks < 2 ^ 64) (hd : 0 < d) (hdb : d < 2 ^ 64) (he0 : 0 ≤ e) (he : e ≤ 2 / 2 ^ 52 + 1 / 2 ^ 100)
    (hf : Near e f (1 / d)) :
    ∃ m, mul (ofInt ticks) (.fin f) = .fin m ∧ Near (5 / 2 ^ 52) m ((ticks : Rat) / d) := by
  have ht1 : (1 : Rat) ≤ ticks := by exact_mod_cast ht
  have ht2 : (ticks : Rat) ≤ 2 ^ 64 := by exact_mod_cast htb.le
  have hd1 : (1 : Rat) ≤ d := by exact_mod_cast hd
  have hd2 : (d : Rat) ≤ 2 ^ 64 := by exact_mod_cast hdb.le
  have hd0 : (0 : Rat) < d := by linarith
  have hinv1 : (1 : Rat) / d ≤ 1 := by rw [div_le_one hd0]; exact hd1
  have hinv0 : (1 : Rat) / 2 ^ 64 ≤ 1 / d := div_le_div_of_nonneg_left (by norm_num) hd0 hd2
  obtain ⟨a, ha, ha'⟩ := round_rel (q := ticks) (by refine le_trans ?_ ht1; norm_num) (ht2.trans (pow_le_pow_right₀ (by norm_num) (by norm_num)))
  have na := near_of ha'
  obtain ⟨na1, na2⟩ := na
  obtain ⟨hf1, hf2⟩ := hf
  generalize hg : (1 : Rat) / d = g at *
  have heq : (ticks : Rat) / d = ticks * g := by rw [← hg]; ring
  have hg0 : 0 < g := by rw [← hg]; positivity
  have ha0 : 0 < a := by nlinarith
  have hf0 : 0 < f := by
    have : (0 : Rat) < 1 - e := by have : (2 : Rat) / 2 ^ 52 + 1 / 2 ^ 100 < 1 := by norm_num
                                   linarith
    nlinarith
  have hp0 : (1 : Rat) / 2 ^ 200 ≤ a * f := by
    have h1 : (1 : Rat) / 2 ≤ a := by nlinarith
    have h2 : g / 2 ≤ f := by
      have : (1 : Rat) / 2 ≤ 1 - e := by have : (2 : Rat) / 2 ^ 52 + 1 / 2 ^ 100 ≤ 1 / 2 := by norm_num
                                         linarith
      nlinarith
    have h3 : (1 : Rat) / 2 ^ 64 / 4 ≤ a * f := by nlinarith
    refine le_trans ?_ h3; norm_num
  have hp1 : a * f ≤ 2 ^ 250 := by
    have h1 : a ≤ 2 ^ 65 := by nlinarith
    have h2 : f ≤ 2 := by
      have : (1 : Rat) + e ≤ 2 := by have : (2 : Rat) / 2 ^ 52 + 1 / 2 ^ 100 ≤ 1 := by norm_num
                                     linarith
      nlinarith
    have h3 : a * f ≤ 2 ^ 65 * 2 := by nlinarith
    refine h3.trans ?_
    calc (2 : Rat) ^ 65 * 2 = 2 ^ 66 := by norm_num
      _ ≤ 2 ^ 250 := pow_le_pow_right₀ (by norm_num) (by norm_num)
  obtain ⟨m, hm, hm'⟩ := round_rel hp0 hp1
  have ha'' : ofInt (ticks : Int) = .fin a := by unfold ofInt; push_cast; exact ha
  refine ⟨m, by rw [ha'']; exact hm, ?_⟩
  obtain ⟨nm1, nm2⟩ := near_of hm'
  rw [heq]
  have hx0 : (0 : Rat) ≤ ticks * g := by positivity
  generalize hee : (2 : Rat) / 2 ^ 52 + 1 / 2 ^ 100 = E at he
  have hE1 : E ≤ 1 := by rw [← hee]; norm_num
  have l1 : (1 - 1 / 2 ^ 52) * (1 - E) * (ticks * g) ≤ a * f := by
    have : (1 - E) * g ≤ f := le_trans (mul_le_mul_of_nonneg_right (by linarith) hg0.le) hf1
    calc (1 - 1 / 2 ^ 52) * (1 - E) * (ticks * g) = ((1 - 1 / 2 ^ 52) * ticks) * ((1 - E) * g) := by ring
      _ ≤ a * f := mul_le_mul na1 this (mul_nonneg (by linarith) hg0.le) ha0.le
  have l2 : a * f ≤ (1 + 1 / 2 ^ 52) * (1 + E) * (ticks * g) := by
    have : f ≤ (1 + E) * g := le_trans hf2 (mul_le_mul_of_nonneg_right (by linarith) hg0.le)
    calc a * f ≤ ((1 + 1 / 2 ^ 52) * ticks) * ((1 + E) * g) := mul_le_mul na2 this hf0.le (by positivity)
      _ = _ := by ring
  constructor
  · refine le_trans ?_ nm1
    calc (1 - (5 / 2 ^ 52)) * (ticks * g) ≤ (1 - 1 / 2 ^ 52) * ((1 - 1 / 2 ^ 52) * (1 - E)) * (ticks * g) :=
          mul_le_mul_of_nonneg_right (by rw [← hee]; norm_num) hx0
      _ = (1 - 1 / 2 ^ 52) * ((1 - 1 / 2 ^ 52) * (1 - E) * (ticks * g)) := by ring
      _ ≤ _ := mul_le_mul_of_nonneg_left l1 (by norm_num)
  · refine nm2.trans ?_
    calc (1 + 1 / 2 ^ 52) * (a * f) ≤ (1 + 1 / 2 ^ 52) * ((1 + 1 / 2 ^ 52) * (1 + E) * (ticks * g)) := mul_le_mul_of_nonneg_left l2 (by norm_num)
      _ = (1 + 1 / 2 ^ 52) * ((1 + 1 / 2 ^ 52) * (1 + E)) * (ticks * g) := by ring
      _ ≤ _ := mul_le_mul_of_nonneg_right (by rw [← hee]; norm_num) hx0

/-- The counter runs at a rate the code can work with: between 1 and 2^40 ticks per microsecond. -/
def Rate (perUs : Nat) : Prop := 0 < perUs ∧ perUs < 2 ^ 40

theorem inv_factor {p : Nat} (hp : Rate p) : ∃ f, usecFactor p = .fin f ∧ Near (1 / 2 ^ 52) f (1 / p) := by
  have h1 : (1 : Rat) ≤ p := by exact_mod_cast hp.1
  have h2 : (p : Rat) ≤ 2 ^ 40 := by exact_mod_cast hp.2.le
  have h0 : (0 : Rat) < p := by linarith
  have hb := hp.2
  have e := ofInt_small (p : Int) (by omega) (by omega)
  have h3 : (1 : Rat) / p ≤ 1 := by rw [div_le_one h0]; exact h1
  have h4 : (1 : Rat) / 2 ^ 40 ≤ 1 / p := div_le_div_of_nonneg_left (by norm_num) h0 h2
  obtain ⟨f, hf, hf'⟩ := round_rel (q := 1 / p) (le_trans (by norm_num) h4) (h3.trans (by norm_num))
  refine ⟨f, ?_, near_of hf'⟩
  unfold usecFactor
  rw [e]
  show (if ((p : Int) : Rat) = 0 then _ else F64.round (1 / ((p : Int) : Rat))) = _
  rw [if_neg (by push_cast; exact h0.ne')]
  push_cast
  exact hf

theorem div_factor {p : Nat} (hp : Rate p) {k : Nat} (hk0 : 0 < k) (hk : k ≤ 1000000) :
    ∃ f, F64.div (usecFactor p) (.fin (k : Rat)) = .fin f ∧ Near (2 / 2 ^ 52 + 1 / 2 ^ 100) f (1 / ((p * k : Nat) : Rat)) := by
  obtain ⟨g, hg, hg1, hg2⟩ := inv_factor hp
  have h1 : (1 : Rat) ≤ p := by exact_mod_cast hp.1
  have h2 : (p : Rat) ≤ 2 ^ 40 := by exact_mod_cast hp.2.le
  have h0 : (0 : Rat) < p := by linarith
  have k1 : (1 : Rat) ≤ k := by exact_mod_cast hk0
  have k2 : (k : Rat) ≤ 1000000 := by exact_mod_cast hk
  have k0 : (0 : Rat) < k := by linarith
  have h3 : (1 : Rat) / p ≤ 1 := by rw [div_le_one h0]; exact h1
  have h4 : (1 : Rat) / 2 ^ 40 ≤ 1 / p := div_le_div_of_nonneg_left (by norm_num) h0 h2
  have i3 : (1 : Rat) / k ≤ 1 := by rw [div_le_one k0]; exact k1
  have i4 : (1 : Rat) / 1000000 ≤ 1 / k := div_le_div_of_nonneg_left (by norm_num) k0 k2
  have he : (1 : Rat) / ((p * k : Nat) : Rat) = 1 / p * (1 / k) := by push_cast; field_simp
  rw [he]
  generalize (1 : Rat) / p = a at *
  have hgk : g / k = g * (1 / k) := by ring
  generalize hb : (1 : Rat) / k = b at *
  have a0 : 0 < a := lt_of_lt_of_le (by norm_num) h4
  have b0 : 0 < b := lt_of_lt_of_le (by norm_num) i4
  have g1 : a / 2 ≤ g := le_trans (by nlinarith) hg1
  have g2 : g ≤ 2 := le_trans hg2 (by nlinarith)
  have g0 : 0 < g := by linarith
  have q1 : (1 : Rat) / 2 ^ 200 ≤ g * b := by
    have : (1 : Rat) / 2 ^ 41 * (1 / 1000000) ≤ g * b := mul_le_mul (by linarith) i4 (by norm_num) g0.le
    exact le_trans (by norm_num) this
  have q2 : g * b ≤ 2 ^ 250 := by
    have : g * b ≤ 2 * 1 := mul_le_mul g2 i3 b0.le (by norm_num)
    exact this.trans (by norm_num)
  obtain ⟨f, hf, hf'⟩ := round_rel q1 q2
  refine ⟨f, ?_, ?_⟩
  · rw [hg]
    show (if (k : Rat) = 0 then _ else F64.round (g / k)) = _
    rw [if_neg k0.ne', hgk, hf]
  · obtain ⟨n1, n2⟩ := near_of hf'
    have ab : 0 ≤ a * b := by positivity
    constructor
    · refine le_trans ?_ n1
      have : (1 - 1 / 2 ^ 52) * (a * b) ≤ g * b := by
        calc (1 - 1 / 2 ^ 52) * (a * b) = (1 - 1 / 2 ^ 52) * a * b := by ring
          _ ≤ g * b := mul_le_mul_of_nonneg_right hg1 b0.le
      calc (1 - (2 / 2 ^ 52 + 1 / 2 ^ 100)) * (a * b) ≤ (1 - 1 / 2 ^ 52) * (1 - 1 / 2 ^ 52) * (a * b) := mul_le_mul_of_nonneg_right (by norm_num) ab
        _ = (1 - 1 / 2 ^ 52) * ((1 - 1 / 2 ^ 52) * (a * b)) := by ring
        _ ≤ _ := mul_le_mul_of_nonneg_left this (by norm_num)
    · refine n2.trans ?_
      have : g * b ≤ (1 + 1 / 2 ^ 52) * (a * b) := by
        calc g * b ≤ (1 + 1 / 2 ^ 52) * a * b := mul_le_mul_of_nonneg_right hg2 b0.le
          _ = _ := by ring
      calc (1 + 1 / 2 ^ 52) * (g * b) ≤ (1 + 1 / 2 ^ 52) * ((1 + 1 / 2 ^ 52) * (a * b)) := mul_le_mul_of_nonneg_left this (by norm_num)
        _ = (1 + 1 / 2 ^ 52) * (1 + 1 / 2 ^ 52) * (a * b) := by ring
        _ ≤ _ := mul_le_mul_of_nonneg_right (by norm_num) ab

/-- Rounded to the nearest after the multiplication. -/
theorem half_up {ticks d : Nat} {m : Rat} (hd : 0 < d) (htb : ticks < 2 ^ 63) (hm : Near (5 / 2 ^ 52) m ((ticks : Rat) / d)) (hm0 : 0 ≤ m) :
    ∃ n, castU64 (F64.add (.fin m) (.fin (1 / 2))) = some n ∧ |(n : Rat) - (ticks : Rat) / d| ≤ 1 / 2 + ((ticks : Rat) / d + 1) / 2 ^ 49 := by
  have hd1 : (1 : Rat) ≤ d := by exact_mod_cast hd
  have ht0 : (0 : Rat) ≤ ticks := by positivity
  have ht2 : (ticks : Rat) ≤ 2 ^ 63 := by exact_mod_cast htb.le
  have hx2 : (ticks : Rat) / d ≤ 2 ^ 63 := (div_le_self ht0 hd1).trans ht2
  have hx0 : (0 : Rat) ≤ (ticks : Rat) / d := by positivity
  generalize (ticks : Rat) / d = x at *
  obtain ⟨m1, m2⟩ := hm
  obtain ⟨s, hs, hs'⟩ := round_rel (q := m + 1 / 2) (le_trans (by norm_num) (show (1 : Rat) / 2 ≤ m + 1 / 2 by linarith))
    (by
      have : m + 1 / 2 ≤ 2 ^ 64 + 1 := by nlinarith
      exact this.trans (by norm_num))
  obtain ⟨s1, s2⟩ := near_of hs'
  have s0 : 0 ≤ s := le_trans (by nlinarith) s1
  have sb : s < 2 ^ 64 := by
    have : s ≤ (1 + 1 / 2 ^ 52) * ((1 + (5 / 2 ^ 52)) * 2 ^ 63 + 1 / 2) := by
      refine s2.trans (mul_le_mul_of_nonneg_left ?_ (by norm_num))
      nlinarith
    exact lt_of_le_of_lt this (by norm_num)
  obtain ⟨n, hn, n1, n2⟩ := castU64_fin s0 sb
  refine ⟨n, ?_, ?_⟩
  · show castU64 (F64.round (m + 1 / 2)) = _
    rw [hs, hn]
  · rw [abs_le]
    constructor
    · nlinarith
    · nlinarith

/-- **C116 (seconds).** Ticks are converted to seconds rounded to the nearest, up to one part in 2^49, whatever their number. -/
theorem C116_seconds {p ticks : Nat} (hp : Rate p) (ht : ticks < 2 ^ 63) :
    ∃ n, toSec p ticks = some n ∧ |(n : Rat) - (ticks : Rat) / (p * 1000000 : Nat)| ≤ 1 / 2 + ((ticks : Rat) / (p * 1000000 : Nat) + 1) / 2 ^ 49 := by
  obtain ⟨f, hf, hn⟩ := div_factor hp (k := 1000000) (by norm_num) (by norm_num)
  have hd : 0 < p * 1000000 := by have := hp.1; omega
  have hdb : p * 1000000 < 2 ^ 64 := by have := hp.2; omega
  have hf' : secFactor p = .fin f := by unfold secFactor; unfold usecFactor at hf; exact_mod_cast hf
  rcases Nat.eq_zero_or_pos ticks with rfl | h0
  · refine ⟨0, ?_, by norm_num⟩
    have e : F64.mul (F64.ofInt ((0 : Nat) : Int)) (secFactor p) = .fin 0 := by
      rw [hf']; show F64.round (0 * f) = _; rw [zero_mul]; rfl
    unfold toSec; rw [e]; decide +kernel
  · obtain ⟨m, hm, hm'⟩ := convert h0 (by omega) hd hdb (by norm_num) le_rfl hn
    have hm0 : 0 ≤ m := le_trans (mul_nonneg (by norm_num) (by positivity)) hm'.1
    obtain ⟨n, h1, h2⟩ := half_up hd ht hm' hm0
    exact ⟨n, by unfold toSec; rw [hf', hm, h1], h2⟩

/-- **C116 (milliseconds).** -/
theorem C116_milliseconds {p ticks : Nat} (hp : Rate p) (ht : ticks < 2 ^ 63) :
    ∃ n, toMSec p ticks = some n ∧ |(n : Rat) - (ticks : Rat) / (p * 1000 : Nat)| ≤ 1 / 2 + ((ticks : Rat) / (p * 1000 : Nat) + 1) / 2 ^ 49 := by
  obtain ⟨f, hf, hn⟩ := div_factor hp (k := 1000) (by norm_num) (by norm_num)
  have hd : 0 < p * 1000 := by have := hp.1; omega
  have hdb : p * 1000 < 2 ^ 64 := by have := hp.2; omega
  have hf' : msecFactor p = .fin f := by unfold msecFactor; unfold usecFactor at hf; exact_mod_cast hf
  rcases Nat.eq_zero_or_pos ticks with rfl | h0
  · refine ⟨0, ?_, by norm_num⟩
    have e : F64.mul (F64.ofInt ((0 : Nat) : Int)) (msecFactor p) = .fin 0 := by
      rw [hf']; show F64.round (0 * f) = _; rw [zero_mul]; rfl
    unfold toMSec; rw [e]; decide +kernel
  · obtain ⟨m, hm, hm'⟩ := convert h0 (by omega) hd hdb (by norm_num) le_rfl hn
    have hm0 : 0 ≤ m := le_trans (mul_nonneg (by norm_num) (by positivity)) hm'.1
    obtain ⟨n, h1, h2⟩ := half_up hd ht hm' hm0
    exact ⟨n, by unfold toMSec; rw [hf', hm, h1], h2⟩

/-- **C116 (microseconds).** Ticks are converted to microseconds rounded down, up to one part in 2^49. -/
theorem C116_microseconds {p ticks : Nat} (hp : Rate p) (ht : ticks < 2 ^ 63) :
    ∃ n, toUSec p ticks = some n ∧ (n : Rat) ≤ (ticks : Rat) / p + (ticks : Rat) / p / 2 ^ 49 ∧ (ticks : Rat) / p - (ticks : Rat) / p / 2 ^ 49 < n + 1 := by
  obtain ⟨f, hf, hn⟩ := inv_factor hp
  have hd : 0 < p := hp.1
  have hdb : p < 2 ^ 64 := by have := hp.2; omega
  rcases Nat.eq_zero_or_pos ticks with rfl | h0
  · refine ⟨0, ?_, by norm_num, by norm_num⟩
    have e : F64.mul (F64.ofInt ((0 : Nat) : Int)) (usecFactor p) = .fin 0 := by
      rw [hf]; show F64.round (0 * f) = _; rw [zero_mul]; rfl
    unfold toUSec; rw [e]; decide +kernel
  · obtain ⟨m, hm, hm'⟩ := convert h0 (by omega) hd hdb (by norm_num) (by norm_num) hn
    have hd1 : (1 : Rat) ≤ p := by exact_mod_cast hd
    have ht0 : (0 : Rat) ≤ ticks := by positivity
    have ht2 : (ticks : Rat) ≤ 2 ^ 63 := by exact_mod_cast ht.le
    have hx2 : (ticks : Rat) / p ≤ 2 ^ 63 := (div_le_self ht0 hd1).trans ht2
    have hx0 : (0 : Rat) ≤ (ticks : Rat) / p := by positivity
    obtain ⟨m1, m2⟩ := hm'
    have hm0 : 0 ≤ m := le_trans (mul_nonneg (by norm_num) hx0) m1
    have hmb : m < 2 ^ 64 := lt_of_le_of_lt m2 (by nlinarith)
    obtain ⟨n, h1, h2, h3⟩ := castU64_fin hm0 hmb
    refine ⟨n, by unfold toUSec; rw [hf, hm, h1], ?_, ?_⟩
    · nlinarith
    · nlinarith

theorem mul_mono {a b f : F64} (h : le a b = true) {q : Rat} (hf : f = .fin q) (h0 : 0 ≤ q) (ha : ∃ x, a = .fin x) (hb : ∃ x, b = .fin x) : le (mul a f) (mul b f) = true := by
  obtain ⟨x, rfl⟩ := ha
  obtain ⟨y, rfl⟩ := hb
  subst hf
  simp only [le, decide_eq_true_eq] at h
  exact round_mono (mul_le_mul_of_nonneg_right h h0)

theorem ofInt_fin {t : Nat} (h : t < 2 ^ 64) : ∃ x, ofInt (t : Int) = .fin x ∧ 0 ≤ x := by
  rcases Nat.eq_zero_or_pos t with rfl | h0
  · exact ⟨0, by decide +kernel, le_rfl⟩
  · have h1 : (0 : Rat) < t := by exact_mod_cast h0
    have h2 : (t : Rat) ≤ 2 ^ 64 := by exact_mod_cast h.le
    obtain ⟨r, hr, hr0⟩ := round_fin h1 (h2.trans (by norm_num))
    exact ⟨r, by unfold ofInt; push_cast; exact hr, hr0⟩

theorem near_nonneg {e f q : Rat} (he : e ≤ 1) (hq : 0 ≤ q) (h : Near e f q) : 0 ≤ f := le_trans (mul_nonneg (by linarith) hq) h.1

theorem add_half_mono {a b : Rat} (h : le (.fin a) (.fin b) = true) : le (add (.fin a) (.fin (1 / 2))) (add (.fin b) (.fin (1 / 2))) = true := by
  simp only [le, decide_eq_true_eq] at h
  exact round_mono (by linarith)

theorem le_ofInt {a b : Nat} (h : a ≤ b) : le (ofInt (a : Int)) (ofInt (b : Int)) = true := round_mono (by exact_mod_cast h)

theorem mul_fin {a f : Rat} (ha0 : 0 ≤ a) (ha : a ≤ 2 ^ 65) (hf0 : 0 ≤ f) (hf : f ≤ 2) : ∃ m, mul (.fin a) (.fin f) = .fin m ∧ 0 ≤ m := by
  show ∃ m, F64.round (a * f) = .fin m ∧ 0 ≤ m
  rcases (mul_nonneg ha0 hf0).eq_or_lt with h | h
  · rw [← h]; exact ⟨0, rfl, le_rfl⟩
  · exact round_fin h (by
      have : a * f ≤ 2 ^ 65 * 2 := mul_le_mul ha hf hf0 (by norm_num)
      exact this.trans (by norm_num))

/-- Both readings converted with a factor between 0 and 2, without or with a half added. -/
theorem order_core {a b : Nat} (hab : a ≤ b) {f : Rat} (hf0 : 0 ≤ f) (half : Bool) {m n : Nat}
    (hm : castU64 (if half then add (mul (ofInt (a : Int)) (.fin f)) (.fin (1 / 2)) else mul (ofInt (a : Int)) (.fin f)) = some m)
    (hn : castU64 (if half then add (mul (ofInt (b : Int)) (.fin f)) (.fin (1 / 2)) else mul (ofInt (b : Int)) (.fin f)) = some n) (hb : b < 2 ^ 63) : m ≤ n := by
  obtain ⟨x, hx, hx0⟩ := ofInt_fin (t := a) (by omega)
  obtain ⟨y, hy, hy0⟩ := ofInt_fin (t := b) (by omega)
  have h1 : le (mul (ofInt (a : Int)) (.fin f)) (mul (ofInt (b : Int)) (.fin f)) = true := mul_mono (le_ofInt hab) rfl hf0 ⟨x, hx⟩ ⟨y, hy⟩
  have h0 : le (.fin 0) (mul (ofInt (a : Int)) (.fin f)) = true := by rw [hx]; exact round_nonneg_le (mul_nonneg hx0 hf0)
  cases half with
  | false => exact castU64_mono h1 h0 hm hn
  | true =>
    simp only [if_true] at hm hn
    refine castU64_mono ?_ ?_ hm hn
    · cases ha : mul (ofInt (a : Int)) (.fin f) with
      | nan => rw [ha] at hm; cases hm
      | inf s => rw [ha] at hm; cases hm
      | fin u =>
        cases hb : mul (ofInt (b : Int)) (.fin f) with
        | nan => rw [hb] at hn; cases hn
        | inf s => rw [hb] at hn; cases hn
        | fin v => rw [ha, hb] at h1; exact add_half_mono h1
    · cases ha : mul (ofInt (a : Int)) (.fin f) with
      | nan => rw [ha] at hm; cases hm
      | inf s => rw [ha] at hm; cases hm
      | fin u =>
        rw [ha] at h0
        simp only [le, decide_eq_true_eq] at h0
        exact round_nonneg_le (by linarith)

/-- **C116 (order).** As long as the rate is not measured anew, a later reading of the counter never gives an earlier time. -/
theorem C116_order {p a b : Nat} (hp : Rate p) (hab : a ≤ b) (hb : b < 2 ^ 63) :
    (∃ m n, toSec p a = some m ∧ toSec p b = some n ∧ m ≤ n) ∧ (∃ m n, toMSec p a = some m ∧ toMSec p b = some n ∧ m ≤ n) ∧
    (∃ m n, toUSec p a = some m ∧ toUSec p b = some n ∧ m ≤ n) := by
  refine ⟨?_, ?_, ?_⟩
  · obtain ⟨m, hm, _⟩ := C116_seconds hp (lt_of_le_of_lt hab hb)
    obtain ⟨n, hn, _⟩ := C116_seconds hp hb
    obtain ⟨f, hf, hnear⟩ := div_factor hp (k := 1000000) (by norm_num) (by norm_num)
    have hf' : secFactor p = .fin f := by unfold secFactor; unfold usecFactor at hf; exact_mod_cast hf
    refine ⟨m, n, hm, hn, order_core hab (near_nonneg (by norm_num) (by positivity) hnear) true (by rw [← hf']; exact hm) (by rw [← hf']; exact hn) hb⟩
  · obtain ⟨m, hm, _⟩ := C116_milliseconds hp (lt_of_le_of_lt hab hb)
    obtain ⟨n, hn, _⟩ := C116_milliseconds hp hb
    obtain ⟨f, hf, hnear⟩ := div_factor hp (k := 1000) (by norm_num) (by norm_num)
    have hf' : msecFactor p = .fin f := by unfold msecFactor; unfold usecFactor at hf; exact_mod_cast hf
    refine ⟨m, n, hm, hn, order_core hab (near_nonneg (by norm_num) (by positivity) hnear) true (by rw [← hf']; exact hm) (by rw [← hf']; exact hn) hb⟩
  · obtain ⟨m, hm, _⟩ := C116_microseconds hp (lt_of_le_of_lt hab hb)
    obtain ⟨n, hn, _⟩ := C116_microseconds hp hb
    obtain ⟨f, hf, hnear⟩ := inv_factor hp
    refine ⟨m, n, hm, hn, order_core hab (near_nonneg (by norm_num) (by positivity) hnear) false (by rw [← hf]; exact hm) (by rw [← hf]; exact hn) hb⟩

/-- **C116 (time of day).** The fast clock in milliseconds is the time it was started plus the time the counter tells, to the nearest millisecond. -/
theorem C116_fast {p first tick : Nat} (t : Timespec) (hp : Rate p) (h1 : first ≤ tick) (h2 : tick < first + 2 ^ 63) (h3 : tick < 2 ^ 64) :
    ∃ n, fastMSec t first p tick = some n ∧
      |(n : Rat) - ((slowMSec t : Rat) + ((tick - first : Nat) : Rat) / (p * 1000 : Nat))| ≤ 1 / 2 + (((tick - first : Nat) : Rat) / (p * 1000 : Nat) + 1) / 2 ^ 49 := by
  have e : subU64 tick first = tick - first := by
    unfold subU64 toU64; omega
  obtain ⟨n, hn, hn'⟩ := C116_milliseconds hp (ticks := tick - first) (by omega)
  refine ⟨slowMSec t + n, by unfold fastMSec; rw [e, hn]; rfl, ?_⟩
  push_cast
  rw [show (slowMSec t : Rat) + n - ((slowMSec t : Rat) + ((tick - first : Nat) : Rat) / (p * 1000)) = n - ((tick - first : Nat) : Rat) / (p * 1000) by ring]
  push_cast at hn'
  exact hn'

/-- **C116 (time of day).** The same of seconds and, rounded down, of microseconds. -/
theorem C116_fast_other {p first tick : Nat} (t : Timespec) (hp : Rate p) (h1 : first ≤ tick) (h2 : tick < first + 2 ^ 63) (h3 : tick < 2 ^ 64) :
    (∃ n, fastSec t first p tick = some n ∧
      |(n : Rat) - ((slowSec t : Rat) + ((tick - first : Nat) : Rat) / (p * 1000000 : Nat))| ≤ 1 / 2 + (((tick - first : Nat) : Rat) / (p * 1000000 : Nat) + 1) / 2 ^ 49) ∧
    ∃ n, fastUSec t first p tick = some n ∧ (n : Rat) ≤ slowUSec t + ((tick - first : Nat) : Rat) / p + ((tick - first : Nat) : Rat) / p / 2 ^ 49 ∧
      slowUSec t + ((tick - first : Nat) : Rat) / p - ((tick - first : Nat) : Rat) / p / 2 ^ 49 < n + 1 := by
  have e : subU64 tick first = tick - first := by
    unfold subU64 toU64; omega
  constructor
  · obtain ⟨n, hn, hn'⟩ := C116_seconds hp (ticks := tick - first) (by omega)
    refine ⟨slowSec t + n, by unfold fastSec; rw [e, hn]; rfl, ?_⟩
    push_cast
    rw [show (slowSec t : Rat) + n - ((slowSec t : Rat) + ((tick - first : Nat) : Rat) / (p * 1000000)) = n - ((tick - first : Nat) : Rat) / (p * 1000000) by ring]
    push_cast at hn'
    exact hn'
  · obtain ⟨n, hn, hn1, hn2⟩ := C116_microseconds hp (ticks := tick - first) (by omega)
    refine ⟨slowUSec t + n, by unfold fastUSec; rw [e, hn]; rfl, ?_, ?_⟩
    · push_cast; linarith
    · push_cast; linarith

/-- **C116 (system clock).** Milli- and microseconds of the system clock are the time rounded down. -/
theorem C116_slow (t : Timespec) (h0 : 0 ≤ t.nsec) :
    slowMSec t = (t.sec * 1000000000 + t.nsec) / 1000000 ∧ slowUSec t = (t.sec * 1000000000 + t.nsec) / 1000 := by
  unfold slowMSec slowUSec
  rw [Int.tdiv_eq_ediv_of_nonneg h0, Int.tdiv_eq_ediv_of_nonneg h0]
  omega

/-- **C116 (slow operations).** An operation is slow exactly if it took longer than the threshold given, or than the flag if none is given; it is never slow when the
clock went back. -/
theorem C116_slow_op (start now threshold flag : Int) (hf : 0 ≤ flag) :
    (slowOp start now threshold flag = true ↔ (if 0 < threshold then threshold else flag) < now - start) ∧ (now ≤ start → slowOp start now threshold flag = false) := by
  unfold slowOp
  dsimp only
  by_cases h : now - start < 0
  · simp only [if_pos h]
    split
    · simp; omega
    · simp; omega
  · simp only [if_neg h]
    split
    · simp; omega
    · simp; omega

/-- **C116 fails when the rate is measured anew:** a counter of 3 GHz, first measured a little low and then exactly, and the later reading gives the earlier time. -/
theorem C116_back_violated : calibrate 29999999 10000 = some 2999 ∧ calibrate 6030000000 2010000 = some 3000 ∧
    ∃ a b, (6029000000 : Nat) < 6030000000 ∧ toUSec 2999 6029000000 = some a ∧ toUSec 3000 6030000000 = some b ∧ b < a :=
  ⟨by decide, by decide, 2010336, 2010000, by decide, by decide +kernel, by decide +kernel, by decide⟩

/-- **C116 fails for rates that are no whole number of ticks per microsecond:** the fraction is cut at every measurement, so that a counter with 2999.9 ticks per
microsecond is always measured as 2999, and the clock is 26 seconds ahead after a day. -/
theorem C116_drift_violated : (∀ us : Nat, 0 < us → calibrate (us * 29999 / 10) us = some 2999) ∧ toSec 2999 (86400 * 1000000 * 29999 / 10) = some 86426 := by
  refine ⟨fun us h => ?_, by decide +kernel⟩
  unfold calibrate
  rw [if_neg (by omega), Nat.div_div_eq_div_mul, Nat.mul_comm us, Nat.mul_comm 10 us, ← Nat.div_div_eq_div_mul, Nat.mul_div_cancel _ h]

/-- **C116 fails for counters below 1 MHz:** the rate is measured as 0 and every conversion is undefined. -/
theorem C116_slow_violated (ticks : Nat) (ht : ticks < 2 ^ 64) : toUSec 0 ticks = none ∧ toMSec 0 ticks = none ∧ toSec 0 ticks = none := by
  have e1 : usecFactor 0 = .inf false := by decide +kernel
  have e2 : msecFactor 0 = .inf false := by decide +kernel
  have e3 : secFactor 0 = .inf false := by decide +kernel
  obtain ⟨x, hx, hx0⟩ := ofInt_fin ht
  unfold toUSec toMSec toSec
  rw [e1, e2, e3, hx]
  simp only [mul]
  split <;> simp [castU64, add]

example : Rate 2999 ∧ toSec 3000 6000000000 = some 2 ∧ toMSec 3000 6001499999 = some 2000 ∧ toMSec 3000 6001800000 = some 2001 ∧ toUSec 3000 6000002999 = some 2000000 :=
  ⟨⟨by decide, by decide⟩, by decide +kernel, by decide +kernel, by decide +kernel, by decide +kernel⟩

end Tsc
end Nebula
