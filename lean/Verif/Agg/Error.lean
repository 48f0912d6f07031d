import Verif.Agg.Std
import Mathlib.Tactic.Linarith
/-!
# How far SUM and AVG can be from the exact result (C47)
-/
namespace Nebula
namespace F64

theorem roundEven_close (x : Rat) : |(roundEven x : Rat) - x| ≤ 1 / 2 := by
  have h1 : (x.floor : Rat) ≤ x := Rat.floor_le x
  have h2 : x < (x.floor : Rat) + 1 := by have := Rat.lt_floor_add_one x; push_cast at this; exact this
  unfold roundEven
  dsimp only
  rw [abs_le]
  split
  · constructor <;> linarith
  split
  · push_cast; constructor <;> linarith
  split
  · constructor <;> linarith
  · push_cast; constructor <;> linarith

theorem round_error_pos {q r : Rat} (hq : 0 < q) (h : round q = .fin r) : |r - q| ≤ q / 2 ^ 53 + 1 / 2 ^ 1075 := by
  rw [round_pos_eq hq h]
  have hl := ilog2_le hq
  generalize hu : max (ilog2 q - 52) (-1074) = u
  have hpos := pow2_pos u
  have hc := roundEven_close (q / pow2 u)
  have e : (roundEven (q / pow2 u) : Rat) * pow2 u - q = ((roundEven (q / pow2 u) : Rat) - q / pow2 u) * pow2 u := by field_simp
  have h1 : |(roundEven (q / pow2 u) : Rat) * pow2 u - q| ≤ pow2 u / 2 := by
    rw [e, abs_mul, abs_of_pos hpos]; nlinarith
  refine h1.trans ?_
  rcases le_total (ilog2 q - 52) (-1074) with hle | hle
  · have hu' : u = -1074 := by rw [← hu, max_eq_right hle]
    have e1 : pow2 u / 2 = 1 / 2 ^ 1075 := by
      rw [hu', pow2_zpow, show (-1074 : Int) = -((1074 : Nat) : Int) by norm_num, zpow_neg, zpow_natCast, pow_succ (2 : Rat) 1074, one_div, mul_inv, div_eq_mul_inv]
    rw [e1]
    have : 0 ≤ q / 2 ^ 53 := by positivity
    linarith
  · have hu' : u = ilog2 q - 52 := by rw [← hu, max_eq_left hle]
    have e1 : pow2 u / 2 = pow2 (ilog2 q) / 2 ^ 53 := by
      rw [hu', pow2_zpow, pow2_zpow, zpow_sub₀ (by norm_num), pow_succ (2 : Rat) 52, show (52 : Int) = ((52 : Nat) : Int) by norm_num, zpow_natCast, div_div]
    rw [e1]
    have h2 : pow2 (ilog2 q) / 2 ^ 53 ≤ q / 2 ^ 53 := div_le_div_of_nonneg_right hl (by positivity)
    have : (0 : Rat) ≤ 1 / 2 ^ 1075 := by positivity
    linarith

/-- Rounding to a `double` errs by at most one part in 2^53, or 2^-1075 for tiny numbers. -/
theorem round_error {q r : Rat} (h : round q = .fin r) : |r - q| ≤ |q| / 2 ^ 53 + 1 / 2 ^ 1075 := by
  rcases lt_trichotomy q 0 with hq | rfl | hq
  · have h' : round (-q) = .fin (-r) := by
      unfold round at h ⊢
      have n1 : ¬ -q < 0 := by linarith
      rw [if_neg hq.ne] at h
      rw [if_neg (by linarith : ¬ -q = 0)]
      simp only [if_pos hq, if_neg n1] at h ⊢
      split at h
      · cases h
      · next hh => rw [if_neg hh]; injection h with h; rw [← h, neg_neg]
    have := round_error_pos (by linarith : 0 < -q) h'
    rw [abs_of_neg hq]
    rwa [show -r - -q = -(r - q) by ring, abs_neg] at this
  · have : round 0 = .fin 0 := rfl
    rw [this] at h; injection h with h; rw [← h]
    simp only [sub_self, abs_zero, zero_div, zero_add]
    positivity
  · rw [abs_of_pos hq]; exact round_error_pos hq h

end F64

open AggSpec Value Spec
namespace Agg

variable {L : Lib}

/-- The sum of the sizes. -/
def sumAbs : List Rat → Rat
  | [] => 0
  | q :: qs => |q| + sumAbs qs

theorem sumAbs_nonneg (qs : List Rat) : 0 ≤ sumAbs qs := by
  induction qs with
  | nil => exact le_refl _
  | cons q qs ih => exact add_nonneg (abs_nonneg _) ih

/-- One addition: at most one operand is converted from an integer. -/
theorem add_error {ε η a q a' q' s : Rat} (hε : 0 ≤ ε) (ha : |a' - a| ≤ ε * |a| + η) (hq : q' = q) (hs : |s - (a' + q')| ≤ ε * |a' + q'| + η) :
    |s - (a + q)| ≤ (2 * ε + ε * ε) * (|a| + |q|) + (2 + ε) * η := by
  subst hq
  have h1 : |a'| ≤ |a| + |a' - a| := by have := abs_add_le a (a' - a); rwa [add_sub_cancel] at this
  have h2 : |a' + q'| ≤ |a'| + |q'| := abs_add_le _ _
  have h3 : |s - (a + q')| ≤ |s - (a' + q')| + |a' - a| := by
    have := abs_add_le (s - (a' + q')) (a' - a)
    rwa [show s - (a' + q') + (a' - a) = s - (a + q') by ring] at this
  have h4 : |a' + q'| ≤ |a| + (ε * |a| + η) + |q'| := by linarith
  have h5 : ε * |a' + q'| ≤ ε * (|a| + (ε * |a| + η) + |q'|) := mul_le_mul_of_nonneg_left h4 hε
  have h6 : 0 ≤ ε * |q'| := by positivity
  have h7 : 0 ≤ ε * ε * |q'| := by positivity
  nlinarith

/-- The growth of the error over the list. -/
theorem error_grow {δ c t a q s B : Rat} (k : Nat) (hδ : 0 ≤ δ) (hB : |t| ≤ B) (h : |a - t| ≤ ((1 + δ) ^ k - 1) * (B + c))
    (hs : |s - (a + q)| ≤ δ * (|a| + |q| + c)) : |s - (t + q)| ≤ ((1 + δ) ^ (k + 1) - 1) * (B + |q| + c) := by
  have h0 : 0 ≤ |q| := abs_nonneg q
  have hk : (1 : Rat) ≤ (1 + δ) ^ k := one_le_pow₀ (by linarith)
  have hBc : 0 ≤ B := (abs_nonneg t).trans hB
  have h1 : |s - (t + q)| ≤ |s - (a + q)| + |a - t| := by
    have := abs_add_le (s - (a + q)) (a - t)
    rwa [show s - (a + q) + (a - t) = s - (t + q) by ring] at this
  have h2 : |a| ≤ B + |a - t| := by
    have := abs_add_le t (a - t); rw [add_sub_cancel] at this; linarith
  have h3 : |a - t| ≤ ((1 + δ) ^ k - 1) * (B + |q| + c) := h.trans (mul_le_mul_of_nonneg_left (by linarith) (by linarith))
  have h4 : δ * (|a| + |q| + c) ≤ δ * (B + |q| + c + |a - t|) := mul_le_mul_of_nonneg_left (by linarith) hδ
  have h5 : δ * |a - t| ≤ δ * (((1 + δ) ^ k - 1) * (B + |q| + c)) := mul_le_mul_of_nonneg_left h3 hδ
  rw [pow_succ]
  nlinarith

def eps : Rat := 1 / 2 ^ 53
def tiny : Rat := 1 / 2 ^ 1075

theorem eps_nonneg : 0 ≤ eps := by unfold eps; positivity
theorem tiny_nonneg : 0 ≤ tiny := by unfold tiny; positivity

theorem round_err {q r : Rat} (h : F64.round q = .fin r) : |r - q| ≤ eps * |q| + tiny := by
  have := F64.round_error h
  unfold eps tiny
  rwa [one_div_mul_eq_div]

/-- (1 + 2^-53)^2 - 1 -/
def delta : Rat := 2 * eps + eps * eps

theorem delta_nonneg : 0 ≤ delta := by unfold delta; have := eps_nonneg; positivity

theorem one_add_delta : 1 + delta = (1 + 1 / 2 ^ 53) ^ 2 := by unfold delta eps; ring

theorem tiny_eq : (2 + eps) * tiny = delta * (1 / 2 ^ 1022) := by
  have h : tiny = eps * (1 / 2 ^ 1022) := by
    unfold tiny eps
    rw [show (1075 : Nat) = 53 + 1022 from rfl, pow_add, one_div_mul_one_div]
  rw [h]; unfold delta; ring

theorem add_fin {f g : F64} {s : Rat} (h : F64.add f g = .fin s) : ∃ a b, f = .fin a ∧ g = .fin b ∧ F64.round (a + b) = .fin s := by
  cases f <;> cases g <;> simp [F64.add] at h
  · split at h <;> cases h
  · exact ⟨_, _, rfl, rfl, h⟩

/-- What SUM can hold. -/
def Holds (r : Value) : Prop := (∃ i, r = .int i) ∨ (∃ f, r = .float f) ∨ r.isBadNull = true

theorem zero_err (a : Rat) : |a - a| ≤ eps * |a| + tiny := by
  rw [sub_self, abs_zero]
  exact add_nonneg (mul_nonneg eps_nonneg (abs_nonneg _)) tiny_nonneg

theorem delta_form {a q s : Rat} (h : |s - (a + q)| ≤ (2 * eps + eps * eps) * (|a| + |q|) + (2 + eps) * tiny) : |s - (a + q)| ≤ delta * (|a| + |q| + 1 / 2 ^ 1022) := by
  rw [tiny_eq] at h
  rw [mul_add]; exact h

theorem sumOp_holds {r v : Value} {q : Rat} (hq : ratOf v = some q) (hr : Holds r) : ∃ r', sumOp L r v = some r' ∧ Holds r' := by
  have fitH : ∀ i, Holds (fit i) := by
    intro i; unfold fit; split
    · exact .inl ⟨_, rfl⟩
    · exact .inr (.inr rfl)
  rcases hr with ⟨i, rfl⟩ | ⟨f, rfl⟩ | hb
  · cases v <;> simp [ratOf] at hq
    · exact ⟨_, by simp [sumOp, isBadNull, isNumeric, start, isNull, Value.add, propagate, isEmpty]; rfl, fitH _⟩
    · exact ⟨_, by simp [sumOp, isBadNull, isNumeric, start, isNull, Value.add, propagate, isEmpty]; rfl, .inr (.inl ⟨_, rfl⟩)⟩
  · cases v <;> simp [ratOf] at hq
    · exact ⟨_, by simp [sumOp, isBadNull, isNumeric, start, isNull, Value.add, propagate, isEmpty]; rfl, .inr (.inl ⟨_, rfl⟩)⟩
    · exact ⟨_, by simp [sumOp, isBadNull, isNumeric, start, isNull, Value.add, propagate, isEmpty]; rfl, .inr (.inl ⟨_, rfl⟩)⟩
  · exact ⟨r, by simp [sumOp, hb], .inr (.inr hb)⟩

/-- One step of SUM. -/
theorem sumOp_error {r v r' : Value} {q s : Rat} (hq : ratOf v = some q) (h : sumOp L r v = some r') (hs : ratOf r' = some s) (hr : Holds r) :
    ∃ a, ratOf r = some a ∧ |s - (a + q)| ≤ delta * (|a| + |q| + 1 / 2 ^ 1022) := by
  have fl : ∀ {f : F64} {s : Rat}, ratOf (.float f) = some s → f = .fin s := by
    intro f s h; cases f <;> simp [ratOf] at h; rw [h]
  rcases hr with ⟨i, rfl⟩ | ⟨f, rfl⟩ | hb
  · cases v <;> simp [ratOf] at hq
    · rename_i j
      simp [sumOp, isBadNull, isNumeric, start, isNull, Value.add, propagate, isEmpty] at h
      refine ⟨i, rfl, ?_⟩
      subst h
      unfold fit at hs
      split at hs
      · simp [ratOf] at hs
        rw [← hs, ← hq]; push_cast
        rw [sub_self, abs_zero]
        have := delta_nonneg
        positivity
      · simp [ratOf, kNullOverflow] at hs
    · rename_i g
      cases g <;> simp at hq
      subst hq
      simp [sumOp, isBadNull, isNumeric, start, isNull, Value.add, propagate, isEmpty] at h
      subst h
      obtain ⟨a', b, e1, e2, e3⟩ := add_fin (fl hs)
      injection e2 with e2
      refine ⟨i, rfl, delta_form (add_error eps_nonneg (round_err e1) e2.symm (round_err e3))⟩
  · cases v <;> simp [ratOf] at hq
    · rename_i j
      simp [sumOp, isBadNull, isNumeric, start, isNull, Value.add, propagate, isEmpty] at h
      subst h
      obtain ⟨a', b, e1, e2, e3⟩ := add_fin (fl hs)
      subst e1
      rw [add_comm] at e3
      refine ⟨a', rfl, ?_⟩
      have := add_error (a := q) (q := a') eps_nonneg (by rw [← hq]; exact round_err e2) rfl (round_err e3)
      rw [add_comm a' q, add_comm |a'| |q|]
      exact delta_form this
    · rename_i g
      cases g <;> simp at hq
      subst hq
      simp [sumOp, isBadNull, isNumeric, start, isNull, Value.add, propagate, isEmpty] at h
      subst h
      obtain ⟨a', b, e1, e2, e3⟩ := add_fin (fl hs)
      subst e1
      injection e2 with e2
      exact ⟨a', rfl, delta_form (add_error eps_nonneg (zero_err a') e2.symm (round_err e3))⟩
  · simp [sumOp, hb] at h
    subst h
    cases r <;> simp [isBadNull] at hb
    simp [ratOf] at hs

theorem sum_fold_error (l : List Value) : ∀ (qs : List Rat) (r : Value) (t B : Rat) (k : Nat), l.map ratOf = qs.map some → Holds r → |t| ≤ B →
    (∀ a, ratOf r = some a → |a - t| ≤ ((1 + delta) ^ k - 1) * (B + 1 / 2 ^ 1022)) →
    ∃ r', l.foldlM (sumOp L) r = some r' ∧ Holds r' ∧
      ∀ s, ratOf r' = some s → |s - (t + sumR qs)| ≤ ((1 + delta) ^ (k + qs.length) - 1) * (B + sumAbs qs + 1 / 2 ^ 1022) := by
  induction l with
  | nil =>
    intro qs r t B k hl hr _ h
    have : qs = [] := by simpa using hl.symm
    subst this
    exact ⟨r, rfl, hr, by simpa only [sumR, sumAbs, add_zero, List.length_nil, Nat.add_zero] using h⟩
  | cons v l ih =>
    intro qs r t B k hl hr hB h
    cases qs with
    | nil => simp at hl
    | cons q qs =>
      simp only [List.map_cons, List.cons.injEq] at hl
      obtain ⟨r1, e1, hr1⟩ := sumOp_holds (L := L) hl.1 hr
      have hB' : |t + q| ≤ B + |q| := (abs_add_le t q).trans (by linarith)
      obtain ⟨r2, e2, hr2, h2⟩ := ih qs r1 (t + q) (B + |q|) (k + 1) hl.2 hr1 hB' (by
        intro a ha
        obtain ⟨a0, ha0, he⟩ := sumOp_error hl.1 e1 ha hr
        exact error_grow k delta_nonneg hB (h a0 ha0) he)
      refine ⟨r2, by simp only [List.foldlM_cons, e1, Option.bind_eq_bind, Option.bind_some, e2], hr2, ?_⟩
      intro s hs
      have := h2 s hs
      rw [sumR, sumAbs, List.length_cons, ← add_assoc, show k + (qs.length + 1) = k + 1 + qs.length by omega]
      rwa [← add_assoc B]

/-- **C47 (SUM, accuracy).** SUM of finite numbers, integers and doubles mixed in any order: the result is a number or an error (or an infinity or NaN after an overflow), and if it
is a finite number it differs from the exact sum by at most ((1 + 2^-53)^(2n) - 1) (|x1| + ... + |xn| + 2^-1022). -/
theorem C47_sum_error (vs : List Value) (qs : List Rat) (hq : (present vs).map ratOf = qs.map some) (hne : vs ≠ []) :
    ∃ d, run L .sum false AggData.init vs = some d ∧
      ((∃ i, d.result = .int i) ∨ (∃ f, d.result = .float f) ∨ d.result.isBadNull = true) ∧
      ∀ s, ratOf d.result = some s → |s - sumR qs| ≤ ((1 + 1 / 2 ^ 53) ^ (2 * qs.length) - 1) * (sumAbs qs + 1 / 2 ^ 1022) := by
  rw [run_sum vs _ hne]
  obtain ⟨r, e, hr, h⟩ := sum_fold_error (L := L) (present vs) qs (.int 0) 0 0 0 hq (.inl ⟨0, rfl⟩) (by rw [abs_zero]) (by
    intro a ha
    simp [ratOf] at ha
    rw [← ha]; simp)
  rw [show start (.int 0) AggData.init.result = .int 0 from rfl, e]
  refine ⟨_, rfl, hr, ?_⟩
  intro s hs
  have := h s hs
  rwa [zero_add, Nat.zero_add, zero_add, one_add_delta, ← pow_mul] at this

/-! ## AVG -/

theorem div_count_any (f : F64) (k : Nat) :
    Value.div (.float f) (.float (.fin (((k : Int) : Rat) + 1))) = some (.float (F64.div f (.fin (((k : Int) : Rat) + 1)))) := by
  have h0 : (0 : Rat) ≤ ((k : Int) : Rat) := by exact_mod_cast Int.natCast_nonneg k
  have habs : F64.abs (.fin (((k : Int) : Rat) + 1)) = .fin (((k : Int) : Rat) + 1) := by
    simp [F64.abs]; intro h; linarith
  have heps : F64.lt F64.eps (.fin (((k : Int) : Rat) + 1)) = true := by
    have h : F64.lt F64.eps (.fin 1) = true := by decide +kernel
    generalize F64.eps = e at h ⊢
    cases e with
    | nan => simp [F64.lt] at h
    | inf s => exact h
    | fin e => simp [F64.lt] at h ⊢; linarith
  generalize ((k : Int) : Rat) + 1 = c at *
  simp [Value.div, propagate, isNull, isEmpty, habs, heps]

theorem add_any (f : F64) {v : Value} {q : Rat} (hv : ratOf v = some q) : ∃ g, Value.add L.fmt (.float f) v = some (.float g) ∧ sumOp L (.float f) v = some (.float g) := by
  cases v <;> simp [ratOf] at hv
  · exact ⟨_, by simp [Value.add, propagate, isNull, isEmpty]; rfl, by simp [sumOp, isBadNull, isNumeric, start, isNull, Value.add, propagate, isEmpty]⟩
  · exact ⟨_, by simp [Value.add, propagate, isNull, isEmpty]; rfl, by simp [sumOp, isBadNull, isNumeric, start, isNull, Value.add, propagate, isEmpty]⟩

theorem avg_step_any (d : AggData) (v : Value) (q : Rat) (f : F64) (k : Nat) (hk : k < 2 ^ 53) (hv : ratOf v = some q) (hb : d.result.isBadNull = false)
    (hd : (d.result.isNull = true ∧ f = .fin 0 ∧ k = 0) ∨ (d.result.isNull = false ∧ d.sum = .float f ∧ d.cnt = .float (.fin ((k : Int) : Rat)))) :
    ∃ g, sumOp L (.float f) v = some (.float g) ∧
      avgStep L d v = some { d with sum := .float g, cnt := .float (.fin (((k : Int) : Rat) + 1)), result := .float (F64.div g (.fin (((k : Int) : Rat) + 1))) } := by
  obtain ⟨hn, hp⟩ := ratOf_numeric hv
  obtain ⟨n1, n2⟩ := present_nullEmpty.1 hp
  have hc : Value.add L.fmt (.float (.fin ((k : Int) : Rat))) (.int 1) = some (.float (.fin (((k : Int) : Rat) + 1))) :=
    add_float (by simp [ratOf]) (by decide +kernel) (succ_rep k hk)
  have h1 : (if d.result.isNull then Value.float (.fin 0) else d.sum) = .float f := by
    rcases hd with ⟨h, rfl, rfl⟩ | ⟨h, h1, h2⟩
    · simp [h]
    · simp [h, h1]
  have h2 : (if d.result.isNull then Value.float (.fin 0) else d.cnt) = .float (.fin ((k : Int) : Rat)) := by
    rcases hd with ⟨h, rfl, rfl⟩ | ⟨h, h1, h2⟩
    · simp [h]
    · simp [h, h2]
  obtain ⟨g, e1, e2⟩ := add_any (L := L) f hv
  refine ⟨g, e2, ?_⟩
  simp only [avgStep, hb, n1, n2, hn, h1, h2, e1, hc, div_count_any, Bool.false_eq_true, if_false, Bool.not_true, Bool.and_false, Bool.or_self, Option.map_some]

theorem avg_fold (l : List Value) : ∀ (qs : List Rat) (d : AggData) (f : F64) (k : Nat), l.map ratOf = qs.map some → k + qs.length ≤ 2 ^ 53 → d.result.isBadNull = false →
    ((d.result.isNull = true ∧ f = .fin 0 ∧ k = 0) ∨
      (d.result.isNull = false ∧ d.sum = .float f ∧ d.cnt = .float (.fin ((k : Int) : Rat)) ∧ d.result = .float (F64.div f (.fin ((k : Int) : Rat))))) →
    ∃ d' g, run L .avg false d l = some d' ∧ l.foldlM (sumOp L) (.float f) = some (.float g) ∧
      (qs ≠ [] ∨ d.result.isNull = false → d'.result = .float (F64.div g (.fin (((k + qs.length : Nat) : Int) : Rat)))) := by
  induction l with
  | nil =>
    intro qs d f k hl _ _ hd
    have : qs = [] := by simpa using hl.symm
    subst this
    refine ⟨d, f, rfl, rfl, ?_⟩
    rintro (h | h)
    · exact absurd rfl h
    · rcases hd with hd | hd
      · rw [hd.1] at h; cases h
      · exact hd.2.2.2
  | cons v l ih =>
    intro qs d f k hl hk hb hd
    cases qs with
    | nil => simp at hl
    | cons q qs =>
      simp only [List.map_cons, List.cons.injEq] at hl
      simp only [List.length_cons] at hk
      obtain ⟨g, e1, e2⟩ := avg_step_any (L := L) d v q f k (by omega) hl.1 hb (by
        rcases hd with hd | ⟨a, b, c, _⟩
        · exact .inl hd
        · exact .inr ⟨a, b, c⟩)
      have hcast : (((k + 1 : Nat) : Int) : Rat) = ((k : Int) : Rat) + 1 := by push_cast; rfl
      obtain ⟨d', g', e3, e4, h⟩ := ih qs { d with sum := .float g, cnt := .float (.fin (((k : Int) : Rat) + 1)), result := .float (F64.div g (.fin (((k : Int) : Rat) + 1))) }
        g (k + 1) hl.2 (by omega) rfl (.inr ⟨rfl, rfl, by rw [hcast], by rw [hcast]⟩)
      refine ⟨d', g', by simp only [run, feed, Bool.false_eq_true, if_false, step, e2, e3], ?_, fun _ => ?_⟩
      · simp only [List.foldlM_cons, e1, Option.bind_eq_bind, Option.bind_some, e4]
      · rw [h (.inr rfl), List.length_cons, show k + 1 + qs.length = k + (qs.length + 1) by omega]

/-- **C47 (AVG, accuracy).** AVG of finite numbers, integers and doubles mixed, is a `double`; if it is finite it differs from the exact mean by at most
((1 + 2^-53)^(2n+1) - 1) (|x1| + ... + |xn| + 2^-1022) / n + 2^-1075. -/
theorem C47_avg_error (vs : List Value) (qs : List Rat) (hq : (present vs).map ratOf = qs.map some) (hne : qs ≠ []) (hlen : qs.length ≤ 2 ^ 53) :
    ∃ d f, run L .avg false AggData.init vs = some d ∧ d.result = .float f ∧
      ∀ r, f = .fin r → |r - sumR qs / ((qs.length : Int) : Rat)| ≤
        ((1 + 1 / 2 ^ 53) ^ (2 * qs.length + 1) - 1) * ((sumAbs qs + 1 / 2 ^ 1022) / ((qs.length : Int) : Rat)) + 1 / 2 ^ 1075 := by
  rw [run_skip_avg]
  obtain ⟨d, g, e1, e2, h⟩ := avg_fold (L := L) (present vs) qs AggData.init (.fin 0) 0 hq (by omega) rfl (.inl ⟨rfl, rfl, rfl⟩)
  obtain ⟨r0, e3, _, h3⟩ := sum_fold_error (L := L) (present vs) qs (.float (.fin 0)) 0 0 0 hq (.inr (.inl ⟨_, rfl⟩)) (by rw [abs_zero]) (by
    intro a ha
    simp [ratOf] at ha
    rw [← ha]; simp)
  rw [e2] at e3
  injection e3 with e3
  subst e3
  have hres := h (.inl hne)
  rw [Nat.zero_add] at hres
  refine ⟨d, _, e1, hres, ?_⟩
  intro r hr
  have hnpos : (0 : Rat) < ((qs.length : Int) : Rat) := by exact_mod_cast List.length_pos_iff.2 hne
  generalize hn : ((qs.length : Int) : Rat) = n at hr hnpos ⊢
  cases g with
  | nan => simp [F64.div] at hr
  | inf b => simp [F64.div] at hr
  | fin s =>
    have hr' : F64.round (s / n) = .fin r := by simpa [F64.div, hnpos.ne'] using hr
    have hE := h3 s rfl
    rw [zero_add, Nat.zero_add, zero_add, one_add_delta, ← pow_mul] at hE
    have hR := round_err hr'
    have hA : |sumR qs| ≤ sumAbs qs := by
      clear * -
      induction qs with
      | nil => simp [sumR, sumAbs]
      | cons q qs ih => rw [sumR, sumAbs]; exact (abs_add_le _ _).trans (by linarith)
    have hc : (0 : Rat) ≤ 1 / 2 ^ 1022 := by positivity
    generalize (1 : Rat) / 2 ^ 1022 = c at hE hc ⊢
    have heps : (1 : Rat) / 2 ^ 53 = eps := rfl
    have htiny : (1 : Rat) / 2 ^ 1075 = tiny := rfl
    rw [heps] at hE ⊢
    rw [htiny, pow_succ]
    generalize (1 + eps) ^ (2 * qs.length) = P at hE ⊢
    generalize sumR qs = S at hE hA ⊢
    generalize sumAbs qs = A at hE hA ⊢
    have he := eps_nonneg
    generalize eps = ε at hE hR he ⊢
    generalize tiny = η at hR ⊢
    have e5 : |s / n - S / n| = |s - S| / n := by rw [← sub_div, abs_div, abs_of_pos hnpos]
    have h6 : |s - S| / n ≤ (P - 1) * ((A + c) / n) := by
      rw [← mul_div_assoc]; exact div_le_div_of_nonneg_right hE hnpos.le
    have h7 : |S / n| ≤ (A + c) / n := by
      rw [abs_div, abs_of_pos hnpos]; exact div_le_div_of_nonneg_right (by linarith) hnpos.le
    have h8 : |s / n| ≤ |S / n| + |s / n - S / n| := by
      have := abs_add_le (S / n) (s / n - S / n); rwa [add_sub_cancel] at this
    have h9 : |r - S / n| ≤ |r - s / n| + |s / n - S / n| := by
      have := abs_add_le (r - s / n) (s / n - S / n); rwa [sub_add_sub_cancel] at this
    generalize (A + c) / n = X at h6 h7 ⊢
    rw [e5] at h8 h9
    generalize |s - S| / n = E at h6 h8 h9
    have h10 : ε * |s / n| ≤ ε * (X + (P - 1) * X) := mul_le_mul_of_nonneg_left (by linarith) he
    nlinarith

/-- The hypotheses can be met, with numbers that are rounded: 2^53 + 1 is not a `double`. -/
example : ∃ d, run L .sum false AggData.init [.int 9007199254740993, .float (.fin 1), kNull] = some d ∧
    ∀ s, ratOf d.result = some s → |s - 9007199254740994| ≤ ((1 + 1 / 2 ^ 53) ^ 4 - 1) * (9007199254740994 + 1 / 2 ^ 1022) := by
  obtain ⟨d, e, _, h⟩ := C47_sum_error (L := L) [.int 9007199254740993, .float (.fin 1), kNull] [9007199254740993, 1] (by rfl) (by simp)
  refine ⟨d, e, fun s hs => ?_⟩
  have := h s hs
  simp only [sumR, sumAbs, List.length_cons, List.length_nil] at this
  norm_num at this ⊢
  exact this

example : ∃ d f, run L .avg false AggData.init [.int 1, .int 1, kNull, .float (.fin (1 / 2))] = some d ∧ d.result = .float f := by
  obtain ⟨d, f, e, h, _⟩ := C47_avg_error (L := L) [.int 1, .int 1, kNull, .float (.fin (1 / 2))] [1, 1, 1 / 2] (by rfl) (by simp) (by decide)
  exact ⟨d, f, e, h⟩

end Agg
end Nebula
