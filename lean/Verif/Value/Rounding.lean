import Verif.Agg.Error
/-!
# Rounding to `double`: monotone, idempotent, nearest

Facts about `F64.round` that hold for IEEE-754 rounding; used by C116 and C117.
-/
namespace Nebula
namespace F64

theorem lt_ilog2 {q : Rat} (hq : 0 < q) : q < pow2 (ilog2 q + 1) := by
  unfold ilog2
  dsimp only
  split
  · rw [pow2_zpow]
    have hn : 0 < q.num := Rat.num_pos.2 hq
    have h1 : q.num.natAbs < 2 ^ (q.num.natAbs.log2 + 1) := Nat.lt_log2_self
    have h2 : 2 ^ q.den.log2 ≤ q.den := Nat.log2_self_le q.den_ne_zero
    have hd : (0 : Rat) < q.den := by exact_mod_cast q.den_pos
    have e : q = (q.num.natAbs : Rat) / q.den := by
      have h3 : (q.num.natAbs : Rat) = (q.num : Rat) := by
        conv_rhs => rw [← Int.natAbs_of_nonneg hn.le]
        exact (Int.cast_natCast _).symm
      rw [h3, Rat.num_div_den]
    have h1' : (q.num.natAbs : Rat) < (2 : Rat) ^ (q.num.natAbs.log2 + 1) := by exact_mod_cast h1
    have h2' : (2 : Rat) ^ q.den.log2 ≤ (q.den : Rat) := by exact_mod_cast h2
    rw [show ((q.num.natAbs.log2 : Int) - (q.den.log2 : Int) + 1) = ((q.num.natAbs.log2 + 1 : Nat) : Int) - ((q.den.log2 : Nat) : Int) by push_cast; ring,
      zpow_sub₀ (by norm_num), zpow_natCast, zpow_natCast]
    conv_lhs => rw [e]
    rw [div_lt_div_iff₀ hd (by positivity)]
    have : (0 : Rat) < 2 ^ q.den.log2 := by positivity
    nlinarith
  · rename_i h
    rw [show ∀ x : Int, x - 1 + 1 = x from fun x => by omega]
    exact not_le.1 h

theorem pow2_le {a b : Int} (h : a ≤ b) : pow2 a ≤ pow2 b := by
  rw [pow2_zpow, pow2_zpow]; exact zpow_le_zpow_right₀ (by norm_num) h

theorem pow2_lt_iff {a b : Int} : pow2 a < pow2 b ↔ a < b := by
  rw [pow2_zpow, pow2_zpow]; exact zpow_lt_zpow_iff_right₀ (by norm_num)

theorem ilog2_eq {q : Rat} {e : Int} (hq : 0 < q) (h1 : pow2 e ≤ q) (h2 : q < pow2 (e + 1)) : ilog2 q = e := by
  have a := ilog2_le hq
  have b := lt_ilog2 hq
  have c : e < ilog2 q + 1 := pow2_lt_iff.1 (lt_of_le_of_lt h1 b)
  have d : ilog2 q < e + 1 := pow2_lt_iff.1 (lt_of_le_of_lt a h2)
  omega

theorem ilog2_mono {p q : Rat} (hp : 0 < p) (h : p ≤ q) : ilog2 p ≤ ilog2 q := by
  have a := ilog2_le hp
  have b := lt_ilog2 (lt_of_lt_of_le hp h)
  have : ilog2 p < ilog2 q + 1 := pow2_lt_iff.1 (lt_of_le_of_lt (a.trans h) b)
  omega

theorem roundEven_le {N : Int} {x : Rat} (h : x ≤ (N : Rat)) : roundEven x ≤ N := by
  have h1 : (x.floor : Rat) ≤ x := Rat.floor_le x
  have hf : x.floor ≤ N := by exact_mod_cast h1.trans h
  by_cases he : x.floor = N
  · have : x = x.floor := le_antisymm (by rw [he]; exact h) h1
    have e : roundEven x = x.floor := by
      unfold roundEven; dsimp only
      rw [if_pos (by rw [show x - (x.floor : Rat) = 0 by linarith]; norm_num)]
    omega
  · unfold roundEven
    dsimp only
    split
    · omega
    split
    · omega
    split <;> omega

theorem roundEven_mono {x y : Rat} (h : x ≤ y) : roundEven x ≤ roundEven y := by
  have hx1 : (x.floor : Rat) ≤ x := Rat.floor_le x
  have hy2 : y < (y.floor : Rat) + 1 := by have := Rat.lt_floor_add_one y; push_cast at this; exact this
  have hf : x.floor ≤ y.floor := Rat.le_floor_iff.2 (hx1.trans h)
  by_cases he : x.floor = y.floor
  · unfold roundEven
    dsimp only
    have hr : x - (x.floor : Rat) ≤ y - (y.floor : Rat) := by rw [he]; linarith
    rw [he] at hr ⊢
    split
    · split
      · omega
      split
      · omega
      split <;> omega
    · rename_i a
      rw [if_neg (by linarith : ¬ y - (y.floor : Rat) < 1 / 2)]
      split
      · rename_i b
        rw [if_pos (by linarith : 1 / 2 < y - (y.floor : Rat))]
      · split
        · split
          · omega
          · omega
        · split <;> omega
  · have hx2 : x ≤ ((x.floor + 1 : Int) : Rat) := by
      have := Rat.lt_floor_add_one x; exact this.le
    have a := roundEven_le hx2
    have b : y.floor ≤ roundEven y := roundEven_ge (Rat.floor_le y)
    omega

/-- The spacing of the numbers near `q`: `2^(e-52)` between `2^e` and `2^(e+1)`, and `2^-1074` below `2^-1022`. -/
def spacing (q : Rat) : Int := max (ilog2 q - 52) (-1074)

/-- The rounded value before the test for overflow, for positive `q`. -/
def roundR (q : Rat) : Rat := (roundEven (q / pow2 (spacing q)) : Rat) * pow2 (spacing q)

theorem round_pos {q : Rat} (hq : 0 < q) : round q = if pow2 1024 ≤ roundR q then .inf false else .fin (roundR q) := by
  unfold round roundR spacing
  have hn : ¬ q < 0 := not_lt.2 hq.le
  rw [if_neg hq.ne']
  simp only [if_neg hn]
  simp [hn]

/-- A power of two that the grid at `u` has. -/
theorem grid_pow {u e : Int} (h : u ≤ e) : ∃ N : Int, pow2 e = (N : Rat) * pow2 u := by
  obtain ⟨k, hk⟩ := Int.eq_ofNat_of_zero_le (show 0 ≤ e - u by omega)
  refine ⟨2 ^ k, ?_⟩
  have : e = (k : Int) + u := by omega
  rw [this, pow2_zpow, pow2_zpow, zpow_add₀ (by norm_num), zpow_natCast]
  push_cast; ring

theorem roundR_le_grid {q : Rat} {N : Int} (h : q ≤ (N : Rat) * pow2 (spacing q)) : roundR q ≤ (N : Rat) * pow2 (spacing q) := by
  have hp := pow2_pos (spacing q)
  have : roundEven (q / pow2 (spacing q)) ≤ N := roundEven_le (by rw [div_le_iff₀ hp]; exact h)
  have : (roundEven (q / pow2 (spacing q)) : Rat) ≤ N := by exact_mod_cast this
  unfold roundR; nlinarith

theorem le_roundR_grid {q : Rat} {N : Int} (h : (N : Rat) * pow2 (spacing q) ≤ q) : (N : Rat) * pow2 (spacing q) ≤ roundR q := by
  have hp := pow2_pos (spacing q)
  have : N ≤ roundEven (q / pow2 (spacing q)) := roundEven_ge (by rw [le_div_iff₀ hp]; exact h)
  have : (N : Rat) ≤ (roundEven (q / pow2 (spacing q)) : Rat) := by exact_mod_cast this
  unfold roundR; nlinarith

theorem roundR_mono {p q : Rat} (hp : 0 < p) (h : p ≤ q) : roundR p ≤ roundR q := by
  have hm := ilog2_mono hp h
  by_cases he : spacing p = spacing q
  · unfold roundR
    rw [he]
    have hpos := pow2_pos (spacing q)
    have : roundEven (p / pow2 (spacing q)) ≤ roundEven (q / pow2 (spacing q)) := roundEven_mono (div_le_div_of_nonneg_right h hpos.le)
    have : (roundEven (p / pow2 (spacing q)) : Rat) ≤ (roundEven (q / pow2 (spacing q)) : Rat) := by exact_mod_cast this
    nlinarith
  · have hs : spacing p < spacing q := by unfold spacing at he ⊢; omega
    have hq : 0 < q := lt_of_lt_of_le hp h
    have e1 : spacing q = ilog2 q - 52 := by unfold spacing at hs ⊢; omega
    have e2 : ilog2 p + 1 ≤ ilog2 q := by unfold spacing at hs; omega
    have e3 : spacing p ≤ ilog2 q := by omega
    obtain ⟨N, hN⟩ := grid_pow e3
    obtain ⟨M, hM⟩ := grid_pow (u := spacing q) (e := ilog2 q) (by omega)
    have a : roundR p ≤ pow2 (ilog2 q) := by
      rw [hN]; apply roundR_le_grid; rw [← hN]
      exact (lt_ilog2 hp).le.trans (pow2_le e2)
    have b : pow2 (ilog2 q) ≤ roundR q := by
      rw [hM]; apply le_roundR_grid; rw [← hM]
      exact ilog2_le hq
    exact a.trans b

theorem roundR_pos_le {q : Rat} (hq : 0 < q) : 0 ≤ roundR q := by
  have := le_roundR_grid (q := q) (N := 0) (by push_cast; simpa using hq.le)
  simpa using this

theorem round_zero : round 0 = .fin 0 := rfl

theorem round_neg' (q : Rat) : round (-q) = neg (round q) := by
  rcases lt_trichotomy q 0 with h | rfl | h
  · have hn : ¬ -q < 0 := by linarith
    unfold round
    rw [if_neg h.ne, if_neg (by linarith : ¬ -q = 0)]
    simp only [if_pos h, if_neg hn]
    split
    · simp [neg, h, hn]
    · simp [neg]
  · rfl
  · have hn : ¬ q < 0 := by linarith
    have hm : -q < 0 := by linarith
    unfold round
    rw [if_neg h.ne', if_neg (by linarith : ¬ -q = 0)]
    simp only [if_pos hm, if_neg hn, neg_neg]
    split
    · simp [neg, h, hn]
    · simp [neg]

theorem le_neg {a b : F64} : le (neg a) (neg b) = le b a := by
  cases a <;> cases b <;> simp [le, neg]
  rename_i s t; cases s <;> cases t <;> rfl

theorem le_trans' {a b c : F64} (h1 : le a b = true) (h2 : le b c = true) : le a c = true := by
  cases a with
  | nan => simp [le] at h1
  | inf s =>
    cases b with
    | nan => simp [le] at h1
    | inf t => cases c <;> cases s <;> cases t <;> simp_all [le]
    | fin y => cases c <;> cases s <;> simp_all [le]
  | fin x =>
    cases b with
    | nan => simp [le] at h1
    | inf t => cases c <;> cases t <;> simp_all [le]
    | fin y =>
      cases c with
      | nan => simp [le] at h2
      | inf t => simpa [le] using h2
      | fin z =>
        simp only [le, decide_eq_true_eq] at h1 h2 ⊢
        exact h1.trans h2

theorem round_mono_pos {p q : Rat} (hp : 0 < p) (h : p ≤ q) : le (round p) (round q) = true := by
  rw [round_pos hp, round_pos (lt_of_lt_of_le hp h)]
  have := roundR_mono hp h
  split
  · rename_i a
    rw [if_pos (a.trans this)]; rfl
  · split
    · rfl
    · simpa [le] using this

theorem round_nonneg_le {q : Rat} (hq : 0 ≤ q) : le (.fin 0) (round q) = true := by
  rcases hq.eq_or_lt with rfl | hq
  · rfl
  · rw [round_pos hq]
    split
    · rfl
    · simpa [le] using roundR_pos_le hq

/-- Rounding keeps the order. -/
theorem round_mono {p q : Rat} (h : p ≤ q) : le (round p) (round q) = true := by
  rcases lt_or_ge 0 p with hp | hp
  · exact round_mono_pos hp h
  · rcases le_or_gt 0 q with hq | hq
    · refine le_trans' ?_ (round_nonneg_le hq)
      have := round_nonneg_le (q := -p) (by linarith)
      rw [round_neg'] at this
      have e : F64.fin 0 = neg (.fin 0) := by simp [neg]
      rw [e, le_neg] at this
      exact this
    · have := round_mono_pos (p := -q) (q := -p) (by linarith) (by linarith)
      rw [round_neg', round_neg', le_neg] at this
      exact this

theorem roundR_grid {q : Rat} {N : Int} (h : q = (N : Rat) * pow2 (spacing q)) : roundR q = q := by
  apply le_antisymm
  · conv_rhs => rw [h]
    exact roundR_le_grid h.le
  · conv_lhs => rw [h]
    exact le_roundR_grid h.ge

/-- Between `2^e` and `2^(e+1)` included, the result is on the grid of its own size. -/
theorem roundR_idem {q : Rat} (hq : 0 < q) (h0 : 0 < roundR q) : roundR (roundR q) = roundR q := by
  set r := roundR q with hr
  -- `r` is at most the next power of two
  have hsp : spacing q ≤ ilog2 q + 1 ∨ ilog2 q + 1 < spacing q := by omega
  by_cases hn : ilog2 q - 52 ≤ -1074
  · -- subnormal spacing: `r ≤ 2^-1021`
    have es : spacing q = -1074 := by unfold spacing; omega
    have hle : r ≤ pow2 (-1021) := by
      obtain ⟨N, hN⟩ := grid_pow (u := spacing q) (e := -1021) (by omega)
      rw [hN]; apply roundR_le_grid; rw [← hN]
      exact (lt_ilog2 hq).le.trans (pow2_le (by omega))
    have hl : ilog2 r ≤ -1021 := by
      have := lt_of_le_of_lt (ilog2_le h0) (lt_of_le_of_lt hle (pow2_lt_iff.2 (show (-1021 : Int) < -1020 by omega)))
      have := pow2_lt_iff.1 this
      omega
    by_cases h21 : ilog2 r ≤ -1022
    · have es' : spacing r = -1074 := by unfold spacing; omega
      refine roundR_grid (N := roundEven (q / pow2 (spacing q))) ?_
      rw [es', hr, roundR, es]
    · have e21 : ilog2 r = -1021 := by omega
      have heq : r = pow2 (-1021) := le_antisymm hle (by have := ilog2_le h0; rwa [e21] at this)
      obtain ⟨N, hN⟩ := grid_pow (u := spacing r) (e := -1021) (by unfold spacing; omega)
      exact roundR_grid (N := N) (heq.trans hN)
  · have es : spacing q = ilog2 q - 52 := by unfold spacing; omega
    have hge : pow2 (ilog2 q) ≤ r := by
      obtain ⟨N, hN⟩ := grid_pow (u := spacing q) (e := ilog2 q) (by omega)
      rw [hN]; apply le_roundR_grid; rw [← hN]; exact ilog2_le hq
    have hle : r ≤ pow2 (ilog2 q + 1) := by
      obtain ⟨N, hN⟩ := grid_pow (u := spacing q) (e := ilog2 q + 1) (by omega)
      rw [hN]; apply roundR_le_grid; rw [← hN]; exact (lt_ilog2 hq).le
    rcases hle.lt_or_eq with hlt | heq
    · have e1 : ilog2 r = ilog2 q := ilog2_eq h0 hge hlt
      have es' : spacing r = spacing q := by unfold spacing; rw [e1]
      refine roundR_grid (N := roundEven (q / pow2 (spacing q))) ?_
      rw [es', hr, roundR]
    · have e1 : ilog2 r = ilog2 q + 1 := ilog2_eq h0 heq.ge (by rw [heq]; exact pow2_lt_iff.2 (by omega))
      obtain ⟨N, hN⟩ := grid_pow (u := spacing r) (e := ilog2 q + 1) (by unfold spacing; omega)
      exact roundR_grid (N := N) (heq.trans hN)

/-- The result of rounding is a number that a `double` can hold. -/
theorem round_representable {q r : Rat} (h : round q = .fin r) : Representable r := by
  unfold Representable
  have key : ∀ {q r : Rat}, 0 < q → round q = .fin r → round r = .fin r := by
    intro q r hq h
    rw [round_pos hq] at h
    split at h
    · cases h
    · rename_i hb
      injection h with h
      subst h
      rcases (roundR_pos_le hq).eq_or_lt with h0 | h0
      · rw [← h0]; rfl
      · rw [round_pos h0, roundR_idem hq h0, if_neg hb]
  rcases lt_trichotomy q 0 with hq | rfl | hq
  · have h' : round (-q) = .fin (-r) := by rw [round_neg', h]; rfl
    have := key (by linarith : 0 < -q) h'
    rw [round_neg'] at this
    cases hr : round r with
    | nan => rw [hr] at this; cases this
    | inf s => rw [hr] at this; cases this
    | fin x => rw [hr] at this; simp only [neg, F64.fin.injEq, neg_inj] at this; rw [this]
  · rw [round_zero] at h; injection h with h; rw [← h]; rfl
  · exact key hq h

/-- A representable number that is large enough is on the grid of `q`. -/
theorem representable_grid {p q : Rat} (hp : 0 < p) (hr : Representable p) (h : spacing q ≤ spacing p) : ∃ N : Int, p = (N : Rat) * pow2 (spacing q) := by
  unfold Representable at hr
  rw [round_pos hp] at hr
  split at hr
  · cases hr
  · injection hr with hr
    obtain ⟨M, hM⟩ := grid_pow h
    refine ⟨roundEven (p / pow2 (spacing p)) * M, ?_⟩
    have e : p = (roundEven (p / pow2 (spacing p)) : Rat) * pow2 (spacing p) := hr.symm
    generalize roundEven (p / pow2 (spacing p)) = n at e ⊢
    rw [e, hM]; push_cast; ring

theorem roundEven_nearest (x : Rat) (N : Int) : |(roundEven x : Rat) - x| ≤ |(N : Rat) - x| := by
  have hc := roundEven_close x
  by_cases h : N = roundEven x
  · rw [h]
  · have h1 : (1 : Rat) ≤ |(N : Rat) - (roundEven x : Rat)| := by
      have : (1 : Int) ≤ |N - roundEven x| := Int.one_le_abs (sub_ne_zero.2 h)
      exact_mod_cast this
    have h2 : |(N : Rat) - (roundEven x : Rat)| ≤ |(N : Rat) - x| + |(roundEven x : Rat) - x| := by
      have := abs_sub_le (N : Rat) x (roundEven x : Rat)
      rw [abs_sub_comm x] at this; exact this
    linarith

theorem roundR_nearest_grid {q : Rat} (N : Int) : |roundR q - q| ≤ |(N : Rat) * pow2 (spacing q) - q| := by
  have hp := pow2_pos (spacing q)
  have h := roundEven_nearest (q / pow2 (spacing q)) N
  have e : ∀ x : Rat, x * pow2 (spacing q) - q = (x - q / pow2 (spacing q)) * pow2 (spacing q) := fun x => by field_simp
  unfold roundR
  rw [e, e, abs_mul, abs_mul]
  exact mul_le_mul_of_nonneg_right h (abs_nonneg _)

theorem roundR_nearest {p q : Rat} (hq : 0 < q) (hr : Representable p) : |roundR q - q| ≤ |p - q| := by
  rcases le_or_gt p 0 with hp | hp
  · have := roundR_nearest_grid (q := q) 0
    have e : |p - q| = q - p := by rw [abs_sub_comm, abs_of_nonneg]; linarith
    rw [e]
    have e2 : |((0 : Int) : Rat) * pow2 (spacing q) - q| = q := by push_cast; rw [zero_mul, zero_sub, abs_neg, abs_of_pos hq]
    rw [e2] at this; linarith
  · by_cases hs : spacing q ≤ spacing p
    · obtain ⟨N, hN⟩ := representable_grid hp hr hs
      have := roundR_nearest_grid (q := q) N
      rwa [← hN] at this
    · -- `p` is below the power of two below `q`
      have es : spacing q = ilog2 q - 52 := by unfold spacing at hs ⊢; omega
      have hl : ilog2 p + 1 ≤ ilog2 q := by unfold spacing at hs; omega
      have hlt : p < pow2 (ilog2 q) := lt_of_lt_of_le (lt_ilog2 hp) (pow2_le hl)
      obtain ⟨N, hN⟩ := grid_pow (u := spacing q) (e := ilog2 q) (by omega)
      have := roundR_nearest_grid (q := q) N
      rw [← hN] at this
      have hle := ilog2_le hq
      have e1 : |pow2 (ilog2 q) - q| = q - pow2 (ilog2 q) := by rw [abs_sub_comm, abs_of_nonneg]; linarith
      have e2 : |p - q| = q - p := by rw [abs_sub_comm, abs_of_nonneg]; linarith
      rw [e1] at this; rw [e2]; linarith

/-- No number that a `double` can hold is nearer to the exact result than the rounded one. -/
theorem round_nearest {p q r : Rat} (h : round q = .fin r) (hp : Representable p) : |r - q| ≤ |p - q| := by
  have key : ∀ {p q r : Rat}, 0 < q → round q = .fin r → Representable p → |r - q| ≤ |p - q| := by
    intro p q r hq h hp
    rw [round_pos hq] at h
    split at h
    · cases h
    · injection h with h; rw [← h]; exact roundR_nearest hq hp
  rcases lt_trichotomy q 0 with hq | rfl | hq
  · have h' : round (-q) = .fin (-r) := by rw [round_neg', h]; rfl
    have hp' : Representable (-p) := by unfold Representable at hp ⊢; rw [round_neg', hp]; rfl
    have := key (by linarith : 0 < -q) h' hp'
    rw [show -r - -q = -(r - q) by ring, show -p - -q = -(p - q) by ring, abs_neg, abs_neg] at this
    exact this
  · rw [round_zero] at h; injection h with h; rw [← h]; simp
  · exact key hq h hp

/-- Ties go to the even number: half way between two neighbours of the grid, the one with an even multiple is taken. -/
theorem roundEven_tie (n : Int) : roundEven ((n : Rat) + 1 / 2) = if n % 2 = 0 then n else n + 1 := by
  have hf : ((n : Rat) + 1 / 2).floor = n := by
    apply le_antisymm
    · have h1 := Rat.floor_le ((n : Rat) + 1 / 2)
      have : (((n : Rat) + 1 / 2).floor : Rat) < ((n + 1 : Int) : Rat) := by push_cast; linarith
      have : ((n : Rat) + 1 / 2).floor < n + 1 := by exact_mod_cast this
      omega
    · exact Rat.le_floor_iff.2 (by linarith)
  unfold roundEven
  dsimp only
  rw [hf]
  rw [if_neg (by linarith), if_neg (by linarith)]

end F64
end Nebula
