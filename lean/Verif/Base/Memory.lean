import Verif.Value.Rounding
/-!
# C140: how much memory is in use

Model of `src/common/base/Memory.{h,cpp}` and the theorems about it. What `sysinfo` tells is an argument. The
multiplication of the watermark is that of `float`: the numbers of KB are converted to `float`, and so is the
product. Simplification: the ratio is not negative and not NaN. An infinite product needs no case of its own: like
every number of 2^128 or more it is above all numbers of KB.
-/
namespace Nebula.Memory
open Nebula.F64

/-- `struct sysinfo` (Memory.h:54). -/
structure SysInfo where
  totalram : Nat
  freeram : Nat
  bufferram : Nat
  unit : Nat
deriving DecidableEq, Repr

/-- `(x * mem_unit) >> 10` in `uint64_t`. -/
def kb (x unit : Nat) : Nat := x * unit % 2 ^ 64 / 1024

/-- Memory.h:24-26 `totalInKB`. -/
def SysInfo.totalInKB (i : SysInfo) : Nat := kb i.totalram i.unit
/-- Memory.h:28-30 `freeInKB`. -/
def SysInfo.freeInKB (i : SysInfo) : Nat := kb i.freeram i.unit
/-- Memory.h:32-34 `bufferInKB`. -/
def SysInfo.bufferInKB (i : SysInfo) : Nat := kb i.bufferram i.unit

/-- A difference in `uint64_t`. -/
def sub64 (a b : Nat) : Nat := (a + (2 ^ 64 - b % 2 ^ 64)) % 2 ^ 64

/-- Memory.h:36-38 `usedInKB`. -/
def SysInfo.usedInKB (i : SysInfo) : Nat := sub64 (sub64 i.totalInKB i.freeInKB) i.bufferInKB

/-- The spacing of the numbers of IEEE-754 binary32 near `q`. -/
def gap (q : Rat) : Int := max (ilog2 q - 23) (-149)

/-- The `float` nearest to `q`, ties to even, for `q` that is not negative. -/
def f32 (q : Rat) : Rat := if q = 0 then 0 else (roundEven (q / pow2 (gap q)) : Rat) * pow2 (gap q)

/-- Memory.h:40-42 `hitsHighWatermark`. -/
def SysInfo.hits (i : SysInfo) (ratio : Rat) : Bool := decide (f32 (f32 (i.totalInKB : Rat) * ratio) < f32 (i.usedInKB : Rat))

/-! ## What is asked for -/

/-- What the kernel tells makes sense: free memory and buffers are parts of a memory of less than 2^64 bytes. -/
structure Sane (i : SysInfo) : Prop where
  parts : i.freeram + i.bufferram ≤ i.totalram
  size : i.totalram * i.unit < 2 ^ 64

/-- The bytes in use. -/
def usedBytes (i : SysInfo) : Nat := (i.totalram - i.freeram - i.bufferram) * i.unit

/-! ## The sizes -/

theorem sub64_eq {a b : Nat} (h : b ≤ a) (ha : a < 2 ^ 64) : sub64 a b = a - b := by
  unfold sub64
  rw [Nat.mod_eq_of_lt (by omega : b < 2 ^ 64), show a + (2 ^ 64 - b) = (a - b) + 2 ^ 64 by omega, Nat.add_mod_right, Nat.mod_eq_of_lt (by omega)]

theorem kb_eq {x unit : Nat} (h : x * unit < 2 ^ 64) : kb x unit = x * unit / 1024 := by
  unfold kb; rw [Nat.mod_eq_of_lt h]

/-- C140: the sizes are those of the kernel in KB, rounded down; the memory in use, free memory and buffers make up the whole; the
memory in use is right to less than 2 KB. -/
theorem C140_sizes (i : SysInfo) (h : Sane i) :
    i.totalInKB = i.totalram * i.unit / 1024 ∧ i.freeInKB = i.freeram * i.unit / 1024 ∧ i.bufferInKB = i.bufferram * i.unit / 1024 ∧
    i.usedInKB + i.freeInKB + i.bufferInKB = i.totalInKB ∧
    usedBytes i < (i.usedInKB + 1) * 1024 ∧ i.usedInKB * 1024 < usedBytes i + 2 * 1024 := by
  have h1 := h.parts
  have h2 := h.size
  have hm : i.freeram * i.unit + i.bufferram * i.unit ≤ i.totalram * i.unit := by rw [← Nat.add_mul]; exact Nat.mul_le_mul_right _ h1
  have ht : i.totalInKB = i.totalram * i.unit / 1024 := kb_eq h2
  have hf : i.freeInKB = i.freeram * i.unit / 1024 := kb_eq (by omega)
  have hb : i.bufferInKB = i.bufferram * i.unit / 1024 := kb_eq (by omega)
  have hu : i.usedInKB = i.totalInKB - i.freeInKB - i.bufferInKB := by
    unfold SysInfo.usedInKB
    rw [sub64_eq (a := i.totalInKB) (b := i.freeInKB) (by omega) (by omega), sub64_eq (by omega) (by omega)]
  have hub : usedBytes i = i.totalram * i.unit - i.freeram * i.unit - i.bufferram * i.unit := by
    unfold usedBytes; rw [Nat.sub_mul, Nat.sub_mul]
  refine ⟨ht, hf, hb, ?_, ?_, ?_⟩ <;> omega

/-- 16 GB, of which 1.5 GB are free and half a GB are buffers. -/
example : Sane ⟨16777216, 1572864, 524288, 1024⟩ := ⟨by decide, by decide⟩

/-! ## `float` -/

theorem f32_pos_eq {q : Rat} (hq : 0 < q) : f32 q = (roundEven (q / pow2 (gap q)) : Rat) * pow2 (gap q) := by
  unfold f32; rw [if_neg hq.ne']

theorem f32_le_grid {q : Rat} (hq : 0 < q) {N : Int} (h : q ≤ (N : Rat) * pow2 (gap q)) : f32 q ≤ (N : Rat) * pow2 (gap q) := by
  have hp := pow2_pos (gap q)
  have : roundEven (q / pow2 (gap q)) ≤ N := roundEven_le (by rw [div_le_iff₀ hp]; exact h)
  have : (roundEven (q / pow2 (gap q)) : Rat) ≤ N := by exact_mod_cast this
  rw [f32_pos_eq hq]; nlinarith

theorem le_f32_grid {q : Rat} (hq : 0 < q) {N : Int} (h : (N : Rat) * pow2 (gap q) ≤ q) : (N : Rat) * pow2 (gap q) ≤ f32 q := by
  have hp := pow2_pos (gap q)
  have : N ≤ roundEven (q / pow2 (gap q)) := roundEven_ge (by rw [le_div_iff₀ hp]; exact h)
  have : (N : Rat) ≤ (roundEven (q / pow2 (gap q)) : Rat) := by exact_mod_cast this
  rw [f32_pos_eq hq]; nlinarith

theorem f32_nonneg {q : Rat} (hq : 0 ≤ q) : 0 ≤ f32 q := by
  rcases hq.eq_or_lt with rfl | hq
  · simp [f32]
  · have := le_f32_grid hq (N := 0) (by push_cast; simpa using hq.le)
    simpa using this

theorem f32_mono {p q : Rat} (hp : 0 ≤ p) (h : p ≤ q) : f32 p ≤ f32 q := by
  rcases hp.eq_or_lt with rfl | hp
  · have := f32_nonneg h
    simpa [f32] using this
  have hq : 0 < q := lt_of_lt_of_le hp h
  have hm := ilog2_mono hp h
  by_cases he : gap p = gap q
  · rw [f32_pos_eq hp, f32_pos_eq hq, he]
    have hpos := pow2_pos (gap q)
    have : roundEven (p / pow2 (gap q)) ≤ roundEven (q / pow2 (gap q)) := roundEven_mono (div_le_div_of_nonneg_right h hpos.le)
    have : (roundEven (p / pow2 (gap q)) : Rat) ≤ (roundEven (q / pow2 (gap q)) : Rat) := by exact_mod_cast this
    nlinarith
  · have hs : gap p < gap q := by unfold gap at he ⊢; omega
    have e1 : gap q = ilog2 q - 23 := by unfold gap at hs ⊢; omega
    have e2 : ilog2 p + 1 ≤ ilog2 q := by unfold gap at hs; omega
    have e3 : gap p ≤ ilog2 q := by omega
    obtain ⟨N, hN⟩ := grid_pow e3
    obtain ⟨M, hM⟩ := grid_pow (u := gap q) (e := ilog2 q) (by omega)
    have a : f32 p ≤ pow2 (ilog2 q) := by
      rw [hN]; apply f32_le_grid hp; rw [← hN]
      exact (lt_ilog2 hp).le.trans (pow2_le e2)
    have b : pow2 (ilog2 q) ≤ f32 q := by
      rw [hM]; apply le_f32_grid hq; rw [← hM]
      exact ilog2_le hq
    exact a.trans b

theorem f32_grid {q : Rat} (hq : 0 < q) {N : Int} (h : q = (N : Rat) * pow2 (gap q)) : f32 q = q := by
  apply le_antisymm
  · conv_rhs => rw [h]
    exact f32_le_grid hq h.le
  · conv_lhs => rw [h]
    exact le_f32_grid hq h.ge

theorem one_le_ilog2 {q : Rat} (h : 1 ≤ q) : 0 ≤ ilog2 q := by
  have a := lt_ilog2 (lt_of_lt_of_le one_pos h)
  have b : pow2 0 ≤ q := by simpa [pow2] using h
  have := pow2_lt_iff.1 (lt_of_le_of_lt b a)
  omega

theorem f32_idem {q : Rat} (h1 : 1 ≤ q) : f32 (f32 q) = f32 q := by
  have hq : 0 < q := lt_of_lt_of_le one_pos h1
  have hl := one_le_ilog2 h1
  have es : gap q = ilog2 q - 23 := by unfold gap; omega
  have hge : pow2 (ilog2 q) ≤ f32 q := by
    obtain ⟨N, hN⟩ := grid_pow (u := gap q) (e := ilog2 q) (by omega)
    rw [hN]; apply le_f32_grid hq; rw [← hN]; exact ilog2_le hq
  have hle : f32 q ≤ pow2 (ilog2 q + 1) := by
    obtain ⟨N, hN⟩ := grid_pow (u := gap q) (e := ilog2 q + 1) (by omega)
    rw [hN]; apply f32_le_grid hq; rw [← hN]; exact (lt_ilog2 hq).le
  have h0 : 0 < f32 q := lt_of_lt_of_le (pow2_pos _) hge
  rcases hle.lt_or_eq with hlt | heq
  · have e1 : ilog2 (f32 q) = ilog2 q := ilog2_eq h0 hge hlt
    have es' : gap (f32 q) = gap q := by unfold gap; rw [e1]
    refine f32_grid h0 (N := roundEven (q / pow2 (gap q))) ?_
    rw [es', f32_pos_eq hq]
  · have e1 : ilog2 (f32 q) = ilog2 q + 1 := ilog2_eq h0 heq.ge (by rw [heq]; exact pow2_lt_iff.2 (by omega))
    obtain ⟨N, hN⟩ := grid_pow (u := gap (f32 q)) (e := ilog2 q + 1) (by unfold gap; omega)
    exact f32_grid h0 (N := N) (heq.trans hN)

/-- From 2^-126 on, the error is at most 2^-24 of the number. -/
theorem f32_err {q : Rat} (hq : 0 < q) (hn : -126 ≤ ilog2 q) : |f32 q - q| ≤ q / 2 ^ 24 := by
  have es : gap q = ilog2 q - 23 := by unfold gap; omega
  have hp := pow2_pos (gap q)
  have e := roundEven_close (q / pow2 (gap q))
  have h1 : f32 q - q = ((roundEven (q / pow2 (gap q)) : Rat) - q / pow2 (gap q)) * pow2 (gap q) := by
    rw [f32_pos_eq hq, sub_mul, div_mul_cancel₀ _ hp.ne']
  rw [h1, abs_mul, abs_of_pos hp]
  have h2 : pow2 (gap q) * 2 ^ 23 ≤ q := by
    have := ilog2_le hq
    rw [pow2_zpow] at this ⊢
    rw [es, zpow_sub₀ (by norm_num)]
    have h3 : (2 : Rat) ^ (23 : Int) = 2 ^ 23 := by norm_num
    rw [h3, div_mul_cancel₀ _ (by norm_num)]
    exact this
  have : |(roundEven (q / pow2 (gap q)) : Rat) - q / pow2 (gap q)| * pow2 (gap q) ≤ 1 / 2 * pow2 (gap q) := by nlinarith
  rw [le_div_iff₀ (by norm_num)]
  nlinarith

theorem f32_small {q : Rat} (hq : 0 < q) (hn : ilog2 q < -126) : f32 q ≤ pow2 (-126) := by
  have es : gap q = -149 := by unfold gap; omega
  obtain ⟨N, hN⟩ := grid_pow (u := gap q) (e := -126) (by omega)
  rw [hN]; apply f32_le_grid hq; rw [← hN]
  exact (lt_ilog2 hq).le.trans (pow2_le (by omega))

/-- The numbers of KB up to 2^24 (16 GB) are `float`s. -/
theorem f32_nat {n : Nat} (h : n ≤ 2 ^ 24) : f32 (n : Rat) = n := by
  rcases Nat.eq_zero_or_pos n with rfl | hn
  · simp [f32]
  have hq : (0 : Rat) < n := by exact_mod_cast hn
  have h1 : (1 : Rat) ≤ n := by exact_mod_cast hn
  have hl := one_le_ilog2 h1
  have hu : ilog2 (n : Rat) ≤ 24 := by
    have a := ilog2_le hq
    have b : (n : Rat) < pow2 25 := by
      have : (n : Rat) ≤ 2 ^ 24 := by exact_mod_cast h
      rw [pow2_zpow]; norm_num at this ⊢; linarith
    have := pow2_lt_iff.1 (lt_of_le_of_lt a b)
    omega
  by_cases h24 : ilog2 (n : Rat) = 24
  · have : (n : Rat) = pow2 24 := by
      have a := ilog2_le hq
      rw [h24] at a
      refine le_antisymm ?_ a
      have : (n : Rat) ≤ 2 ^ 24 := by exact_mod_cast h
      rw [pow2_zpow]; norm_num at this ⊢; linarith
    obtain ⟨N, hN⟩ := grid_pow (u := gap (n : Rat)) (e := 24) (by unfold gap; omega)
    exact f32_grid hq (N := N) (this.trans hN)
  · obtain ⟨N, hN⟩ := grid_pow (u := gap (n : Rat)) (e := 0) (by unfold gap; omega)
    have h0 : pow2 0 = 1 := by simp [pow2]
    refine f32_grid hq (N := n * N) ?_
    push_cast
    rw [mul_assoc, ← hN, h0, mul_one]

/-! ## The watermark -/

/-- C140: memory is never above the watermark when the ratio is 1 or more. -/
theorem C140_full (i : SysInfo) (h : Sane i) (ratio : Rat) (hr : 1 ≤ ratio) : i.hits ratio = false := by
  have hs := (C140_sizes i h).2.2.2.1
  have hut : (i.usedInKB : Rat) ≤ i.totalInKB := by exact_mod_cast (by omega : i.usedInKB ≤ i.totalInKB)
  have h0 : (0 : Rat) ≤ i.usedInKB := by exact_mod_cast Nat.zero_le _
  have ht0 : (0 : Rat) ≤ i.totalInKB := by exact_mod_cast Nat.zero_le _
  have hid : f32 (f32 (i.totalInKB : Rat)) = f32 (i.totalInKB : Rat) := by
    rcases Nat.eq_zero_or_pos i.totalInKB with hz | hp
    · rw [hz]; simp [f32]
    · exact f32_idem (by exact_mod_cast hp)
  unfold SysInfo.hits
  rw [decide_eq_false_iff_not, not_lt]
  calc f32 (i.usedInKB : Rat) ≤ f32 (i.totalInKB : Rat) := f32_mono h0 hut
    _ = f32 (f32 (i.totalInKB : Rat)) := hid.symm
    _ ≤ _ := f32_mono (f32_nonneg ht0) (by have := f32_nonneg ht0; nlinarith)

/-- C140: what is above the watermark stays above it when more memory is used, or when the ratio is lowered. -/
theorem C140_monotone (i j : SysInfo) (ht : i.totalInKB = j.totalInKB) (hu : i.usedInKB ≤ j.usedInKB) (r r' : Rat) (h0 : 0 ≤ r') (hr : r' ≤ r)
    (h : i.hits r = true) : j.hits r' = true := by
  unfold SysInfo.hits at h ⊢
  rw [decide_eq_true_eq] at h ⊢
  have ht0 : (0 : Rat) ≤ i.totalInKB := by exact_mod_cast Nat.zero_le _
  have hu0 : (0 : Rat) ≤ i.usedInKB := by exact_mod_cast Nat.zero_le _
  have hf := f32_nonneg ht0
  rw [← ht]
  calc f32 (f32 (i.totalInKB : Rat) * r') ≤ f32 (f32 (i.totalInKB : Rat) * r) := f32_mono (mul_nonneg hf h0) (by nlinarith)
    _ < f32 (i.usedInKB : Rat) := h
    _ ≤ f32 (j.usedInKB : Rat) := f32_mono hu0 (by exact_mod_cast hu)

theorem pow2_small : pow2 (-126) < 1 / 2 := by
  rw [pow2_zpow]
  have : (2 : Rat) ^ (-126 : Int) < 2 ^ (-1 : Int) := zpow_lt_zpow_right₀ (by norm_num) (by norm_num)
  norm_num at this ⊢

/-- C140: the answer is right as soon as the memory in use is away from the watermark by more than 2^-22 (a quarter of a millionth) of
the two. -/
theorem C140_close (i : SysInfo) (ratio : Rat) (hr : 0 ≤ ratio) :
    ((i.totalInKB : Rat) * ratio * (1 + 1 / 2 ^ 22) < i.usedInKB → i.hits ratio = true) ∧
    ((i.usedInKB : Rat) * (1 + 1 / 2 ^ 22) < i.totalInKB * ratio → i.hits ratio = false) := by
  have key : ∀ n : Nat, |f32 (n : Rat) - n| ≤ (n : Rat) / 2 ^ 24 := by
    intro n
    rcases Nat.eq_zero_or_pos n with rfl | hn
    · simp [f32]
    · exact f32_err (by exact_mod_cast hn) (by have := one_le_ilog2 (q := (n : Rat)) (by exact_mod_cast hn); omega)
  have kT := abs_le.1 (key i.totalInKB)
  have kU := abs_le.1 (key i.usedInKB)
  have hT0 : (0 : Rat) ≤ i.totalInKB := by exact_mod_cast Nat.zero_le _
  have hU0 : (0 : Rat) ≤ i.usedInKB := by exact_mod_cast Nat.zero_le _
  have ht0 := f32_nonneg hT0
  have hU1 : (i.usedInKB : Rat) ≠ 0 → (1 : Rat) ≤ i.usedInKB := by
    intro h
    have : i.usedInKB ≠ 0 := fun h' => h (by rw [h']; rfl)
    exact_mod_cast Nat.one_le_iff_ne_zero.2 this
  unfold SysInfo.hits
  generalize (i.totalInKB : Rat) = T at *
  generalize (i.usedInKB : Rat) = U at *
  generalize f32 T = t at *
  obtain ⟨kT1, kT2⟩ := kT
  obtain ⟨kU1, kU2⟩ := kU
  have hTr : 0 ≤ T * ratio := mul_nonneg hT0 hr
  have htr : 0 ≤ t * ratio := mul_nonneg ht0 hr
  norm_num at kT1 kT2 kU1 kU2 ⊢
  have up : t * ratio ≤ T * ratio * (16777217 / 16777216) := by nlinarith
  have low : T * ratio * (16777215 / 16777216) ≤ t * ratio := by nlinarith
  constructor
  · intro h
    have hU := hU1 (by rintro rfl; linarith)
    rcases htr.eq_or_lt with hz | hp
    · rw [← hz, show f32 0 = 0 by simp [f32]]; linarith
    · by_cases hn : -126 ≤ ilog2 (t * ratio)
      · have := (abs_le.1 (f32_err hp hn)).2
        norm_num at this
        linarith
      · have := f32_small hp (by omega)
        have := pow2_small
        linarith
  · intro h
    rcases hU0.eq_or_lt with hz | hp
    · rw [← hz]; simp only [f32, if_true]
      exact f32_nonneg htr
    · have hU := hU1 hp.ne'
      have hp' : 0 < t * ratio := by linarith
      have hn : -1 ≤ ilog2 (t * ratio) := by
        have a := lt_ilog2 hp'
        have b : pow2 (-1) ≤ t * ratio := by
          have : pow2 (-1) = 1 / 2 := by rw [pow2_zpow]; norm_num
          rw [this]; linarith
        have := pow2_lt_iff.1 (lt_of_le_of_lt b a)
        omega
      have := (abs_le.1 (f32_err hp' (by omega))).1
      norm_num at this
      linarith

/-- C140, for up to 2^24 KB: memory is reported above the watermark only if it is. -/
theorem C140_sound_partial (i : SysInfo) (h : Sane i) (hs : i.totalInKB ≤ 2 ^ 24) (ratio : Rat) (hr : 0 ≤ ratio) (hh : i.hits ratio = true) :
    (i.totalInKB : Rat) * ratio < i.usedInKB := by
  have hsz := (C140_sizes i h).2.2.2.1
  unfold SysInfo.hits at hh
  rw [decide_eq_true_eq, f32_nat hs, f32_nat (by omega : i.usedInKB ≤ 2 ^ 24)] at hh
  refine not_le.1 fun hle => ?_
  have h0 : (0 : Rat) ≤ i.usedInKB := by exact_mod_cast Nat.zero_le _
  have := f32_mono h0 hle
  rw [f32_nat (by omega : i.usedInKB ≤ 2 ^ 24)] at this
  linarith

/-- 16 GB of which 14 GB are used are above 80%, and below 90%. -/
example : (⟨16777216, 1572864, 524288, 1024⟩ : SysInfo).hits (4 / 5) = true ∧ (⟨16777216, 1572864, 524288, 1024⟩ : SysInfo).hits (9 / 10) = false := by
  decide +kernel

/-- C140 violated: in 64 GB of memory, half of it and 1 KB are in use, and this is not more than half. -/
theorem C140_missed_violated : ∃ i : SysInfo, Sane i ∧ (i.totalInKB : Rat) * (1 / 2) < i.usedInKB ∧ i.hits (1 / 2) = false :=
  ⟨⟨67108864, 33554431, 0, 1024⟩, ⟨by decide, by decide⟩, by decide +kernel, by decide +kernel⟩

/-- C140 violated: memory is reported above the watermark although it is below it. -/
theorem C140_alarm_violated : ∃ (i : SysInfo) (ratio : Rat), Sane i ∧ f32 ratio = ratio ∧ (i.usedInKB : Rat) < i.totalInKB * ratio ∧ i.hits ratio = true :=
  ⟨⟨33554434, 8388607, 0, 1024⟩, 12582913 / 16777216, ⟨by decide, by decide⟩, by decide +kernel, by decide +kernel, by decide +kernel⟩

end Nebula.Memory
