/-!
# Shared conventions of the model

C++ integer operations on mathematical integers.  These are used by all areas; they model the
language, not a particular file of /repo.
-/
namespace Nebula

/-- C++ `a / b` for a positive divisor `b`: truncation towards zero (C++17 [expr.mul]/4). -/
def cdiv (a b : Int) : Int := if 0 ≤ a then a / b else -((-a) / b)

/-- C++ `a % b` for a positive divisor `b`: `a - (a / b) * b`. -/
def cmod (a b : Int) : Int := a - b * cdiv a b

/-- Sanity: `cdiv` is truncated division. -/
theorem cdiv_eq_tdiv (a b : Int) : cdiv a b = Int.tdiv a b := by
  unfold cdiv
  split
  · rename_i h; rw [Int.tdiv_eq_ediv_of_nonneg h]
  · rename_i h
    have h' : 0 ≤ -a := by omega
    rw [← Int.tdiv_eq_ediv_of_nonneg h', Int.neg_tdiv, Int.neg_neg]

/-- Sanity: `cmod` is the truncated remainder. -/
theorem cmod_eq_tmod (a b : Int) : cmod a b = Int.tmod a b := by
  unfold cmod
  rw [cdiv_eq_tdiv]
  have := Int.mul_tdiv_add_tmod a b
  omega

/-- Conversion to `int16_t` (modular, as every supported compiler does). -/
def wrapI16 (x : Int) : Int := (x + 32768) % 65536 - 32768
/-- Conversion to `int8_t`. -/
def wrapI8 (x : Int) : Int := (x + 128) % 256 - 128
/-- Conversion to `int32_t`. -/
def wrapI32 (x : Int) : Int := (x + 2147483648) % 4294967296 - 2147483648
/-- Conversion to `int64_t`. -/
def wrapI64 (x : Int) : Int := (x + 9223372036854775808) % 18446744073709551616 - 9223372036854775808
/-- Conversion to an unsigned bit field of `n` bits. -/
def wrapU (n : Nat) (x : Int) : Int := x % (2 ^ n : Int)

/-- The values of `int64_t`. -/
def InI64 (x : Int) : Prop := -9223372036854775808 ≤ x ∧ x ≤ 9223372036854775807

instance (x : Int) : Decidable (InI64 x) := by unfold InI64; infer_instance

/-- `std::string` as a list of bytes. -/
abbrev Bytes := List UInt8

/-- `std::string::operator<`: lexicographic on unsigned bytes (std::char_traits<char>::lt). -/
def bytesLt : Bytes → Bytes → Bool
  | _, [] => false
  | [], _ :: _ => true
  | a :: as, b :: bs => if a = b then bytesLt as bs else decide (a < b)

theorem bytesLt_irrefl (a : Bytes) : bytesLt a a = false := by
  induction a with
  | nil => rfl
  | cons x xs ih => simp [bytesLt, ih]

theorem bytesLt_trans : ∀ (a b c : Bytes), bytesLt a b = true → bytesLt b c = true → bytesLt a c = true
  | a, b, [], _, h2 => by cases b <;> simp [bytesLt] at h2
  | a, [], c :: cs, h1, _ => by cases a <;> simp [bytesLt] at h1
  | [], b :: bs, c :: cs, _, _ => by simp [bytesLt]
  | a :: as, b :: bs, c :: cs, h1, h2 => by
    have ih := bytesLt_trans as bs cs
    simp only [bytesLt] at h1 h2 ⊢
    by_cases hab : a = b
    · subst hab
      by_cases hbc : a = c
      · subst hbc; simp only [if_true] at *; exact ih h1 h2
      · simpa [hbc] using h2
    · simp only [hab, if_false, decide_eq_true_eq] at h1
      by_cases hbc : b = c
      · subst hbc; simp [hab, h1]
      · simp only [hbc, if_false, decide_eq_true_eq] at h2
        have h3 : a < c := UInt8.lt_trans h1 h2
        have h4 : a ≠ c := UInt8.ne_of_lt h3
        simp [h4, h3]

theorem bytesLt_total : ∀ (a b : Bytes), bytesLt a b = true ∨ a = b ∨ bytesLt b a = true
  | [], [] => by simp
  | [], _ :: _ => by simp [bytesLt]
  | _ :: _, [] => by simp [bytesLt]
  | a :: as, b :: bs => by
    have ih := bytesLt_total as bs
    simp only [bytesLt]
    by_cases hab : a = b
    · subst hab; simp only [if_true]
      rcases ih with h | h | h
      · exact Or.inl h
      · subst h; exact Or.inr (Or.inl rfl)
      · exact Or.inr (Or.inr h)
    · have hba : ¬ b = a := fun h => hab h.symm
      simp only [hab, hba, if_false, decide_eq_true_eq]
      rcases UInt8.lt_or_lt_of_ne hab with h | h
      · exact Or.inl h
      · exact Or.inr (Or.inr h)

theorem bytesLt_asymm (a b : Bytes) (h : bytesLt a b = true) : bytesLt b a = false := by
  cases hb : bytesLt b a with
  | false => rfl
  | true => have := bytesLt_trans a b a h hb; rw [bytesLt_irrefl] at this; cases this

end Nebula
