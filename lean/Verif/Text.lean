import Verif.Base
/-!
# Text produced by the C and folly formatting functions used in the code (`%d`, `%02d`, `%ld`, `%s`)
and read by `strtoll`
-/
namespace Nebula

/-- The ASCII digit of `n < 10`. -/
def digit (n : Nat) : UInt8 := UInt8.ofNat (48 + n)

def natDecF : Nat → Nat → Bytes
  | 0, _ => []
  | f + 1, n => if n < 10 then [digit n] else natDecF f (n / 10) ++ [digit (n % 10)]

/-- Decimal text of a natural number (no leading zeros). -/
def natDec (n : Nat) : Bytes := natDecF (n + 1) n

/-- `%d`, `%ld`, `folly::to<std::string>` of an integer. -/
def intDec (i : Int) : Bytes := if i < 0 then 45 :: natDec i.natAbs else natDec i.natAbs

/-- `%0wd`: padded with zeros to width `w`, the sign counts. -/
def padDec (w : Nat) (i : Int) : Bytes :=
  let d := natDec i.natAbs
  if i < 0 then 45 :: (List.replicate (w - (d.length + 1)) 48 ++ d)
  else List.replicate (w - d.length) 48 ++ d

/-- A `std::string` passed as `const char*`: the bytes before the first NUL. -/
def cstr (s : Bytes) : Bytes := s.takeWhile (· ≠ 0)

/-- ASCII text. -/
def ascii (s : String) : Bytes := s.toList.map fun c => UInt8.ofNat c.toNat

/-- `isspace` in the C locale. -/
def isSpace (c : UInt8) : Bool := c == 32 || (9 ≤ c && c ≤ 13)
/-- `isdigit`. -/
def isDigit (c : UInt8) : Bool := 48 ≤ c && c ≤ 57

/-- The value of a digit string. -/
def digitsVal : Nat → Bytes → Nat
  | acc, [] => acc
  | acc, c :: cs => digitsVal (10 * acc + (c.toNat - 48)) cs

/-- Result of `strtoll(s, &pEnd, 10)`: value, text at `pEnd`, whether `errno` became `ERANGE`. -/
structure StrTo where
  val : Int
  rest : Bytes
  erange : Bool
deriving DecidableEq, Repr

/-- The optional sign of `strtoll`: whether it is a minus, and the text after it. -/
def strtollSign (t : Bytes) : Bool × Bytes :=
  match t with
  | 45 :: u => (true, u)
  | 43 :: u => (false, u)
  | u => (false, u)

/-- The digits of `strtoll`: `s` is the whole text, `u` the text after the sign. -/
def strtollDigits (s : Bytes) (neg : Bool) (u : Bytes) : StrTo :=
  let ds := u.takeWhile isDigit
  if ds = [] then ⟨0, s, false⟩
  else
    let n : Int := digitsVal 0 ds
    let v := if neg then -n else n
    let r := u.dropWhile isDigit
    if v < -9223372036854775808 then ⟨-9223372036854775808, r, true⟩
    else if 9223372036854775807 < v then ⟨9223372036854775807, r, true⟩
    else ⟨v, r, false⟩

/-- C11 7.22.1.4 `strtoll(s, &pEnd, 10)` on a C string. -/
def strtoll (s : Bytes) : StrTo :=
  let su := strtollSign (s.dropWhile isSpace)
  strtollDigits s su.1 su.2

/-! ## Lemmas -/

theorem natDecF_enough : ∀ (f g n : Nat), n < f → n < g → natDecF f n = natDecF g n
  | 0, _, _, h, _ => by omega
  | _, 0, _, _, h => by omega
  | f + 1, g + 1, n, hf, hg => by
    simp only [natDecF]
    split
    · rfl
    · rw [natDecF_enough f g (n / 10) (by omega) (by omega)]

theorem natDec_eq (n : Nat) : natDec n = if n < 10 then [digit n] else natDec (n / 10) ++ [digit (n % 10)] := by
  unfold natDec
  rw [natDecF]
  split
  · rfl
  · rw [natDecF_enough n (n / 10 + 1) (n / 10) (by omega) (by omega)]

theorem digit_toNat {n : Nat} (h : n < 10) : (digit n).toNat = 48 + n := by
  unfold digit; simp [UInt8.toNat_ofNat']; omega

theorem isDigit_iff (c : UInt8) : isDigit c = true ↔ 48 ≤ c.toNat ∧ c.toNat ≤ 57 := by
  unfold isDigit
  simp [UInt8.le_iff_toNat_le]

theorem isDigit_digit {n : Nat} (h : n < 10) : isDigit (digit n) = true := by
  rw [isDigit_iff, digit_toNat h]; omega

theorem natDec_ne_nil (n : Nat) : natDec n ≠ [] := by
  rw [natDec_eq]; split <;> simp

theorem natDec_digits (n : Nat) : ∀ c ∈ natDec n, isDigit c = true := by
  induction n using Nat.strongRecOn with
  | _ n ih =>
    rw [natDec_eq]
    split
    · intro c hc
      simp only [List.mem_singleton] at hc
      subst hc; exact isDigit_digit (by omega)
    · intro c hc
      simp only [List.mem_append, List.mem_singleton] at hc
      rcases hc with hc | hc
      · exact ih (n / 10) (by omega) c hc
      · subst hc; exact isDigit_digit (by omega)

theorem digitsVal_append (a : Nat) (x y : Bytes) : digitsVal a (x ++ y) = digitsVal (digitsVal a x) y := by
  induction x generalizing a with
  | nil => rfl
  | cons c cs ih => exact ih _

theorem digitsVal_natDec (n : Nat) : digitsVal 0 (natDec n) = n := by
  induction n using Nat.strongRecOn with
  | _ n ih =>
    rw [natDec_eq]
    split
    · rename_i hn
      have h := digit_toNat hn
      show 10 * 0 + ((digit n).toNat - 48) = n
      rw [h]; omega
    · have h := digit_toNat (n := n % 10) (Nat.mod_lt _ (by decide))
      rw [digitsVal_append, ih (n / 10) (by omega)]
      show 10 * (n / 10) + ((digit (n % 10)).toNat - 48) = n
      rw [h]; omega

theorem natDec_inj {a b : Nat} (h : natDec a = natDec b) : a = b := by
  rw [← digitsVal_natDec a, h, digitsVal_natDec]

theorem takeWhile_all {α : Type} {p : α → Bool} : ∀ (l : List α), (∀ x ∈ l, p x = true) → l.takeWhile p = l
  | [], _ => rfl
  | x :: xs, h => by
    rw [List.takeWhile_cons, if_pos (h x (by simp)), takeWhile_all xs (fun y hy => h y (by simp [hy]))]

theorem dropWhile_all {α : Type} {p : α → Bool} : ∀ (l : List α), (∀ x ∈ l, p x = true) → l.dropWhile p = []
  | [], _ => rfl
  | x :: xs, h => by
    rw [List.dropWhile_cons, if_pos (h x (by simp)), dropWhile_all xs (fun y hy => h y (by simp [hy]))]

theorem digit_first_not {n : Nat} {c : UInt8} {cs : Bytes} (h : natDec n = c :: cs) :
    isSpace c = false ∧ c ≠ 45 ∧ c ≠ 43 ∧ c ≠ 0 ∧ c ≠ 46 := by
  have hd := natDec_digits n c (by rw [h]; simp)
  rw [isDigit_iff] at hd
  unfold isSpace
  refine ⟨?_, ?_, ?_, ?_, ?_⟩
  · simp only [Bool.or_eq_false_iff, beq_eq_false_iff_ne, Bool.and_eq_false_iff, decide_eq_false_iff_not,
      UInt8.le_iff_toNat_le]
    constructor
    · intro hc; subst hc; simp at hd
    · right; simp; omega
  all_goals (intro hc; subst hc; simp at hd)

theorem strtoll_of {s t u : Bytes} {neg : Bool} (h1 : s.dropWhile isSpace = t) (h2 : strtollSign t = (neg, u)) :
    strtoll s = strtollDigits s neg u := by
  simp only [strtoll, h1, h2]

theorem strtollSign_digit {c : UInt8} {cs : Bytes} (h2 : c ≠ 45) (h3 : c ≠ 43) :
    strtollSign (c :: cs) = (false, c :: cs) := by
  unfold strtollSign
  split
  · rename_i e; cases e; exact absurd rfl h2
  · rename_i e; cases e; exact absurd rfl h3
  · rfl

/-- Reading back the text of a 64-bit integer. -/
theorem strtoll_intDec {i : Int} (h : InI64 i) : strtoll (intDec i) = ⟨i, [], false⟩ := by
  unfold InI64 at h
  obtain ⟨c, cs, hc⟩ : ∃ c cs, natDec i.natAbs = c :: cs := by
    cases hn : natDec i.natAbs with
    | nil => exact absurd hn (natDec_ne_nil _)
    | cons c cs => exact ⟨c, cs, rfl⟩
  obtain ⟨h1, h2, h3, h4, _⟩ := digit_first_not hc
  have hall := natDec_digits i.natAbs
  have ht := takeWhile_all _ hall
  have hd := dropWhile_all _ hall
  have hv := digitsVal_natDec i.natAbs
  unfold intDec
  by_cases hi : i < 0
  · rw [if_pos hi, strtoll_of (t := 45 :: natDec i.natAbs) (neg := true) (u := natDec i.natAbs)
      (by rw [List.dropWhile_cons, if_neg (by decide)]) rfl]
    simp only [strtollDigits, ht, hd, hv, if_neg (natDec_ne_nil _), if_true]
    rw [if_neg (by omega), if_neg (by omega)]
    congr 1; omega
  · rw [if_neg hi, strtoll_of (t := natDec i.natAbs) (neg := false) (u := natDec i.natAbs)
      (by rw [hc, List.dropWhile_cons, if_neg (by simp [h1])]) (by rw [hc]; exact strtollSign_digit h2 h3)]
    simp only [strtollDigits, ht, hd, hv, if_neg (natDec_ne_nil _), if_false, Bool.false_eq_true]
    rw [if_neg (by omega), if_neg (by omega)]
    congr 1; omega

/-- A digit string above the range is clamped and reported. -/
theorem strtoll_over {n : Nat} (h : 9223372036854775807 < n) :
    strtoll (natDec n) = ⟨9223372036854775807, [], true⟩ := by
  obtain ⟨c, cs, hc⟩ : ∃ c cs, natDec n = c :: cs := by
    cases hn : natDec n with
    | nil => exact absurd hn (natDec_ne_nil _)
    | cons c cs => exact ⟨c, cs, rfl⟩
  obtain ⟨h1, h2, h3, h4, _⟩ := digit_first_not hc
  have ht := takeWhile_all _ (natDec_digits n)
  have hd := dropWhile_all _ (natDec_digits n)
  have hv := digitsVal_natDec n
  rw [strtoll_of (t := natDec n) (neg := false) (u := natDec n)
      (by rw [hc, List.dropWhile_cons, if_neg (by simp [h1])]) (by rw [hc]; exact strtollSign_digit h2 h3)]
  simp only [strtollDigits, ht, hd, hv, if_neg (natDec_ne_nil _), if_false, Bool.false_eq_true]
  rw [if_neg (by omega), if_pos (by omega)]

theorem intDec_inj {a b : Int} (h : intDec a = intDec b) : a = b := by
  obtain ⟨c, cs, hc⟩ : ∃ c cs, natDec a.natAbs = c :: cs := by
    cases hn : natDec a.natAbs with
    | nil => exact absurd hn (natDec_ne_nil _)
    | cons c cs => exact ⟨c, cs, rfl⟩
  obtain ⟨d, ds, hd⟩ : ∃ c cs, natDec b.natAbs = c :: cs := by
    cases hn : natDec b.natAbs with
    | nil => exact absurd hn (natDec_ne_nil _)
    | cons c cs => exact ⟨c, cs, rfl⟩
  have n1 := (digit_first_not hc).2.1
  have n2 := (digit_first_not hd).2.1
  unfold intDec at h
  split at h <;> split at h
  · have := natDec_inj (List.cons.inj h).2; omega
  · rw [hd] at h; exact absurd (List.cons.inj h).1.symm n2
  · rw [hc] at h; exact absurd (List.cons.inj h).1 n1
  · have := natDec_inj h; omega

example : intDec (-9223372036854775808) = ascii "-9223372036854775808" := by decide +kernel
example : padDec 2 5 = ascii "05" ∧ padDec 2 (-5) = ascii "-5" ∧ padDec 6 123 = ascii "000123" := by decide +kernel
example : strtoll (ascii "  +12x") = ⟨12, ascii "x", false⟩ := by decide +kernel
example : strtoll (ascii "9223372036854775808") = ⟨9223372036854775807, [], true⟩ := by decide +kernel

/-- The sign takes at most one character off the text. -/
theorem strtollSign_spec (t : Bytes) : ∃ sg, t = sg ++ (strtollSign t).2 ∧
    (sg = [] ∨ sg = [43] ∨ sg = [45]) ∧ ((strtollSign t).1 = true ↔ sg = [45]) := by
  unfold strtollSign
  split
  · exact ⟨[45], rfl, .inr (.inr rfl), by simp⟩
  · exact ⟨[43], rfl, .inr (.inl rfl), by simp⟩
  · exact ⟨[], rfl, .inl rfl, by simp⟩

theorem mem_takeWhile_sat (p : UInt8 → Bool) (l : Bytes) : ∀ c ∈ l.takeWhile p, p c = true := by
  induction l with
  | nil => simp
  | cons a l ih =>
    rw [List.takeWhile_cons]
    split
    · intro c hc
      rcases List.mem_cons.1 hc with rfl | h
      · assumption
      · exact ih c h
    · simp

/-- When `strtoll` consumes everything, the text is empty, or spaces, an optional sign and digits. -/
theorem strtoll_consumes (s : Bytes) (h : (strtoll s).rest = []) :
    (s = [] ∧ strtoll s = ⟨0, [], false⟩) ∨
    ∃ ws sg ds, s = ws ++ sg ++ ds ∧ (∀ c ∈ ws, isSpace c = true) ∧ (sg = [] ∨ sg = [43] ∨ sg = [45]) ∧
      ds ≠ [] ∧ (∀ c ∈ ds, isDigit c = true) ∧
      ((strtoll s).erange = false → (strtoll s).val = if sg = [45] then -(digitsVal 0 ds : Int) else (digitsVal 0 ds : Int)) := by
  obtain ⟨sg, hsg, hk, hn⟩ := strtollSign_spec (s.dropWhile isSpace)
  have hs : s = s.takeWhile isSpace ++ s.dropWhile isSpace := (List.takeWhile_append_dropWhile).symm
  revert h
  unfold strtoll strtollDigits
  simp only
  generalize hu : (strtollSign (s.dropWhile isSpace)).2 = u at *
  generalize hb : (strtollSign (s.dropWhile isSpace)).1 = neg at *
  by_cases hd : u.takeWhile isDigit = []
  · simp only [hd, if_true]
    intro h
    exact .inl ⟨h, by rw [h]⟩
  · rw [if_neg hd]
    intro h
    right
    have hr : u.dropWhile isDigit = [] := by
      revert h
      generalize (if neg = true then -(digitsVal 0 (u.takeWhile isDigit) : Int) else _) = v
      split
      · exact id
      · split <;> exact id
    have htake : u.takeWhile isDigit = u := by
      have := (List.takeWhile_append_dropWhile (p := isDigit) (l := u))
      rw [hr, List.append_nil] at this
      exact this
    refine ⟨s.takeWhile isSpace, sg, u.takeWhile isDigit, ?_, mem_takeWhile_sat _ _, hk, hd, mem_takeWhile_sat _ _, ?_⟩
    · rw [htake, List.append_assoc, ← hsg]; exact hs
    · have e : (if sg = [45] then -(digitsVal 0 (u.takeWhile isDigit) : Int) else (digitsVal 0 (u.takeWhile isDigit) : Int)) =
          (if neg = true then -(digitsVal 0 (u.takeWhile isDigit) : Int) else (digitsVal 0 (u.takeWhile isDigit) : Int)) := by
        by_cases hq : sg = [45]
        · rw [if_pos hq, if_pos (hn.2 hq)]
        · rw [if_neg hq, if_neg (fun h => hq (hn.1 h))]
      rw [e]
      generalize (if neg = true then -(digitsVal 0 (u.takeWhile isDigit) : Int) else _) = v
      split
      · intro h; cases h
      · split
        · intro h; cases h
        · intro _; rfl

/-- `ERANGE` comes with one of the limits. -/
theorem strtoll_erange (s : Bytes) (h : (strtoll s).erange = true) :
    (strtoll s).val = 9223372036854775807 ∨ (strtoll s).val = -9223372036854775808 := by
  revert h
  unfold strtoll strtollDigits
  simp only
  split
  · intro h; cases h
  · generalize (strtollSign (s.dropWhile isSpace)).1 = neg
    generalize (strtollSign (s.dropWhile isSpace)).2 = u
    generalize (if neg = true then -(digitsVal 0 (u.takeWhile isDigit) : Int) else _) = v
    split
    · intro _; exact .inr rfl
    · split
      · intro _; exact .inl rfl
      · intro h; cases h

theorem cstr_of_no_nul {s : Bytes} (h : (0 : UInt8) ∉ s) : cstr s = s := by
  apply takeWhile_all
  intro x hx
  simp only [ne_eq, decide_not, Bool.not_eq_eq_eq_not, Bool.not_true, decide_eq_false_iff_not]
  rintro rfl; exact h hx

end Nebula
