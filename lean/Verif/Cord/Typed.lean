import Verif.Cord.Props
import Mathlib.Data.List.Forall2
/-! # C24, C25: numbers and texts written to a cord -/
namespace Nebula

/-! ## Model -/

/-- `reinterpret_cast<char*>(&value), sizeof(value)` on a little-endian machine: the `k` bytes of `n`. -/
def cordLe : Nat → Nat → Bytes
  | 0, _ => []
  | k + 1, n => UInt8.ofNat (n % 256) :: cordLe k (n / 256)

/-- The operand types of `operator<<` (Cord.cpp:159-226, ICord.h:127-180) other than cords.  Simplification: `char` is `int 1`, and a `float` or `double` is given by its
representation. -/
inductive CordItem
  | int (k : Nat) (n : Int)
  | uint (k : Nat) (n : Nat)
  | bool (b : Bool)
  | bits (k : Nat) (n : Nat)
  | str (s : Bytes)
  /-- The memory a `const char*` points to. -/
  | cstr (m : Bytes)

/-- The bytes given to `write` (Cord.cpp:159-226, ICord.h:127-180); `none` if `strlen` finds no end. -/
def CordItem.bytes : CordItem → Option Bytes
  | .int k n => some (cordLe k (n % (256 ^ k : Nat)).toNat)
  | .uint k n => some (cordLe k n)
  | .bool b => some (cordLe 1 (if b then 1 else 0))
  | .bits k n => some (cordLe k n)
  | .str s => some s
  | .cstr m => if (0 : UInt8) ∈ m then some (m.takeWhile (· ≠ 0)) else none

/-- `operator<<` of `Cord` (Cord.cpp:159-226). -/
def Cord.put (c : Cord) (i : CordItem) : Option Cord := i.bytes.bind fun b => c.write b
/-- `operator<<` of `ICord` (ICord.h:127-180). -/
def ICord.put (c : ICord) (i : CordItem) : Option ICord := i.bytes.bind fun b => c.write b

/-- `c << a << b << ...` -/
def Cord.putAll (c : Cord) : List CordItem → Option Cord
  | [] => some c
  | i :: l => (c.put i).bind fun c => c.putAll l
/-- `c << a << b << ...` -/
def ICord.putAll (c : ICord) : List CordItem → Option ICord
  | [] => some c
  | i :: l => (c.put i).bind fun c => c.putAll l

/-! ## Specification -/

/-- The number whose bytes these are, the lowest first. -/
def leVal : Bytes → Nat
  | [] => 0
  | b :: l => b.toNat + 256 * leVal l
/-- The same, in two's complement. -/
def leSigned (l : Bytes) : Int := if 2 * leVal l < 256 ^ l.length then leVal l else (leVal l : Int) - (256 ^ l.length : Nat)

/-- In the range of its type; a text in memory has an end. -/
def CordItem.Ok : CordItem → Prop
  | .int k n => k ∈ [1, 2, 4, 8] ∧ -(256 ^ k : Nat) ≤ 2 * n ∧ 2 * n < (256 ^ k : Nat)
  | .uint k n => k ∈ [1, 2, 4, 8] ∧ n < 256 ^ k
  | .bits k n => k ∈ [4, 8] ∧ n < 256 ^ k
  | .cstr m => (0 : UInt8) ∈ m
  | _ => True

/-- What the operand is as bytes `d`: a number is the value of its bytes. -/
def CordItem.Is (d : Bytes) : CordItem → Prop
  | .int k n => d.length = k ∧ leSigned d = n
  | .uint k n => d.length = k ∧ leVal d = n
  | .bool b => d = [if b then 1 else 0]
  | .bits k n => d.length = k ∧ leVal d = n
  | .str s => d = s
  | .cstr m => (0 : UInt8) ∉ d ∧ ∃ t, m = d ++ 0 :: t

/-- The same type, and a number or truth value. -/
def CordItem.Same : CordItem → CordItem → Prop
  | .int k _, .int k' _ => k = k'
  | .uint k _, .uint k' _ => k = k'
  | .bool _, .bool _ => True
  | .bits k _, .bits k' _ => k = k'
  | _, _ => False

/-! ## Lemmas -/

theorem cordLe_length : ∀ k n, (cordLe k n).length = k
  | 0, _ => rfl
  | k + 1, n => by simp [cordLe, cordLe_length k]

theorem leVal_cordLe : ∀ k n, leVal (cordLe k n) = n % 256 ^ k
  | 0, n => by simp [cordLe, leVal, Nat.mod_one]
  | k + 1, n => by
    have h : (UInt8.ofNat (n % 256)).toNat = n % 256 := by simp
    rw [cordLe, leVal, leVal_cordLe k, h, Nat.pow_succ, Nat.mul_comm (256 ^ k) 256, Nat.mod_mul]

theorem leSigned_cordLe {k : Nat} {n : Int} (h1 : -(256 ^ k : Nat) ≤ 2 * n) (h2 : 2 * n < (256 ^ k : Nat)) : leSigned (cordLe k (n % (256 ^ k : Nat)).toNat) = n := by
  have hp : 0 < 256 ^ k := Nat.pow_pos (by decide)
  generalize hm : 256 ^ k = m at *
  have hlt : (n % (m : Int)).toNat < m := by
    have := Int.emod_lt_of_pos n (show (0 : Int) < m by omega)
    have := Int.emod_nonneg n (show (m : Int) ≠ 0 by omega)
    omega
  have hv : leVal (cordLe k (n % (m : Int)).toNat) = (n % (m : Int)).toNat := by rw [leVal_cordLe, hm, Nat.mod_eq_of_lt hlt]
  unfold leSigned
  rw [hv, cordLe_length, hm]
  by_cases h0 : 0 ≤ n
  · have : n % (m : Int) = n := Int.emod_eq_of_lt h0 (by omega)
    rw [this, if_pos (by omega)]; omega
  · have : n % (m : Int) = n + m := by
      rw [← Int.add_emod_right]
      exact Int.emod_eq_of_lt (by omega) (by omega)
    rw [this]
    split <;> omega

theorem takeWhile_end : ∀ {m : Bytes}, (0 : UInt8) ∈ m → (0 : UInt8) ∉ m.takeWhile (· ≠ 0) ∧ ∃ t, m = m.takeWhile (· ≠ 0) ++ 0 :: t
  | x :: m, h => by
    by_cases hx : x = 0
    · subst hx; exact ⟨by simp, m, by simp⟩
    · have hm : (0 : UInt8) ∈ m := by
        rcases List.mem_cons.1 h with h | h
        · exact absurd h.symm hx
        · exact h
      obtain ⟨h1, t, h2⟩ := takeWhile_end hm
      rw [List.takeWhile_cons_of_pos (by simpa using hx)]
      refine ⟨?_, t, by rw [List.cons_append, ← h2]⟩
      intro h; rcases List.mem_cons.1 h with h | h
      · exact hx h.symm
      · exact h1 h

theorem CordItem.bytes_is {i : CordItem} (h : i.Ok) : ∃ d, i.bytes = some d ∧ i.Is d := by
  cases i with
  | int k n => exact ⟨_, rfl, cordLe_length _ _, leSigned_cordLe h.2.1 h.2.2⟩
  | uint k n => exact ⟨_, rfl, cordLe_length _ _, by rw [leVal_cordLe, Nat.mod_eq_of_lt h.2]⟩
  | bool b => exact ⟨_, rfl, by cases b <;> rfl⟩
  | bits k n => exact ⟨_, rfl, cordLe_length _ _, by rw [leVal_cordLe, Nat.mod_eq_of_lt h.2]⟩
  | str s => exact ⟨_, rfl, rfl⟩
  | cstr m => exact ⟨_, if_pos h, takeWhile_end h⟩

/-! ## The theorems -/

/-- **C24 (operands).** Whatever is written to a cord with `<<`, one operand after the other, is appended: numbers as the bytes that have their value, lowest first, strings as they are (with any zeros
in them), texts in memory up to their end. -/
theorem C24_operands {c : Cord} {bs : Bytes} (h : Cord.Made c bs) (l : List CordItem) (hl : ∀ i ∈ l, i.Ok) :
    ∃ c' ds, c.putAll l = some c' ∧ Cord.Made c' (bs ++ ds.flatten) ∧ List.Forall₂ (fun i d => i.Is d) l ds := by
  induction l generalizing c bs with
  | nil => exact ⟨c, [], rfl, by simpa using h, .nil⟩
  | cons i l ih =>
    obtain ⟨d, h1, h2⟩ := CordItem.bytes_is (hl i List.mem_cons_self)
    obtain ⟨c1, h3, h4⟩ := C24_write h d
    obtain ⟨c2, ds, h5, h6, h7⟩ := ih h4 fun j hj => hl j (List.mem_cons_of_mem _ hj)
    exact ⟨c2, d :: ds, by simp [Cord.putAll, Cord.put, h1, h3, h5], by simpa using h6, .cons h2 h7⟩

/-- **C25 (operands).** The same for a cord with an inline buffer. -/
theorem C25_operands {c : ICord} {bs : Bytes} (h : ICord.Written c bs) (l : List CordItem) (hl : ∀ i ∈ l, i.Ok) :
    ∃ c' ds, c.putAll l = some c' ∧ ICord.Written c' (bs ++ ds.flatten) ∧ List.Forall₂ (fun i d => i.Is d) l ds := by
  induction l generalizing c bs with
  | nil => exact ⟨c, [], rfl, by simpa using h, .nil⟩
  | cons i l ih =>
    obtain ⟨d, h1, h2⟩ := CordItem.bytes_is (hl i List.mem_cons_self)
    obtain ⟨c1, h3, h4⟩ := C25_write h d
    obtain ⟨c2, ds, h5, h6, h7⟩ := ih h4 fun j hj => hl j (List.mem_cons_of_mem _ hj)
    exact ⟨c2, d :: ds, by simp [ICord.putAll, ICord.put, h1, h3, h5], by simpa using h6, .cons h2 h7⟩

theorem same_is {i j : CordItem} {d d' : Bytes} (h : i.Same j) (hi : i.Is d) (hj : j.Is d') : d.length = d'.length ∧ (d = d' → i = j) := by
  cases i <;> cases j <;> first | exact h.elim | skip
  · exact ⟨by rw [hi.1, hj.1]; exact h, fun e => by rw [show _ = _ from h, ← hi.2, ← hj.2, e]⟩
  · exact ⟨by rw [hi.1, hj.1]; exact h, fun e => by rw [show _ = _ from h, ← hi.2, ← hj.2, e]⟩
  · rename_i b b'
    rw [show d = _ from hi, show d' = _ from hj]
    exact ⟨rfl, by cases b <;> cases b' <;> simp⟩
  · exact ⟨by rw [hi.1, hj.1]; exact h, fun e => by rw [show _ = _ from h, ← hi.2, ← hj.2, e]⟩

/-- **C24 (numbers).** Two sequences of numbers of the same types that give two cords the same contents are the same. -/
theorem C24_numbers {l m : List CordItem} (hs : List.Forall₂ CordItem.Same l m) (hl : ∀ i ∈ l, i.Ok) (hm : ∀ i ∈ m, i.Ok) {c d c' d' : Cord} (hc : Cord.Made c []) (hd : Cord.Made d [])
    (h1 : c.putAll l = some c') (h2 : d.putAll m = some d') (h : c'.str = d'.str) : l = m := by
  obtain ⟨c1, ds, g1, g2, g3⟩ := C24_operands hc l hl
  obtain ⟨d1, es, g4, g5, g6⟩ := C24_operands hd m hm
  rw [h1] at g1; rw [h2] at g4
  cases g1; cases g4
  rw [(C24_contents g2).2.2.1, (C24_contents g5).2.2.1] at h
  simp only [List.nil_append, Option.some.injEq] at h
  clear hl hm hc hd h1 h2 g2 g5
  induction hs generalizing ds es with
  | nil => rfl
  | cons hij _ ih =>
    cases g3 with
    | cons a1 a2 =>
      cases g6 with
      | cons b1 b2 =>
        obtain ⟨k1, k2⟩ := same_is hij a1 b1
        simp only [List.flatten_cons] at h
        obtain ⟨e1, e2⟩ := List.append_inj h k1
        rw [k2 e1, ih _ a2 _ b2 e2]

/-- Numbers of each kind, a truth value, a string with a zero in it and a text in memory. -/
example : ∀ i ∈ [CordItem.int 4 (-2), .int 8 5, .uint 2 65535, .bool true, .bits 8 4607182418800017408, .str [1, 0, 2], .cstr [97, 98, 0, 99]], i.Ok := by
  simp [CordItem.Ok]

/-- -2 as an `int32_t`, and "ab" with something behind its end. -/
example : (CordItem.int 4 (-2)).bytes = some [254, 255, 255, 255] ∧ (CordItem.cstr [97, 98, 0, 99]).bytes = some [97, 98] := by decide +kernel

end Nebula
