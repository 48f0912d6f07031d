import Verif.Base.Hex
/-! # C115: the hexadecimal text determines the bytes -/
namespace Nebula
namespace Hex

/-! ## Specification -/

def hexDigit (n : Nat) : UInt8 := if n < 10 then UInt8.ofNat (48 + n) else UInt8.ofNat (55 + n)

/-- A byte as text: two hexadecimal digits, and the character itself in parentheses if it is printable. -/
def byteText (b : UInt8) : Bytes :=
  hexDigit (b.toNat / 16) :: hexDigit (b.toNat % 16) :: (if 0x20 ≤ b ∧ b ≤ 0x7E then [40, b, 41] else [])

/-- The texts of the bytes with a blank between them. -/
def bytesText : Bytes → Bytes
  | [] => []
  | [b] => byteText b
  | b :: c :: s => byteText b ++ 32 :: bytesText (c :: s)

def unhex (c : UInt8) : Nat := if c < 65 then c.toNat - 48 else c.toNat - 55

/-- A reader of the text: two digits, what is in parentheses, a blank. -/
def read : Bytes → Bytes
  | h :: l :: 40 :: _ :: 41 :: 32 :: s => UInt8.ofNat (16 * unhex h + unhex l) :: read s
  | h :: l :: 40 :: _ :: 41 :: _ => [UInt8.ofNat (16 * unhex h + unhex l)]
  | h :: l :: 32 :: s => UInt8.ofNat (16 * unhex h + unhex l) :: read s
  | h :: l :: _ => [UInt8.ofNat (16 * unhex h + unhex l)]
  | _ => []

/-! ## Proofs -/

theorem table_byteText : ∀ n : Fin 256, tableBytes.getD n.val [] = byteText (UInt8.ofNat n) := by decide +kernel

theorem table_eq (b : UInt8) : tableBytes.getD b.toNat [] = byteText b := by
  have := table_byteText ⟨b.toNat, b.toNat_lt⟩
  simpa using this

theorem foldl_text : ∀ (s : Bytes) (b : UInt8) (pre : Bytes),
    s.foldl (fun buf c => buf ++ ascii " " ++ tableBytes.getD c.toNat []) (pre ++ byteText b) = pre ++ bytesText (b :: s)
  | [], b, pre => rfl
  | c :: s, b, pre => by
    rw [List.foldl_cons, table_eq, foldl_text s c, bytesText]
    simp [ascii]

/-- **C115 (form).** The text has, for every byte in order, its two hexadecimal digits and the character itself if it is printable, with blanks between. -/
theorem C115_form (s : Bytes) : toHexStr s = bytesText s := by
  cases s with
  | nil => rfl
  | cons b s =>
    rw [toHexStr, table_eq]
    exact foldl_text s b []

theorem digits (b : UInt8) : UInt8.ofNat (16 * unhex (hexDigit (b.toNat / 16)) + unhex (hexDigit (b.toNat % 16))) = b := by
  have : ∀ n : Fin 256, UInt8.ofNat (16 * unhex (hexDigit (n.val / 16)) + unhex (hexDigit (n.val % 16))) = UInt8.ofNat n.val := by decide +kernel
  have h := this ⟨b.toNat, b.toNat_lt⟩
  simpa using h

/-- **C115 (read back).** The text reads back as the bytes, whatever they are. -/
theorem C115_read : ∀ s : Bytes, read (toHexStr s) = s := by
  intro s
  rw [C115_form]
  induction s with
  | nil => rfl
  | cons b s ih =>
    cases s with
    | nil =>
      simp only [bytesText, byteText]
      split
      · simp only [read, digits]
      · simp only [read, digits]
    | cons c s =>
      simp only [bytesText] at ih ⊢
      simp only [byteText]
      split
      · simp only [List.cons_append, List.nil_append, read, digits]
        rw [ih]
      · simp only [List.cons_append, List.nil_append, read, digits]
        rw [ih]

/-- **C115.** Different bytes have different texts. -/
theorem C115_injective {a b : Bytes} (h : toHexStr a = toHexStr b) : a = b := by
  rw [← C115_read a, h, C115_read]

example : toHexStr [0, 0x41, 0x20, 0x28, 0xFF] = ascii "00 41(A) 20( ) 28(() FF" := by decide +kernel

end Hex
end Nebula
