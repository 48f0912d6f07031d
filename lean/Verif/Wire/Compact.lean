import Verif.Value.F64
/-!
# The compact protocol of the Thrift library

`Value`s are serialised with `apache::thrift::CompactSerializer` (src/common/expression/Expression.cpp:39
`using serializer = apache::thrift::CompactSerializer`).  The library is not part of the repository;
this file transcribes the part of its documented wire format that the serialisers of
src/common/datatypes/*Ops.inl use.  A reader returns `none` where the library throws.

Simplification: the library's limits on the size of strings and containers are not modelled, except
that sizes are 32-bit and must not be negative.
-/
namespace Nebula

/-- The value of a `double` with the given 64 bits (IEEE-754 binary64; both zeros are 0). -/
def F64.ofBits (n : Nat) : F64 :=
  let neg := n / 2 ^ 63 % 2 = 1
  let e : Nat := n / 2 ^ 52 % 2 ^ 11
  let m : Nat := n % 2 ^ 52
  if e = 2047 then (if m = 0 then .inf (decide neg) else .nan)
  else
    let a : Rat := if e = 0 then (m : Rat) * pow2 (-1074) else ((2 ^ 52 + m : Nat) : Rat) * pow2 ((e : Int) - 1075)
    .fin (if neg then -a else a)

/-- A value that a `double` can hold. -/
def F64.Holds (f : F64) : Prop := ∃ n, n < 2 ^ 64 ∧ F64.ofBits n = f

namespace Wire

/-- Types of the compact protocol (`CType`); a Boolean field carries its value in the type. -/
def ctTrue : Nat := 1
def ctFalse : Nat := 2
def ctByte : Nat := 3
def ctI16 : Nat := 4
def ctI32 : Nat := 5
def ctI64 : Nat := 6
def ctDouble : Nat := 7
def ctBinary : Nat := 8
def ctList : Nat := 9
def ctSet : Nat := 10
def ctMap : Nat := 11
def ctStruct : Nat := 12

/-- Base-128 varint, low group first, at most ten bytes. -/
def varintF : Nat → Nat → Bytes
  | 0, _ => []
  | f + 1, n => if n < 128 then [UInt8.ofNat n] else UInt8.ofNat (n % 128 + 128) :: varintF f (n / 128)

def varint (n : Nat) : Bytes := varintF 10 n

/-- Reading a varint of at most `k` bytes. -/
def readVarint : Nat → Bytes → Option (Nat × Bytes)
  | 0, _ => none
  | _ + 1, [] => none
  | k + 1, b :: bs =>
    if b.toNat < 128 then some (b.toNat, bs)
    else match readVarint k bs with
      | none => none
      | some (m, r) => some (b.toNat - 128 + 128 * m, r)

/-- Reading an unsigned 32-bit varint. -/
def readU32 (bs : Bytes) : Option (Nat × Bytes) :=
  match readVarint 5 bs with
  | none => none
  | some (n, r) => some (n % 2 ^ 32, r)

/-- Reading an unsigned 64-bit varint. -/
def readU64 (bs : Bytes) : Option (Nat × Bytes) :=
  match readVarint 10 bs with
  | none => none
  | some (n, r) => some (n % 2 ^ 64, r)

/-- `i32ToZigzag`, `i64ToZigzag`. -/
def zigzag (x : Int) : Nat := if x < 0 then (-2 * x - 1).toNat else (2 * x).toNat
/-- `zigzagToI32`, `zigzagToI64`. -/
def unzigzag (n : Nat) : Int := if n % 2 = 0 then (n / 2 : Nat) else -((n / 2 : Nat) : Int) - 1

/-- `writeI16`, `writeI32`, `writeI64`. -/
def writeInt (x : Int) : Bytes := varint (zigzag x)

def readI16 (bs : Bytes) : Option (Int × Bytes) :=
  match readU32 bs with
  | none => none
  | some (n, r) => some (wrapI16 (unzigzag n), r)

def readI32 (bs : Bytes) : Option (Int × Bytes) :=
  match readU32 bs with
  | none => none
  | some (n, r) => some (unzigzag n, r)

def readI64 (bs : Bytes) : Option (Int × Bytes) :=
  match readU64 bs with
  | none => none
  | some (n, r) => some (unzigzag n, r)

/-- `writeByte` (an `int8_t`). -/
def writeByte (x : Int) : Bytes := [UInt8.ofNat (x % 256).toNat]

def readByte : Bytes → Option (Int × Bytes)
  | [] => none
  | b :: bs => some (wrapI8 b.toNat, bs)

/-- `writeBinary`, `writeString`. -/
def writeBinary (s : Bytes) : Bytes := varint s.length ++ s

/-- Taking `n` bytes; throws if there are fewer. -/
def takeN (n : Nat) (bs : Bytes) : Option (Bytes × Bytes) :=
  if n ≤ bs.length then some (bs.take n, bs.drop n) else none

/-- A size is read as an `int32_t` that must not be negative. -/
def readSize (bs : Bytes) : Option (Nat × Bytes) :=
  match readU32 bs with
  | none => none
  | some (n, r) => if n < 2 ^ 31 then some (n, r) else none

def readBinary (bs : Bytes) : Option (Bytes × Bytes) :=
  match readSize bs with
  | none => none
  | some (n, r) => takeN n r

/-- The eight bytes of a 64-bit pattern, most significant first. -/
def be64 : Nat → Nat → Bytes
  | 0, _ => []
  | k + 1, n => UInt8.ofNat (n / 256 ^ k % 256) :: be64 k n

def beVal : Nat → Bytes → Nat
  | a, [] => a
  | a, b :: bs => beVal (a * 256 + b.toNat) bs

/-- `writeDouble` of the given bit pattern. -/
def writeDouble (bits : Nat) : Bytes := be64 8 bits

def readDouble (bs : Bytes) : Option (F64 × Bytes) :=
  match takeN 8 bs with
  | none => none
  | some (d, r) => some (F64.ofBits (beVal 0 d), r)

/-- `writeFieldBegin`: the difference of the field numbers in the high half of the byte if it is
between 1 and 15, otherwise the number follows. -/
def fieldHeader (last id ct : Nat) : Bytes :=
  if last < id ∧ id - last ≤ 15 then [UInt8.ofNat ((id - last) * 16 + ct)]
  else UInt8.ofNat ct :: writeInt id

/-- `readFieldBegin`: `none` throws, `some (none, r)` is the stop byte. -/
def readFieldHeader (last : Int) : Bytes → Option (Option (Int × Nat) × Bytes)
  | [] => none
  | b :: bs =>
    let ct := b.toNat % 16
    let d := b.toNat / 16
    if ct = 0 then some (none, bs)
    else if d = 0 then
      match readI16 bs with
      | none => none
      | some (id, r) => some (some (id, ct), r)
    else some (some (last + d, ct), bs)

/-- `writeListBegin`, `writeSetBegin`. -/
def listHeader (size ct : Nat) : Bytes :=
  if size ≤ 14 then [UInt8.ofNat (size * 16 + ct)] else UInt8.ofNat (240 + ct) :: varint size

/-- `readListBegin`, `readSetBegin`: element type and size. -/
def readListHeader : Bytes → Option (Nat × Nat × Bytes)
  | [] => none
  | b :: bs =>
    let ct := b.toNat % 16
    let d := b.toNat / 16
    if d = 15 then
      match readSize bs with
      | none => none
      | some (n, r) => some (ct, n, r)
    else some (ct, d, bs)

/-- `writeMapBegin`. -/
def mapHeader (size kt vt : Nat) : Bytes :=
  if size = 0 then [0] else varint size ++ [UInt8.ofNat (kt * 16 + vt)]

/-- `readMapBegin`: key type, value type and size. -/
def readMapHeader (bs : Bytes) : Option (Nat × Nat × Nat × Bytes) :=
  match readSize bs with
  | none => none
  | some (n, r) =>
    if n = 0 then some (0, 0, 0, r)
    else match r with
      | [] => none
      | b :: r => some (b.toNat / 16, b.toNat % 16, n, r)

/-- Repeating a reader. -/
def readN {α : Type} (f : Bytes → Option (α × Bytes)) : Nat → Bytes → Option (List α × Bytes)
  | 0, bs => some ([], bs)
  | n + 1, bs =>
    match f bs with
    | none => none
    | some (a, r) =>
      match readN f n r with
      | none => none
      | some (as, r) => some (a :: as, r)

/-- Inside a container a Boolean takes one byte. -/
def elemCt (et : Nat) : Nat := if et = ctTrue ∨ et = ctFalse then ctByte else et

/-- Skipping the elements of a list or set. -/
def skipElems (sk : Nat → Bytes → Option Bytes) (bs : Bytes) : Option Bytes :=
  match readListHeader bs with
  | none => none
  | some (et, n, r) => (readN (fun b => (sk (elemCt et) b).map fun r => ((), r)) n r).map Prod.snd

/-- Skipping the entries of a map. -/
def skipEntries (sk : Nat → Bytes → Option Bytes) (bs : Bytes) : Option Bytes :=
  match readMapHeader bs with
  | none => none
  | some (kt, vt, n, r) =>
    (readN (fun b => match sk (elemCt kt) b with
      | none => none
      | some r => (sk (elemCt vt) r).map fun r => ((), r)) n r).map Prod.snd

/-- `skip`: reading and ignoring a value of the given type.  The first argument bounds the nesting. -/
def skip : Nat → Nat → Bytes → Option Bytes
  | 0, _, _ => none
  | f + 1, ct, bs =>
    if ct = ctTrue ∨ ct = ctFalse then some bs
    else if ct = ctByte then (readByte bs).map Prod.snd
    else if ct = ctI16 ∨ ct = ctI32 then (readU32 bs).map Prod.snd
    else if ct = ctI64 then (readU64 bs).map Prod.snd
    else if ct = ctDouble then (takeN 8 bs).map Prod.snd
    else if ct = ctBinary then (readBinary bs).map Prod.snd
    else if ct = ctList ∨ ct = ctSet then
      skipElems (skip f) bs
    else if ct = ctMap then skipEntries (skip f) bs
    else if ct = ctStruct then skipFields f f 0 bs
    else none
where
  /-- the fields of a skipped structure, up to the stop byte -/
  skipFields (f : Nat) : Nat → Int → Bytes → Option Bytes
    | 0, _, _ => none
    | k + 1, last, bs =>
      match readFieldHeader last bs with
      | none => none
      | some (none, r) => some r
      | some (some (id, ct), r) =>
        match skip f ct r with
        | none => none
        | some r => skipFields f k id r

/-! ## Round trips of the primitives -/

theorem ofNat_toNat {n : Nat} (h : n < 256) : (UInt8.ofNat n).toNat = n := by
  simp; omega

theorem readVarint_varintF : ∀ (f k n : Nat) (rest : Bytes), n < 128 ^ (f + 1) → n < 128 ^ k → 0 < k →
    readVarint k (varintF (f + 1) n ++ rest) = some (n, rest)
  | f, 0, n, rest, _, _, h0 => by omega
  | f, k + 1, n, rest, h, hk, _ => by
    rw [varintF]
    by_cases h1 : n < 128
    · rw [if_pos h1]
      have e : (UInt8.ofNat n).toNat = n := ofNat_toNat (by omega)
      simp [readVarint, e, h1]
    · rw [if_neg h1]
      cases f with
      | zero => simp at h; omega
      | succ f =>
        have e : (UInt8.ofNat (n % 128 + 128)).toNat = n % 128 + 128 := ofNat_toNat (by omega)
        have hq : n / 128 < 128 ^ (f + 1) := by
          rw [Nat.div_lt_iff_lt_mul (by omega)]; rw [Nat.pow_succ] at h; exact h
        have hqk : n / 128 < 128 ^ k := by
          rw [Nat.div_lt_iff_lt_mul (by omega)]; rw [Nat.pow_succ] at hk; exact hk
        have hk0 : 0 < k := by
          cases k with
          | zero => simp at hk; omega
          | succ k => omega
        have ih := readVarint_varintF f k (n / 128) rest hq hqk hk0
        rw [List.cons_append, readVarint, e, if_neg (by omega), ih]
        simp
        omega

theorem readU32_varint {n : Nat} (h : n < 2 ^ 32) (rest : Bytes) : readU32 (varint n ++ rest) = some (n, rest) := by
  have := readVarint_varintF 9 5 n rest (Nat.lt_trans h (by decide)) (Nat.lt_trans h (by decide)) (by decide)
  rw [readU32, varint, this]
  simp; omega

theorem readU64_varint {n : Nat} (h : n < 2 ^ 64) (rest : Bytes) : readU64 (varint n ++ rest) = some (n, rest) := by
  have := readVarint_varintF 9 10 n rest (Nat.lt_trans h (by decide)) (Nat.lt_trans h (by decide)) (by decide)
  rw [readU64, varint, this]
  simp; omega

theorem unzigzag_zigzag (x : Int) : unzigzag (zigzag x) = x := by
  unfold zigzag unzigzag; split <;> split <;> omega

theorem readI32_write {x : Int} (h : -2147483648 ≤ x ∧ x ≤ 2147483647) (rest : Bytes) :
    readI32 (writeInt x ++ rest) = some (x, rest) := by
  have : zigzag x < 2 ^ 32 := by unfold zigzag; split <;> omega
  rw [readI32, writeInt, readU32_varint this]
  simp [unzigzag_zigzag]

theorem readI16_write {x : Int} (h : -32768 ≤ x ∧ x ≤ 32767) (rest : Bytes) :
    readI16 (writeInt x ++ rest) = some (x, rest) := by
  have : zigzag x < 2 ^ 32 := by unfold zigzag; split <;> omega
  rw [readI16, writeInt, readU32_varint this]
  simp [unzigzag_zigzag, wrapI16]; omega

theorem readI64_write {x : Int} (h : InI64 x) (rest : Bytes) :
    readI64 (writeInt x ++ rest) = some (x, rest) := by
  unfold InI64 at h
  have : zigzag x < 2 ^ 64 := by unfold zigzag; split <;> omega
  rw [readI64, writeInt, readU64_varint this]
  simp [unzigzag_zigzag]

theorem readByte_write {x : Int} (h : -128 ≤ x ∧ x ≤ 127) (rest : Bytes) :
    readByte (writeByte x ++ rest) = some (x, rest) := by
  have e : (UInt8.ofNat (x % 256).toNat).toNat = (x % 256).toNat := ofNat_toNat (by omega)
  simp only [writeByte, List.cons_append, List.nil_append, readByte, e, wrapI8]
  simp; omega

theorem readSize_varint {n : Nat} (h : n < 2 ^ 31) (rest : Bytes) : readSize (varint n ++ rest) = some (n, rest) := by
  rw [readSize, readU32_varint (by omega)]; simp; omega

theorem takeN_append (a rest : Bytes) : takeN a.length (a ++ rest) = some (a, rest) := by
  simp [takeN]

theorem readBinary_write {s : Bytes} (h : s.length < 2 ^ 31) (rest : Bytes) :
    readBinary (writeBinary s ++ rest) = some (s, rest) := by
  rw [readBinary, writeBinary, List.append_assoc, readSize_varint h]
  exact takeN_append s rest

theorem be64_length : ∀ k n, (be64 k n).length = k
  | 0, _ => rfl
  | k + 1, n => by simp [be64, be64_length k n]

theorem beVal_be64 : ∀ (k n a : Nat), beVal a (be64 k n) = a * 256 ^ k + n % 256 ^ k
  | 0, n, a => by simp [be64, beVal, Nat.mod_one]
  | k + 1, n, a => by
    have e : (UInt8.ofNat (n / 256 ^ k % 256)).toNat = n / 256 ^ k % 256 := ofNat_toNat (Nat.mod_lt _ (by omega))
    rw [be64, beVal, e, beVal_be64 k n]
    rw [Nat.pow_succ, Nat.mod_mul]
    rw [Nat.add_mul, Nat.mul_assoc, Nat.mul_comm 256 (256 ^ k), Nat.mul_comm (n / 256 ^ k % 256)]
    omega

theorem readDouble_write {bits : Nat} (h : bits < 2 ^ 64) (rest : Bytes) :
    readDouble (writeDouble bits ++ rest) = some (F64.ofBits bits, rest) := by
  have := takeN_append (be64 8 bits) rest
  rw [be64_length] at this
  rw [readDouble, writeDouble, this]
  simp only [beVal_be64]
  have : bits % 256 ^ 8 = bits := Nat.mod_eq_of_lt h
  simp [this]

theorem readListHeader_write {n ct : Nat} (h : n < 2 ^ 31) (hc : ct < 16) (rest : Bytes) :
    readListHeader (listHeader n ct ++ rest) = some (ct, n, rest) := by
  unfold listHeader
  by_cases hn : n ≤ 14
  · rw [if_pos hn, List.cons_append, List.nil_append, readListHeader, ofNat_toNat (by omega)]
    have h1 : (n * 16 + ct) % 16 = ct := by omega
    have h2 : (n * 16 + ct) / 16 = n := by omega
    simp only [h1, h2]
    rw [if_neg (by omega)]
  · rw [if_neg hn, List.cons_append, readListHeader, ofNat_toNat (by omega)]
    have h1 : (240 + ct) % 16 = ct := by omega
    have h2 : (240 + ct) / 16 = 15 := by omega
    simp only [h1, h2, if_true, readSize_varint h]

theorem readMapHeader_write {n kt vt : Nat} (h : n < 2 ^ 31) (h0 : n ≠ 0) (hk : kt < 16) (hv : vt < 16) (rest : Bytes) :
    readMapHeader (mapHeader n kt vt ++ rest) = some (kt, vt, n, rest) := by
  rw [mapHeader, if_neg h0, List.append_assoc, readMapHeader, readSize_varint h]
  simp only [h0, if_false, List.cons_append, List.nil_append, ofNat_toNat (show kt * 16 + vt < 256 by omega)]
  have h1 : (kt * 16 + vt) % 16 = vt := by omega
  have h2 : (kt * 16 + vt) / 16 = kt := by omega
  rw [h1, h2]

theorem readMapHeader_zero (kt vt : Nat) (rest : Bytes) :
    readMapHeader (mapHeader 0 kt vt ++ rest) = some (0, 0, 0, rest) := by
  simp [mapHeader, readMapHeader, readSize, readU32, readVarint]

/-- Reading back a sequence of elements each of which is read back. -/
theorem readN_write {α β : Type} (f : Bytes → Option (β × Bytes)) (w : α → Bytes) (g : α → β) :
    ∀ (l : List α) (rest : Bytes), (∀ a ∈ l, ∀ r, f (w a ++ r) = some (g a, r)) →
      readN f l.length (l.flatMap w ++ rest) = some (l.map g, rest)
  | [], rest, _ => rfl
  | a :: l, rest, h => by
    have h1 := h a List.mem_cons_self (l.flatMap w ++ rest)
    have h2 := readN_write f w g l rest fun b hb => h b (List.mem_cons_of_mem _ hb)
    simp only [List.length_cons, readN, List.flatMap_cons, List.append_assoc, h1, h2, List.map_cons]

end Wire
end Nebula
