import Verif.Part.Model
import Verif.Part.Spec
/-! # Properties of the partition of a vertex id (C35) -/
namespace Nebula

theorem shl8_and (x : BitVec 64) (b : BitVec 8) : x <<< 8 &&& b.setWidth 64 = 0#64 := by
  apply BitVec.eq_of_getLsbD_eq
  intro i hi
  simp
  intros
  exact BitVec.getLsbD_of_ge _ _ (by omega)

theorem shl8_add (x : UInt64) (b : UInt8) : x <<< 8 + b.toUInt64 = x <<< 8 ||| b.toUInt64 := by
  apply UInt64.toBitVec_inj.1
  have : (x <<< 8 + b.toUInt64).toBitVec = x.toBitVec <<< 8 + b.toBitVec.setWidth 64 := rfl
  rw [this]
  have : (x <<< 8 ||| b.toUInt64).toBitVec = x.toBitVec <<< 8 ||| b.toBitVec.setWidth 64 := rfl
  rw [this]
  exact BitVec.add_eq_or_of_and_eq_zero _ _ (shl8_and _ _)

theorem shl8_xor (x : UInt64) (b : UInt8) : x <<< 8 + b.toUInt64 = x <<< 8 ^^^ b.toUInt64 := by
  rw [shl8_add]
  apply UInt64.toBitVec_inj.1
  have : (x <<< 8 ||| b.toUInt64).toBitVec = x.toBitVec <<< 8 ||| b.toBitVec.setWidth 64 := rfl
  rw [this]
  have : (x <<< 8 ^^^ b.toUInt64).toBitVec = x.toBitVec <<< 8 ^^^ b.toBitVec.setWidth 64 := rfl
  rw [this]
  apply BitVec.eq_of_getLsbD_eq
  intro i hi
  have := congrArg (fun v : BitVec 64 => v.getLsbD i) (shl8_and x.toBitVec b.toBitVec)
  simp at this
  simp
  grind

theorem shl_xor (x y : UInt64) : (x ^^^ y) <<< 8 = x <<< 8 ^^^ y <<< 8 := by
  apply UInt64.toBitVec_inj.1
  show (x.toBitVec ^^^ y.toBitVec) <<< 8 = x.toBitVec <<< 8 ^^^ y.toBitVec <<< 8
  exact BitVec.shiftLeft_xor_distrib _ _ _

theorem shl_shl (x : UInt64) (n : Nat) (h : n < 7) : (x <<< (8 * n).toUInt64) <<< 8 = x <<< (8 * (n + 1)).toUInt64 := by
  have : n = 0 ∨ n = 1 ∨ n = 2 ∨ n = 3 ∨ n = 4 ∨ n = 5 ∨ n = 6 := by omega
  apply UInt64.toBitVec_inj.1
  rcases this with rfl | rfl | rfl | rfl | rfl | rfl | rfl
  · show (x <<< 0 <<< 8).toBitVec = (x <<< 8).toBitVec
    rw [UInt64.shiftLeft_zero]
  · exact (BitVec.shiftLeft_add x.toBitVec 8 8).symm
  · exact (BitVec.shiftLeft_add x.toBitVec 16 8).symm
  · exact (BitVec.shiftLeft_add x.toBitVec 24 8).symm
  · exact (BitVec.shiftLeft_add x.toBitVec 32 8).symm
  · exact (BitVec.shiftLeft_add x.toBitVec 40 8).symm
  · exact (BitVec.shiftLeft_add x.toBitVec 48 8).symm

theorem loadBytes_snoc (l : Bytes) (b : UInt8) (h : l.length < 8) :
    StdHash.loadBytes (l ++ [b]) = StdHash.loadBytes l ^^^ (b.toUInt64 <<< (8 * l.length).toUInt64) := by
  induction l with
  | nil =>
    simp only [List.nil_append, StdHash.loadBytes, List.length_nil]
    have e1 : (8 * 0).toUInt64 = 0 := rfl
    rw [e1]; simp
  | cons a l ih =>
    simp only [List.length_cons] at h
    simp only [List.cons_append, StdHash.loadBytes, List.length_cons, shl8_xor]
    rw [ih (by omega), shl_xor, shl_shl _ _ (by omega), UInt64.xor_assoc, UInt64.xor_assoc]
    congr 1
    rw [UInt64.xor_comm]

theorem murmurCases_eq (n : Nat) (h : UInt64) (d : Bytes) (hn : n ≤ 8) (hd : n ≤ d.length) :
    murmurCases n h d = h ^^^ StdHash.loadBytes (d.take n) := by
  induction n generalizing h with
  | zero => simp [murmurCases, StdHash.loadBytes]
  | succ n ih =>
    rw [murmurCases, ih _ (by omega) (by omega)]
    have e : d.take (n + 1) = d.take n ++ [d.getD n 0] := by
      rw [List.getD_eq_getElem?_getD, List.getElem?_eq_getElem (by omega), Option.getD_some]
      exact List.take_succ_eq_append_getElem (by omega)
    have hl : (d.take n).length = n := by simp; omega
    rw [e, loadBytes_snoc _ _ (by omega), hl, UInt64.xor_assoc]
    congr 1
    rw [UInt64.xor_comm]

theorem loadWord_eq (d : Bytes) : loadWord d = StdHash.loadBytes (d.take 8) := by
  unfold loadWord
  generalize d.take 8 = l
  induction l with
  | nil => rfl
  | cons a l ih => simp only [List.foldr_cons, StdHash.loadBytes, ih, shl8_add]

theorem mul_eq : StdHash.mul = murmurM := by decide

theorem go_short (h : UInt64) (d : Bytes) (hd : ¬ 8 ≤ d.length) :
    StdHash.go h d = if d = [] then h else (h ^^^ StdHash.loadBytes d) * StdHash.mul := by
  rw [StdHash.go, if_neg hd]

theorem go_long (h : UInt64) (d : Bytes) (hd : 8 ≤ d.length) :
    StdHash.go h d = StdHash.go ((h ^^^ StdHash.shiftMix (StdHash.loadBytes (d.take 8) * StdHash.mul) * StdHash.mul) * StdHash.mul) (d.drop 8) := by
  rw [StdHash.go, if_pos hd]

theorem murmurLoop_eq (n : Nat) (h : UInt64) (d : Bytes) (hn : n = d.length / 8) (p : UInt64 × Bytes) (hp : murmurLoop n h d = p) :
    (if d.length % 8 = 0 then p.1 else murmurCases (d.length % 8) p.1 p.2 * murmurM) = StdHash.go h d := by
  induction n generalizing h d with
  | zero =>
    rw [go_short _ _ (by omega)]
    have hm : d.length % 8 = d.length := by omega
    simp only [murmurLoop] at hp
    subst hp
    rw [hm]
    by_cases h0 : d = []
    · rw [if_pos h0, if_pos (by rw [h0]; rfl)]
    · have : d.length ≠ 0 := by simpa using h0
      rw [if_neg this, if_neg h0, murmurCases_eq _ _ _ (by omega) (Nat.le_refl _), List.take_length, mul_eq]
  | succ n ih =>
    rw [go_long _ _ (by omega)]
    have hm : (d.drop 8).length % 8 = d.length % 8 := by simp; omega
    have e : murmurRound h (loadWord d) = (h ^^^ StdHash.shiftMix (StdHash.loadBytes (d.take 8) * StdHash.mul) * StdHash.mul) * StdHash.mul := by
      rw [loadWord_eq]; rfl
    have := ih (murmurRound h (loadWord d)) (d.drop 8) (by simp; omega) hp
    rw [hm, e] at this
    exact this

/-- C35: the hash is libstdc++'s `std::hash` for every string, as its comment says. -/
theorem C35_murmur (s : Bytes) : murmur2 s = StdHash.hash s := by
  unfold murmur2 StdHash.hash
  have := murmurLoop_eq (s.length / 8) (0xc70f6907 ^^^ (s.length.toUInt64 * murmurM)) s rfl _ rfl
  simp only [this, mul_eq]
  rfl

/-- C35: with a positive number of partitions every id has a partition, between 1 and that number. -/
theorem C35_range {n : Int} (h0 : 0 < n) (h1 : n < 2 ^ 31) (id : Bytes) : ∃ p, partId n id = some p ∧ 1 ≤ p ∧ p ≤ n := by
  have hn : n % 2 ^ 64 = n := Int.emod_eq_of_lt (by omega) (by omega)
  have h2 := Int.emod_nonneg ((vidWord id).toNat : Int) (show n ≠ 0 by omega)
  have h3 := Int.emod_lt_of_pos ((vidWord id).toNat : Int) h0
  have hw : wrapI32 (((vidWord id).toNat : Int) % n + 1) = ((vidWord id).toNat : Int) % n + 1 := by
    unfold wrapI32; omega
  refine ⟨((vidWord id).toNat : Int) % n + 1, ?_, by omega, by omega⟩
  unfold partId
  simp only [hn, hw]
  rw [if_neg (by omega), if_pos (by omega)]

/-- C35: ids of eight bytes are numbers: the partition is the number modulo the count, plus one. -/
theorem C35_eight {n : Int} (h0 : 0 < n) (h1 : n < 2 ^ 31) (v : UInt64) (id : Bytes) (hl : id.length = 8) (hv : StdHash.loadBytes id = v) :
    partId n id = some ((v.toNat : Int) % n + 1) := by
  have hn : n % 2 ^ 64 = n := Int.emod_eq_of_lt (by omega) (by omega)
  have hw : vidWord id = v := by
    unfold vidWord; rw [if_pos hl, loadWord_eq, List.take_of_length_le (by omega), hv]
  have h2 := Int.emod_nonneg (v.toNat : Int) (show n ≠ 0 by omega)
  have h3 := Int.emod_lt_of_pos (v.toNat : Int) h0
  have hw' : wrapI32 ((v.toNat : Int) % n + 1) = (v.toNat : Int) % n + 1 := by unfold wrapI32; omega
  unfold partId
  simp only [hn, hw, hw']
  rw [if_neg (by omega), if_pos (by omega)]

/-- C35: other ids without NUL are spread by their hash. -/
theorem C35_hashed {n : Int} (h0 : 0 < n) (h1 : n < 2 ^ 31) (id : Bytes) (hl : id.length ≠ 8) (hz : 0 ∉ id) :
    partId n id = some (((StdHash.hash id).toNat : Int) % n + 1) := by
  have hn : n % 2 ^ 64 = n := Int.emod_eq_of_lt (by omega) (by omega)
  have hw : vidWord id = StdHash.hash id := by
    unfold vidWord; rw [if_neg hl, cstr_of_no_nul hz, C35_murmur]
  have h2 := Int.emod_nonneg ((StdHash.hash id).toNat : Int) (show n ≠ 0 by omega)
  have h3 := Int.emod_lt_of_pos ((StdHash.hash id).toNat : Int) h0
  have hw' : wrapI32 (((StdHash.hash id).toNat : Int) % n + 1) = ((StdHash.hash id).toNat : Int) % n + 1 := by unfold wrapI32; omega
  unfold partId
  simp only [hn, hw, hw']
  rw [if_neg (by omega), if_pos (by omega)]

/-- C35 violated: ids that agree up to a NUL are never told apart, whatever follows and however many partitions
there are. -/
theorem C35_nul_violated (n : Int) (a b c : Bytes) (ha : 0 ∉ a) (hb : (a ++ 0 :: b).length ≠ 8) (hc : (a ++ 0 :: c).length ≠ 8) :
    partId n (a ++ 0 :: b) = partId n (a ++ 0 :: c) := by
  have key : ∀ r : Bytes, cstr (a ++ 0 :: r) = a := by
    intro r
    unfold cstr
    rw [List.takeWhile_append_of_pos]
    · simp
    · intro x hx; simp; intro h; exact ha (h ▸ hx)
  unfold partId vidWord
  rw [if_neg hb, if_neg hc, key, key]

/-- C35 violated: no partitions is a division by zero. -/
theorem C35_zero_violated (id : Bytes) : partId 0 id = none := rfl

/-- C35 violated: `getValue` of the internal client takes the space id for the number of partitions: in space 1 every
key goes to partition 1, although its vertex is in another one. -/
theorem C35_getValue_violated : (∀ vIdLen key, getValuePart vIdLen 1 key = some 1) ∧
    ∃ vid : Bytes, vid.length = 8 ∧ getValuePart 8 1 ([1, 0, 0, 0] ++ vid) = some 1 ∧ partId 100 vid = some 8 := by
  constructor
  · intro vIdLen key
    obtain ⟨p, h1, h2, h3⟩ := C35_range (n := 1) (by omega) (by omega) ((key.drop 4).take vIdLen)
    have : p = 1 := by omega
    subst this
    exact h1
  · exact ⟨[7, 0, 0, 0, 0, 0, 0, 0], rfl, by decide +kernel, by decide +kernel⟩

/-- An eight-byte id and a hashed one. -/
example : partId 100 [7, 0, 0, 0, 0, 0, 0, 0] = some 8 ∧ (partId 100 (ascii "Tim Duncan")).isSome ∧ StdHash.loadBytes [1, 2] = 513 := by
  decide +kernel

end Nebula
