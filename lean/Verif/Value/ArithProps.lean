import Verif.Value.Arith
import Verif.Value.Dec
import Mathlib.Tactic.Positivity
import Mathlib.Tactic.Linarith
import Mathlib.Algebra.Order.Ring.Rat
/-!
# Properties C08, C09, C13, C14, C15, C16
-/
namespace Nebula
open Value

/-! ## C08: NULL and EMPTY propagate -/

/-- The five binary arithmetic operators. -/
inductive ArithOp | add | sub | mul | div | mod

/-- `a op b`; `fmt` is the text of a float. -/
def ArithOp.run (fmt : F64 → Bytes) : ArithOp → Value → Value → Option Value
  | .add => Value.add fmt
  | .sub => Value.sub
  | .mul => Value.mul
  | .div => Value.div
  | .mod => Value.mod

/-- C08: a NULL operand gives NULL, the left one winning; otherwise an EMPTY operand gives EMPTY. -/
theorem C08_propagation (fmt : F64 → Bytes) (op : ArithOp) (a b : Value) :
    (∀ n, a = .null n → op.run fmt a b = some (.null n)) ∧
    (∀ n, (∀ m, a ≠ .null m) → b = .null n → op.run fmt a b = some (.null n)) ∧
    ((∀ m, a ≠ .null m) → (∀ m, b ≠ .null m) → (a = .empty ∨ b = .empty) →
      op.run fmt a b = some .empty) := by
  refine ⟨?_, ?_, ?_⟩
  · rintro n rfl
    cases op <;> simp [ArithOp.run, Value.add, Value.sub, Value.mul, Value.div, Value.mod, propagate, isNull]
  · rintro n ha rfl
    cases a <;> first
      | (exact absurd rfl (ha _))
      | (cases op <;> simp [ArithOp.run, Value.add, Value.sub, Value.mul, Value.div, Value.mod, propagate,
          isNull, isEmpty])
  · rintro ha hb (rfl | rfl)
    · cases b <;> first
        | (exact absurd rfl (hb _))
        | (cases op <;> simp [ArithOp.run, Value.add, Value.sub, Value.mul, Value.div, Value.mod, propagate,
            isNull, isEmpty])
    · cases a <;> first
        | (exact absurd rfl (ha _))
        | (cases op <;> simp [ArithOp.run, Value.add, Value.sub, Value.mul, Value.div, Value.mod, propagate,
            isNull, isEmpty])

/-- C08: conversely, no operator invents EMPTY: an EMPTY result means an EMPTY operand. -/
theorem C08_empty_only_from_empty (fmt : F64 → Bytes) (op : ArithOp) (a b : Value)
    (h : op.run fmt a b = some .empty) : a = .empty ∨ b = .empty := by
  cases ha : a <;> cases hb : b <;> subst ha <;> subst hb <;> cases op <;>
    simp [ArithOp.run, Value.add, Value.sub, Value.mul, Value.div, Value.mod, propagate, isNull, isEmpty,
      fit, kNullOverflow, kNullDivByZero, kNullBadType] at h ⊢ <;>
    (repeat' split at h) <;> simp_all

/-- C08: unary minus and logical not return a NULL or EMPTY operand unchanged. -/
theorem C08_unary (v : Value) (h : (∃ n, v = .null n) ∨ v = .empty) : Value.neg v = v ∧ Value.not v = v := by
  rcases h with ⟨n, rfl⟩ | rfl <;> exact ⟨rfl, rfl⟩

example : Value.add (fun _ => []) (.list [.int 1]) (.null .nan) = some (.null .nan) := rfl
example : Value.mod .empty (.int 0) = some .empty := rfl

/-! ## C09: integers -/

/-- The answer for a mathematical result: itself if it is a 64-bit integer, else overflow. -/
def exactOrOverflow (x : Int) : Value :=
  if -9223372036854775808 ≤ x ∧ x ≤ 9223372036854775807 then .int x else .null .errOverflow

/-- C09: + - * and unary minus on 64-bit integers. -/
theorem C09_exact (fmt : F64 → Bytes) (x y : Int) (hx : InI64 x) (hy : InI64 y) :
    Value.add fmt (.int x) (.int y) = some (exactOrOverflow (x + y)) ∧
    Value.sub (.int x) (.int y) = some (exactOrOverflow (x - y)) ∧
    Value.mul (.int x) (.int y) = some (exactOrOverflow (x * y)) ∧
    Value.neg (.int x) = exactOrOverflow (-x) := by
  refine ⟨rfl, rfl, ?_, ?_⟩
  · show some _ = _
    congr 1
    split
    · rename_i h
      rcases h with ⟨h1, h2⟩ | ⟨h1, h2⟩ <;> subst h1 <;> subst h2 <;> decide +kernel
    · rfl
  · unfold InI64 at hx
    show (if x = -9223372036854775808 then kNullOverflow else .int (-x)) = exactOrOverflow (-x)
    unfold exactOrOverflow
    split
    · rename_i h; subst h; decide +kernel
    · rw [if_pos (by omega)]

/-- C09: division and remainder.  For a non-zero divisor the results `q`, `r` satisfy
`x = q * y + r` with `|r| < |y|` and `r` zero or of the sign of `x` (truncation towards zero), or
the quotient does not fit and is reported as overflow. -/
theorem C09_division (x y : Int) (hx : InI64 x) (hy : InI64 y) :
    (y = 0 → Value.div (.int x) (.int y) = some (.null .divByZero) ∧
             Value.mod (.int x) (.int y) = some (.null .divByZero)) ∧
    (y ≠ 0 → ¬ (x = -9223372036854775808 ∧ y = -1) →
      ∃ q r, Value.div (.int x) (.int y) = some (.int q) ∧ Value.mod (.int x) (.int y) = some (.int r) ∧
        InI64 q ∧ x = q * y + r ∧ r.natAbs < y.natAbs ∧ (r = 0 ∨ (r < 0 ↔ x < 0))) ∧
    (x = -9223372036854775808 ∧ y = -1 → Value.div (.int x) (.int y) = some (.null .errOverflow)) := by
  refine ⟨?_, ?_, ?_⟩
  · rintro rfl; exact ⟨rfl, rfl⟩
  · intro hy0 hmin
    refine ⟨x.tdiv y, x.tmod y, ?_, ?_, ?_, ?_, ?_, ?_⟩
    · show some _ = _
      rw [if_neg hy0, if_neg hmin]
    · show (if y ≠ 0 then _ else _) = _
      rw [if_pos hy0, if_neg hmin]
    · have h1 : (x.tdiv y).natAbs = x.natAbs / y.natAbs := Int.natAbs_tdiv x y
      have hyp : 0 < y.natAbs := by omega
      have h2 : x.natAbs / y.natAbs ≤ x.natAbs := Nat.div_le_self _ _
      unfold InI64 at *
      by_cases hxm : x = -9223372036854775808
      · have hy1 : y ≠ -1 := fun h => hmin ⟨hxm, h⟩
        by_cases hy1' : y = 1
        · subst hy1'; rw [Int.tdiv_one]; omega
        · have : 2 ≤ y.natAbs := by omega
          have h3 : x.natAbs / y.natAbs ≤ x.natAbs / 2 := Nat.div_le_div_left this (by decide)
          omega
      · omega
    · have := Int.mul_tdiv_add_tmod x y
      rw [Int.mul_comm]; exact this.symm
    · rw [Int.natAbs_tmod]; exact Nat.mod_lt _ (by omega)
    · by_cases hx0 : 0 ≤ x
      · right
        have := Int.tmod_nonneg y hx0
        omega
      · have h1 : 0 ≤ (-x).tmod y := Int.tmod_nonneg y (by omega)
        rw [Int.neg_tmod] at h1
        omega
  · rintro ⟨rfl, rfl⟩; decide +kernel

/-- C09 is violated by `%`: the smallest integer modulo -1 is undefined behaviour in the code. -/
theorem C09_mod_violated : Value.mod (.int (-9223372036854775808)) (.int (-1)) = none := by decide +kernel

/-- C09 (partial: everywhere else no operation on integers is undefined). -/
theorem C09_defined_partial (fmt : F64 → Bytes) (op : ArithOp) (x y : Int)
    (h : ¬ (x = -9223372036854775808 ∧ y = -1)) : (op.run fmt (.int x) (.int y)).isSome := by
  cases op
  · rfl
  · rfl
  · rfl
  · rfl
  · show (if y ≠ 0 then _ else _ : Option Value).isSome = true
    split
    · rfl
    · rfl

example : Value.add (fun _ => []) (.int 9223372036854775807) (.int 1) = some (.null .errOverflow) := by decide +kernel
example : Value.div (.int (-7)) (.int 2) = some (.int (-3)) ∧ Value.mod (.int (-7)) (.int 2) = some (.int (-1)) := by
  decide +kernel

/-! ## C13: AND, OR, NOT -/

/-- Values on which the logical operators are defined. -/
def Logical (v : Value) : Prop := (∃ b, v = .bool b) ∨ (∃ n, v = .null n) ∨ v = .empty

/-- C13 is violated: `false && NULL` is NULL and `true || NULL` is NULL, although in three-valued
logic false dominates AND and true dominates OR. -/
theorem C13_dominance_violated :
    Value.and (.bool false) (.null .null) = .null .null ∧ Value.or (.bool true) (.null .null) = .null .null ∧
    Value.and (.bool false) .empty = .empty := by decide +kernel

/-- C13 (partial): exact behaviour.  Booleans follow the truth tables; the first NULL wins over
everything, then EMPTY; anything else is the bad-type NULL. -/
theorem C13_tables_partial (a b : Value) :
    (∀ x y, a = .bool x → b = .bool y → Value.and a b = .bool (x && y) ∧ Value.or a b = .bool (x || y)) ∧
    (∀ n, a = .null n → Value.and a b = .null n ∧ Value.or a b = .null n) ∧
    (∀ n, (∀ m, a ≠ .null m) → b = .null n → Value.and a b = .null n ∧ Value.or a b = .null n) ∧
    ((∀ m, a ≠ .null m) → (∀ m, b ≠ .null m) → (a = .empty ∨ b = .empty) →
      Value.and a b = .empty ∧ Value.or a b = .empty) ∧
    ((∀ m, a ≠ .null m) → (∀ m, b ≠ .null m) → a ≠ .empty → b ≠ .empty →
      (∀ x y, ¬ (a = .bool x ∧ b = .bool y)) →
      Value.and a b = .null .badType ∧ Value.or a b = .null .badType) := by
  refine ⟨?_, ?_, ?_, ?_, ?_⟩
  · rintro x y rfl rfl; exact ⟨rfl, rfl⟩
  · rintro n rfl; exact ⟨rfl, rfl⟩
  · rintro n ha rfl
    cases a <;> first | exact absurd rfl (ha _) | exact ⟨rfl, rfl⟩
  · rintro ha hb (rfl | rfl)
    · cases b <;> first | exact absurd rfl (hb _) | exact ⟨rfl, rfl⟩
    · cases a <;> first | exact absurd rfl (ha _) | exact ⟨rfl, rfl⟩
  · intro ha hb ha' hb' h
    cases a <;> cases b <;> first
      | exact absurd rfl (ha _)
      | exact absurd rfl (hb _)
      | exact absurd rfl ha'
      | exact absurd rfl hb'
      | exact absurd ⟨rfl, rfl⟩ (h _ _)
      | exact ⟨rfl, rfl⟩

/-- C13: `!`. -/
theorem C13_not (v : Value) :
    (∀ x, v = .bool x → Value.not v = .bool (!x)) ∧ (∀ n, v = .null n → Value.not v = v) ∧
    (v = .empty → Value.not v = v) ∧ (¬ Logical v → Value.not v = .null .badType) := by
  refine ⟨?_, ?_, ?_, ?_⟩
  · rintro x rfl; rfl
  · rintro n rfl; rfl
  · rintro rfl; rfl
  · intro h
    cases v <;> first
      | rfl
      | exact absurd (Or.inl ⟨_, rfl⟩) h
      | exact absurd (Or.inr (Or.inl ⟨_, rfl⟩)) h
      | exact absurd (Or.inr (Or.inr rfl)) h

/-- Two results that differ at most in the kind of NULL. -/
def SameUpToNull (a b : Value) : Prop := a = b ∨ ((∃ n, a = .null n) ∧ ∃ n, b = .null n)

/-- C13: AND and OR are commutative up to the kind of NULL, for all values. -/
theorem C13_commutative (a b : Value) :
    SameUpToNull (Value.and a b) (Value.and b a) ∧ SameUpToNull (Value.or a b) (Value.or b a) := by
  constructor <;> cases a <;> cases b <;>
    simp [Value.and, Value.or, isNull, isEmpty, SameUpToNull, kNullBadType, Bool.and_comm, Bool.or_comm]

/-- C13: De Morgan's laws on all values the logical operators are defined on. -/
theorem C13_de_morgan (a b : Value) (ha : Logical a) (hb : Logical b) :
    Value.not (Value.and a b) = Value.or (Value.not a) (Value.not b) ∧
    Value.not (Value.or a b) = Value.and (Value.not a) (Value.not b) := by
  rcases ha with ⟨x, rfl⟩ | ⟨n, rfl⟩ | rfl <;> rcases hb with ⟨y, rfl⟩ | ⟨m, rfl⟩ | rfl <;>
    simp [Value.and, Value.or, Value.not, isNull, isEmpty]

example : Logical (.null .nan) ∧ Logical (.bool true) ∧ ¬ Logical (.int 1) := by
  simp [Logical]

/-! ## C14: concatenation -/

/-- C14: `+` on strings is concatenation and associative. -/
theorem C14_strings (fmt : F64 → Bytes) (s t u : Bytes) :
    Value.add fmt (.str s) (.str t) = some (.str (s ++ t)) ∧
    ((Value.add fmt (.str s) (.str t)).bind fun r => Value.add fmt r (.str u)) =
      ((Value.add fmt (.str t) (.str u)).bind fun r => Value.add fmt (.str s) r) := by
  refine ⟨rfl, ?_⟩
  show some (Value.str (s ++ t ++ u)) = some (.str (s ++ (t ++ u)))
  rw [List.append_assoc]

/-- C14: `+` on lists is concatenation and associative. -/
theorem C14_lists (fmt : F64 → Bytes) (s t u : List Value) :
    Value.add fmt (.list s) (.list t) = some (.list (s ++ t)) ∧
    ((Value.add fmt (.list s) (.list t)).bind fun r => Value.add fmt r (.list u)) =
      ((Value.add fmt (.list t) (.list u)).bind fun r => Value.add fmt (.list s) r) := by
  refine ⟨rfl, ?_⟩
  show some (Value.list (s ++ t ++ u)) = some (.list (s ++ (t ++ u)))
  rw [List.append_assoc]

/-- Values that `+` adds to a list as an element. -/
def Element (v : Value) : Prop :=
  (∀ n, v ≠ .null n) ∧ v ≠ .empty ∧ (∀ l, v ≠ .list l) ∧ (∀ c r, v ≠ .dataset c r)

/-- C14: list + element appends, element + list prepends, for every type of element. -/
theorem C14_elements (fmt : F64 → Bytes) (l : List Value) (v : Value) (h : Element v) :
    Value.add fmt (.list l) v = some (.list (l ++ [v])) ∧
    Value.add fmt v (.list l) = some (.list (v :: l)) := by
  obtain ⟨h1, h2, h3, h4⟩ := h
  cases v <;> first
    | exact absurd rfl (h1 _)
    | exact absurd rfl h2
    | exact absurd rfl (h3 _)
    | exact absurd rfl (h4 _ _)
    | exact ⟨rfl, rfl⟩

/-- C14 is violated for a string with an embedded NUL next to a boolean or integer: the rest of the
string is lost. -/
theorem C14_nul_violated (fmt : F64 → Bytes) :
    Value.add fmt (.str [97, 0, 98]) (.int 1) = some (.str [97, 49]) ∧
    Value.add fmt (.bool true) (.str [97, 0, 98]) = some (.str (ascii "true" ++ [97])) := by
  constructor <;> rfl

/-- C14 (partial: strings without NUL): a string next to a boolean, integer, float, date, time or
datetime is concatenated with the text of the other operand. -/
theorem C14_text_partial (fmt : F64 → Bytes) (s : Bytes) (h : (0 : UInt8) ∉ s) :
    (∀ b : Bool, Value.add fmt (.str s) (.bool b) = some (.str (s ++ ascii (if b then "true" else "false"))) ∧
      Value.add fmt (.bool b) (.str s) = some (.str (ascii (if b then "true" else "false") ++ s))) ∧
    (∀ i, Value.add fmt (.str s) (.int i) = some (.str (s ++ intDec i)) ∧
      Value.add fmt (.int i) (.str s) = some (.str (intDec i ++ s))) ∧
    (∀ f, Value.add fmt (.str s) (.float f) = some (.str (s ++ fmt f)) ∧
      Value.add fmt (.float f) (.str s) = some (.str (fmt f ++ s))) ∧
    (∀ d, Value.add fmt (.str s) (.date d) = some (.str (s ++ d.toText)) ∧
      Value.add fmt (.date d) (.str s) = some (.str (d.toText ++ s))) ∧
    (∀ d, Value.add fmt (.str s) (.time d) = some (.str (s ++ d.toText)) ∧
      Value.add fmt (.time d) (.str s) = some (.str (d.toText ++ s))) ∧
    (∀ d, Value.add fmt (.str s) (.datetime d) = some (.str (s ++ d.toText)) ∧
      Value.add fmt (.datetime d) (.str s) = some (.str (d.toText ++ s))) := by
  refine ⟨fun b => ?_, fun i => ?_, fun f => ⟨rfl, rfl⟩, fun d => ⟨rfl, rfl⟩, fun d => ⟨rfl, rfl⟩,
    fun d => ⟨rfl, rfl⟩⟩
  · constructor
    · show some (Value.str (cstr s ++ _)) = _
      rw [cstr_of_no_nul h]; rfl
    · show some (Value.str (_ ++ cstr s)) = _
      rw [cstr_of_no_nul h]; rfl
  · constructor
    · show some (Value.str (cstr s ++ _)) = _
      rw [cstr_of_no_nul h]
    · show some (Value.str (_ ++ cstr s)) = _
      rw [cstr_of_no_nul h]

example : Element (.edge ⟨.int 1, .int 2, 1, [], 0, []⟩) := by simp [Element]
example : (0 : UInt8) ∉ ascii "abc" := by decide +kernel

/-! ## C15: bitwise operators -/

/-- Bit `k` of the 64-bit two's complement representation of `x`. -/
def bit (x : Int) (k : Nat) : Bool := decide ((x / 2 ^ k) % 2 = 1)

theorem bit_toInt (v : BitVec 64) (k : Nat) (hk : k < 64) : bit v.toInt k = v.getLsbD k := by
  unfold bit
  rw [BitVec.toInt_eq_toNat_cond]
  have key : ∀ n : Nat, decide (((n : Int) / 2 ^ k) % 2 = 1) = n.testBit k := by
    intro n
    rw [Nat.testBit_eq_decide_div_mod_eq]
    have : ((n : Int) / 2 ^ k) % 2 = ((n / 2 ^ k % 2 : Nat) : Int) := by
      push_cast; rfl
    rw [this]
    congr 1
    simp only [eq_iff_iff]; omega
  split
  · rw [key]; rfl
  · have h2 : ((v.toNat : Int) - (2 ^ 64 : Nat)) / 2 ^ k = (v.toNat : Int) / 2 ^ k - 2 ^ (64 - k) := by
      have : ((2 ^ 64 : Nat) : Int) = 2 ^ k * 2 ^ (64 - k) := by
        rw [← Int.pow_add]; norm_cast; congr 1; omega
      rw [this, Int.sub_mul_ediv_left _ _ (by positivity)]
    have h3 : (2 : Int) ^ (64 - k) % 2 = 0 := by
      have : 64 - k = (63 - k) + 1 := by omega
      rw [this, Int.pow_succ]; omega
    rw [h2]
    have h4 : (((v.toNat : Int) / 2 ^ k - 2 ^ (64 - k)) % 2) = ((v.toNat : Int) / 2 ^ k) % 2 := by omega
    rw [h4, key]; rfl

theorem bit_ofInt (x : Int) (hx : InI64 x) (k : Nat) (hk : k < 64) :
    (BitVec.ofInt 64 x).getLsbD k = bit x k := by
  rw [← bit_toInt _ _ hk, BitVec.toInt_ofInt_eq_self (by decide)]
  · unfold InI64 at hx; simp; omega
  · unfold InI64 at hx; simp; omega

/-- C15: on integers each result bit is the operation on the operand bits (and the result is a
64-bit integer, hence determined by these bits). -/
theorem C15_bitwise (x y : Int) (hx : InI64 x) (hy : InI64 y) :
    (∃ z, Value.bitAnd (.int x) (.int y) = .int z ∧ InI64 z ∧ ∀ k < 64, bit z k = (bit x k && bit y k)) ∧
    (∃ z, Value.bitOr (.int x) (.int y) = .int z ∧ InI64 z ∧ ∀ k < 64, bit z k = (bit x k || bit y k)) ∧
    (∃ z, Value.bitXor (.int x) (.int y) = .int z ∧ InI64 z ∧ ∀ k < 64, bit z k = (bit x k != bit y k)) := by
  have hr : ∀ v : BitVec 64, InI64 v.toInt := by
    intro v
    have h1 := BitVec.le_toInt v
    have h2 := BitVec.toInt_lt (x := v)
    simp at h1 h2
    exact ⟨by omega, by omega⟩
  refine ⟨⟨_, rfl, hr _, ?_⟩, ⟨_, rfl, hr _, ?_⟩, ⟨_, rfl, hr _, ?_⟩⟩ <;> intro k hk <;>
    unfold bits <;> rw [bit_toInt _ _ hk] <;> simp [bit_ofInt x hx k hk, bit_ofInt y hy k hk]

/-- Two 64-bit integers with the same 64 bits are equal, so `C15_bitwise` determines the result. -/
theorem C15_bits_determine (x y : Int) (hx : InI64 x) (hy : InI64 y) (h : ∀ k < 64, bit x k = bit y k) :
    x = y := by
  have : BitVec.ofInt 64 x = BitVec.ofInt 64 y := by
    apply BitVec.eq_of_getLsbD_eq
    intro k hk
    rw [bit_ofInt x hx k hk, bit_ofInt y hy k hk, h k hk]
  have h2 := congrArg BitVec.toInt this
  unfold InI64 at hx hy
  rwa [BitVec.toInt_ofInt_eq_self (by decide) (by simp; omega) (by simp; omega),
    BitVec.toInt_ofInt_eq_self (by decide) (by simp; omega) (by simp; omega)] at h2

/-- C15: operands of other types. -/
theorem C15_types (f : BitVec 64 → BitVec 64 → BitVec 64) (a b : Value) :
    (∀ n, a = .null n → bitOp f a b = .null n) ∧
    (∀ n, (∀ m, a ≠ .null m) → b = .null n → bitOp f a b = .null n) ∧
    ((∀ m, a ≠ .null m) → (∀ m, b ≠ .null m) → (a = .empty ∨ b = .empty) → bitOp f a b = .empty) ∧
    ((∀ m, a ≠ .null m) → (∀ m, b ≠ .null m) → a ≠ .empty → b ≠ .empty →
      (∀ x y, ¬ (a = .int x ∧ b = .int y)) → bitOp f a b = .null .badType) := by
  refine ⟨?_, ?_, ?_, ?_⟩
  · rintro n rfl; rfl
  · rintro n ha rfl
    cases a <;> first | exact absurd rfl (ha _) | rfl
  · rintro ha hb (rfl | rfl)
    · cases b <;> first | exact absurd rfl (hb _) | rfl
    · cases a <;> first | exact absurd rfl (ha _) | rfl
  · intro ha hb ha' hb' h
    cases a <;> cases b <;> first
      | exact absurd rfl (ha _)
      | exact absurd rfl (hb _)
      | exact absurd rfl ha'
      | exact absurd rfl hb'
      | exact absurd ⟨rfl, rfl⟩ (h _ _)
      | rfl

example : Value.bitAnd (.int (-2)) (.int 7) = .int 6 ∧ Value.bitXor (.int (-1)) (.int 5) = .int (-6) := by
  decide +kernel

/-! ## C16: conversions -/

/-- C16: float to integer truncates towards zero and saturates at the limits of int64; only
not-a-number has no result (it is undefined behaviour in the code). -/
theorem C16_float_to_int (strtod : StrToD) (q : Rat) :
    ∃ i, Value.toInt strtod (.float (.fin q)) = some (.int i) ∧
      (q ≤ -9223372036854775808 → i = -9223372036854775808) ∧
      (9223372036854775808 ≤ q → i = 9223372036854775807) ∧
      (-9223372036854775808 < q → q < 9223372036854775808 →
        (0 ≤ q → (i : Rat) ≤ q ∧ q < i + 1) ∧ (q ≤ 0 → q ≤ i ∧ (i : Rat) - 1 < q)) := by
  have e1 : F64.ofInt (-9223372036854775808) = .fin (-9223372036854775808) := by decide +kernel
  have e2 : F64.ofInt 9223372036854775807 = .fin 9223372036854775808 := by decide +kernel
  have ht : ∀ q : Rat, (0 ≤ q → ((F64.trunc q : Int) : Rat) ≤ q ∧ q < F64.trunc q + 1) ∧
      (q ≤ 0 → q ≤ F64.trunc q ∧ ((F64.trunc q : Int) : Rat) - 1 < q) := by
    intro q
    unfold F64.trunc
    have a1 := Rat.floor_le q
    have a2 := Rat.lt_floor_add_one q
    have b1 := Rat.floor_le (-q)
    have b2 := Rat.lt_floor_add_one (-q)
    push_cast at a2 b2
    constructor
    · intro h; rw [if_pos h]; exact ⟨a1, a2⟩
    · intro h
      by_cases h0 : 0 ≤ q
      · rw [if_pos h0]
        have : q = 0 := le_antisymm h h0
        subst this
        decide +kernel
      · rw [if_neg h0]
        push_cast
        constructor <;> linarith
  simp only [Value.toInt, e1, e2, F64.le]
  by_cases h1 : q ≤ -9223372036854775808
  · refine ⟨-9223372036854775808, by simp [h1], fun _ => rfl, fun h => ?_, fun h => ?_⟩
    · linarith
    · linarith
  · by_cases h2 : (9223372036854775808 : Rat) ≤ q
    · refine ⟨9223372036854775807, by simp [h1, h2], fun h => absurd h h1, fun h => rfl, fun _ h => ?_⟩
      linarith
    · refine ⟨F64.trunc q, ?_, fun h => absurd h h1, fun h => absurd h h2, fun _ _ => ht q⟩
      have hin : InI64 (F64.trunc q) := by
        have hq := ht q
        push Not at h1 h2
        unfold InI64
        rcases le_total 0 q with h | h
        · obtain ⟨c1, c2⟩ := hq.1 h
          have d1 : ((F64.trunc q : Int) : Rat) < ((9223372036854775808 : Int) : Rat) := by push_cast; linarith
          have d2 : (((-1) : Int) : Rat) < ((F64.trunc q : Int) : Rat) := by push_cast; linarith
          have d1 := Rat.intCast_lt_intCast.mp d1
          have d2 := Rat.intCast_lt_intCast.mp d2
          omega
        · obtain ⟨c1, c2⟩ := hq.2 h
          have d1 : ((F64.trunc q : Int) : Rat) < ((1 : Int) : Rat) := by push_cast; linarith
          have d2 : (((-9223372036854775809) : Int) : Rat) < ((F64.trunc q : Int) : Rat) := by push_cast; linarith
          have d1 := Rat.intCast_lt_intCast.mp d1
          have d2 := Rat.intCast_lt_intCast.mp d2
          omega
      simp [h1, h2, castI64, hin]

/-- C16: the infinities saturate; not-a-number is undefined behaviour. -/
theorem C16_float_special (strtod : StrToD) :
    Value.toInt strtod (.float (.inf true)) = some (.int (-9223372036854775808)) ∧
    Value.toInt strtod (.float (.inf false)) = some (.int 9223372036854775807) ∧
    Value.toInt strtod (.float .nan) = none := by
  have e1 : F64.ofInt (-9223372036854775808) = .fin (-9223372036854775808) := by decide +kernel
  have e2 : F64.ofInt 9223372036854775807 = .fin 9223372036854775808 := by decide +kernel
  simp only [Value.toInt, e1, e2]
  exact ⟨rfl, rfl, rfl⟩

/-- C16: NULL and EMPTY convert to NULL; values already of the target type are returned unchanged;
integers convert to the nearest double; types without a conversion give the bad-type NULL. -/
theorem C16_other (strtod : StrToD) :
    (∀ v, (∃ n, v = .null n) ∨ v = .empty →
      Value.toBool v = .null .null ∧ Value.toFloat strtod v = .null .null ∧
      Value.toInt strtod v = some (.null .null)) ∧
    (∀ b, Value.toBool (.bool b) = .bool b) ∧ (∀ i, Value.toInt strtod (.int i) = some (.int i)) ∧
    (∀ f, Value.toFloat strtod (.float f) = .float f) ∧
    (∀ i, Value.toFloat strtod (.int i) = .float (F64.ofInt i)) ∧
    (∀ v, (∀ b, v ≠ .bool b) → (∀ s, v ≠ .str s) → (∀ n, v ≠ .null n) → v ≠ .empty →
      Value.toBool v = .null .badType) ∧
    (∀ v, (∀ b, v ≠ .int b) → (∀ b, v ≠ .float b) → (∀ s, v ≠ .str s) → (∀ n, v ≠ .null n) → v ≠ .empty →
      Value.toFloat strtod v = .null .badType ∧ Value.toInt strtod v = some (.null .badType)) := by
  refine ⟨?_, fun _ => rfl, fun _ => rfl, fun _ => rfl, fun _ => rfl, ?_, ?_⟩
  · rintro v (⟨n, rfl⟩ | rfl) <;> exact ⟨rfl, rfl, rfl⟩
  · intro v h1 h2 h3 h4
    cases v <;> first
      | rfl
      | exact absurd rfl (h1 _)
      | exact absurd rfl (h2 _)
      | exact absurd rfl (h3 _)
      | exact absurd rfl h4
  · intro v h1 h2 h3 h4 h5
    cases v <;> first
      | exact ⟨rfl, rfl⟩
      | exact absurd rfl (h1 _)
      | exact absurd rfl (h2 _)
      | exact absurd rfl (h3 _)
      | exact absurd rfl (h4 _)
      | exact absurd rfl h5

/-- C16: the decimal text of an integer converts back to that integer, for every 64-bit integer. -/
theorem C16_text_roundtrip (strtod : StrToD) (i : Int) (h : InI64 i) :
    Value.toInt strtod (.str (intDec i)) = some (.int i) := by
  have hmem : ∀ c ∈ intDec i, c ≠ 46 ∧ c ≠ 0 := by
    intro c hc
    unfold intDec at hc
    have hd : ∀ c ∈ natDec i.natAbs, c ≠ 46 ∧ c ≠ 0 := by
      intro c hc
      have := natDec_digits _ c hc
      rw [isDigit_iff] at this
      constructor <;> (rintro rfl; simp at this)
    split at hc
    · rcases List.mem_cons.mp hc with rfl | hc
      · decide
      · exact hd c hc
    · exact hd c hc
  have h1 : (intDec i).all (· ≠ 46) = true := by
    rw [List.all_eq_true]; intro c hc; simpa using (hmem c hc).1
  have h2 : cstr (intDec i) = intDec i := cstr_of_no_nul (fun h0 => (hmem 0 h0).2 rfl)
  simp only [Value.toInt, h1, h2, strtoll_intDec h]
  simp

/-- C16: a text without a decimal point that converts to an integer is empty (giving 0), or consists
of white space, an optional sign and digits, and the integer is what it says; anything else gives
NULL. -/
theorem C16_text_sound (strtod : StrToD) (s : Bytes) (hdot : ∀ c ∈ s, c ≠ 46) (hnul : ∀ c ∈ s, c ≠ 0) :
    (∀ i, Value.toInt strtod (.str s) = some (.int i) →
      (s = [] ∧ i = 0) ∨
      ∃ ws sg ds, s = ws ++ sg ++ ds ∧ (∀ c ∈ ws, isSpace c = true) ∧ (sg = [] ∨ sg = [43] ∨ sg = [45]) ∧
        ds ≠ [] ∧ (∀ c ∈ ds, isDigit c = true) ∧
        i = if sg = [45] then -(digitsVal 0 ds : Int) else (digitsVal 0 ds : Int)) ∧
    ((∀ i, Value.toInt strtod (.str s) ≠ some (.int i)) →
      Value.toInt strtod (.str s) = some (.null .null) ∨ Value.toInt strtod (.str s) = some (.null .errOverflow)) := by
  have hall : s.all (· ≠ 46) = true := by
    rw [List.all_eq_true]; intro c hc; simpa using hdot c hc
  have hc : cstr s = s := cstr_of_no_nul fun h => hnul 0 h rfl
  have e : Value.toInt strtod (.str s) = some (
      if (strtoll s).rest ≠ [] then kNull
      else if ((strtoll s).val = 9223372036854775807 ∨ (strtoll s).val = -9223372036854775808) ∧ (strtoll s).erange
        then kNullOverflow else .int (strtoll s).val) := by
    simp only [Value.toInt, hall, if_true, hc, Option.map_some]
  rw [e]
  constructor
  · intro i hi
    by_cases hr : (strtoll s).rest = []
    · by_cases ho : ((strtoll s).val = 9223372036854775807 ∨ (strtoll s).val = -9223372036854775808) ∧ (strtoll s).erange
      · simp [hr, ho, kNullOverflow] at hi
      · simp only [hr, ne_eq, not_true, if_false, ho, Option.some.injEq, Value.int.injEq] at hi
        rcases strtoll_consumes s hr with ⟨rfl, he⟩ | ⟨ws, sg, ds, h1, h2, h3, h4, h5, h6⟩
        · rw [he] at hi; exact .inl ⟨rfl, hi.symm⟩
        · refine .inr ⟨ws, sg, ds, h1, h2, h3, h4, h5, ?_⟩
          rw [← hi]
          apply h6
          cases he : (strtoll s).erange with
          | false => rfl
          | true =>
            exfalso
            apply ho
            refine ⟨?_, he⟩
            rcases strtoll_erange s he with h | h <;> simp [h]
    · simp [hr, kNull] at hi
  · intro hno
    by_cases hr : (strtoll s).rest = []
    · by_cases ho : ((strtoll s).val = 9223372036854775807 ∨ (strtoll s).val = -9223372036854775808) ∧ (strtoll s).erange
      · right; simp [hr, ho, kNullOverflow]
      · exfalso; apply hno (strtoll s).val; simp [hr]; intro h1 h2; exact absurd ⟨h1, h2⟩ ho
    · left; simp [hr, kNull]

example : Value.toInt (fun _ => (.nan, [], false)) (.str (ascii "12x")) = some (.null .null) := by decide +kernel

/-- C16: a digit string beyond the range is reported as overflow, not wrapped. -/
theorem C16_text_overflow (strtod : StrToD) (n : Nat) (h : 9223372036854775807 < n) :
    Value.toInt strtod (.str (natDec n)) = some (.null .errOverflow) ∧
    Value.toInt strtod (.str (45 :: natDec (n + 1))) = some (.null .errOverflow) := by
  have main : ∀ m : Nat, (natDec m).all (· ≠ 46) = true ∧ cstr (natDec m) = natDec m := by
    intro m
    have hmem : ∀ c ∈ natDec m, c ≠ 46 ∧ c ≠ 0 := by
      intro c hc
      have := natDec_digits _ c hc
      rw [isDigit_iff] at this
      constructor <;> (rintro rfl; simp at this)
    exact ⟨by rw [List.all_eq_true]; intro c hc; simpa using (hmem c hc).1,
      cstr_of_no_nul (fun h0 => (hmem 0 h0).2 rfl)⟩
  constructor
  · have hs := strtoll_over h
    simp only [Value.toInt, (main n).1, (main n).2, hs]
    simp [kNullOverflow]
  · have ht := takeWhile_all _ (natDec_digits (n + 1))
    have hd := dropWhile_all _ (natDec_digits (n + 1))
    have hv := digitsVal_natDec (n + 1)
    have hs : strtoll (45 :: natDec (n + 1)) = ⟨-9223372036854775808, [], true⟩ := by
      rw [strtoll_of (t := 45 :: natDec (n + 1)) (neg := true) (u := natDec (n + 1))
        (by rw [List.dropWhile_cons, if_neg (by decide)]) rfl]
      simp only [strtollDigits, ht, hd, hv, if_neg (natDec_ne_nil _), if_true]
      rw [if_pos (by omega)]
    have ha : (45 :: natDec (n + 1)).all (· ≠ 46) = true := by
      rw [List.all_cons, (main (n + 1)).1]; rfl
    have hcs : cstr (45 :: natDec (n + 1)) = 45 :: natDec (n + 1) := by
      have := (main (n + 1)).2
      unfold cstr at this ⊢
      rw [List.takeWhile_cons, if_pos (by decide), this]
    simp only [Value.toInt, ha, hcs, hs]
    simp [kNullOverflow]

example (strtod : StrToD) : Value.toInt strtod (.float (.fin (-7 / 2))) = some (.int (-3)) := by
  have e1 : F64.ofInt (-9223372036854775808) = .fin (-9223372036854775808) := by decide +kernel
  have e2 : F64.ofInt 9223372036854775807 = .fin 9223372036854775808 := by decide +kernel
  simp only [Value.toInt, e1, e2]
  have h1 : F64.le (.fin (-7/2)) (.fin (-9223372036854775808)) = false := by decide +kernel
  have h2 : F64.le (.fin 9223372036854775808) (.fin (-7/2)) = false := by decide +kernel
  have h3 : castI64 (.fin (-7/2)) = some (-3) := by decide +kernel
  rw [h1, h2, h3]; rfl
example : Value.toBool (.str (ascii "TrUe")) = .bool true := by decide +kernel
example (strtod : StrToD) : Value.toInt strtod (.str (ascii "12x")) = some (.null .null) := by
  have h : strtoll (cstr (ascii "12x")) = ⟨12, ascii "x", false⟩ := by decide +kernel
  have h2 : (ascii "12x").all (· ≠ 46) = true := by decide +kernel
  simp only [Value.toInt, h, h2, if_true]; rfl

end Nebula
