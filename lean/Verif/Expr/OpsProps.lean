import Verif.Expr.EvalSpec
import Verif.Value.EqProps
import Verif.Value.ArithProps
/-!
# C39 (IN), C40 (comparisons), C41 (string predicates), C42 (subscripts and ranges), C46 (casts)
-/
namespace Nebula
open EvalSpec Value

theorem eval_binary {env : Env} {p : List Nat} {l r : Expr} {s s' : EState} {a b : Value}
    (h : Evaluates env p 0 [l, r] s [a, b] s') (o : BinOp) :
    (Expr.binary o l r).eval env p s = Eval.binOp env o p a b s' := by
  cases h with
  | cons h1 t =>
    cases t with
    | cons h2 t =>
      cases t
      rw [show 0 + 1 = 1 from rfl] at h2
      simp only [Expr.eval, Eval.bind, h1, h2]

/-! ## C39 -/

theorem beq_null (n : NullType) (v : Value) : Value.beq v (.null n) = v.isNull := by
  cases v <;> simp [beq_eqn, isNull, typeFlag]

theorem map_contains (m : List (Bytes × Value)) (v : Value) :
    Ops.mapContains m v = (m.map fun kv => Value.str kv.1).any fun x => Value.beq x v := by
  cases v <;> simp only [Ops.mapContains, beq_eqn, List.any_map]
  case str k =>
    induction m with
    | nil => rfl
    | cons kv m ih =>
      obtain ⟨j, w⟩ := kv
      simp only [List.lookup_cons, List.any_cons]
      by_cases h : k = j
      · subst h; simp
      · have h1 : (k == j) = false := by simpa using h
        have h2 : (j == k) = false := by simpa using fun e => h e.symm
        simp only [h1]; rw [ih]; simp [h2]
  all_goals (symm; rw [List.any_eq_false]; intro x _; simp [typeFlag])

/-- The result of IN (`neg = false`) and NOT IN on any collection. -/
theorem isIn_elements {r : Value} {xs : List Value} (h : Elements r xs) (neg : Bool) (l : Value) :
    Ops.isIn neg l r = if l.isNull then NULL else
      Ops.member neg (xs.any fun x => Value.beq x l) (xs.any fun x => x.isNull) := by
  have hk : ∀ xs : List Value, (xs.any fun x => Value.beq x kNull) = xs.any fun x => x.isNull := by
    intro xs; congr 1; funext x; exact beq_null _ x
  have hb : ∀ f g, (Ops.member neg f g).isBadNull = false := by
    intro f g; cases neg <;> cases f <;> cases g <;> rfl
  cases h <;> simp only [Ops.isIn, Ops.listContains, hk, hb, map_contains] <;> simp [kNull]

/-- C39: `x IN c` for a list, set or map `c`: NULL if `x` is NULL; else true if an element equals `x`;
else NULL if an element is NULL; else false. -/
theorem C39_in {env : Env} {p : List Nat} {l r : Expr} {s s' : EState} {x c : Value} {xs : List Value}
    (h : Evaluates env p 0 [l, r] s [x, c] s') (hc : Elements c xs) :
    ((∃ n, x = .null n) → (Expr.binary .inn l r).eval env p s = some (NULL, s')) ∧
    ((∀ n, x ≠ .null n) → (∃ y ∈ xs, Value.beq y x = true) → (Expr.binary .inn l r).eval env p s = some (.bool true, s')) ∧
    ((∀ n, x ≠ .null n) → (∀ y ∈ xs, Value.beq y x = false) → (∃ n, .null n ∈ xs) →
      (Expr.binary .inn l r).eval env p s = some (NULL, s')) ∧
    ((∀ n, x ≠ .null n) → (∀ y ∈ xs, Value.beq y x = false) → (∀ n, .null n ∉ xs) →
      (Expr.binary .inn l r).eval env p s = some (.bool false, s')) := by
  rw [eval_binary h]
  simp only [Eval.binOp, Eval.pure, isIn_elements hc]
  have hn : (∀ n, x ≠ .null n) → x.isNull = false := by
    intro hx; cases x <;> first | rfl | exact absurd rfl (hx _)
  refine ⟨?_, ?_, ?_, ?_⟩
  · rintro ⟨n, rfl⟩; rfl
  · rintro hx ⟨y, hy, hyx⟩
    have : (xs.any fun z => Value.beq z x) = true := List.any_eq_true.2 ⟨y, hy, hyx⟩
    simp [hn hx, this, Ops.member]
  · rintro hx hy ⟨n, hm⟩
    have h1 : (xs.any fun z => Value.beq z x) = false := by simpa using hy
    have h2 : (xs.any fun z => z.isNull) = true := List.any_eq_true.2 ⟨_, hm, rfl⟩
    simp [hn hx, h1, h2, Ops.member, kNull]
  · intro hx hy hm
    have h1 : (xs.any fun z => Value.beq z x) = false := by simpa using hy
    have h2 : (xs.any fun z => z.isNull) = false := by
      rw [List.any_eq_false]; intro z hz
      cases z <;> first | exact absurd hz (hm _) | simp [isNull]
    simp [hn hx, h1, h2, Ops.member]

/-- C39: on operands that are no collection, IN is NULL for NULL and the type error otherwise. -/
theorem C39_other {env : Env} {p : List Nat} {l r : Expr} {s s' : EState} {x c : Value}
    (h : Evaluates env p 0 [l, r] s [x, c] s') (hc : ∀ xs, ¬ Elements c xs) :
    (c = NULL → (Expr.binary .inn l r).eval env p s = some (NULL, s')) ∧
    (c ≠ NULL → (Expr.binary .inn l r).eval env p s = some (BAD_TYPE, s')) := by
  rw [eval_binary h]
  simp only [Eval.binOp, Eval.pure]
  constructor
  · rintro rfl
    cases x <;> simp [Ops.isIn, kNull, isBadNull, isNull]
  · intro hne
    cases c with
    | list xs => exact absurd (.list xs) (hc xs)
    | set xs => exact absurd (.set xs) (hc xs)
    | map m => exact absurd (.map m) (hc _)
    | null n => cases n <;> first | exact absurd rfl hne | simp [Ops.isIn, kNullBadType, isBadNull]
    | _ => simp [Ops.isIn, kNullBadType, isBadNull]

/-- C39: NOT IN is the three-valued negation of IN, on every pair of operands. -/
theorem C39_not_in {env : Env} {p : List Nat} {l r : Expr} {s s' : EState} {x c : Value}
    (h : Evaluates env p 0 [l, r] s [x, c] s') :
    ∃ v w, (Expr.binary .inn l r).eval env p s = some (v, s') ∧
      (Expr.binary .notIn l r).eval env p s = some (w, s') ∧ Negation v w := by
  rw [eval_binary h, eval_binary h]
  refine ⟨_, _, rfl, rfl, ?_⟩
  by_cases hc : ∃ xs, Elements c xs
  · obtain ⟨xs, hc⟩ := hc
    rw [isIn_elements hc, isIn_elements hc]
    split
    · exact .null _
    · cases (xs.any fun y => Value.beq y x) <;> cases (xs.any fun y => y.isNull) <;>
        first | exact .null _ | exact .bool _
  · have hl : ∀ neg, Ops.isIn neg x c = Ops.isIn false x c := by
      intro neg
      cases c with
      | list xs => exact absurd ⟨xs, .list xs⟩ hc
      | set xs => exact absurd ⟨xs, .set xs⟩ hc
      | map m => exact absurd ⟨_, .map m⟩ hc
      | null n => cases n <;> rfl
      | _ => rfl
    rw [hl true]
    have hn : ∃ n, Ops.isIn false x c = .null n := by
      cases c with
      | list xs => exact absurd ⟨xs, .list xs⟩ hc
      | set xs => exact absurd ⟨xs, .set xs⟩ hc
      | map m => exact absurd ⟨_, .map m⟩ hc
      | null n => cases n <;> cases x <;> exact ⟨_, rfl⟩
      | _ => exact ⟨_, rfl⟩
    obtain ⟨n, e⟩ := hn
    rw [e]; exact .null n

/-! ## C40 -/

/-- C40: on comparable operands all six comparisons are booleans, determined by `<` and `=`. -/
theorem C40_combination {env : Env} {p : List Nat} {l r : Expr} {s s' : EState} {a b : Value}
    (h : Evaluates env p 0 [l, r] s [a, b] s') (hc : Comparable a b) :
    ∃ x y : Bool,
      (Expr.binary .lt l r).eval env p s = some (.bool x, s') ∧
      (Expr.binary .eq l r).eval env p s = some (.bool y, s') ∧
      (Expr.binary .ne l r).eval env p s = some (.bool (!y), s') ∧
      (Expr.binary .le l r).eval env p s = some (.bool (x || y), s') ∧
      (Expr.binary .gt l r).eval env p s = some (.bool (!x && !y), s') ∧
      (Expr.binary .ge l r).eval env p s = some (.bool (!x || y), s') ∧
      y = Value.beq a b := by
  obtain ⟨ha, hb, ea, eb, hk⟩ := hc
  have na : a.isNull = false := by cases a <;> first | rfl | exact absurd rfl (ha _)
  have nb : b.isNull = false := by cases b <;> first | rfl | exact absurd rfl (hb _)
  have ea' : a.isEmpty = false := by cases a <;> first | rfl | exact absurd rfl ea
  have eb' : b.isEmpty = false := by cases b <;> first | rfl | exact absurd rfl eb
  have hr : specRank a = specRank b := by
    cases a <;> cases b <;> simp [typeFlag, isNumeric] at hk <;> rfl
  obtain ⟨x, hx, _⟩ := (C12_lessThan a b).2.2.2 na nb ea' eb' hr
  have hy := (C12_equal a b).2 na nb
  refine ⟨x, Value.beq a b, ?_⟩
  simp only [eval_binary h, Eval.binOp, Eval.pure, Ops.eq, Ops.ne, Ops.lt, Ops.le, Ops.gt, Ops.ge, hx, hy]
  cases x <;> cases Value.beq a b <;> simp [Value.not, Value.or, Value.and, isNull, isEmpty]

/-- C40: operands of different types are unequal and their order is NULL. -/
theorem C40_types {env : Env} {p : List Nat} {l r : Expr} {s s' : EState} {a b : Value}
    (h : Evaluates env p 0 [l, r] s [a, b] s') (ha : ∀ n, a ≠ .null n) (hb : ∀ n, b ≠ .null n)
    (ea : a ≠ .empty) (eb : b ≠ .empty) (hc : ¬ Comparable a b) :
    (Expr.binary .eq l r).eval env p s = some (.bool false, s') ∧
    (Expr.binary .ne l r).eval env p s = some (.bool true, s') ∧
    ∀ o ∈ [BinOp.lt, .le, .gt, .ge], (Expr.binary o l r).eval env p s = some (NULL, s') := by
  have na : a.isNull = false := by cases a <;> first | rfl | exact absurd rfl (ha _)
  have nb : b.isNull = false := by cases b <;> first | rfl | exact absurd rfl (hb _)
  have ea' : a.isEmpty = false := by cases a <;> first | rfl | exact absurd rfl ea
  have eb' : b.isEmpty = false := by cases b <;> first | rfl | exact absurd rfl eb
  have hk : ¬ (a.typeFlag = b.typeFlag ∨ (a.isNumeric = true ∧ b.isNumeric = true)) := fun k => hc ⟨ha, hb, ea, eb, k⟩
  have hr : specRank a ≠ specRank b := by
    intro e
    cases a <;> cases b <;> first | exact hk (.inl rfl) | exact hk (.inr ⟨rfl, rfl⟩) | cases e
  have hx := (C12_lessThan a b).2.2.1 na nb ea' eb' hr
  have hy : equal a b = .bool false := by
    cases a <;> cases b <;> first | exact absurd (.inl rfl) hk | exact absurd (.inr ⟨rfl, rfl⟩) hk | exact absurd rfl (ha _) | exact absurd rfl (hb _) | exact absurd rfl ea | exact absurd rfl eb | rfl
  refine ⟨?_, ?_, ?_⟩
  · simp only [eval_binary h, Eval.binOp, Eval.pure, Ops.eq, hy]
  · simp only [eval_binary h, Eval.binOp, Eval.pure, Ops.ne, hy, Value.not, Bool.not_false]
  · intro o ho
    simp only [List.mem_cons, List.not_mem_nil, or_false] at ho
    rcases ho with rfl | rfl | rfl | rfl <;>
      simp [eval_binary h, Eval.binOp, Eval.pure, Ops.lt, Ops.le, Ops.gt, Ops.ge, hx, hy, Value.not, Value.or, Value.and, isNull]

/-- C40: a NULL operand makes all six comparisons NULL; otherwise an EMPTY operand makes the four
orderings EMPTY and equals only EMPTY. -/
theorem C40_null_empty {env : Env} {p : List Nat} {l r : Expr} {s s' : EState} {a b : Value}
    (h : Evaluates env p 0 [l, r] s [a, b] s') :
    (((∃ n, a = .null n) ∨ ∃ n, b = .null n) →
      ∀ o ∈ [BinOp.eq, .ne, .lt, .le, .gt, .ge], (Expr.binary o l r).eval env p s = some (NULL, s')) ∧
    ((∀ n, a ≠ .null n) → (∀ n, b ≠ .null n) → (a = .empty ∨ b = .empty) →
      (∀ o ∈ [BinOp.lt, .le, .gt, .ge], (Expr.binary o l r).eval env p s = some (.empty, s')) ∧
      (∃ y : Bool, (Expr.binary .eq l r).eval env p s = some (.bool y, s') ∧
        (Expr.binary .ne l r).eval env p s = some (.bool (!y), s') ∧ (y = true ↔ a = b))) := by
  constructor
  · intro hn
    have hn' : a.isNull = true ∨ b.isNull = true := by
      rcases hn with ⟨n, rfl⟩ | ⟨n, rfl⟩ <;> simp [isNull]
    have hx := (C12_lessThan a b).1 hn'
    have hy := (C12_equal a b).1 hn'
    intro o ho
    simp only [List.mem_cons, List.not_mem_nil, or_false] at ho
    rcases ho with rfl | rfl | rfl | rfl | rfl | rfl <;>
      simp [eval_binary h, Eval.binOp, Eval.pure, Ops.eq, Ops.ne, Ops.lt, Ops.le, Ops.gt, Ops.ge, hx, hy, Value.not, Value.or, Value.and, isNull]
  · intro ha hb he
    have na : a.isNull = false := by cases a <;> first | rfl | exact absurd rfl (ha _)
    have nb : b.isNull = false := by cases b <;> first | rfl | exact absurd rfl (hb _)
    have hx := (C12_lessThan a b).2.1 na nb (by rcases he with rfl | rfl <;> simp [isEmpty])
    have hy := (C12_equal a b).2 na nb
    constructor
    · intro o ho
      simp only [List.mem_cons, List.not_mem_nil, or_false] at ho
      rcases ho with rfl | rfl | rfl | rfl <;>
        simp [eval_binary h, Eval.binOp, Eval.pure, Ops.lt, Ops.le, Ops.gt, Ops.ge, hx, hy, Value.not, Value.or, Value.and, isNull, isEmpty]
    · refine ⟨Value.beq a b, ?_, ?_, ?_⟩
      · simp only [eval_binary h, Eval.binOp, Eval.pure, Ops.eq, hy]
      · simp only [eval_binary h, Eval.binOp, Eval.pure, Ops.ne, hy, Value.not]
      · rcases he with rfl | rfl
        · cases b <;> simp [beq_eqn, typeFlag]
        · cases a <;> simp [beq_eqn, typeFlag]

/-- C40: on integers the six comparisons are those of the integers. -/
theorem C40_int {env : Env} {p : List Nat} {l r : Expr} {s s' : EState} {x y : Int}
    (h : Evaluates env p 0 [l, r] s [.int x, .int y] s') :
    (Expr.binary .eq l r).eval env p s = some (.bool (x = y), s') ∧
    (Expr.binary .ne l r).eval env p s = some (.bool (x ≠ y), s') ∧
    (Expr.binary .lt l r).eval env p s = some (.bool (x < y), s') ∧
    (Expr.binary .le l r).eval env p s = some (.bool (x ≤ y), s') ∧
    (Expr.binary .gt l r).eval env p s = some (.bool (x > y), s') ∧
    (Expr.binary .ge l r).eval env p s = some (.bool (x ≥ y), s') := by
  have hx : lessThan (.int x) (.int y) = .bool (decide (x < y)) := by
    simp [lessThan, isNull, isEmpty, typeFlag, lt_eqn]
  have hy : equal (.int x) (.int y) = .bool (decide (x = y)) := by
    simp [equal, isNull, isEmpty, typeFlag, beq_eqn]
    by_cases e : x = y <;> simp [e]
  simp only [eval_binary h, Eval.binOp, Eval.pure, Ops.eq, Ops.ne, Ops.lt, Ops.le, Ops.gt, Ops.ge, hx, hy,
    Value.not, Value.or, Value.and, isNull, isEmpty, Bool.false_eq_true, if_false, Bool.or_self,
    Option.some.injEq, Prod.mk.injEq, Value.bool.injEq, and_true, true_and]
  refine ⟨?_, ?_, ?_, ?_⟩ <;>
    (by_cases h1 : x < y <;> by_cases h2 : x = y <;> simp [h1, h2] <;> omega)

/-- C40: exactly one of `<`, `=`, `>` is true (numbers, including floats; other comparable values
without floats and edges inside). -/
theorem C40_exactly_one_partial {env : Env} {p : List Nat} {l r : Expr} {s s' : EState} {a b : Value}
    (h : Evaluates env p 0 [l, r] s [a, b] s') (hc : Comparable a b)
    (hp : (isNumeric a = true ∧ isNumeric b = true) ∨ (NoFloatEdge a ∧ NoFloatEdge b ∧ Plain a ∧ Plain b)) :
    ∃ x y z : Bool, (Expr.binary .lt l r).eval env p s = some (.bool x, s') ∧
      (Expr.binary .eq l r).eval env p s = some (.bool y, s') ∧
      (Expr.binary .gt l r).eval env p s = some (.bool z, s') ∧ [x, y, z].count true = 1 := by
  obtain ⟨x, y, h1, h2, _, _, h5, _, _⟩ := C40_combination h hc
  refine ⟨x, y, _, h1, h2, h5, ?_⟩
  have hex : x = true → y = false := by
    intro hx
    subst hx
    have e1 : lessThan a b = .bool true := by
      simp [eval_binary h, Eval.binOp, Eval.pure, Ops.lt] at h1; exact h1
    have e2 : equal a b = .bool y := by
      simp [eval_binary h, Eval.binOp, Eval.pure, Ops.eq] at h2; exact h2
    have := C12_exclusive_partial a b hp e1
    rw [e2] at this; simpa using this
  cases x <;> cases y <;> simp_all

/-- C40 fails for an edge and its reversal: both `<` and `=` are true. -/
theorem C40_exactly_one_violated (env : Env) (s : EState) (p : List Nat) :
    ∃ l r a b, Evaluates env p 0 [l, r] s [a, b] s ∧ Comparable a b ∧
      (Expr.binary .lt l r).eval env p s = some (.bool true, s) ∧
      (Expr.binary .eq l r).eval env p s = some (.bool true, s) := by
  obtain ⟨⟨a, b, h1, h2, e, f, ha, hb⟩, _⟩ := C12_exclusive_violated
  have hE : Evaluates env p 0 [.const a, .const b] s [a, b] s := .cons rfl (.cons rfl (.nil _ _))
  refine ⟨.const a, .const b, a, b, hE, ?_, ?_, ?_⟩
  · subst ha hb; exact ⟨by simp, by simp, by simp, by simp, .inl rfl⟩
  · simp only [eval_binary hE, Eval.binOp, Eval.pure, Ops.lt, h1]
  · simp only [eval_binary hE, Eval.binOp, Eval.pure, Ops.eq, h2]

/-- C40 fails: two maps are each greater than the other, and a NaN is greater than 0. -/
theorem C40_greater_violated (env : Env) (s : EState) (p : List Nat) :
    (∃ a b, Comparable a b ∧ (Expr.binary .gt (.const a) (.const b)).eval env p s = some (.bool true, s) ∧
      (Expr.binary .gt (.const b) (.const a)).eval env p s = some (.bool true, s)) ∧
    (Expr.binary .gt (.const (.float .nan)) (.const (.int 0))).eval env p s = some (.bool true, s) := by
  refine ⟨⟨.map [], .map [([], .int 1)], ⟨by simp, by simp, by simp, by simp, .inl rfl⟩, ?_, ?_⟩, ?_⟩
  · have : Ops.gt (.map []) (.map [([], .int 1)]) = .bool true := by decide +kernel
    simp [Expr.eval, Eval.bind, Eval.pure, Eval.binOp, this]
  · have : Ops.gt (.map [([], .int 1)]) (.map []) = .bool true := by decide +kernel
    simp [Expr.eval, Eval.bind, Eval.pure, Eval.binOp, this]
  · have : Ops.gt (.float .nan) (.int 0) = .bool true := by decide +kernel
    simp [Expr.eval, Eval.bind, Eval.pure, Eval.binOp, this]

/-! ## C41 -/

theorem findSub_some (t : Bytes) : ∀ (s : Bytes) (i : Nat), (Ops.findSub t s i).isSome = true ↔ t <:+: s
  | [], i => by
    by_cases h : t = []
    · subst h; simp [Ops.findSub]
    · simp [Ops.findSub, h]
  | c :: s, i => by
    unfold Ops.findSub
    by_cases h : t.isPrefixOf (c :: s) = true
    · simp only [h, if_true, Option.isSome_some, true_iff]
      exact (List.isPrefixOf_iff_prefix.1 h).isInfix
    · rw [if_neg h]
      rw [findSub_some t s (i + 1), List.infix_cons_iff]
      constructor
      · exact .inr
      · rintro (h' | h')
        · exact absurd (List.isPrefixOf_iff_prefix.2 h') h
        · exact h'

theorem findSub_zero (t s : Bytes) : Ops.findSub t s 0 = some 0 ↔ t <+: s := by
  have ge : ∀ (s : Bytes) (i j : Nat), Ops.findSub t s i = some j → i ≤ j := by
    intro s
    induction s with
    | nil => intro i j h; simp only [Ops.findSub] at h; split at h <;> simp at h; omega
    | cons c s ih =>
      intro i j h; simp only [Ops.findSub] at h
      split at h
      · simp at h; omega
      · have := ih _ _ h; omega
  cases s with
  | nil => by_cases h : t = [] <;> simp [Ops.findSub, h]
  | cons c s =>
    simp only [Ops.findSub]
    by_cases h : t.isPrefixOf (c :: s) = true
    · simp only [h, if_true, true_iff]; exact List.isPrefixOf_iff_prefix.1 h
    · simp only [h]
      constructor
      · intro h'; have := ge _ _ _ h'; omega
      · intro h'; exact absurd (List.isPrefixOf_iff_prefix.2 h') h

/-- The relation a string predicate tests. -/
def StringTest : BinOp → Option (Bool × (Bytes → Bytes → Prop))
  | .contains => some (true, fun a b => b <:+: a)
  | .notContains => some (false, fun a b => b <:+: a)
  | .startsWith => some (true, fun a b => b <+: a)
  | .notStartsWith => some (false, fun a b => b <+: a)
  | .endsWith => some (true, fun a b => b <:+ a)
  | .notEndsWith => some (false, fun a b => b <:+ a)
  | _ => none

/-- C41: on strings CONTAINS, STARTS WITH and ENDS WITH are true exactly if the right operand is a
substring, prefix or suffix of the left one, and the NOT forms exactly if it is not. -/
theorem C41_strings {env : Env} {p : List Nat} {l r : Expr} {s s' : EState} {a b : Bytes}
    (h : Evaluates env p 0 [l, r] s [.str a, .str b] s') (o : BinOp) (pos : Bool) (R : Bytes → Bytes → Prop)
    (ho : StringTest o = some (pos, R)) :
    ∃ x : Bool, (Expr.binary o l r).eval env p s = some (.bool x, s') ∧ (x = pos ↔ R a b) := by
  rw [eval_binary h]
  have hc : (decide (b.length ≤ a.length) && (Ops.findSub b a 0).isSome) = true ↔ b <:+: a := by
    rw [Bool.and_eq_true, findSub_some, decide_eq_true_iff]
    exact ⟨fun h => h.2, fun h => ⟨h.length_le, h⟩⟩
  have hs : (decide (b.length ≤ a.length) && Ops.findSub b a 0 == some 0) = true ↔ b <+: a := by
    rw [Bool.and_eq_true, beq_iff_eq, findSub_zero, decide_eq_true_iff]
    exact ⟨fun h => h.2, fun h => ⟨h.length_le, h⟩⟩
  have he : (decide (b.length ≤ a.length) && (a.drop (a.length - b.length)).take b.length == b) = true ↔ b <:+ a := by
    rw [Bool.and_eq_true, beq_iff_eq, decide_eq_true_iff]
    constructor
    · rintro ⟨h1, h2⟩
      have : (a.drop (a.length - b.length)).take b.length = a.drop (a.length - b.length) :=
        List.take_of_length_le (by simp; omega)
      rw [this] at h2
      exact h2 ▸ List.drop_suffix _ _
    · rintro ⟨t, rfl⟩
      simp
  cases o <;> simp only [StringTest, Option.some.injEq, Prod.mk.injEq, reduceCtorEq] at ho
  all_goals
    obtain ⟨rfl, rfl⟩ := ho
    refine ⟨_, rfl, ?_⟩
    simp only [if_true, if_false, Bool.false_eq_true, Bool.not_eq_eq_eq_not, Bool.not_false, hc, hs, he]

/-- C41: on other operands the result is NULL if both are strings or plain NULL (one at least NULL),
and the type error otherwise. -/
theorem C41_other {env : Env} {p : List Nat} {l r : Expr} {s s' : EState} {a b : Value}
    (h : Evaluates env p 0 [l, r] s [a, b] s') (o : BinOp) (ho : (StringTest o).isSome = true)
    (hab : ¬ ((∃ x, a = .str x) ∧ ∃ y, b = .str y)) :
    (((∃ x, a = .str x) ∨ a = NULL) → ((∃ y, b = .str y) ∨ b = NULL) →
      (Expr.binary o l r).eval env p s = some (NULL, s')) ∧
    (¬ (((∃ x, a = .str x) ∨ a = NULL) ∧ ((∃ y, b = .str y) ∨ b = NULL)) →
      (Expr.binary o l r).eval env p s = some (BAD_TYPE, s')) := by
  rw [eval_binary h]
  have key : ∀ f, (((∃ x, a = .str x) ∨ a = NULL) → ((∃ y, b = .str y) ∨ b = NULL) → Ops.onStrings a b f = NULL) ∧
      (¬ (((∃ x, a = .str x) ∨ a = NULL) ∧ ((∃ y, b = .str y) ∨ b = NULL)) → Ops.onStrings a b f = BAD_TYPE) := by
    intro f
    constructor
    · rintro (⟨x, rfl⟩ | rfl) (⟨y, rfl⟩ | rfl)
      · exact absurd ⟨⟨_, rfl⟩, _, rfl⟩ hab
      all_goals simp [Ops.onStrings, isBadNull, kNull]
    · intro hn
      cases a with
      | str x =>
        cases b with
        | str y => exact absurd ⟨⟨_, rfl⟩, _, rfl⟩ hab
        | null n => cases n <;> first | exact absurd ⟨.inl ⟨_, rfl⟩, .inr rfl⟩ hn | simp [Ops.onStrings, isBadNull, kNullBadType]
        | _ => simp [Ops.onStrings, isBadNull, kNullBadType]
      | null n =>
        cases n with
        | null =>
          cases b with
          | str y => exact absurd ⟨.inr rfl, .inl ⟨_, rfl⟩⟩ hn
          | null n => cases n <;> first | exact absurd ⟨.inr rfl, .inr rfl⟩ hn | simp [Ops.onStrings, isBadNull, kNullBadType]
          | _ => simp [Ops.onStrings, isBadNull, kNullBadType]
        | _ => simp [Ops.onStrings, isBadNull, kNullBadType]
      | _ =>
        cases b with
        | null n => cases n <;> simp [Ops.onStrings, isBadNull, kNullBadType]
        | _ => simp [Ops.onStrings, isBadNull, kNullBadType]
  cases o <;> simp only [StringTest, Option.isSome_none, Option.isSome_some, Bool.false_eq_true] at ho <;>
    simp only [Eval.binOp, Eval.pure, Ops.contains, Ops.startsWith, Ops.endsWith, Option.some.injEq, Prod.mk.injEq, and_true] <;>
    exact key _

/-! ## C42 -/

/-- C42: `list[i]`: the element at `i`, or at `i` from the end if `i` is negative; the out-of-range
NULL if there is none. -/
theorem C42_subscript {env : Env} {p : List Nat} {l r : Expr} {s s' : EState} {xs : List Value} {i : Int}
    (h : Evaluates env p 0 [l, r] s [.list xs, .int i] s') :
    (∀ j : Nat, fromEnd xs.length i = j → ∀ hj : j < xs.length,
      (Expr.binary .subscript l r).eval env p s = some (xs[j], s')) ∧
    ((fromEnd xs.length i < 0 ∨ (xs.length : Int) ≤ fromEnd xs.length i) →
      (Expr.binary .subscript l r).eval env p s = some (.null .outOfRange, s')) := by
  rw [eval_binary h]
  simp only [Eval.binOp, Eval.pure, Ops.subscript, fromEnd, Option.some.injEq, Prod.mk.injEq, and_true]
  constructor
  · intro j hj hlt
    rw [if_neg (by split at hj <;> omega)]
    have : (if i < 0 then i + (xs.length : Int) else i).toNat = j := by split at hj <;> simp_all <;> omega
    rw [this]; simp [List.getD, hlt]
  · intro ho
    rw [if_pos (by split at ho <;> omega)]; rfl

/-- C42: `dataset[i]` is the row at `i`; negative numbers do not count from the end here. -/
theorem C42_rows {env : Env} {p : List Nat} {l r : Expr} {s s' : EState} {cols : List Bytes} {rows : List (List Value)} {i : Int}
    (h : Evaluates env p 0 [l, r] s [.dataset cols rows, .int i] s') :
    (∀ j : Nat, i = j → ∀ hj : j < rows.length, (Expr.binary .subscript l r).eval env p s = some (.list rows[j], s')) ∧
    ((i < 0 ∨ (rows.length : Int) ≤ i) → (Expr.binary .subscript l r).eval env p s = some (.null .outOfRange, s')) := by
  rw [eval_binary h]
  simp only [Eval.binOp, Eval.pure, Ops.subscript, Option.some.injEq, Prod.mk.injEq, and_true]
  constructor
  · rintro j rfl hlt
    rw [if_neg (by omega)]
    simp [List.getD, hlt]
  · intro ho
    rw [if_pos (by omega)]; rfl

/-- C42: an index that is not a number (of a list or data set) and a subscript of anything but a list,
data set, map, vertex or edge is the type error; a name that is not a text (of a map, vertex or edge) is NULL. -/
theorem C42_index_types {env : Env} {p : List Nat} {l r : Expr} {s s' : EState} {a i : Value}
    (h : Evaluates env p 0 [l, r] s [a, i] s') :
    (((∃ xs, a = .list xs) ∨ ∃ cols rows, a = .dataset cols rows) → (∀ n, i ≠ .int n) →
      (Expr.binary .subscript l r).eval env p s = some (BAD_TYPE, s')) ∧
    (((∃ m, a = .map m) ∨ (∃ v, a = .vertex v) ∨ ∃ e, a = .edge e) → (∀ k, i ≠ .str k) →
      (Expr.binary .subscript l r).eval env p s = some (NULL, s')) ∧
    ((∀ xs, a ≠ .list xs) → (∀ cols rows, a ≠ .dataset cols rows) → (∀ m, a ≠ .map m) → (∀ v, a ≠ .vertex v) →
      (∀ e, a ≠ .edge e) → (Expr.binary .subscript l r).eval env p s = some (BAD_TYPE, s')) := by
  rw [eval_binary h]
  simp only [Eval.binOp, Eval.pure, Option.some.injEq, Prod.mk.injEq, and_true]
  refine ⟨?_, ?_, ?_⟩
  · rintro (⟨xs, rfl⟩ | ⟨cols, rows, rfl⟩) hi <;> cases i <;> first | exact absurd rfl (hi _) | rfl
  · rintro (⟨m, rfl⟩ | ⟨v, rfl⟩ | ⟨e, rfl⟩) hi <;> cases i <;> first | exact absurd rfl (hi _) | rfl
  · intro h1 h2 h3 h4 h5
    cases a <;> first | exact absurd rfl (h1 _) | exact absurd rfl (h2 _ _) | exact absurd rfl (h3 _) |
      exact absurd rfl (h4 _) | exact absurd rfl (h5 _) | rfl

theorem between_eq {α : Type} (xs : List α) (lo hi : Int) (k : Nat) :
    ((xs.zipIdx k).filter fun x => decide (lo ≤ x.2 ∧ (x.2 : Int) < hi)).map Prod.fst =
      (xs.drop (lo - k).toNat).take ((hi - k).toNat - (lo - k).toNat) := by
  induction xs generalizing k with
  | nil => simp
  | cons x xs ih =>
    have e := ih (k + 1)
    simp only [List.zipIdx_cons, List.filter_cons]
    by_cases h1 : lo ≤ k
    · have hlo : (lo - k).toNat = 0 := by omega
      have hlo' : (lo - (k + 1 : Nat)).toNat = 0 := by omega
      rw [hlo'] at e
      by_cases h2 : (k : Int) < hi
      · have hhi : (hi - k).toNat = (hi - (k + 1 : Nat)).toNat + 1 := by omega
        simp only [h1, h2, and_self, decide_true, if_true, List.map_cons, e, hlo, hhi, List.drop_zero, Nat.sub_zero, List.take_succ_cons]
      · have hhi : (hi - k).toNat = 0 := by omega
        have hhi' : (hi - (k + 1 : Nat)).toNat = 0 := by omega
        simp only [h2, and_false, decide_false, Bool.false_eq_true, if_false, e, hhi, hhi', hlo]; simp
    · have hlo : (lo - k).toNat = (lo - (k + 1 : Nat)).toNat + 1 := by omega
      have hh : (hi - k).toNat - ((lo - (k + 1 : Nat)).toNat + 1) = (hi - (k + 1 : Nat)).toNat - (lo - (k + 1 : Nat)).toNat := by omega
      simp only [h1, false_and, decide_false, Bool.false_eq_true, if_false, e, hlo, List.drop_succ_cons, hh]

theorem slice_eq (xs : List Value) (lo hi : Int) : Ops.slice xs lo hi = .list (between xs lo hi) := by
  unfold Ops.slice between
  rw [between_eq xs lo hi 0]
  have e0 : ((0 : Nat) : Int) = 0 := rfl
  simp only [e0, Int.sub_zero, ge_iff_le]
  have hlo : (if lo < 0 then 0 else lo).toNat = lo.toNat := by split <;> omega
  have hl0 : (if lo < 0 then 0 else lo) = lo.toNat := by split <;> omega
  generalize (if lo < 0 then 0 else lo) = l0 at *
  subst hl0
  by_cases h : hi ≤ lo.toNat
  · rw [if_pos h]
    have : hi.toNat - lo.toNat = 0 := by omega
    simp [this]
  · rw [if_neg h, hlo]
    by_cases h2 : xs.length ≤ lo.toNat
    · rw [if_pos h2]; simp [List.drop_eq_nil_of_le h2]
    · rw [if_neg h2]
      split
      · congr 1
        rw [List.take_of_length_le, List.take_of_length_le] <;> simp <;> omega
      · rfl

/-- What a bound of a range denotes: the given default if it is missing, else the integer, counted
from the end if negative. -/
inductive Bound (n : Nat) (dflt : Int) : Option Value → Int → Prop
  | missing : Bound n dflt none dflt
  | given (i : Int) : Bound n dflt (some (.int i)) (fromEnd n i)

theorem bound_int (n : Nat) (i : Int) : Ops.bound n (.int i) = .inr (fromEnd n i) := by
  simp only [Ops.bound, fromEnd]; split <;> simp; omega

/-- A bound that may be missing evaluates. -/
inductive EvaluatesO (env : Env) (p : List Nat) : Option Expr → EState → Option Value → EState → Prop
  | none (s : EState) : EvaluatesO env p none s none s
  | some {e : Expr} {s s' : EState} {v : Value} (h : e.eval env p s = some (v, s')) :
      EvaluatesO env p (some e) s (some v) s'

/-- C42: `list[lo..hi]` is the list of the elements at the positions `lo ≤ j < hi`, bounds counted from
the end if negative, missing bounds meaning the ends of the list. -/
theorem C42_range {env : Env} {p : List Nat} {l : Expr} {lo hi : Option Expr} {s s1 s2 s3 : EState}
    {xs : List Value} {vlo vhi : Option Value} {i j : Int}
    (hl : l.eval env (0 :: p) s = some (.list xs, s1))
    (h1 : EvaluatesO env (1 :: p) lo s1 vlo s2) (h2 : EvaluatesO env (2 :: p) hi s2 vhi s3)
    (b1 : Bound xs.length 0 vlo i) (b2 : Bound xs.length xs.length vhi j) :
    (Expr.range l lo hi).eval env p s = some (.list (between xs i j), s3) := by
  cases h1 <;> cases b1 <;> cases h2 <;> cases b2 <;>
    simp_all [Expr.eval, Expr.evalO, Eval.range, Eval.bind, Eval.pure, slice_eq, bound_int]

/-- C42: a range of something that is no list is the type error; a NULL bound gives NULL, a bound of
another type the type error. -/
theorem C42_range_types {env : Env} {p : List Nat} {l lo : Expr} {hi : Option Expr} {s s1 s2 : EState} {v b : Value}
    (hl : l.eval env (0 :: p) s = some (v, s1)) :
    ((∀ xs, v ≠ .list xs) → ∀ lo, (Expr.range l lo hi).eval env p s = some (BAD_TYPE, s1)) ∧
    ((∃ xs, v = .list xs) → lo.eval env (1 :: p) s1 = some (b, s2) →
      ((∃ n, b = .null n) → (Expr.range l (some lo) hi).eval env p s = some (NULL, s2)) ∧
      ((∀ n, b ≠ .null n) → (∀ i, b ≠ .int i) → (Expr.range l (some lo) hi).eval env p s = some (BAD_TYPE, s2))) := by
  constructor
  · intro hv lo
    cases v <;> first | exact absurd rfl (hv _) | simp [Expr.eval, Eval.range, Eval.bind, Eval.pure, hl, kNullBadType]
  · rintro ⟨xs, rfl⟩ hb
    constructor
    · rintro ⟨n, rfl⟩
      simp [Expr.eval, Expr.evalO, Eval.range, Eval.bind, Eval.pure, hl, hb, Ops.bound, kNull]
    · intro h1 h2
      have : Ops.bound xs.length b = .inl BAD_TYPE := by
        cases b <;> first | exact absurd rfl (h1 _) | exact absurd rfl (h2 _) | rfl
      simp [Expr.eval, Expr.evalO, Eval.range, Eval.bind, Eval.pure, hl, hb, this]

/-- C42: the same of the upper bound, once the lower one is missing or a number. -/
theorem C42_range_upper {env : Env} {p : List Nat} {l hi : Expr} {lo : Option Expr} {s s1 s2 s3 : EState} {xs : List Value}
    {vlo : Option Value} {i : Int} {b : Value}
    (hl : l.eval env (0 :: p) s = some (.list xs, s1)) (h1 : EvaluatesO env (1 :: p) lo s1 vlo s2)
    (b1 : Bound xs.length 0 vlo i) (h2 : hi.eval env (2 :: p) s2 = some (b, s3)) :
    ((∃ n, b = .null n) → (Expr.range l lo (some hi)).eval env p s = some (NULL, s3)) ∧
    ((∀ n, b ≠ .null n) → (∀ i, b ≠ .int i) → (Expr.range l lo (some hi)).eval env p s = some (BAD_TYPE, s3)) := by
  have key : ∀ w, Ops.bound xs.length b = .inl w → (Expr.range l lo (some hi)).eval env p s = some (w, s3) := by
    intro w hw
    cases h1 <;> cases b1 <;>
      simp_all [Expr.eval, Expr.evalO, Eval.range, Eval.bind, Eval.pure, bound_int]
  constructor
  · rintro ⟨n, rfl⟩
    exact key _ rfl
  · intro h1 h2
    exact key _ (by cases b <;> first | exact absurd rfl (h1 _) | exact absurd rfl (h2 _) | rfl)

/-! ## C46 -/

/-- The types an operand may have in a cast to the type with the given flag (INT 4, STRING 16, BOOL 2,
FLOAT 8). -/
def CastFrom : Nat → Value → Prop
  | 4, v => (∃ i, v = .int i) ∨ (∃ f, v = .float f) ∨ (∃ t, v = .str t) ∨ v = .empty
  | 16, v => ∀ t, v ≠ .time t
  | 2, v => v = .empty ∨ (∃ n, v = .null n) ∨ (∃ b, v = .bool b) ∨ (∃ i, v = .int i) ∨ (∃ f, v = .float f) ∨
      (∃ t, v = .str t) ∨ ∃ d, v = .date d
  | 8, v => (∃ i, v = .int i) ∨ (∃ f, v = .float f) ∨ (∃ t, v = .str t) ∨ v = .empty
  | _, _ => False

/-- C46: the static check accepts exactly the listed pairs of types. -/
theorem C46_table (ty : Nat) (v : Value) : Ops.validateTypeCast v.typeFlag ty = true ↔ CastFrom ty v := by
  by_cases h : ty ∈ [2, 4, 8, 16]
  · simp only [List.mem_cons, List.not_mem_nil, or_false] at h
    rcases h with rfl | rfl | rfl | rfl <;> cases v <;>
      simp [Ops.validateTypeCast, Ops.castTable, typeFlag, CastFrom]
  · simp only [List.mem_cons, List.not_mem_nil, or_false, not_or] at h
    have : Ops.validateTypeCast v.typeFlag ty = false := by
      simp [Ops.validateTypeCast, Ops.castTable]
      simp only [eq_comm (b := ty)]
      simp [h]
    rw [this]
    simp only [Bool.false_eq_true, false_iff]
    unfold CastFrom
    split <;> simp_all

/-- C46: the value of a cast accepted by the static check is of the target type or NULL. -/
theorem C46_result {env : Env} {p : List Nat} {e : Expr} {s s' : EState} {ty : Nat} {v : Value}
    (h : e.eval env (0 :: p) s = some (v, s')) (hc : CastFrom ty v) {w : Value} {s'' : EState}
    (hr : (Expr.cast ty e).eval env p s = some (w, s'')) :
    s'' = s' ∧ (w.typeFlag = ty ∨ ∃ n, w = .null n) := by
  simp only [Expr.eval, Eval.bind, h, Eval.lift, Option.map_eq_some_iff, Prod.mk.injEq] at hr
  obtain ⟨r, hr, rfl, rfl⟩ := hr
  refine ⟨rfl, ?_⟩
  unfold CastFrom at hc
  split at hc
  · simp only [Ops.cast, show ¬ (4 : Nat) = 2 by omega, if_false, if_true] at hr
    cases v <;> simp only [toInt] at hr
    case empty => cases hr; exact .inr ⟨_, rfl⟩
    case null n => cases hr; exact .inr ⟨_, rfl⟩
    case int i => cases hr; exact .inl rfl
    case float f =>
      split at hr
      · cases hr; exact .inl rfl
      · split at hr
        · cases hr; exact .inl rfl
        · simp only [Option.map_eq_some_iff] at hr
          obtain ⟨i, _, rfl⟩ := hr; exact .inl rfl
    case str t =>
      simp only [Option.map_eq_some_iff] at hr
      obtain ⟨x, _, rfl⟩ := hr
      split
      · exact .inr ⟨_, rfl⟩
      · split
        · exact .inr ⟨_, rfl⟩
        · exact .inl rfl
    all_goals (cases hr; exact .inr ⟨_, rfl⟩)
  · simp only [Ops.cast, show ¬ (16 : Nat) = 2 by omega, show ¬ (16 : Nat) = 4 by omega,
      show ¬ (16 : Nat) = 8 by omega, if_false, if_true] at hr
    cases v <;> simp only [Option.some.injEq] at hr <;> subst hr <;> exact .inl rfl
  · simp only [Ops.cast, if_true, Option.some.injEq] at hr
    subst hr
    cases v <;> simp only [Value.toBool]
    case bool b => exact .inl rfl
    case str t =>
      split
      · exact .inl rfl
      · split
        · exact .inl rfl
        · exact .inr ⟨_, rfl⟩
    all_goals exact .inr ⟨_, rfl⟩
  · simp only [Ops.cast, show ¬ (8 : Nat) = 2 by omega, show ¬ (8 : Nat) = 4 by omega, if_false, if_true,
      Option.some.injEq] at hr
    subst hr
    cases v <;> simp only [toFloat]
    case int i => exact .inl rfl
    case float f => exact .inl rfl
    case str t =>
      split
      · exact .inr ⟨_, rfl⟩
      · exact .inl rfl
    all_goals exact .inr ⟨_, rfl⟩
  · exact absurd hc id

/-- C46: casting an integer to a string and the string to an integer gives the integer back. -/
theorem C46_int_text {env : Env} {p : List Nat} {e : Expr} {s s' : EState} {i : Int} (hi : InI64 i)
    (h : e.eval env (0 :: 0 :: p) s = some (.int i, s')) :
    (Expr.cast 4 (.cast 16 e)).eval env p s = some (.int i, s') := by
  have := C16_text_roundtrip env.strtod i hi
  simp only [Expr.eval, Eval.bind, h, Eval.lift]
  simp only [Ops.cast, toText]
  simpa using this

/-- C46: casts to the type the operand has change nothing (BOOL, INT, FLOAT, STRING). -/
theorem C46_same {env : Env} {p : List Nat} {e : Expr} {s s' : EState} {v : Value}
    (h : e.eval env (0 :: p) s = some (v, s')) (ht : v.typeFlag ∈ [2, 4, 8, 16]) :
    (Expr.cast v.typeFlag e).eval env p s = some (v, s') := by
  cases v <;> simp [typeFlag] at ht <;>
    simp [Expr.eval, Eval.bind, h, Eval.lift, Ops.cast, typeFlag, Value.toBool, toInt, toFloat]

/-- C46: casts of numbers and dates to BOOL pass the static check and always fail. -/
theorem C46_bool_always_fails {env : Env} {p : List Nat} {e : Expr} {s s' : EState} {v : Value}
    (h : e.eval env (0 :: p) s = some (v, s'))
    (hv : (∃ i, v = .int i) ∨ (∃ f, v = .float f) ∨ ∃ d, v = .date d) :
    Ops.validateTypeCast v.typeFlag 2 = true ∧ (Expr.cast 2 e).eval env p s = some (BAD_TYPE, s') := by
  rcases hv with ⟨x, rfl⟩ | ⟨x, rfl⟩ | ⟨x, rfl⟩ <;>
    exact ⟨by simp [Ops.validateTypeCast, Ops.castTable, typeFlag], by simp [Expr.eval, Eval.bind, h, Eval.lift, Ops.cast, Value.toBool, kNullBadType]⟩

/-! ## Witnesses -/

section Witness
variable (env : Env) (s : EState)

example : (Expr.binary .inn (.const (.int 2)) (.const (.list [.int 1, .float (.fin 2), NULL]))).eval env [] s =
    some (.bool true, s) :=
  (C39_in (.cons rfl (.cons rfl (.nil _ _))) (.list _)).2.1 (by simp) ⟨.float (.fin 2), by simp, by decide +kernel⟩
example : (Expr.binary .inn (.const (.int 3)) (.const (.set [.int 1, NULL]))).eval env [] s = some (NULL, s) :=
  (C39_in (.cons rfl (.cons rfl (.nil _ _))) (.set _)).2.2.1 (by simp) (by simp [beq_eqn, typeFlag]) ⟨.null, by simp⟩
example : (Expr.binary .endsWith (.const (.str [1, 2, 3])) (.const (.str [2, 3]))).eval env [] s = some (.bool true, s) := by
  obtain ⟨x, h, hx⟩ := C41_strings (env := env) (p := []) (s := s) (l := .const (.str [1, 2, 3])) (r := .const (.str [2, 3]))
    (.cons rfl (.cons rfl (.nil _ _))) .endsWith _ _ rfl
  rw [h, hx.2 ⟨[1], rfl⟩]
example : (Expr.range (.const (.list [.int 1, .int 2, .int 3, .int 4])) (some (.const (.int (-3)))) none).eval env [] s =
    some (.list [.int 2, .int 3, .int 4], s) :=
  C42_range (env := env) (p := []) (l := .const (.list [.int 1, .int 2, .int 3, .int 4])) (lo := some (.const (.int (-3))))
    (hi := none) (s := s) rfl (.some rfl) (.none _) (.given _) .missing
example : (Expr.binary .subscript (.const (.list [.int 1, .int 2, .int 3])) (.const (.int (-1)))).eval env [] s =
    some (.int 3, s) :=
  (C42_subscript (env := env) (p := []) (l := .const (.list [.int 1, .int 2, .int 3])) (r := .const (.int (-1))) (s := s)
    (.cons rfl (.cons rfl (.nil _ _)))).1 2 rfl (by decide)
example : Comparable (.int 1) (.float .nan) := ⟨by simp, by simp, by simp, by simp, .inr ⟨rfl, rfl⟩⟩
end Witness

end Nebula
