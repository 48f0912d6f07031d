import Verif.Agg.Spec
import Verif.Expr.Eval
import Verif.Value.ArithProps
import Verif.Value.OrderProps
/-!
# C47: aggregates equal their mathematical definition
-/
namespace Nebula
open AggSpec Value Spec
namespace Agg

variable {L : Lib}

theorem present_snoc (pre : List Value) (v : Value) :
    present (pre ++ [v]) = if isPresent v then present pre ++ [v] else present pre := by
  simp only [present, List.filter_append, List.filter_cons, List.filter_nil]
  split <;> simp

theorem isPresent_eq (v : Value) : isPresent v = !(v.isNull || v.isEmpty) := by
  cases v <;> rfl

/-- The calls of a function that works on the result only, as a fold over the values that are neither NULL
nor EMPTY.  `norm` is what the first call does to the initial result. -/
theorem run_fold {f : Fn} (norm : Value → Value) (op : Value → Value → Option Value)
    (hstep : ∀ d v, step L f d v =
      if isPresent v then (op d.result v).map fun r => { d with result := r } else some { d with result := norm d.result })
    (h1 : ∀ r, norm (norm r) = norm r) (h2 : ∀ r v, isPresent v = true → op (norm r) v = op r v)
    (h3 : ∀ r v r', isPresent v = true → op r v = some r' → norm r' = r') :
    ∀ vs d, vs ≠ [] → run L f false d vs = ((present vs).foldlM op (norm d.result)).map fun r => { d with result := r }
  | [], _, h => absurd rfl h
  | v :: vs, d, _ => by
    have ih := fun d h => run_fold norm op hstep h1 h2 h3 vs d h
    simp only [run, feed, Bool.false_eq_true, if_false, hstep]
    cases hv : isPresent v with
    | false =>
      have hp : present (v :: vs) = present vs := by simp [present, hv]
      rw [hp]
      simp only [Bool.false_eq_true, if_false]
      by_cases hn : vs = []
      · subst hn; simp [run, present]
      · rw [ih _ hn, h1]
    | true =>
      have hp : present (v :: vs) = v :: present vs := by simp [present, hv]
      rw [hp]
      simp only [if_true, List.foldlM_cons, h2 _ _ hv]
      cases ho : op d.result v with
      | none => rfl
      | some r =>
        simp only [Option.map_some, Option.bind_eq_bind, Option.bind_some]
        by_cases hn : vs = []
        · subst hn; simp [run, present]
        · rw [ih _ hn, h3 _ _ _ hv ho]

theorem run_nil (f : Fn) (b : Bool) (d : AggData) : run L f b d [] = some d := rfl

/-- The initial NULL becomes `r0`. -/
def start (r0 r : Value) : Value := if r.isNull && !r.isBadNull then r0 else r

theorem start_start (r0 : Value) (h : r0.isNull = false) (r : Value) : start r0 (start r0 r) = start r0 r := by
  unfold start
  split
  · simp [h]
  · rename_i hh; simp [hh]

theorem foldlM_some {α : Type} (g : Value → α → Value) : ∀ (l : List α) (r : Value),
    l.foldlM (fun r v => some (g r v)) r = some (l.foldl g r)
  | [], _ => rfl
  | v :: l, r => by simp only [List.foldlM_cons, Option.bind_eq_bind, Option.bind_some, List.foldl_cons]; exact foldlM_some g l _

theorem start_isNull (r0 r : Value) (hb : r.isBadNull = false) : (if r.isNull then r0 else r) = start r0 r := by
  unfold start; rw [hb]; simp

theorem start_bad (r0 r : Value) (hb : r.isBadNull = true) : start r0 r = r := by
  unfold start; rw [hb]; simp

theorem bad_start (r0 r : Value) (h0 : r0.isBadNull = false) : (start r0 r).isBadNull = r.isBadNull := by
  unfold start
  cases hb : r.isBadNull with
  | true => simp [hb]
  | false => cases r.isNull <;> simp [hb, h0]

theorem add_ne_null (fmt : F64 → Bytes) {a b : Value} (ha : a.isNull = false) (hb : b.isNull = false) :
    ∀ r, Value.add fmt a b = some r → start (.int 0) r = r := by
  intro r h
  have hr : r ≠ .null .null := by
    rintro rfl
    revert h
    cases a <;> simp [isNull] at ha <;> cases b <;> simp [isNull] at hb <;>
      simp [Value.add, propagate, isNull, isEmpty, fit, kNullBadType, kNullOverflow] <;> (try split) <;> simp
  unfold start
  cases r <;> try rfl
  rename_i n
  cases n <;> first | exact absurd rfl hr | rfl

/-- SUM on the result. -/
def sumOp (L : Lib) (r v : Value) : Option Value :=
  if r.isBadNull then some r
  else if !v.isNumeric then some kNullBadType
  else Value.add L.fmt (start (.int 0) r) v

theorem present_nullEmpty {v : Value} : isPresent v = true ↔ v.isNull = false ∧ v.isEmpty = false := by
  cases v <;> simp [isPresent, isNull, isEmpty]

theorem start_not_null {r : Value} (r0 : Value) (h0 : r0.isNull = false) (hb : r.isBadNull = false) : (start r0 r).isNull = false := by
  unfold start
  rw [hb]
  cases h : r.isNull <;> simp [h, h0]

theorem run_sum (vs : List Value) (d : AggData) (h : vs ≠ []) :
    run L .sum false d vs = ((present vs).foldlM (sumOp L) (start (.int 0) d.result)).map fun r => { d with result := r } := by
  refine run_fold (start (.int 0)) (sumOp L) ?_ (start_start _ rfl) ?_ ?_ vs d h
  · intro d v
    simp only [step, sumStep, sumOp]
    cases hb : d.result.isBadNull with
    | true => cases isPresent v <;> simp [start_bad _ _ hb]
    | false =>
      simp only [Bool.false_eq_true, if_false, start_isNull _ _ hb]
      cases hv : isPresent v with
      | false =>
        cases v <;> first | (simp [isPresent] at hv; done) | simp [isNull, isEmpty]
      | true =>
        obtain ⟨a, b⟩ := present_nullEmpty.1 hv
        simp only [a, b, Bool.not_false, Bool.true_and, Bool.or_self, Bool.false_eq_true, if_false, if_true]
        split <;> rfl
  · intro r v _
    simp only [sumOp, bad_start _ _ (show (Value.int 0).isBadNull = false from rfl), start_start _ (show (Value.int 0).isNull = false from rfl)]
    cases hb : r.isBadNull with
    | true => simp [start_bad _ _ hb]
    | false => simp
  · intro r v r' hv h
    simp only [sumOp] at h
    split at h
    · rename_i hb
      cases h; exact start_bad _ _ hb
    · rename_i hb
      split at h
      · cases h; rfl
      · exact add_ne_null L.fmt (start_not_null _ rfl (by simpa using hb)) (present_nullEmpty.1 hv).1 _ h

/-- COUNT on the result. -/
def countOp (L : Lib) (r _v : Value) : Option Value :=
  if r.isBadNull then some r else Value.add L.fmt (start (.int 0) r) (.int 1)

theorem run_count (vs : List Value) (d : AggData) (h : vs ≠ []) :
    run L .count false d vs = ((present vs).foldlM (countOp L) (start (.int 0) d.result)).map fun r => { d with result := r } := by
  refine run_fold (start (.int 0)) (countOp L) ?_ (start_start _ rfl) ?_ ?_ vs d h
  · intro d v
    simp only [step, countStep, countOp]
    cases hb : d.result.isBadNull with
    | true => cases isPresent v <;> simp [start_bad _ _ hb]
    | false =>
      simp only [Bool.false_eq_true, if_false, start_isNull _ _ hb]
      rw [isPresent_eq]
      cases (v.isNull || v.isEmpty) <;> simp
  · intro r v _
    simp only [countOp, bad_start _ _ (show (Value.int 0).isBadNull = false from rfl), start_start _ (show (Value.int 0).isNull = false from rfl)]
    cases hb : r.isBadNull with
    | true => simp [start_bad _ _ hb]
    | false => simp
  · intro r v r' hv h
    simp only [countOp] at h
    split at h
    · rename_i hb
      cases h; exact start_bad _ _ hb
    · rename_i hb
      exact add_ne_null L.fmt (start_not_null _ rfl (by simpa using hb)) rfl _ h

/-- C47, COUNT: the number of values that are neither NULL nor EMPTY (NULL before the first call). -/
theorem C47_count (vs : List Value) (hne : vs ≠ []) (hlen : (present vs).length < 2 ^ 63) :
    ∃ d, run L .count false AggData.init vs = some d ∧ d.result = .int (present vs).length := by
  rw [run_count vs _ hne]
  have key : ∀ (l : List Value) (n : Nat), n + l.length < 2 ^ 63 → l.foldlM (countOp L) (.int n) = some (.int ((n + l.length : Nat) : Int)) := by
    intro l
    induction l with
    | nil => intro n _; rfl
    | cons v l ih =>
      intro n hn
      simp only [List.length_cons] at hn
      have hin : InI64 ((n : Int) + 1) := by unfold InI64; omega
      have h1 : countOp L (.int n) v = some (.int ((n + 1 : Nat) : Int)) := by
        simp [countOp, isBadNull, start, isNull, Value.add, propagate, isEmpty, fit, hin]
      simp only [List.foldlM_cons, h1, Option.bind_eq_bind, Option.bind_some]
      rw [ih (n + 1) (by omega), List.length_cons]
      congr 3; omega
  have := key (present vs) 0 (by omega)
  rw [show start (.int 0) AggData.init.result = .int ((0 : Nat) : Int) from rfl, this]
  exact ⟨_, rfl, by simp⟩

theorem sumOp_bad (l : List Value) {r : Value} (hb : r.isBadNull = true) : l.foldlM (sumOp L) r = some r := by
  induction l with
  | nil => rfl
  | cons v l ih => simp only [List.foldlM_cons, sumOp, hb, if_true, Option.bind_eq_bind, Option.bind_some]; exact ih

/-- C47, SUM of integers: the sum if all partial sums fit in 64 bits, else the overflow error. -/
theorem C47_sum_int (vs : List Value) (is : List Int) (hi : present vs = is.map .int) (hne : vs ≠ []) :
    ∃ d, run L .sum false AggData.init vs = some d ∧
      ((∀ pre, pre <+: is → InI64 pre.sum) → d.result = .int is.sum) ∧
      ((∃ pre, pre <+: is ∧ ¬ InI64 pre.sum) → d.result = .null .errOverflow) := by
  rw [run_sum vs _ hne, hi]
  have key : ∀ (is : List Int) (a : Int), InI64 a → ∃ r, (is.map Value.int).foldlM (sumOp L) (.int a) = some r ∧
      ((∀ pre, pre <+: is → InI64 (a + pre.sum)) → r = .int (a + is.sum)) ∧
      ((∃ pre, pre <+: is ∧ ¬ InI64 (a + pre.sum)) → r = .null .errOverflow) := by
    intro is
    induction is with
    | nil =>
      intro a ha
      refine ⟨_, rfl, fun _ => by simp, ?_⟩
      rintro ⟨pre, hp, hn⟩
      rw [List.prefix_nil.1 hp] at hn
      exact absurd (by simpa using ha) hn
    | cons i is ih =>
      intro a ha
      have h1 : sumOp L (.int a) (.int i) = some (fit (a + i)) := by
        simp [sumOp, isBadNull, isNumeric, start, isNull, Value.add, propagate, isEmpty]
      simp only [List.map_cons, List.foldlM_cons, h1, Option.bind_eq_bind, Option.bind_some]
      by_cases hin : InI64 (a + i)
      · obtain ⟨r, e, c1, c2⟩ := ih (a + i) hin
        refine ⟨r, by simpa [fit, hin] using e, ?_, ?_⟩
        · intro hall
          rw [c1 fun pre hp => ?_, List.sum_cons]
          · congr 1; omega
          · have := hall (i :: pre) (List.cons_prefix_cons.2 ⟨rfl, hp⟩)
            rwa [List.sum_cons, ← Int.add_assoc] at this
        · rintro ⟨pre, hp, hn⟩
          cases pre with
          | nil => exact absurd (by simpa using ha) hn
          | cons j pre =>
            obtain ⟨rfl, hp'⟩ := List.cons_prefix_cons.1 hp
            exact c2 ⟨pre, hp', by rwa [List.sum_cons, ← Int.add_assoc] at hn⟩
      · refine ⟨.null .errOverflow, ?_, ?_, fun _ => rfl⟩
        · rw [show fit (a + i) = .null .errOverflow by simp [fit, hin, kNullOverflow]]
          exact sumOp_bad _ rfl
        · intro hall
          exact absurd (by simpa using hall [i] (List.cons_prefix_cons.2 ⟨rfl, List.nil_prefix⟩)) hin
  obtain ⟨r, e, c1, c2⟩ := key is 0 (by decide)
  simp only [Int.zero_add] at c1 c2
  rw [show start (.int 0) AggData.init.result = .int 0 from rfl, e]
  exact ⟨_, rfl, c1, c2⟩

/-- C47, SUM of finite numbers: the exact sum, if every number and every partial sum is a number a `double` can hold
and every partial sum fits in 64 bits. -/
theorem C47_sum_exact (vs : List Value) (qs : List Rat) (hq : (present vs).map ratOf = qs.map some) (hne : vs ≠ [])
    (hr : ∀ pre, pre <+: qs → F64.Representable (sumR pre) ∧ -9223372036854775808 ≤ sumR pre ∧ sumR pre ≤ 9223372036854775807)
    (hr' : ∀ q ∈ qs, F64.Representable q) :
    ∃ d, run L .sum false AggData.init vs = some d ∧ ratOf d.result = some (sumR qs) := by
  rw [run_sum vs _ hne]
  have key : ∀ (l : List Value) (qs : List Rat) (r : Value) (a : Rat), l.map ratOf = qs.map some → ratOf r = some a →
      (∀ pre, pre <+: qs → F64.Representable (a + sumR pre) ∧ -9223372036854775808 ≤ a + sumR pre ∧ a + sumR pre ≤ 9223372036854775807) →
      (∀ q ∈ qs, F64.Representable q) → ∃ r', l.foldlM (sumOp L) r = some r' ∧ ratOf r' = some (a + sumR qs) := by
    intro l
    induction l with
    | nil =>
      intro qs r a hl hra _ _
      have : qs = [] := by simpa using hl.symm
      subst this
      exact ⟨r, rfl, by simp [sumR, hra]⟩
    | cons v l ih =>
      intro qs r a hl hra hr hr'
      cases qs with
      | nil => simp at hl
      | cons q qs =>
        simp only [List.map_cons, List.cons.injEq] at hl
        obtain ⟨hv, hl⟩ := hl
        have ha : F64.Representable a := by simpa [sumR] using (hr [] List.nil_prefix).1
        have hs := hr [q] (List.cons_prefix_cons.2 ⟨rfl, List.nil_prefix⟩)
        simp only [sumR, Rat.add_zero] at hs
        have hqr : F64.Representable q := hr' q (by simp)
        have hadd : ∃ r1, sumOp L r v = some r1 ∧ ratOf r1 = some (a + q) := by
          have f1 : F64.add (.fin a) (.fin q) = .fin (a + q) := hs.1
          cases r <;> simp [ratOf] at hra <;> cases v <;> simp [ratOf] at hv
          · rename_i i j
            have hin : InI64 (i + j) := by
              have h1 : (((i + j : Int)) : Rat) = a + q := by rw [← hra, ← hv]; exact Rat.intCast_add i j
              have h2 := hs.2
              rw [← h1] at h2
              constructor
              · have := h2.1; exact_mod_cast this
              · have := h2.2; exact_mod_cast this
            refine ⟨.int (i + j), by simp [sumOp, isBadNull, isNumeric, start, isNull, Value.add, propagate, isEmpty, fit, hin], ?_⟩
            simp [ratOf, ← hra, ← hv]
          · rename_i i f
            cases f <;> simp at hv
            have : F64.ofInt i = .fin a := by rw [← hra] at ha ⊢; exact ha
            exact ⟨_, by simp [sumOp, isBadNull, isNumeric, start, isNull, Value.add, propagate, isEmpty, this, hv, f1]; rfl, rfl⟩
          · rename_i f i
            cases f <;> simp at hra
            have : F64.ofInt i = .fin q := by rw [← hv] at hqr ⊢; exact hqr
            exact ⟨_, by simp [sumOp, isBadNull, isNumeric, start, isNull, Value.add, propagate, isEmpty, this, hra, f1]; rfl, rfl⟩
          · rename_i f g
            cases f <;> simp at hra
            cases g <;> simp at hv
            exact ⟨_, by simp [sumOp, isBadNull, isNumeric, start, isNull, Value.add, propagate, isEmpty, hra, hv, f1]; rfl, rfl⟩
        obtain ⟨r1, e1, h1⟩ := hadd
        obtain ⟨r2, e2, h2⟩ := ih qs r1 (a + q) hl h1 (fun pre hp => by
          have := hr (q :: pre) (List.cons_prefix_cons.2 ⟨rfl, hp⟩)
          rwa [sumR, ← Rat.add_assoc] at this) (fun x hx => hr' x (List.mem_cons_of_mem _ hx))
        exact ⟨r2, by simp only [List.foldlM_cons, e1, Option.bind_eq_bind, Option.bind_some, e2], by rw [h2, sumR, Rat.add_assoc]⟩
  obtain ⟨r, e, c⟩ := key (present vs) qs (.int 0) 0 hq rfl (by simpa [Rat.zero_add] using hr) hr'
  rw [show start (.int 0) AggData.init.result = .int 0 from rfl, e]
  exact ⟨_, rfl, by rw [Rat.zero_add] at c; exact c⟩

/-! ## MAX, MIN -/

/-- MAX (`lt`) and MIN (flipped) on the result. -/
def extremeOp (lt : Value → Value → Bool) (r v : Value) : Value :=
  if r.isBadNull then r else if r.isNull then v else if lt r v then v else r

theorem run_max (vs : List Value) (d : AggData) :
    run L .max false d vs = some { d with result := (present vs).foldl (extremeOp Value.lt) d.result } := by
  by_cases h : vs = []
  · subst h; rfl
  · rw [run_fold id (fun r v => some (extremeOp Value.lt r v)) ?_ (fun _ => rfl) (fun _ _ _ => rfl) (fun _ _ _ _ _ => rfl) vs d h, foldlM_some]
    · rfl
    · intro d v
      simp only [step, maxStep, isPresent_eq, extremeOp]
      cases d.result.isBadNull <;> cases (v.isNull || v.isEmpty) <;> simp
      split
      · rfl
      · split <;> rfl

theorem run_min (vs : List Value) (d : AggData) :
    run L .min false d vs = some { d with result := (present vs).foldl (extremeOp fun a b => Value.lt b a) d.result } := by
  by_cases h : vs = []
  · subst h; rfl
  · rw [run_fold id (fun r v => some (extremeOp (fun a b => Value.lt b a) r v)) ?_ (fun _ => rfl) (fun _ _ _ => rfl) (fun _ _ _ _ _ => rfl) vs d h, foldlM_some]
    · rfl
    · intro d v
      simp only [step, minStep, isPresent_eq, extremeOp]
      cases d.result.isBadNull <;> cases (v.isNull || v.isEmpty) <;> simp
      split
      · rfl
      · split <;> rfl

theorem extreme_fold {lt : Value → Value → Bool} {S : Value → Prop} (hS : StrictWeakOrder lt S) :
    ∀ (l seen : List Value) (r : Value), (∀ v ∈ l, S v ∧ isPresent v = true) → (∀ v ∈ seen, S v) → isPresent r = true →
      Greatest lt seen r → Greatest lt (seen ++ l) (l.foldl (extremeOp lt) r)
  | [], seen, r, _, _, _, h => by simpa using h
  | v :: l, seen, r, hl, hs, hr, h => by
    have hv := hl v (by simp)
    have hrs : S r := hs r h.1
    obtain ⟨n1, n2⟩ := present_nullEmpty.1 hr
    have hb : r.isBadNull = false := by cases r <;> first | rfl | simp [isNull] at n1
    have hop : extremeOp lt r v = if lt r v then v else r := by simp [extremeOp, hb, n1]
    simp only [List.foldl_cons, hop]
    have hseen : ∀ x ∈ seen ++ [v], S x := by
      intro x hx
      rcases List.mem_append.1 hx with hx | hx
      · exact hs x hx
      · rw [List.mem_singleton.1 hx]; exact hv.1
    have step : Greatest lt (seen ++ [v]) (if lt r v then v else r) ∧ isPresent (if lt r v then v else r) = true := by
      cases hlt : lt r v with
      | false =>
        refine ⟨⟨by simpa using .inl h.1, ?_⟩, hr⟩
        intro x hx
        rcases List.mem_append.1 hx with hx | hx
        · exact h.2 x hx
        · rw [List.mem_singleton.1 hx]; exact hlt
      | true =>
        refine ⟨⟨by simp, ?_⟩, hv.2⟩
        intro x hx
        rcases List.mem_append.1 hx with hx | hx
        · cases hvx : lt v x with
          | false => simpa using hvx
          | true =>
            have := hS.trans r v x hrs hv.1 (hs x hx) hlt hvx
            rw [h.2 x hx] at this; cases this
        · rw [List.mem_singleton.1 hx]; exact hS.irrefl v hv.1
    have := extreme_fold hS l (seen ++ [v]) _ (fun x hx => hl x (List.mem_cons_of_mem _ hx)) hseen step.2 step.1
    simpa using this

/-- The reversed order. -/
theorem flip_order {lt : Value → Value → Bool} {S : Value → Prop} (h : StrictWeakOrder lt S) :
    StrictWeakOrder (fun a b => lt b a) S :=
  ⟨h.irrefl, fun a b ha hb hab => h.asymm b a hb ha hab, fun a b c ha hb hc h1 h2 => h.trans c b a hc hb ha h2 h1,
    fun a b c ha hb hc h1 h2 h3 h4 => (h.incomp_trans a b c ha hb hc h2 h1 h4 h3).symm⟩

theorem extreme_run {lt : Value → Value → Bool} {S : Value → Prop} (hS : StrictWeakOrder lt S) (vs : List Value)
    (h : ∀ v ∈ present vs, S v) :
    (present vs = [] → (present vs).foldl (extremeOp lt) (.null .null) = .null .null) ∧
    (present vs ≠ [] → Greatest lt (present vs) ((present vs).foldl (extremeOp lt) (.null .null))) := by
  have hp : ∀ v ∈ present vs, isPresent v = true := fun v hv => (List.mem_filter.1 hv).2
  cases hv : present vs with
  | nil => exact ⟨fun _ => rfl, fun h => absurd rfl h⟩
  | cons v l =>
    rw [hv] at h hp
    refine ⟨fun h => (by cases h), fun _ => ?_⟩
    have h0 : extremeOp lt (.null .null) v = v := by simp [extremeOp, isBadNull, isNull]
    rw [List.foldl_cons, h0]
    have hs := h v (by simp)
    exact extreme_fold hS l [v] v (fun x hx => ⟨h x (by simp [hx]), hp x (by simp [hx])⟩) (by simpa using hs) (hp v (by simp))
      ⟨by simp, by simpa using hS.irrefl v hs⟩

/-- C47, MAX and MIN: a greatest (least) of the values that are neither NULL nor EMPTY in the sort order of values, NULL if there
are none; for values on which that order is a strict weak order (C10 says which). -/
theorem C47_max_min {S : Value → Prop} (hS : StrictWeakOrder Value.lt S) (vs : List Value) (h : ∀ v ∈ present vs, S v) :
    (∃ d, run L .max false AggData.init vs = some d ∧ (present vs = [] → d.result = .null .null) ∧
      (present vs ≠ [] → Greatest Value.lt (present vs) d.result)) ∧
    (∃ d, run L .min false AggData.init vs = some d ∧ (present vs = [] → d.result = .null .null) ∧
      (present vs ≠ [] → Greatest (fun a b => Value.lt b a) (present vs) d.result)) :=
  ⟨⟨_, run_max vs _, extreme_run hS vs h⟩, ⟨_, run_min vs _, extreme_run (flip_order hS) vs h⟩⟩

/-- C47: the order in which values are fed does not matter for MAX and MIN: the results are not before or after each other. -/
theorem C47_max_min_order {S : Value → Prop} (hS : StrictWeakOrder Value.lt S) (vs ws : List Value) (hp : vs.Perm ws)
    (h : ∀ v ∈ present vs, S v) (f : Fn) (hf : f = .max ∨ f = .min) :
    ∃ d d', run L f false AggData.init vs = some d ∧ run L f false AggData.init ws = some d' ∧
      Value.lt d.result d'.result = false ∧ Value.lt d'.result d.result = false := by
  have hpp : (present vs).Perm (present ws) := hp.filter _
  have h' : ∀ v ∈ present ws, S v := fun v hv => h v (hpp.mem_iff.2 hv)
  obtain ⟨⟨d1, e1, a1, b1⟩, ⟨d2, e2, a2, b2⟩⟩ := C47_max_min (L := L) hS vs h
  obtain ⟨⟨d3, e3, a3, b3⟩, ⟨d4, e4, a4, b4⟩⟩ := C47_max_min (L := L) hS ws h'
  by_cases hn : present vs = []
  · have hn' : present ws = [] := by rw [hn] at hpp; exact hpp.symm.eq_nil
    rcases hf with rfl | rfl
    · exact ⟨d1, d3, e1, e3, by rw [a1 hn, a3 hn']; simp [lt_eqn], by rw [a1 hn, a3 hn']; simp [lt_eqn]⟩
    · exact ⟨d2, d4, e2, e4, by rw [a2 hn, a4 hn']; simp [lt_eqn], by rw [a2 hn, a4 hn']; simp [lt_eqn]⟩
  · have hn' : present ws ≠ [] := fun hh => hn (by rw [hh] at hpp; exact hpp.eq_nil)
    rcases hf with rfl | rfl
    · exact ⟨d1, d3, e1, e3, (b1 hn).2 _ (hpp.mem_iff.2 (b3 hn').1), (b3 hn').2 _ (hpp.mem_iff.1 (b1 hn).1)⟩
    · exact ⟨d2, d4, e2, e4, (b4 hn').2 _ (hpp.mem_iff.1 (b2 hn).1), (b2 hn).2 _ (hpp.mem_iff.2 (b4 hn').1)⟩

/-- C47 fails for not-a-number: MAX depends on the order of its input. -/
theorem C47_max_nan_violated :
    (∃ d, run L .max false AggData.init [.float .nan, .int 1] = some d ∧ d.result = .float .nan) ∧
    (∃ d, run L .max false AggData.init [.int 1, .float .nan] = some d ∧ d.result = .int 1) := by
  constructor
  · refine ⟨_, run_max _ _, ?_⟩
    have h1 : Value.lt (.float .nan) (.int 1) = false := by simp [lt_eqn, F64.lt]
    have h2 : present [.float .nan, .int 1] = [.float .nan, .int 1] := rfl
    rw [h2]
    simp [extremeOp, AggData.init, isBadNull, isNull, kNull, h1]
  · refine ⟨_, run_max _ _, ?_⟩
    have h1 : Value.lt (.int 1) (.float .nan) = false := by
      simp only [lt_eqn]; cases F64.ofInt 1 <;> rfl
    have h2 : present [.int 1, .float .nan] = [.int 1, .float .nan] := rfl
    rw [h2]
    simp [extremeOp, AggData.init, isBadNull, isNull, kNull, h1]

/-! ## BIT_AND, BIT_OR, BIT_XOR -/

/-- The bit functions on the result. -/
def bitOpR (op : Value → Value → Value) (r v : Value) : Value :=
  if r.isBadNull then r
  else if !(match v with | .int _ => true | _ => false) then kNullBadType
  else if r.isNull then v else op r v

theorem bitStep_eq (op : Value → Value → Value) (d : AggData) (v : Value) :
    some (bitStep op d v) = if isPresent v then (some (bitOpR op d.result v)).map fun r => { d with result := r } else some { d with result := id d.result } := by
  simp only [bitStep, bitOpR, Option.map_some]
  cases hb : d.result.isBadNull with
  | true => cases isPresent v <;> simp
  | false =>
    cases hn : d.result.isNull <;> cases v <;> simp [isPresent, isNull, isEmpty, hn]

theorem run_bit {f : Fn} {op : Value → Value → Value} (hf : ∀ d v, step L f d v = some (bitStep op d v)) (vs : List Value) (d : AggData) :
    run L f false d vs = some { d with result := (present vs).foldl (bitOpR op) d.result } := by
  by_cases h : vs = []
  · subst h; rfl
  · rw [run_fold id (fun r v => some (bitOpR op r v)) (fun d v => by rw [hf]; exact bitStep_eq op d v) (fun _ => rfl)
      (fun _ _ _ => rfl) (fun _ _ _ _ _ => rfl) vs d h, foldlM_some]
    rfl

theorem bit_fold {op : Value → Value → Value} {b : Bool → Bool → Bool}
    (hop : ∀ x y, InI64 x → InI64 y → ∃ z, op (.int x) (.int y) = .int z ∧ InI64 z ∧ ∀ k < 64, bit z k = b (bit x k) (bit y k)) :
    ∀ (is : List Int) (a : Int), InI64 a → (∀ i ∈ is, InI64 i) →
      ∃ z, (is.map Value.int).foldl (bitOpR op) (.int a) = .int z ∧ InI64 z ∧ ∀ k < 64, bit z k = is.foldl (fun x i => b x (bit i k)) (bit a k)
  | [], a, ha, _ => ⟨a, rfl, ha, fun _ _ => rfl⟩
  | i :: is, a, ha, hi => by
    obtain ⟨z, e, hz, hk⟩ := hop a i ha (hi i (by simp))
    obtain ⟨z', e', hz', hk'⟩ := bit_fold hop is z hz fun j hj => hi j (by simp [hj])
    refine ⟨z', ?_, hz', fun k h => ?_⟩
    · have : bitOpR op (.int a) (.int i) = .int z := by simp [bitOpR, isBadNull, isNull, e]
      rw [List.map_cons, List.foldl_cons, this, e']
    · rw [hk' k h, hk k h, List.foldl_cons]

theorem foldl_and (f : Int → Bool) : ∀ (is : List Int) (c : Bool), is.foldl (fun x j => x && f j) c = true ↔ c = true ∧ ∀ j ∈ is, f j = true
  | [], c => by simp
  | j :: is, c => by rw [List.foldl_cons, foldl_and f is]; simp [and_assoc]
theorem foldl_or (f : Int → Bool) : ∀ (is : List Int) (c : Bool), is.foldl (fun x j => x || f j) c = true ↔ c = true ∨ ∃ j ∈ is, f j = true
  | [], c => by simp
  | j :: is, c => by rw [List.foldl_cons, foldl_or f is]; simp [or_assoc]
theorem foldl_xor (f : Int → Bool) : ∀ (is : List Int) (c : Bool),
    is.foldl (fun x j => x != f j) c = true ↔ (is.countP f + if c then 1 else 0) % 2 = 1
  | [], c => by cases c <;> simp
  | j :: is, c => by
    rw [List.foldl_cons, foldl_xor f is, List.countP_cons]
    cases c <;> cases f j <;> simp <;> omega

/-- C47, BIT_AND, BIT_OR, BIT_XOR of integers: bit `k` of the result is set exactly if it is set in all, in some, in an odd number
of the values; NULL if there are none.  The right-hand sides do not depend on the order of the values, and the bits determine the result (C15). -/
theorem C47_bits (vs : List Value) (is : List Int) (hi : present vs = is.map .int) (h64 : ∀ i ∈ is, InI64 i) :
    (is = [] → ∀ f, f = .bitAnd ∨ f = .bitOr ∨ f = .bitXor → ∃ d, run L f false AggData.init vs = some d ∧ d.result = .null .null) ∧
    (is ≠ [] →
      (∃ d z, run L .bitAnd false AggData.init vs = some d ∧ d.result = .int z ∧ InI64 z ∧
        ∀ k < 64, (bit z k = true ↔ ∀ i ∈ is, bit i k = true)) ∧
      (∃ d z, run L .bitOr false AggData.init vs = some d ∧ d.result = .int z ∧ InI64 z ∧
        ∀ k < 64, (bit z k = true ↔ ∃ i ∈ is, bit i k = true)) ∧
      (∃ d z, run L .bitXor false AggData.init vs = some d ∧ d.result = .int z ∧ InI64 z ∧
        ∀ k < 64, (bit z k = true ↔ is.countP (fun i => bit i k) % 2 = 1))) := by
  constructor
  · rintro rfl f hf
    rcases hf with rfl | rfl | rfl
    · exact ⟨_, run_bit (op := Value.bitAnd) (fun _ _ => rfl) vs _, by rw [hi]; rfl⟩
    · exact ⟨_, run_bit (op := Value.bitOr) (fun _ _ => rfl) vs _, by rw [hi]; rfl⟩
    · exact ⟨_, run_bit (op := Value.bitXor) (fun _ _ => rfl) vs _, by rw [hi]; rfl⟩
  · intro hne
    cases is with
    | nil => exact absurd rfl hne
    | cons i is =>
      have h0 : ∀ op : Value → Value → Value, bitOpR op (.null .null) (.int i) = .int i := by
        intro op; simp [bitOpR, isBadNull, isNull]
      have hi0 := h64 i (by simp)
      have his : ∀ j ∈ is, InI64 j := fun j hj => h64 j (by simp [hj])
      have main : ∀ {f : Fn} {op : Value → Value → Value} {b : Bool → Bool → Bool}, (∀ d v, step L f d v = some (bitStep op d v)) →
          (∀ x y, InI64 x → InI64 y → ∃ z, op (.int x) (.int y) = .int z ∧ InI64 z ∧ ∀ k < 64, bit z k = b (bit x k) (bit y k)) →
          ∃ d z, run L f false AggData.init vs = some d ∧ d.result = .int z ∧ InI64 z ∧
            ∀ k < 64, bit z k = is.foldl (fun x j => b x (bit j k)) (bit i k) := by
        intro f op b hf hop
        obtain ⟨z, e, hz, hk⟩ := bit_fold hop is i hi0 his
        refine ⟨_, z, run_bit hf vs _, ?_, hz, hk⟩
        rw [hi, List.map_cons, List.foldl_cons]
        show (is.map Value.int).foldl (bitOpR op) (bitOpR op (.null .null) (.int i)) = _
        rw [h0, e]
      refine ⟨?_, ?_, ?_⟩
      · obtain ⟨d, z, h1, h2, h3, h4⟩ := main (f := .bitAnd) (op := Value.bitAnd) (b := fun x y => x && y) (fun _ _ => rfl) fun x y hx hy => (C15_bitwise x y hx hy).1
        refine ⟨d, z, h1, h2, h3, fun k hk => ?_⟩
        rw [h4 k hk]
        rw [foldl_and]; simp
      · obtain ⟨d, z, h1, h2, h3, h4⟩ := main (f := .bitOr) (op := Value.bitOr) (b := fun x y => x || y) (fun _ _ => rfl) fun x y hx hy => (C15_bitwise x y hx hy).2.1
        refine ⟨d, z, h1, h2, h3, fun k hk => ?_⟩
        rw [h4 k hk, foldl_or]; simp
      · obtain ⟨d, z, h1, h2, h3, h4⟩ := main (f := .bitXor) (op := Value.bitXor) (b := fun x y => x != y) (fun _ _ => rfl) fun x y hx hy => (C15_bitwise x y hx hy).2.2
        refine ⟨d, z, h1, h2, h3, fun k hk => ?_⟩
        rw [h4 k hk, foldl_xor, List.countP_cons]

/-! ## COLLECT, COLLECT_SET -/

theorem run_collect (vs : List Value) (l : List Value) (d : AggData) (hd : start (.list []) d.result = .list l) (hne : vs ≠ []) :
    run L .collect false d vs = some { d with result := .list (l ++ present vs) } := by
  induction vs generalizing l d with
  | nil => exact absurd rfl hne
  | cons v vs ih =>
    have hb : d.result.isBadNull = false := by
      cases h : d.result.isBadNull with
      | false => rfl
      | true =>
        rw [start_bad _ _ h] at hd
        rw [hd] at h; cases h
    have h1 : collectStep d v = { d with result := .list (l ++ present [v]) } := by
      simp only [collectStep, hb, Bool.false_eq_true, if_false, start_isNull _ _ hb, hd]
      cases v <;> first | rfl | (simp [isNull, isEmpty, present, List.filter_cons, isPresent]; done)
    simp only [run, feed, Bool.false_eq_true, if_false, step, h1]
    by_cases hn : vs = []
    · subst hn; rfl
    · rw [ih (l ++ present [v]) _ rfl hn]
      have : present (v :: vs) = present [v] ++ present vs := by simp [present, List.filter_cons]; split <;> simp
      simp [this]

/-- C47, COLLECT: the list of the values that are neither NULL nor EMPTY, in the order they were fed. -/
theorem C47_collect (vs : List Value) (hne : vs ≠ []) :
    ∃ d, run L .collect false AggData.init vs = some d ∧ d.result = .list (present vs) :=
  ⟨_, run_collect vs [] _ rfl hne, by simp⟩

/-- C47, COLLECT_SET: every element of the set is one of the values, every value equals an element (is one of them or equal
under the equality of values), and no two elements of the set are equal. -/
theorem C47_collect_set (vs : List Value) (hne : vs ≠ []) :
    ∃ d l, run L .collectSet false AggData.init vs = some d ∧ d.result = .set l ∧ l.Sublist (present vs) ∧
      (∀ v ∈ present vs, v ∈ l ∨ ∃ x ∈ l, Value.beq x v = true) ∧ l.Pairwise fun x y => Value.beq x y = false := by
  have key : ∀ (vs : List Value) (l seen : List Value) (d : AggData), start (.set []) d.result = .set l → vs ≠ [] →
      l.Sublist seen → (∀ v ∈ seen, v ∈ l ∨ ∃ x ∈ l, Value.beq x v = true) → (l.Pairwise fun x y => Value.beq x y = false) →
      ∃ d' l', run L .collectSet false d vs = some d' ∧ d'.result = .set l' ∧ l'.Sublist (seen ++ present vs) ∧
        (∀ v ∈ seen ++ present vs, v ∈ l' ∨ ∃ x ∈ l', Value.beq x v = true) ∧ l'.Pairwise fun x y => Value.beq x y = false := by
    intro vs
    induction vs with
    | nil => intro l seen d _ h; exact absurd rfl h
    | cons v vs ih =>
      intro l seen d hd _ hs hc hpw
      have hb : d.result.isBadNull = false := by
        cases h : d.result.isBadNull with
        | false => rfl
        | true =>
          rw [start_bad _ _ h] at hd
          rw [hd] at h; cases h
      have hcons : present (v :: vs) = present [v] ++ present vs := by simp [present, List.filter_cons]; split <;> simp
      have h1 : ∃ l1, collectSetStep d v = { d with result := .set l1 } ∧ l1.Sublist (seen ++ present [v]) ∧
          (∀ w ∈ seen ++ present [v], w ∈ l1 ∨ ∃ x ∈ l1, Value.beq x w = true) ∧ l1.Pairwise fun x y => Value.beq x y = false := by
        simp only [collectSetStep, hb, Bool.false_eq_true, if_false, start_isNull _ _ hb, hd]
        cases hv : isPresent v with
        | false =>
          have hp : present [v] = [] := by simp [present, hv]
          have hv' : (v.isNull || v.isEmpty) = true := by
            rw [isPresent_eq] at hv; cases h : (v.isNull || v.isEmpty) <;> simp [h] at hv ⊢
          exact ⟨l, by simp [hv'], by simpa [hp] using hs, by simpa [hp] using hc, hpw⟩
        | true =>
          have hp : present [v] = [v] := by simp [present, hv]
          obtain ⟨n1, n2⟩ := present_nullEmpty.1 hv
          refine ⟨setInsert l v, by simp [n1, n2], ?_, ?_, ?_⟩
          · rw [hp]; unfold setInsert; split
            · exact hs.trans (List.sublist_append_left _ _)
            · exact hs.append (List.Sublist.refl _)
          · rw [hp]
            intro w hw
            unfold setInsert
            split
            · rename_i hany
              rcases List.mem_append.1 hw with hw | hw
              · exact hc w hw
              · rw [List.mem_singleton.1 hw]
                right
                simpa using hany
            · rcases List.mem_append.1 hw with hw | hw
              · rcases hc w hw with h | ⟨x, hx, he⟩
                · exact .inl (by simp [h])
                · exact .inr ⟨x, by simp [hx], he⟩
              · exact .inl (by simpa using .inr (List.mem_singleton.1 hw))
          · unfold setInsert; split
            · exact hpw
            · rename_i hany
              rw [List.pairwise_append]
              refine ⟨hpw, by simp, ?_⟩
              intro x hx y hy
              rw [List.mem_singleton.1 hy]
              simp only [List.any_eq_true, not_exists, not_and] at hany
              simpa using hany x hx
      obtain ⟨l1, e1, a1, a2, a3⟩ := h1
      simp only [run, feed, Bool.false_eq_true, if_false, step, e1]
      by_cases hn : vs = []
      · subst hn
        exact ⟨_, l1, rfl, rfl, by simpa [hcons, present] using a1, by simpa [hcons, present] using a2, a3⟩
      · obtain ⟨d', l', e, b1, b2, b3, b4⟩ := ih l1 (seen ++ present [v]) { d with result := .set l1 } rfl hn a1 a2 a3
        exact ⟨d', l', e, b1, by simpa [hcons] using b2, by simpa [hcons, or_assoc] using b3, b4⟩
  obtain ⟨d, l, e, b1, b2, b3, b4⟩ := key vs [] [] AggData.init rfl hne (List.Sublist.refl _) (by simp) .nil
  exact ⟨d, l, e, b1, by simpa using b2, by simpa using b3, b4⟩

/-! ## Errors -/

theorem step_bad {f : Fn} (hf : f ≠ .none) {d : AggData} (hb : d.result.isBadNull = true) (v : Value) : step L f d v = some d := by
  cases f <;> first | exact absurd rfl hf | simp [step, countStep, sumStep, avgStep, maxStep, minStep, stdStep, bitStep, collectStep, collectSetStep, hb]

/-- C47: once the result is an error value it stays. -/
theorem C47_sticky {f : Fn} (hf : f ≠ .none) {d : AggData} (hb : ∃ n, d.result = .null n ∧ n ≠ .null) (vs : List Value) :
    run L f false d vs = some d := by
  have hb' : d.result.isBadNull = true := by
    obtain ⟨n, h, hn⟩ := hb
    rw [h]; cases n <;> first | exact absurd rfl hn | rfl
  induction vs with
  | nil => rfl
  | cons v vs ih => simp [run, feed, step_bad hf hb', ih]

/-- C47: SUM, AVG and STD over a value that is not a number, and the bit functions over a value that is not an integer, end in an
error value. -/
theorem C47_type_error {f : Fn} {v : Value} (hp : isPresent v = true)
    (hf : ((f = .sum ∨ f = .avg ∨ f = .std) ∧ v.isNumeric = false) ∨
      ((f = .bitAnd ∨ f = .bitOr ∨ f = .bitXor) ∧ ∀ i, v ≠ .int i))
    (pre post : List Value) {d0 d : AggData} (h : run L f false d0 (pre ++ v :: post) = some d) :
    ∃ n, d.result = .null n ∧ n ≠ .null := by
  have hne : f ≠ .none := by rcases hf with ⟨h | h | h, _⟩ | ⟨h | h | h, _⟩ <;> simp [h]
  obtain ⟨n1, n2⟩ := present_nullEmpty.1 hp
  have hstep : ∀ d, ∃ d' n, step L f d v = some d' ∧ d'.result = .null n ∧ n ≠ .null := by
    intro d
    cases hb : d.result.isBadNull with
    | true =>
      have : ∃ n, d.result = .null n ∧ n ≠ .null := by
        cases hr : d.result <;> rw [hr] at hb <;> first | cases hb | skip
        rename_i n
        exact ⟨n, rfl, by rintro rfl; cases hb⟩
      obtain ⟨n, a, b⟩ := this
      exact ⟨d, n, step_bad hne hb v, a, b⟩
    | false =>
      refine ⟨{ d with result := kNullBadType }, .badType, ?_, rfl, by simp⟩
      rcases hf with ⟨h | h | h, hv⟩ | ⟨h | h | h, hv⟩ <;> subst h <;>
        simp [step, sumStep, avgStep, stdStep, bitStep, hb, n1, n2] <;> first | simp [hv] | skip
      all_goals (cases v <;> first | exact absurd rfl (hv _) | rfl | (simp; done))
  induction pre generalizing d0 with
  | nil =>
    obtain ⟨d', n, e, a, b⟩ := hstep d0
    simp only [List.nil_append, run, feed, Bool.false_eq_true, if_false, e] at h
    rw [C47_sticky hne ⟨n, a, b⟩] at h
    cases h
    exact ⟨n, a, b⟩
  | cons w pre ih =>
    simp only [List.cons_append, run, feed, Bool.false_eq_true, if_false] at h
    cases hs : step L f d0 w with
    | none => rw [hs] at h; cases h
    | some d1 => rw [hs] at h; exact ih h

/-! ## AVG -/

/-- Adding a number to a `double` accumulator. -/
theorem add_float {fmt : F64 → Bytes} {a q : Rat} {v : Value} (hv : ratOf v = some q) (hq : F64.Representable q)
    (hs : F64.Representable (a + q)) : Value.add fmt (.float (.fin a)) v = some (.float (.fin (a + q))) := by
  have f1 : F64.add (.fin a) (.fin q) = .fin (a + q) := hs
  cases v <;> simp [ratOf] at hv
  · rename_i i
    have : F64.ofInt i = .fin q := by rw [← hv] at hq ⊢; exact hq
    simp [Value.add, propagate, isNull, isEmpty, this, f1]
  · rename_i f
    cases f <;> simp at hv
    simp [Value.add, propagate, isNull, isEmpty, hv, f1]

theorem ratOf_numeric {v : Value} {q : Rat} (h : ratOf v = some q) : v.isNumeric = true ∧ isPresent v = true := by
  cases v <;> simp [ratOf] at h <;> simp [isNumeric, isPresent]

theorem succ_rep (k : Nat) (hk : k < 2 ^ 53) : F64.Representable (((k : Int) : Rat) + 1) := by
  have h := F64.ofInt_small ((k : Int) + 1) (by omega) (by omega)
  unfold F64.Representable
  have e : ((((k : Int) + 1 : Int)) : Rat) = ((k : Int) : Rat) + 1 := by rw [Rat.intCast_add]; rfl
  rw [← e]; exact h

theorem div_count (a : Rat) (k : Nat) :
    Value.div (.float (.fin a)) (.float (.fin (((k : Int) : Rat) + 1))) = some (.float (F64.round (a / (((k : Int) : Rat) + 1)))) := by
  have h0 : (0 : Rat) ≤ ((k : Int) : Rat) := by exact_mod_cast Int.natCast_nonneg k
  have h1 : (1 : Rat) ≤ ((k : Int) : Rat) + 1 := by linarith
  have habs : F64.abs (.fin (((k : Int) : Rat) + 1)) = .fin (((k : Int) : Rat) + 1) := by
    simp [F64.abs]; intro h; linarith
  have heps : F64.lt F64.eps (.fin (((k : Int) : Rat) + 1)) = true := by
    have h : F64.lt F64.eps (.fin 1) = true := by decide +kernel
    generalize F64.eps = e at h ⊢
    cases e with
    | nan => simp [F64.lt] at h
    | inf s => exact h
    | fin e => simp [F64.lt] at h ⊢; linarith
  have hne : ((k : Int) : Rat) + 1 ≠ 0 := by intro h; linarith
  generalize ((k : Int) : Rat) + 1 = c at *
  simp [Value.div, propagate, isNull, isEmpty, habs, heps, F64.div, hne]

theorem avg_step (d : AggData) (v : Value) (q a : Rat) (k : Nat) (hk : k < 2 ^ 53) (hv : ratOf v = some q) (hq : F64.Representable q)
    (hs : F64.Representable (a + q)) (hb : d.result.isBadNull = false)
    (hd : (d.result.isNull = true ∧ a = 0 ∧ k = 0) ∨ (d.result.isNull = false ∧ d.sum = .float (.fin a) ∧ d.cnt = .float (.fin ((k : Int) : Rat)))) :
    avgStep L d v = some { d with sum := .float (.fin (a + q)), cnt := .float (.fin (((k : Int) : Rat) + 1)),
                                  result := .float (F64.round ((a + q) / (((k : Int) : Rat) + 1))) } := by
  obtain ⟨hn, hp⟩ := ratOf_numeric hv
  obtain ⟨n1, n2⟩ := present_nullEmpty.1 hp
  have hc : Value.add L.fmt (.float (.fin ((k : Int) : Rat))) (.int 1) = some (.float (.fin (((k : Int) : Rat) + 1))) :=
    add_float (by simp [ratOf]) (by decide +kernel) (succ_rep k hk)
  have h1 : (if d.result.isNull then Value.float (.fin 0) else d.sum) = .float (.fin a) := by
    rcases hd with ⟨h, rfl, rfl⟩ | ⟨h, h1, h2⟩
    · simp [h]
    · simp [h, h1]
  have h2 : (if d.result.isNull then Value.float (.fin 0) else d.cnt) = .float (.fin ((k : Int) : Rat)) := by
    rcases hd with ⟨h, rfl, rfl⟩ | ⟨h, h1, h2⟩
    · simp [h]
    · simp [h, h2]
  simp only [avgStep, hb, n1, n2, hn, h1, h2, add_float hv hq hs, hc, div_count, Bool.false_eq_true, if_false, Bool.not_true, Bool.and_false, Bool.or_self, Option.map_some]

theorem avg_skip (d : AggData) (v : Value) (hp : isPresent v = false) : avgStep L d v = some d := by
  cases v <;> simp [isPresent] at hp <;> simp [avgStep, isNull, isEmpty]

theorem run_skip_avg (vs : List Value) (d : AggData) : run L .avg false d vs = run L .avg false d (present vs) := by
  induction vs generalizing d with
  | nil => rfl
  | cons v vs ih =>
    cases hp : isPresent v with
    | false =>
      have : present (v :: vs) = present vs := by simp [present, hp]
      rw [this, ← ih]
      simp [run, feed, step, avg_skip d v hp]
    | true =>
      have : present (v :: vs) = v :: present vs := by simp [present, hp]
      rw [this]
      simp only [run]
      cases feed L .avg false d v with
      | none => rfl
      | some d' => exact ih d'

/-- C47, AVG of finite numbers: the sum divided by the number of values, rounded once to a `double`, if every number and every
partial sum is a number a `double` can hold. -/
theorem C47_avg (vs : List Value) (qs : List Rat) (hq : (present vs).map ratOf = qs.map some) (hne : qs ≠ [])
    (hlen : qs.length ≤ 2 ^ 53) (hr : ∀ pre, pre <+: qs → F64.Representable (sumR pre)) (hr' : ∀ q ∈ qs, F64.Representable q) :
    ∃ d, run L .avg false AggData.init vs = some d ∧ d.result = .float (F64.round (sumR qs / ((qs.length : Int) : Rat))) := by
  rw [run_skip_avg]
  have key : ∀ (l : List Value) (qs : List Rat) (d : AggData) (a : Rat) (k : Nat), l.map ratOf = qs.map some →
      (∀ pre, pre <+: qs → F64.Representable (a + sumR pre)) → (∀ q ∈ qs, F64.Representable q) → k + qs.length ≤ 2 ^ 53 →
      d.result.isBadNull = false →
      ((d.result.isNull = true ∧ a = 0 ∧ k = 0) ∨ (d.result.isNull = false ∧ d.sum = .float (.fin a) ∧ d.cnt = .float (.fin ((k : Int) : Rat)))) →
      ∃ d', run L .avg false d l = some d' ∧
        (qs ≠ [] → d'.result = .float (F64.round ((a + sumR qs) / (((k + qs.length : Nat) : Int) : Rat)))) := by
    intro l
    induction l with
    | nil =>
      intro qs d a k hl _ _ _ _ _
      have : qs = [] := by simpa using hl.symm
      exact ⟨d, rfl, fun h => absurd this h⟩
    | cons v l ih =>
      intro qs d a k hl hr hr' hk hb hd
      cases qs with
      | nil => simp at hl
      | cons q qs =>
        simp only [List.map_cons, List.cons.injEq] at hl
        obtain ⟨hv, hl⟩ := hl
        simp only [List.length_cons] at hk
        have hs := hr [q] (List.cons_prefix_cons.2 ⟨rfl, List.nil_prefix⟩)
        simp only [sumR, Rat.add_zero] at hs
        have e := avg_step (L := L) d v q a k (by omega) hv (hr' q (by simp)) hs hb hd
        have hcast : (((k + 1 : Nat) : Int) : Rat) = ((k : Int) : Rat) + 1 := by push_cast; rfl
        obtain ⟨d', e', h'⟩ := ih qs
          { d with sum := .float (.fin (a + q)), cnt := .float (.fin (((k : Int) : Rat) + 1)), result := .float (F64.round ((a + q) / (((k : Int) : Rat) + 1))) }
          (a + q) (k + 1) hl (fun pre hp => by
            have := hr (q :: pre) (List.cons_prefix_cons.2 ⟨rfl, hp⟩)
            rwa [sumR, ← Rat.add_assoc] at this) (fun x hx => hr' x (List.mem_cons_of_mem _ hx)) (by omega)
          (show (Value.float (F64.round ((a + q) / (((k : Int) : Rat) + 1)))).isBadNull = false from rfl)
          (.inr ⟨rfl, rfl, by rw [hcast]⟩)
        refine ⟨d', by simp only [run, feed, Bool.false_eq_true, if_false, step, e, e'], fun _ => ?_⟩
        by_cases hn : qs = []
        · subst hn
          cases l with
          | nil =>
            simp only [run, Option.some.injEq] at e'
            rw [← e']
            simp only [sumR, Rat.add_zero, List.length_cons, List.length_nil, Nat.zero_add, hcast]
          | cons _ _ => simp at hl
        · rw [h' hn, sumR, Rat.add_assoc]
          simp only [List.length_cons, Nat.add_assoc, Nat.add_comm 1]
  obtain ⟨d, e, h⟩ := key (present vs) qs AggData.init 0 0 hq (by simpa [Rat.zero_add] using hr) hr' (by omega) rfl (.inl ⟨rfl, rfl, rfl⟩)
  refine ⟨d, e, ?_⟩
  rw [h hne, Rat.zero_add, Nat.zero_add]

/-! ## STD -/

/-- C47, STD of one number and of two: the square root of the population variance, if the numbers the formula goes through
are numbers a `double` can hold. -/
theorem C47_std_two (x y : Rat) (hx : F64.Representable x) (hy : F64.Representable y) (h1 : F64.Representable (y - x))
    (h2 : F64.Representable ((y - x) * (y - x))) (h3 : F64.Representable (((y - x) * (y - x)) / 4))
    (h4 : F64.Representable (-x)) (h5 : F64.Representable (x * x)) :
    (∃ d, run L .std false AggData.init [.float (.fin x)] = some d ∧ d.result = .float (L.sqrt (.fin 0))) ∧
    (∃ d, run L .std false AggData.init [.float (.fin x), .float (.fin y)] = some d ∧
      d.result = .float (L.sqrt (.fin (((x - (x + y) / 2) ^ 2 + (y - (x + y) / 2) ^ 2) / 2)))) := by
  have one : F64.ofInt 1 = .fin 1 := by decide +kernel
  have e1 : F64.lt F64.eps (.fin 1) = true := by decide +kernel
  have e2 : F64.lt F64.eps (.fin 2) = true := by decide +kernel
  have e4 : F64.lt F64.eps (.fin 4) = true := by decide +kernel
  have r0 : F64.round 0 = .fin 0 := rfl
  have r1 : F64.round 1 = .fin 1 := by decide +kernel
  have r2 : F64.round 2 = .fin 2 := by decide +kernel
  have r4 : F64.round 4 = .fin 4 := by decide +kernel
  have r12 : F64.round (1 / 2) = .fin (1 / 2) := by decide +kernel
  have r14 : F64.round (1 / 4) = .fin (1 / 4) := by decide +kernel
  have fadd : ∀ a b : Rat, F64.add (.fin a) (.fin b) = F64.round (a + b) := fun _ _ => rfl
  have fsub : ∀ a b : Rat, F64.sub (.fin a) (.fin b) = F64.round (a + -b) := fun _ _ => rfl
  have fmul : ∀ a b : Rat, F64.mul (.fin a) (.fin b) = F64.round (a * b) := fun _ _ => rfl
  have fdiv : ∀ a b : Rat, b ≠ 0 → F64.div (.fin a) (.fin b) = F64.round (a / b) := fun a b h => by simp [F64.div, h]
  have abs : ∀ a : Rat, 0 ≤ a → F64.abs (.fin a) = .fin a := fun a h => by simp [F64.abs]; intro h'; linarith
  have hx' : F64.round x = .fin x := hx
  have hxx : F64.round (x * x) = .fin (x * x) := h5
  have s1 : stdStep L AggData.init (.float (.fin x)) =
      some { AggData.init with cnt := .float (.fin 1), avg := .float (.fin x), deviation := .float (.fin 0), result := .float (L.sqrt (.fin 0)) } := by
    simp [stdStep, AggData.init, kNull, isBadNull, isNull, isEmpty, isNumeric, newDeviation, Value.add, Value.sub, Value.mul, Value.div, propagate, one,
      fadd, fsub, fmul, fdiv, r0, r1, abs, e1, hx', hxx]
  refine ⟨⟨_, by simp only [run, feed, step, s1, Bool.false_eq_true, if_false]; rfl, rfl⟩, ?_⟩
  have hyx : F64.round (y + -x) = .fin (y - x) := by rw [← sub_eq_add_neg]; exact h1
  have hyy : F64.round ((y - x) * (y - x)) = .fin ((y - x) * (y - x)) := h2
  have hq : F64.round (1 / 4 * ((y - x) * (y - x))) = .fin ((y - x) * (y - x) / 4) := by
    rw [show (1 / 4 * ((y - x) * (y - x)) : Rat) = (y - x) * (y - x) / 4 by ring]; exact h3
  have hq' : F64.round ((y - x) * (y - x) / 4) = .fin ((y - x) * (y - x) / 4) := h3
  have s2 : ∃ a, stdStep L { AggData.init with cnt := .float (.fin 1), avg := .float (.fin x), deviation := .float (.fin 0), result := .float (L.sqrt (.fin 0)) } (.float (.fin y)) =
      some { AggData.init with cnt := .float (.fin 2), avg := a, deviation := .float (.fin ((y - x) * (y - x) / 4)), result := .float (L.sqrt (.fin ((y - x) * (y - x) / 4))) } := by
    have n1 : (1 : Rat) + 1 = 2 := by norm_num
    have n2 : (2 : Rat) + -1 = 1 := by norm_num
    have n3 : (2 : Rat) * 2 = 4 := by norm_num
    have n4 : (2 : Rat)⁻¹ = 1 / 2 := by norm_num
    have v1 : Value.add L.fmt (.float (.fin 1)) (.int 1) = some (.float (.fin 2)) := by
      show some (Value.float (F64.add (.fin 1) (F64.ofInt 1))) = _; rw [one, fadd, n1, r2]
    have v2 : Value.sub (.float (.fin 2)) (.int 1) = some (.float (.fin 1)) := by
      show some (Value.float (F64.sub (.fin 2) (F64.ofInt 1))) = _; rw [one, fsub, n2, r1]
    have v3 : Value.mul (.float (.fin 2)) (.float (.fin 2)) = some (.float (.fin 4)) := by
      show some (Value.float (F64.mul (.fin 2) (.fin 2))) = _; rw [fmul, n3, r4]
    have v4 : Value.div (.float (.fin 1)) (.float (.fin 4)) = some (.float (.fin (1 / 4))) := by
      show some (if F64.lt F64.eps (F64.abs (.fin 4)) then Value.float (F64.div (.fin 1) (.fin 4)) else kNullDivByZero) = _
      rw [abs 4 (by norm_num), if_pos e4, fdiv _ 4 (by norm_num), r14]
    have v5 : Value.sub (.float (.fin y)) (.float (.fin x)) = some (.float (.fin (y - x))) := by
      show some (Value.float (F64.sub (.fin y) (.fin x))) = _; rw [fsub, hyx]
    have v6 : Value.mul (.float (.fin (y - x))) (.float (.fin (y - x))) = some (.float (.fin ((y - x) * (y - x)))) := by
      show some (Value.float (F64.mul (.fin (y - x)) (.fin (y - x)))) = _; rw [fmul, hyy]
    have v7 : Value.mul (.float (.fin (1 / 4))) (.float (.fin ((y - x) * (y - x)))) = some (.float (.fin ((y - x) * (y - x) / 4))) := by
      show some (Value.float (F64.mul (.fin (1 / 4)) (.fin ((y - x) * (y - x))))) = _; rw [fmul, hq]
    have v8 : ∀ b, Value.div (.float (.fin b)) (.float (.fin 2)) = some (.float (F64.round (b / 2))) := by
      intro b
      show some (if F64.lt F64.eps (F64.abs (.fin 2)) then Value.float (F64.div (.fin b) (.fin 2)) else kNullDivByZero) = _
      rw [abs 2 (by norm_num), if_pos e2, fdiv _ 2 (by norm_num)]
    have v9 : Value.mul (.float (.fin (1 / 2))) (.float (.fin 0)) = some (.float (.fin 0)) := by
      show some (Value.float (F64.mul (.fin (1 / 2)) (.fin 0))) = _; rw [fmul, mul_zero, r0]
    have v10 : Value.add L.fmt (.float (.fin ((y - x) * (y - x) / 4))) (.float (.fin 0)) = some (.float (.fin ((y - x) * (y - x) / 4))) := by
      show some (Value.float (F64.add (.fin ((y - x) * (y - x) / 4)) (.fin 0))) = _; rw [fadd, add_zero, hq']
    have v11 : newDeviation L (.float (.fin 2)) (.float (.fin x)) (.float (.fin 0)) (.float (.fin y)) = some (.float (.fin ((y - x) * (y - x) / 4))) := by
      simp only [newDeviation, v2, v3, v4, v5, v6, v7, v8, r12, v9, v10, Option.bind_eq_bind, Option.bind_some]
    have v12 : ∀ f, Value.add L.fmt (.float (.fin x)) (.float f) = some (.float (F64.add (.fin x) f)) := fun _ => rfl
    simp only [stdStep, AggData.init, isBadNull, isNull, isEmpty, isNumeric, v1, v5, v8, v11, v12, Option.bind_eq_bind, Option.bind_some,
      Bool.false_eq_true, if_false, Bool.not_false, Bool.not_true, Bool.and_false, Bool.or_self]
    exact ⟨_, rfl⟩
  obtain ⟨a, s2⟩ := s2
  refine ⟨_, by simp only [run, feed, step, s1, s2, Bool.false_eq_true, if_false]; rfl, ?_⟩
  show Value.float (L.sqrt (.fin ((y - x) * (y - x) / 4))) = _
  congr 3
  ring

/-! ## DISTINCT -/

theorem step_uniques (f : Fn) (d : AggData) (u : List Value) (v : Value) :
    step L f { d with uniques := u } v = (step L f d v).map fun x => { x with uniques := u } := by
  cases f <;> simp only [step, countStep, sumStep, avgStep, maxStep, minStep, stdStep, bitStep, collectStep, collectSetStep] <;>
    repeat' (first | rfl | split | (simp [Option.map_bind, Function.comp_def]; done))

theorem step_keeps (f : Fn) {d d' : AggData} {v : Value} (h : step L f d v = some d') : d'.uniques = d.uniques := by
  have := step_uniques (L := L) f d d.uniques v
  rw [show ({ d with uniques := d.uniques } : AggData) = d from rfl, h] at this
  simp only [Option.map_some, Option.some.injEq] at this
  rw [this]

/-- C47, DISTINCT: the aggregate of the values without repetitions. -/
theorem C47_distinct (f : Fn) (vs : List Value) :
    (run L f true AggData.init vs).map AggData.result =
      (run L f false AggData.init (firsts Value.beq [] vs)).map AggData.result := by
  have key : ∀ (vs : List Value) (d e : AggData), d = { e with uniques := d.uniques } →
      (run L f true d vs).map AggData.result = (run L f false e (firsts Value.beq d.uniques vs)).map AggData.result := by
    intro vs
    induction vs with
    | nil => intro d e h; simp only [run, firsts, Option.map_some]; rw [h]
    | cons v vs ih =>
      intro d e h
      simp only [run, feed, if_true, firsts]
      by_cases hany : ∃ x ∈ d.uniques, Value.beq x v = true
      · rw [if_pos hany]
        have : (d.uniques.any fun x => Value.beq x v) = true := by simpa using hany
        simp only [this, if_true]
        exact ih d e h
      · rw [if_neg hany]
        have : (d.uniques.any fun x => Value.beq x v) = false := by simpa using hany
        simp only [this, Bool.false_eq_true, if_false, run, feed]
        have hs := step_uniques (L := L) f e (d.uniques ++ [v]) v
        rw [show ({ d with uniques := d.uniques ++ [v] } : AggData) = { e with uniques := d.uniques ++ [v] } by
          conv_lhs => rw [h]]
        rw [hs]
        cases he : step L f e v with
        | none => rfl
        | some e' =>
          simp only [Option.map_some]
          have := ih { e' with uniques := d.uniques ++ [v] } e' rfl
          exact this
  exact key vs AggData.init AggData.init rfl

/-! ## Order of the input -/

/-- C47: the order in which values are fed does not matter for COUNT and, on integers, for the bit functions. -/
theorem C47_order (vs ws : List Value) (hp : vs.Perm ws) (f : Fn)
    (hf : (f = .count ∧ vs.length < 2 ^ 63) ∨
      ((f = .bitAnd ∨ f = .bitOr ∨ f = .bitXor) ∧ ∃ is : List Int, present vs = is.map .int ∧ ∀ i ∈ is, InI64 i)) :
    ∃ d d', run L f false AggData.init vs = some d ∧ run L f false AggData.init ws = some d' ∧ d.result = d'.result := by
  have hpp : (present vs).Perm (present ws) := hp.filter _
  rcases hf with ⟨rfl, hlen⟩ | ⟨hf, is, hi, h64⟩
  · by_cases hn : vs = []
    · subst hn; rw [hp.symm.eq_nil]; exact ⟨_, _, rfl, rfl, rfl⟩
    · have hn' : ws ≠ [] := fun h => hn (by rw [h] at hp; exact hp.eq_nil)
      have hl : (present vs).length ≤ vs.length := List.length_filter_le _ _
      obtain ⟨d, e, h⟩ := C47_count (L := L) vs hn (by omega)
      obtain ⟨d', e', h'⟩ := C47_count (L := L) ws hn' (by rw [← hpp.length_eq]; omega)
      exact ⟨d, d', e, e', by rw [h, h', hpp.length_eq]⟩
  · obtain ⟨js, hj, hjp⟩ : ∃ js : List Int, present ws = js.map .int ∧ is.Perm js := by
      have toInt : ∀ l : List Value, (∀ v ∈ l, ∃ i, v = .int i) → ∃ js : List Int, l = js.map .int := by
        intro l
        induction l with
        | nil => intro _; exact ⟨[], rfl⟩
        | cons v l ih =>
          intro h
          obtain ⟨i, rfl⟩ := h v (by simp)
          obtain ⟨js, rfl⟩ := ih fun w hw => h w (by simp [hw])
          exact ⟨i :: js, rfl⟩
      obtain ⟨js, hj⟩ := toInt (present ws) (by
        intro v hv
        have := hpp.mem_iff.2 hv
        rw [hi] at this
        obtain ⟨i, _, rfl⟩ := List.mem_map.1 this
        exact ⟨i, rfl⟩)
      refine ⟨js, hj, ?_⟩
      rw [hi, hj] at hpp
      have := hpp.map (fun v : Value => match v with | .int i => i | _ => 0)
      simpa [List.map_map, Function.comp_def] using this
    have h64' : ∀ i ∈ js, InI64 i := fun i hi => h64 i (hjp.mem_iff.2 hi)
    obtain ⟨a1, a2⟩ := C47_bits (L := L) vs is hi h64
    obtain ⟨b1, b2⟩ := C47_bits (L := L) ws js hj h64'
    by_cases hn : is = []
    · have hn' : js = [] := by rw [hn] at hjp; exact hjp.symm.eq_nil
      obtain ⟨d, e, h⟩ := a1 hn f hf
      obtain ⟨d', e', h'⟩ := b1 hn' f hf
      exact ⟨d, d', e, e', by rw [h, h']⟩
    · have hn' : js ≠ [] := fun h => hn (by rw [h] at hjp; exact hjp.eq_nil)
      obtain ⟨⟨d1, z1, e1, r1, i1, k1⟩, ⟨d2, z2, e2, r2, i2, k2⟩, ⟨d3, z3, e3, r3, i3, k3⟩⟩ := a2 hn
      obtain ⟨⟨d1', z1', e1', r1', i1', k1'⟩, ⟨d2', z2', e2', r2', i2', k2'⟩, ⟨d3', z3', e3', r3', i3', k3'⟩⟩ := b2 hn'
      rcases hf with rfl | rfl | rfl
      · refine ⟨d1, d1', e1, e1', ?_⟩
        rw [r1, r1', C15_bits_determine z1 z1' i1 i1' fun k hk => by
          rw [Bool.eq_iff_iff, k1 k hk, k1' k hk]
          exact ⟨fun h i hi => h i (hjp.mem_iff.2 hi), fun h i hi => h i (hjp.mem_iff.1 hi)⟩]
      · refine ⟨d2, d2', e2, e2', ?_⟩
        rw [r2, r2', C15_bits_determine z2 z2' i2 i2' fun k hk => by
          rw [Bool.eq_iff_iff, k2 k hk, k2' k hk]
          exact ⟨fun ⟨i, hi, h⟩ => ⟨i, hjp.mem_iff.1 hi, h⟩, fun ⟨i, hi, h⟩ => ⟨i, hjp.mem_iff.2 hi, h⟩⟩]
      · refine ⟨d3, d3', e3, e3', ?_⟩
        rw [r3, r3', C15_bits_determine z3 z3' i3 i3' fun k hk => by
          rw [Bool.eq_iff_iff, k3 k hk, k3' k hk, hjp.countP_eq]]

/-! ## Definedness -/

/-- What holds of the record between calls. -/
def Good (f : Fn) (d : AggData) : Prop := match f with
  | .count | .sum => d.result.isNull = true ∨ d.result.isNumeric = true
  | .avg => d.result.isNull = true ∨ ∃ a b, d.sum = .float a ∧ d.cnt = .float b
  | .std => d.result.isNull = true ∨ ∃ a b c, d.cnt = .float a ∧ d.avg = .float b ∧ d.deviation = .float c
  | _ => True

theorem add_numeric {fmt : F64 → Bytes} {a b : Value} (ha : a.isNumeric = true) (hb : b.isNumeric = true) :
    ∃ r, Value.add fmt a b = some r ∧ (r.isNull = true ∨ r.isNumeric = true) := by
  cases a <;> simp [isNumeric] at ha <;> cases b <;> simp [isNumeric] at hb <;>
    first
    | (exact ⟨_, rfl, .inr rfl⟩)
    | skip
  rename_i i j
  refine ⟨fit (i + j), rfl, ?_⟩
  unfold fit
  split
  · exact .inr rfl
  · exact .inl rfl

theorem float_add {fmt : F64 → Bytes} (a : F64) {v : Value} (hv : v.isNumeric = true) :
    ∃ c, Value.add fmt (.float a) v = some (.float c) := by
  cases v <;> simp [isNumeric] at hv <;> exact ⟨_, rfl⟩

theorem sub_float (a : F64) {v : Value} (hv : v.isNumeric = true) : ∃ c, Value.sub v (.float a) = some (.float c) := by
  cases v <;> simp [isNumeric] at hv <;> exact ⟨_, rfl⟩

theorem float_div (a b : F64) : Value.div (.float a) (.float b) = some kNullDivByZero ∨ ∃ c, Value.div (.float a) (.float b) = some (.float c) := by
  show some (if F64.lt F64.eps (F64.abs b) then Value.float (F64.div a b) else kNullDivByZero) = _ ∨
    ∃ c, some (if F64.lt F64.eps (F64.abs b) then Value.float (F64.div a b) else kNullDivByZero) = _
  split
  · exact .inr ⟨_, rfl⟩
  · exact .inl rfl

/-- The new deviation is always defined; it is NULL if dividing by the count fails. -/
theorem deviation_total (e b c : F64) {v : Value} (hv : v.isNumeric = true) :
    ∃ dev, newDeviation L (.float e) (.float b) (.float c) v = some dev ∧
      ((∃ n, dev = .null n) ∨ ∃ f, dev = .float f ∧ ∀ x, ∃ g, Value.div (.float x) (.float e) = some (.float g)) := by
  obtain ⟨x, hx⟩ := sub_float b hv
  have vmul : ∀ p q, Value.mul (.float p) (.float q) = some (.float (F64.mul p q)) := fun _ _ => rfl
  have vsub : ∀ p, Value.sub (.float p) (.int 1) = some (.float (F64.sub p (F64.ofInt 1))) := fun _ => rfl
  have nmul : ∀ n q, Value.mul (.null n) (.float q) = some (.null n) := fun n _ => by cases n <;> rfl
  simp only [newDeviation, Option.bind_eq_bind, Option.bind_some, vsub, vmul, hx]
  by_cases he : F64.lt F64.eps (F64.abs e) = true
  · have hd : ∀ x, Value.div (.float x) (.float e) = some (.float (F64.div x e)) := by
      intro x
      show some (if F64.lt F64.eps (F64.abs e) then Value.float (F64.div x e) else kNullDivByZero) = _
      rw [if_pos he]
    rcases float_div (F64.sub e (F64.ofInt 1)) (F64.mul e e) with q1 | ⟨g1, q1⟩
    · simp only [q1, hd, Option.bind_some, vmul, kNullDivByZero, nmul]
      exact ⟨.null .divByZero, rfl, .inl ⟨_, rfl⟩⟩
    · simp only [q1, hd, Option.bind_some, vmul]
      exact ⟨_, rfl, .inr ⟨_, rfl, fun x => ⟨_, rfl⟩⟩⟩
  · have hd : ∀ x, Value.div (.float x) (.float e) = some kNullDivByZero := by
      intro x
      show some (if F64.lt F64.eps (F64.abs e) then Value.float (F64.div x e) else kNullDivByZero) = _
      rw [if_neg he]
    rcases float_div (F64.sub e (F64.ofInt 1)) (F64.mul e e) with q1 | ⟨g1, q1⟩
    · simp only [q1, hd, Option.bind_some, vmul, kNullDivByZero, nmul]
      exact ⟨.null .divByZero, rfl, .inl ⟨_, rfl⟩⟩
    · simp only [q1, hd, Option.bind_some, vmul, kNullDivByZero, nmul]
      exact ⟨.null .divByZero, rfl, .inl ⟨_, rfl⟩⟩

theorem good_step (f : Fn) (d : AggData) (v : Value) (h : Good f d) : ∃ d', step L f d v = some d' ∧ Good f d' := by
  cases f <;> try exact ⟨_, rfl, trivial⟩
  · simp only [Good] at h ⊢
    simp only [step, countStep]
    cases hb : d.result.isBadNull with
    | true => exact ⟨d, by simp, h⟩
    | false =>
      have hr : (if d.result.isNull then Value.int 0 else d.result).isNumeric = true := by
        cases hn : d.result.isNull with
        | true => rfl
        | false => simpa [hn] using h
      simp only [Bool.false_eq_true, if_false]
      split
      · exact ⟨_, rfl, .inr hr⟩
      · obtain ⟨r, e, hh⟩ := add_numeric (fmt := L.fmt) hr (show (Value.int 1).isNumeric = true from rfl)
        rw [e]; exact ⟨_, rfl, hh⟩
  · simp only [Good] at h ⊢
    simp only [step, sumStep]
    cases hb : d.result.isBadNull with
    | true => exact ⟨d, by simp, h⟩
    | false =>
      have hr : (if d.result.isNull then Value.int 0 else d.result).isNumeric = true := by
        cases hn : d.result.isNull with
        | true => rfl
        | false => simpa [hn] using h
      simp only [Bool.false_eq_true, if_false]
      split
      · exact ⟨_, rfl, .inl rfl⟩
      · split
        · exact ⟨_, rfl, .inr hr⟩
        · rename_i h1 h2
          have hv : v.isNumeric = true := by
            cases hv : v.isNumeric with
            | true => rfl
            | false => simp [hv] at h1; simp at h2; exact absurd (h1 h2.1) (by simp [h2.2])
          obtain ⟨r, e, hh⟩ := add_numeric (fmt := L.fmt) hr hv
          rw [e]; exact ⟨_, rfl, hh⟩
  · simp only [Good] at h ⊢
    simp only [step, avgStep, stdStep]
    cases hb : d.result.isBadNull with
    | true => exact ⟨d, by simp, h⟩
    | false =>
      simp only [Bool.false_eq_true, if_false]
      split
      · exact ⟨_, rfl, .inl rfl⟩
      · split
        · exact ⟨_, rfl, h⟩
        · rename_i h1 h2
          have hv : v.isNumeric = true := by
            cases hv : v.isNumeric with
            | true => rfl
            | false => simp [hv] at h1; simp at h2; exact absurd (h1 h2.1) (by simp [h2.2])
          have hs : ∃ a b, (if d.result.isNull then Value.float (.fin 0) else d.sum) = .float a ∧
              (if d.result.isNull then Value.float (.fin 0) else d.cnt) = .float b := by
            cases hn : d.result.isNull with
            | true => exact ⟨_, _, rfl, rfl⟩
            | false => simpa [hn] using h
          obtain ⟨a, b, ha, hb'⟩ := hs
          obtain ⟨c, hc⟩ := float_add (fmt := L.fmt) a hv
          obtain ⟨e, he⟩ := float_add (fmt := L.fmt) b (show (Value.int 1).isNumeric = true from rfl)
          rw [ha, hb', hc, he]
          rcases float_div c e with hd | ⟨g, hd⟩
          · simp only [hd]; exact ⟨_, rfl, .inl rfl⟩
          · simp only [hd]; exact ⟨_, rfl, .inr ⟨c, e, rfl, rfl⟩⟩
  · simp only [Good] at h ⊢
    simp only [step, avgStep, stdStep]
    cases hb : d.result.isBadNull with
    | true => exact ⟨d, by simp, h⟩
    | false =>
      simp only [Bool.false_eq_true, if_false]
      split
      · exact ⟨_, rfl, .inl rfl⟩
      · split
        · exact ⟨_, rfl, h⟩
        · rename_i h1 h2
          have hv : v.isNumeric = true := by
            cases hv : v.isNumeric with
            | true => rfl
            | false => simp [hv] at h1; simp at h2; exact absurd (h1 h2.1) (by simp [h2.2])
          have hs : ∃ a b c, (if d.result.isNull then Value.float (.fin 0) else d.cnt) = .float a ∧
              (if d.result.isNull then Value.float (.fin 0) else d.avg) = .float b ∧
              (if d.result.isNull then Value.float (.fin 0) else d.deviation) = .float c := by
            cases hn : d.result.isNull with
            | true => exact ⟨_, _, _, rfl, rfl, rfl⟩
            | false => simpa [hn] using h
          obtain ⟨a, b, c, ha, hb', hc⟩ := hs
          obtain ⟨e, he⟩ := float_add (fmt := L.fmt) a (show (Value.int 1).isNumeric = true from rfl)
          obtain ⟨x, hx⟩ := sub_float b hv
          rw [ha, hb', hc, he]
          obtain ⟨dev, hdev, hcase⟩ := deviation_total (L := L) e b c hv
          simp only [Option.bind_eq_bind, Option.bind_some, hdev, hx]
          rcases float_div x e with q | ⟨g, q⟩
          · simp only [q, Option.bind_some]
            have hn : ∃ n, dev = .null n := by
              rcases hcase with h | ⟨_, _, h⟩
              · exact h
              · obtain ⟨g, hg⟩ := h x
                rw [hg] at q; cases q
            obtain ⟨n, rfl⟩ := hn
            rw [show Value.add L.fmt (.float b) kNullDivByZero = some kNullDivByZero from rfl]
            exact ⟨_, rfl, .inl rfl⟩
          · simp only [q, Option.bind_some]
            rw [show Value.add L.fmt (.float b) (.float g) = some (.float (F64.add b g)) from rfl]
            rcases hcase with ⟨n, rfl⟩ | ⟨f, rfl, _⟩
            · exact ⟨_, rfl, .inl rfl⟩
            · exact ⟨_, rfl, .inr ⟨e, F64.add b g, f, rfl, rfl, rfl⟩⟩

/-- C47: every aggregate is defined on every sequence of values. -/
theorem C47_defined (f : Fn) (distinct : Bool) (vs : List Value) : ∃ d, run L f distinct AggData.init vs = some d := by
  have key : ∀ vs d, Good f d → ∃ d', run L f distinct d vs = some d' := by
    intro vs
    induction vs with
    | nil => intro d _; exact ⟨d, rfl⟩
    | cons v vs ih =>
      intro d hd
      have : ∃ d', feed L f distinct d v = some d' ∧ Good f d' := by
        simp only [feed]
        split
        · split
          · exact ⟨d, rfl, hd⟩
          · exact good_step f _ v (by cases f <;> exact hd)
        · exact good_step f d v hd
      obtain ⟨d', e, h'⟩ := this
      simp only [run, e]
      exact ih d' h'
  exact key vs _ (by cases f <;> first | trivial | exact .inl rfl)

/-! ## The expression -/

/-- C47: evaluating an aggregate expression feeds the value of its argument to the function and returns the result so far; names
are compared without regard to case. -/
theorem C47_expression {env : Env} {name : Bytes} {distinct : Bool} {arg : Expr} {p : List Nat} {s s1 : EState} {v : Value} {d d' : AggData} {f : Fn}
    (ha : arg.eval env (0 :: p) s = some (v, s1)) (hd : s1.agg p = some d) (hf : get name = some f) (h : run env.lib f distinct d [v] = some d') :
    (Expr.aggregate name distinct (some arg)).eval env p s = some (d'.result, s1.setAgg p d') ∨
      (d' = d ∧ (Expr.aggregate name distinct (some arg)).eval env p s = some (d.result, s1)) := by
  have h' : feed env.lib f distinct d v = some d' := by
    simp only [run] at h
    cases hh : feed env.lib f distinct d v with
    | none => rw [hh] at h; cases h
    | some x => rw [hh] at h; exact h
  simp only [Expr.eval, Expr.evalO, Eval.aggregate, Eval.bind, ha, hd]
  cases hu : (distinct && d.uniques.any fun x => Value.beq x v) with
  | true =>
    simp only [Bool.and_eq_true] at hu
    simp only [feed, hu.1, hu.2, if_true, Option.some.injEq] at h'
    exact .inr ⟨h'.symm, by simp⟩
  | false => exact .inl (by simp [hf, h'])

theorem C47_name_case (a b : Bytes) (h : a.map toUpper = b.map toUpper) : get a = get b := by unfold get; rw [h]

theorem C47_names : get (ascii "count") = some .count ∧ get (ascii "Sum") = some .sum ∧ get (ascii "avg") = some .avg ∧
    get (ascii "MAX") = some .max ∧ get (ascii "min") = some .min ∧ get (ascii "std") = some .std ∧ get (ascii "bit_and") = some .bitAnd ∧
    get (ascii "bit_or") = some .bitOr ∧ get (ascii "bit_xor") = some .bitXor ∧ get (ascii "collect") = some .collect ∧
    get (ascii "collect_set") = some .collectSet := by decide +kernel

/-! ## Witnesses -/

example : ∃ d, run L .count false AggData.init [.int 3, kNull, .str [65], .empty] = some d ∧ d.result = .int 2 :=
  C47_count _ (by simp) (by decide)

example : ∃ d, run L .sum false AggData.init [.int 3, kNull, .int (-5)] = some d ∧ d.result = .int (-2) := by
  obtain ⟨d, e, h, _⟩ := C47_sum_int (L := L) [.int 3, kNull, .int (-5)] [3, -5] rfl (by simp)
  refine ⟨d, e, h ?_⟩
  intro pre hp
  have := (List.mem_inits _ _).2 hp
  simp at this
  rcases this with rfl | rfl | rfl <;> decide

example : ∃ d, run L .sum false AggData.init [.int 9223372036854775807, .int 1] = some d ∧ d.result = .null .errOverflow := by
  obtain ⟨d, e, _, h⟩ := C47_sum_int (L := L) [.int 9223372036854775807, .int 1] [9223372036854775807, 1] rfl (by simp)
  exact ⟨d, e, h ⟨[9223372036854775807, 1], List.prefix_refl _, by decide⟩⟩

/-- AVG of 1 and 1/2 is 3/4. -/
example : ∃ d, run L .avg false AggData.init [.int 1, .float (.fin (1 / 2)), kNull] = some d ∧ d.result = .float (.fin (3 / 4)) := by
  obtain ⟨d, e, h⟩ := C47_avg (L := L) [.int 1, .float (.fin (1 / 2)), kNull] [1, 1 / 2] (by rfl) (by simp) (by decide)
    (by
      intro pre hp
      have := (List.mem_inits _ _).2 hp
      simp only [List.inits, List.mem_cons, List.map_cons, List.map_nil, List.not_mem_nil, or_false] at this
      rcases this with rfl | rfl | rfl <;> decide +kernel)
    (by
      intro q hq
      simp only [List.mem_cons, List.not_mem_nil, or_false] at hq
      rcases hq with rfl | rfl <;> decide +kernel)
  exact ⟨d, e, by rw [h]; decide +kernel⟩

example : ∃ d, run L .max false AggData.init [.int 3, kNull, .int 8] = some d ∧ Greatest Value.lt [.int 3, .int 8] d.result := by
  obtain ⟨⟨d, e, _, h⟩, _⟩ := C47_max_min (L := L) (C10_strict_weak_order_partial false (fun _ => []) fun _ _ _ _ _ => rfl) [.int 3, kNull, .int 8] (by
    intro v hv
    have : v = .int 3 ∨ v = .int 8 := by simpa [show present [.int 3, kNull, .int 8] = [.int 3, .int 8] from rfl] using hv
    rcases this with rfl | rfl <;> exact .mk (by simp [SortableHere]) (by simp [elems]))
  exact ⟨d, e, h (by decide)⟩

example : ∃ d d', run L .bitXor false AggData.init [.int 5, .int 3] = some d ∧ run L .bitXor false AggData.init [.int 3, .int 5] = some d' ∧ d.result = d'.result :=
  C47_order _ _ (List.Perm.swap _ _ _) _ (.inr ⟨.inr (.inr rfl), [5, 3], rfl, by decide⟩)

example : ∃ d, run L .sum false AggData.init [.int 5, .str [65], .int 3] = some d ∧ ∃ n, d.result = .null n ∧ n ≠ .null := by
  obtain ⟨d, e⟩ := C47_defined (L := L) .sum false [.int 5, .str [65], .int 3]
  exact ⟨d, e, C47_type_error (v := .str [65]) rfl (.inl ⟨.inl rfl, rfl⟩) [.int 5] [.int 3] e⟩

example : (∃ d, run L .std false AggData.init [.float (.fin 1), .float (.fin 3)] = some d ∧
    d.result = .float (L.sqrt (.fin (((1 - (1 + 3) / 2) ^ 2 + (3 - (1 + 3) / 2) ^ 2) / 2)))) :=
  (C47_std_two (L := L) 1 3 (by decide +kernel) (by decide +kernel) (by decide +kernel) (by decide +kernel) (by decide +kernel)
    (by decide +kernel) (by decide +kernel)).2

end Agg
end Nebula
