import Verif.Expr.EvalSpec
import Verif.Value.Lemmas
/-!
# C38 (logical expressions), C43 (CASE), C44 (predicates, list comprehension, reduce)
-/
namespace Nebula
open EvalSpec Value

theorem evals_append (env : Env) (p : List Nat) : ∀ (a b : List Expr) (i : Nat),
    Expr.evals env (a ++ b) i p = Expr.evals env a i p ++ Expr.evals env b (i + a.length) p
  | [], b, i => by simp [Expr.evals]
  | e :: a, b, i => by
    simp only [List.cons_append, Expr.evals, List.length_cons, evals_append env p a b (i + 1)]
    rw [Nat.add_assoc, Nat.add_comm 1]

theorem evaluates_split {env : Env} {p : List Nat} {i : Nat} {es : List Expr} {s s1 : EState} {ws us : List Value} {v : Value}
    (h : Evaluates env p i es s (ws ++ v :: us) s1) :
    ∃ pre e post s2 s3, es = pre ++ e :: post ∧ Evaluates env p i pre s ws s2 ∧
      e.eval env ((i + pre.length) :: p) s2 = some (v, s3) := by
  induction ws generalizing i es s with
  | nil =>
    cases h with
    | @cons _ e es _ s2 _ _ _ head tail => exact ⟨[], e, es, s, s2, rfl, .nil _ _, head⟩
  | cons w ws ih =>
    cases h with
    | @cons _ e es _ s2 _ _ _ head tail =>
      obtain ⟨pre, e', post, s3, s4, rfl, h1, h2⟩ := ih tail
      refine ⟨e :: pre, e', post, s3, s4, rfl, .cons head h1, ?_⟩
      rw [List.length_cons, show i + (pre.length + 1) = i + 1 + pre.length by omega]; exact h2

/-! ## C38 -/

/-- The accumulated result of an AND/OR after a neutral value. -/
def accumulate (r v : Value) : Value := match v with
  | .null _ => v
  | .empty => v
  | _ => r

theorem andOr_neutral {env : Env} {p : List Nat} {dom : Bool} {i : Nat} {pre : List Expr} {s s1 : EState} {vs : List Value}
    (h : Evaluates env p i pre s vs s1) (hn : ∀ v ∈ vs, Neutral dom v) (r : Value)
    (hr : r.isNull = true → Value.empty ∉ vs) (ho : NoEmptyAfterNull vs) (ms : List (Eval Value)) :
    Eval.andOr dom r (Expr.evals env pre i p ++ ms) s = Eval.andOr dom (vs.foldl accumulate r) ms s1 := by
  induction h generalizing r with
  | nil i s => rfl
  | @cons i e es s s1 s2 v vs head tail ih =>
    have ho' : NoEmptyAfterNull vs := by
      intro a b hab hm
      exact ho (v :: a) b (by rw [hab]; rfl) (List.mem_cons_of_mem _ hm)
    have hn' : ∀ w ∈ vs, Neutral dom w := fun w hw => hn w (List.mem_cons_of_mem _ hw)
    have hv := hn v (by simp)
    simp only [Expr.evals, List.cons_append, Eval.andOr, Eval.bind, head, List.foldl_cons]
    rcases hv with rfl | rfl | rfl
    · have h1 : ((!dom) = dom) = False := by cases dom <;> simp
      simp only [isBadNull, Bool.false_eq_true, if_false, h1, accumulate]
      exact ih hn' r (fun hh hm => hr hh (List.mem_cons_of_mem _ hm)) ho'
    · simp only [isBadNull, Bool.false_eq_true, if_false, accumulate]
      exact ih hn' _ (fun _ => ho [NULL] vs rfl (by simp)) ho'
    · have h2 : r.isNull = false := by
        cases hh : r.isNull with
        | false => rfl
        | true => exact absurd (List.mem_cons_self) (hr hh)
      simp only [isBadNull, Bool.false_eq_true, if_false, h2, Bool.not_false, if_true, accumulate]
      exact ih hn' _ (by simp [isNull]) ho'

theorem accumulated {dom : Bool} {vs : List Value} (hn : ∀ v ∈ vs, Neutral dom v) (ho : NoEmptyAfterNull vs) (r : Value)
    (hr : r = NULL → Value.empty ∉ vs) :
    (NULL ∈ vs → vs.foldl accumulate r = NULL) ∧
    (NULL ∉ vs → Value.empty ∈ vs → vs.foldl accumulate r = .empty) ∧
    (NULL ∉ vs → Value.empty ∉ vs → vs.foldl accumulate r = r) := by
  induction vs generalizing r with
  | nil => simp
  | cons v vs ih =>
    have ho' : NoEmptyAfterNull vs := by
      intro a b hab hm
      exact ho (v :: a) b (by rw [hab]; rfl) (List.mem_cons_of_mem _ hm)
    have hn' : ∀ w ∈ vs, Neutral dom w := fun w hw => hn w (List.mem_cons_of_mem _ hw)
    simp only [List.foldl_cons]
    rcases hn v (by simp) with rfl | rfl | rfl
    · have := ih hn' ho' r (fun e hm => hr e (List.mem_cons_of_mem _ hm))
      simpa [accumulate] using this
    · have he : Value.empty ∉ vs := ho [NULL] vs rfl (by simp)
      have := ih hn' ho' NULL (fun _ => he)
      simp only [accumulate, List.mem_cons, true_or, forall_const, not_true_eq_false, false_imp_iff, and_true]
      by_cases hm : NULL ∈ vs
      · exact this.1 hm
      · exact this.2.2 hm he
    · have hne : (NULL = Value.empty) = False := by simp
      have := ih hn' ho' .empty (by simp)
      simp only [accumulate, List.mem_cons, hne, false_or, true_or, forall_const, not_true_eq_false, false_imp_iff, and_true]
      refine ⟨this.1, fun hm => ?_, fun _ => trivial⟩
      by_cases he : Value.empty ∈ vs
      · exact this.2.1 hm he
      · exact this.2.2 hm he

/-- `logical .and` and `logical .or` in one form. -/
def andOrOp (dom : Bool) : LogOp := if dom then .or else .and

theorem logical_andOr (dom : Bool) (p : List Nat) (ms : List (Eval Value)) :
    Eval.logical (andOrOp dom) p ms = Eval.andOr dom (.bool (!dom)) ms := by
  cases dom <;> rfl

/-- C38, AND (`dom = false`) and OR (`dom = true`): the first operand that is the dominating boolean, an
error or of a wrong type ends the evaluation, and later operands are not evaluated.  Partial: the
operands before it contain no EMPTY after a NULL. -/
theorem C38_short_circuit_partial (dom : Bool) {env : Env} {p : List Nat} {pre post : List Expr} {e : Expr}
    {s s1 s2 : EState} {vs : List Value} {v r : Value}
    (h : Evaluates env p 0 pre s vs s1) (hn : ∀ v ∈ vs, Neutral dom v) (ho : NoEmptyAfterNull vs)
    (he : e.eval env (pre.length :: p) s1 = some (v, s2)) (hd : Decides dom v r) :
    (Expr.logical (andOrOp dom) (pre ++ e :: post)).eval env p s = some (r, s2) := by
  simp only [Expr.eval, logical_andOr, evals_append]
  rw [andOr_neutral h hn _ (by simp [isNull]) ho]
  simp only [Expr.evals, Nat.zero_add, Eval.andOr, Eval.bind, he]
  cases hd with
  | dominates => simp [isBadNull, Eval.pure]
  | bad hb =>
    obtain ⟨n, rfl, hne⟩ := hb
    cases n <;> first | exact absurd rfl hne | simp [isBadNull, Eval.pure]
  | type ht =>
    obtain ⟨h1, h2, h3⟩ := ht
    cases v <;> first | exact absurd rfl (h1 _) | exact absurd rfl (h2 _) | exact absurd rfl h3 | simp [isBadNull, Eval.pure, kNullBadType]

/-- C38, AND and OR: if no operand ends the evaluation the result is NULL if an operand is NULL, else
EMPTY if an operand is EMPTY, else the boolean.  Partial: no EMPTY after a NULL. -/
theorem C38_combined_partial (dom : Bool) {env : Env} {p : List Nat} {es : List Expr} {s s1 : EState} {vs : List Value}
    (h : Evaluates env p 0 es s vs s1) (hn : ∀ v ∈ vs, Neutral dom v) (ho : NoEmptyAfterNull vs) :
    ∃ r, (Expr.logical (andOrOp dom) es).eval env p s = some (r, s1) ∧ Combined dom vs r := by
  refine ⟨vs.foldl accumulate (.bool (!dom)), ?_, accumulated hn ho _ (by simp)⟩
  have := andOr_neutral h hn (.bool (!dom)) (by simp [isNull]) ho []
  simp only [Expr.eval, logical_andOr]
  rw [List.append_nil] at this
  rw [this]; rfl

/-- C38 fails: after a NULL an EMPTY operand is a type error, while the other order gives NULL. -/
theorem C38_order_violated (dom : Bool) (env : Env) (p : List Nat) (s : EState) :
    (Expr.logical (andOrOp dom) [.const NULL, .const .empty]).eval env p s = some (BAD_TYPE, s) ∧
    (Expr.logical (andOrOp dom) [.const .empty, .const NULL]).eval env p s = some (NULL, s) := by
  cases dom <;> exact ⟨rfl, rfl⟩

/-- C38: the value of an AND or OR without errors does not depend on the order of the operands.
Partial: no EMPTY after a NULL. -/
theorem C38_order_partial (dom : Bool) {env : Env} {p : List Nat} {es fs : List Expr} {s s1 t t1 : EState} {vs ws : List Value}
    (h : Evaluates env p 0 es s vs s1) (h' : Evaluates env p 0 fs t ws t1) (hp : vs.Perm ws)
    (hn : ∀ v ∈ vs, Neutral dom v ∨ v = .bool dom) (ho : NoEmptyAfterNull vs) (ho' : NoEmptyAfterNull ws) :
    ∃ r s2 t2, (Expr.logical (andOrOp dom) es).eval env p s = some (r, s2) ∧
      (Expr.logical (andOrOp dom) fs).eval env p t = some (r, t2) := by
  have key : ∀ {es : List Expr} {s s1 : EState} {vs : List Value}, Evaluates env p 0 es s vs s1 →
      (∀ v ∈ vs, Neutral dom v ∨ v = .bool dom) → NoEmptyAfterNull vs → Value.bool dom ∈ vs →
      ∃ s2, (Expr.logical (andOrOp dom) es).eval env p s = some (.bool dom, s2) := by
    intro es s s1 vs h hn ho hm
    obtain ⟨ws, us, rfl, hw⟩ := List.eq_append_cons_of_mem hm
    obtain ⟨pre, e, post, s2, s3, rfl, h1, h2⟩ := evaluates_split h
    rw [Nat.zero_add] at h2
    refine ⟨s3, C38_short_circuit_partial dom h1 ?_ ?_ h2 .dominates⟩
    · intro v hv
      exact (hn v (by simp [hv])).resolve_right (by rintro rfl; exact hw hv)
    · intro a b hab hm hb
      exact ho a (b ++ .bool dom :: us) (by rw [hab, List.append_assoc]) hm (List.mem_append_left _ hb)
  by_cases hd : Value.bool dom ∈ vs
  · obtain ⟨s2, h1⟩ := key h hn ho hd
    obtain ⟨t2, h2⟩ := key h' (fun v hv => hn v (hp.mem_iff.2 hv)) ho' (hp.mem_iff.1 hd)
    exact ⟨_, _, _, h1, h2⟩
  · have hn1 : ∀ v ∈ vs, Neutral dom v := fun v hv => (hn v hv).resolve_right (by rintro rfl; exact hd hv)
    have hn2 : ∀ v ∈ ws, Neutral dom v := fun v hv => hn1 v (hp.mem_iff.2 hv)
    obtain ⟨r, e1, c1⟩ := C38_combined_partial dom h hn1 ho
    obtain ⟨r', e2, c2⟩ := C38_combined_partial dom h' hn2 ho'
    have : r = r' := by
      obtain ⟨a1, a2, a3⟩ := c1
      obtain ⟨b1, b2, b3⟩ := c2
      by_cases hm : NULL ∈ vs
      · rw [a1 hm, b1 (hp.mem_iff.1 hm)]
      · have hm' : NULL ∉ ws := fun h => hm (hp.mem_iff.2 h)
        by_cases he : Value.empty ∈ vs
        · rw [a2 hm he, b2 hm' (hp.mem_iff.1 he)]
        · rw [a3 hm he, b3 hm' (fun h => he (hp.mem_iff.2 h))]
    subst this
    exact ⟨r, _, _, e1, e2⟩

theorem parity_cons (b : Bool) (vs : List Value) :
    decide (trues (.bool b :: vs) % 2 = 1) = (b ^^ decide (trues vs % 2 = 1)) := by
  have h : trues (.bool b :: vs) = trues vs + (if b then 1 else 0) := by
    cases b <;> simp [trues]
  rw [h]
  generalize trues vs = k
  cases b
  · simp
  · rcases Nat.mod_two_eq_zero_or_one k with h | h
    · have : (k + 1) % 2 = 1 := by omega
      simp [h, this]
    · have : (k + 1) % 2 = 0 := by omega
      simp [h, this]

theorem xor_pass {env : Env} {p : List Nat} {i : Nat} {pre : List Expr} {s s1 : EState} {vs : List Value}
    (h : Evaluates env p i pre s vs s1) (hv : ∀ v ∈ vs, (∃ b, v = .bool b) ∨ v = .empty) (ms : List (Eval Value)) :
    (∀ fb : Bool, ∃ fb', Eval.xor .empty true fb (Expr.evals env pre i p ++ ms) s = Eval.xor .empty true fb' ms s1) ∧
    (∀ a : Bool, ∃ r he fb, Eval.xor (.bool a) false false (Expr.evals env pre i p ++ ms) s = Eval.xor r he fb ms s1 ∧
      (Value.empty ∈ vs → r = .empty) ∧ (Value.empty ∉ vs → r = .bool (a ^^ decide (trues vs % 2 = 1)))) ∧
    (∀ r : Value, ∃ r' he fb, Eval.xor r false true (Expr.evals env pre i p ++ ms) s = Eval.xor r' he fb ms s1 ∧
      (Value.empty ∈ vs → r' = .empty) ∧
      (Value.empty ∉ vs → vs ≠ [] → r' = .bool (decide (trues vs % 2 = 1)))) := by
  induction h with
  | nil i s =>
    exact ⟨fun fb => ⟨fb, rfl⟩, fun a => ⟨_, _, _, rfl, by simp, by simp [trues]⟩, fun r => ⟨r, _, _, rfl, by simp, by simp⟩⟩
  | @cons i e es s s1 s2 v vs head tail ih =>
    obtain ⟨i1, i2, i3⟩ := ih fun w hw => hv w (List.mem_cons_of_mem _ hw)
    have hne : ∀ b : Bool, (Value.empty = Value.bool b) = False := by simp
    simp only [Expr.evals, List.cons_append, Eval.xor, Eval.bind, head]
    rcases hv v (by simp) with ⟨b, rfl⟩ | rfl
    · refine ⟨fun fb => ?_, fun a => ?_, fun r => ?_⟩
      · simpa [isNull] using i1 fb
      · obtain ⟨r', he, fb, h1, h2, h3⟩ := i2 (a ^^ b)
        refine ⟨r', he, fb, by simpa [isNull] using h1, by simpa using h2, ?_⟩
        intro hm
        rw [h3 (by simpa using hm), parity_cons, Bool.xor_assoc]
      · obtain ⟨r', he, fb, h1, h2, h3⟩ := i2 b
        refine ⟨r', he, fb, by simpa [isNull] using h1, by simpa using h2, ?_⟩
        intro hm _
        rw [h3 (by simpa using hm), parity_cons]
    · refine ⟨fun fb => ?_, fun a => ?_, fun r => ?_⟩
      · simpa [isNull] using i1 fb
      · obtain ⟨fb', h1⟩ := i1 false
        exact ⟨.empty, true, fb', by simpa [isNull] using h1, fun _ => rfl, fun h => absurd (by simp) h⟩
      · obtain ⟨fb', h1⟩ := i1 true
        exact ⟨.empty, true, fb', by simpa [isNull] using h1, fun _ => rfl, fun h => absurd (by simp) h⟩

theorem sameContext_setMem (s : EState) (p : List Nat) (v : Value) : SameContext s (s.setMem p v) := ⟨rfl, rfl⟩

/-- C38, XOR: if the operands are booleans or EMPTY the result is EMPTY if one is EMPTY, and otherwise
true exactly if an odd number of operands is true. -/
theorem C38_xor {env : Env} {p : List Nat} {es : List Expr} {s s1 : EState} {vs : List Value}
    (h : Evaluates env p 0 es s vs s1) (hne : es ≠ []) (hv : ∀ v ∈ vs, (∃ b, v = .bool b) ∨ v = .empty) :
    ∃ r s2, (Expr.logical .xor es).eval env p s = some (r, s2) ∧ SameContext s1 s2 ∧
      (Value.empty ∈ vs → r = .empty) ∧ (Value.empty ∉ vs → r = .bool (decide (trues vs % 2 = 1))) := by
  obtain ⟨r, he, fb, h1, h2, h3⟩ := (xor_pass h hv []).2.2 (s.mem p)
  rw [List.append_nil] at h1
  have hvs : vs ≠ [] := by
    cases h with
    | nil => exact absurd rfl hne
    | cons => simp
  exact ⟨r, s1.setMem p r, by simp [Expr.eval, Eval.logical, h1, Eval.xor, Eval.pure], sameContext_setMem _ _ _, h2, fun hm => h3 hm hvs⟩

/-- C38, XOR: the first operand that is NULL (of any kind) or of a wrong type ends the evaluation with
that NULL or the type error; later operands are not evaluated. -/
theorem C38_xor_error {env : Env} {p : List Nat} {pre post : List Expr} {e : Expr} {s s1 s2 : EState} {vs : List Value} {v : Value}
    (h : Evaluates env p 0 pre s vs s1) (hv : ∀ v ∈ vs, (∃ b, v = .bool b) ∨ v = .empty)
    (he : e.eval env (pre.length :: p) s1 = some (v, s2)) :
    (∀ n, v = .null n → ∃ s3, (Expr.logical .xor (pre ++ e :: post)).eval env p s = some (v, s3) ∧ SameContext s2 s3) ∧
    (NotLogical v → ∃ s3, (Expr.logical .xor (pre ++ e :: post)).eval env p s = some (BAD_TYPE, s3) ∧ SameContext s2 s3) := by
  obtain ⟨r, b1, b2, h1, -, -⟩ := (xor_pass h hv (Expr.evals env (e :: post) pre.length p)).2.2 (s.mem p)
  have h0 : Expr.evals env (pre ++ e :: post) 0 p = Expr.evals env pre 0 p ++ Expr.evals env (e :: post) pre.length p := by
    rw [evals_append, Nat.zero_add]
  rw [← h0] at h1
  simp only [Expr.evals] at h1
  constructor
  · rintro n rfl
    exact ⟨s2.setMem p (.null n), by simp [Expr.eval, Eval.logical, h1, Eval.xor, Eval.bind, he, isNull, Eval.pure], sameContext_setMem _ _ _⟩
  · rintro ⟨a1, a2, a3⟩
    refine ⟨s2.setMem p BAD_TYPE, ?_, sameContext_setMem _ _ _⟩
    simp only [Expr.eval, Eval.logical, h1, Eval.xor, Eval.bind, he]
    cases v <;> first | exact absurd rfl (a1 _) | exact absurd rfl (a2 _) | exact absurd rfl a3 | simp [isNull, Eval.pure, kNullBadType]

/-- C38, XOR: without errors the value does not depend on the order of the operands. -/
theorem C38_xor_order {env : Env} {p : List Nat} {es fs : List Expr} {s s1 t t1 : EState} {vs ws : List Value}
    (h : Evaluates env p 0 es s vs s1) (h' : Evaluates env p 0 fs t ws t1) (hp : vs.Perm ws) (hne : es ≠ [])
    (hv : ∀ v ∈ vs, (∃ b, v = .bool b) ∨ v = .empty) :
    ∃ r s2 t2, (Expr.logical .xor es).eval env p s = some (r, s2) ∧ (Expr.logical .xor fs).eval env p t = some (r, t2) := by
  have hfs : fs ≠ [] := by
    rintro rfl
    cases h'
    have := hp.eq_nil
    subst this
    cases h
    exact hne rfl
  obtain ⟨r, s2, e1, -, a1, a2⟩ := C38_xor h hne hv
  obtain ⟨r', t2, e2, -, b1, b2⟩ := C38_xor h' hfs fun v hv' => hv v (hp.mem_iff.2 hv')
  have : r = r' := by
    by_cases hm : Value.empty ∈ vs
    · rw [a1 hm, b1 (hp.mem_iff.1 hm)]
    · rw [a2 hm, b2 fun h => hm (hp.mem_iff.2 h)]
      have : trues vs = trues ws := hp.countP_eq _
      rw [this]
  subst this
  exact ⟨r, s2, t2, e1, e2⟩

/-- The hypotheses are met: `true AND NULL AND false AND …` is false whatever follows, `true XOR true XOR true` is true. -/
example (env : Env) (s : EState) (post : List Expr) :
    (Expr.logical .and (.const (.bool true) :: .const NULL :: .const (.bool false) :: post)).eval env [] s = some (.bool false, s) :=
  C38_short_circuit_partial (env := env) (p := []) (s := s) false (pre := [.const (.bool true), .const NULL]) (e := .const (.bool false))
    (.cons rfl (.cons rfl (.nil _ _))) (by simp [Neutral]) (by
      intro a b hab _ hb
      have : Value.empty ∈ [Value.bool true, NULL] := by rw [hab]; exact List.mem_append_right _ hb
      simp at this) rfl .dominates
example (env : Env) (s : EState) :
    ∃ r s2, (Expr.logical .xor [.const (.bool true), .const (.bool true), .const (.bool true)]).eval env [] s = some (r, s2) ∧
      SameContext s s2 ∧ r = .bool true := by
  obtain ⟨r, s2, h1, h2, -, h3⟩ := C38_xor (env := env) (p := []) (s := s)
    (es := [.const (.bool true), .const (.bool true), .const (.bool true)])
    (.cons rfl (.cons rfl (.cons rfl (.nil _ _)))) (by simp) (by simp)
  exact ⟨r, s2, h1, h2, by rw [h3 (by simp)]; rfl⟩

/-! ## C43 -/

theorem caseLoop_passed {env : Env} {p : List Nat} {c : Option Value} {i : Nat} {cs : List (Expr × Expr)} {s s1 : EState}
    (h : Passed env p c i cs s s1) (d : Eval Value) (ds : List (Expr × Expr)) :
    Eval.caseLoop c d (Expr.evalCases env (cs ++ ds) i p) s =
      Eval.caseLoop c d (Expr.evalCases env ds (i + 2 * cs.length) p) s1 := by
  induction h with
  | nil => rfl
  | @cons i w t cs s s1 s2 v head fails tail ih =>
    simp only [List.cons_append, Expr.evalCases, Eval.caseLoop, Eval.bind, head, List.length_cons]
    rw [show i + 2 * (cs.length + 1) = i + 2 + 2 * cs.length by omega, ← ih]
    cases c with
    | some x => simp only at fails; simp [fails]
    | none => simp only at fails; subst fails; simp

/-- C43, with a condition: the result is that of the first branch whose value equals the condition's;
the branches before are only compared, those after and the default are not evaluated. -/
theorem C43_match {env : Env} {p : List Nat} {g : Bool} {c w t : Expr} {d : Option Expr} {pre post : List (Expr × Expr)}
    {s s1 s2 s3 : EState} {x v : Value}
    (hc : c.eval env (0 :: p) s = some (x, s1)) (hp : Passed env p (some x) 2 pre s1 s2)
    (hw : w.eval env ((2 + 2 * pre.length) :: p) s2 = some (v, s3)) (he : Value.beq x v = true) :
    (Expr.case g (some c) d (pre ++ (w, t) :: post)).eval env p s = t.eval env ((3 + 2 * pre.length) :: p) s3 := by
  simp only [Expr.eval, Expr.evalO, Eval.caseExpr, Eval.bind, hc, caseLoop_passed hp]
  simp only [Expr.evalCases, Eval.caseLoop, Eval.bind, hw, he, if_true]
  rw [show 2 + 2 * pre.length + 1 = 3 + 2 * pre.length by omega]

/-- C43, without a condition: the result is that of the first branch whose condition is true. -/
theorem C43_when {env : Env} {p : List Nat} {g : Bool} {w t : Expr} {d : Option Expr} {pre post : List (Expr × Expr)}
    {s s2 s3 : EState} (hp : Passed env p none 2 pre s s2)
    (hw : w.eval env ((2 + 2 * pre.length) :: p) s2 = some (.bool true, s3)) :
    (Expr.case g none d (pre ++ (w, t) :: post)).eval env p s = t.eval env ((3 + 2 * pre.length) :: p) s3 := by
  simp only [Expr.eval, Expr.evalO, Eval.caseExpr, caseLoop_passed hp]
  simp only [Expr.evalCases, Eval.caseLoop, Eval.bind, hw, if_true]
  rw [show 2 + 2 * pre.length + 1 = 3 + 2 * pre.length by omega]

/-- C43: if no branch holds the result is that of the default, NULL if there is none. -/
theorem C43_default {env : Env} {p : List Nat} {g : Bool} {d : Option Expr} {cs : List (Expr × Expr)} :
    (∀ {c : Expr} {s s1 s2 : EState} {x : Value}, c.eval env (0 :: p) s = some (x, s1) → Passed env p (some x) 2 cs s1 s2 →
      (Expr.case g (some c) d cs).eval env p s = match d with | some e => e.eval env (1 :: p) s2 | none => some (NULL, s2)) ∧
    (∀ {s s2 : EState}, Passed env p none 2 cs s s2 →
      (Expr.case g none d cs).eval env p s = match d with | some e => e.eval env (1 :: p) s2 | none => some (NULL, s2)) := by
  constructor
  · intro c s s1 s2 x hc hp
    have := caseLoop_passed hp ((Expr.evalO env d (1 :: p)).getD (Eval.pure kNull)) []
    rw [List.append_nil] at this
    simp only [Expr.eval, Expr.evalO, Eval.caseExpr, Eval.bind, hc, this, Expr.evalCases, Eval.caseLoop]
    cases d <;> rfl
  · intro s s2 hp
    have := caseLoop_passed hp ((Expr.evalO env d (1 :: p)).getD (Eval.pure kNull)) []
    rw [List.append_nil] at this
    simp only [Expr.eval, Expr.evalO, Eval.caseExpr, this, Expr.evalCases, Eval.caseLoop]
    cases d <;> rfl

/-- C43, without a condition: a branch condition that is not a boolean is a type error. -/
theorem C43_bad_type {env : Env} {p : List Nat} {g : Bool} {w t : Expr} {d : Option Expr} {pre post : List (Expr × Expr)}
    {s s2 s3 : EState} {v : Value} (hp : Passed env p none 2 pre s s2)
    (hw : w.eval env ((2 + 2 * pre.length) :: p) s2 = some (v, s3)) (hv : ∀ b, v ≠ .bool b) :
    (Expr.case g none d (pre ++ (w, t) :: post)).eval env p s = some (BAD_TYPE, s3) := by
  simp only [Expr.eval, Expr.evalO, Eval.caseExpr, caseLoop_passed hp]
  simp only [Expr.evalCases, Eval.caseLoop, Eval.bind, hw]
  cases v <;> first | exact absurd rfl (hv _) | rfl

/-- `CASE 2 WHEN 1 THEN a WHEN 2 THEN 7 WHEN …` is 7. -/
example (env : Env) (s : EState) (a : Expr) (post : List (Expr × Expr)) :
    (Expr.case false (some (.const (.int 2))) none ([(.const (.int 1), a)] ++ (.const (.int 2), .const (.int 7)) :: post)).eval env [] s
      = some (.int 7, s) :=
  C43_match (env := env) (p := []) (s := s) (c := .const (.int 2)) (pre := [(.const (.int 1), a)]) (w := .const (.int 2)) (v := .int 2) rfl
    (.cons (v := .int 1) rfl (by simp [beq_eqn, typeFlag]) (.nil _ _)) rfl (by simp [beq_eqn])

/-! ## C44 -/

theorem predType_names (t : Eval.PredType) : Eval.predType (ascii (match t with | .all => "all" | .any => "any" | .single => "single" | .none => "none")) = some t := by
  cases t <;> decide +kernel

/-- What the loop of a predicate returns for the verdicts `bs`. -/
def predResult : Eval.PredType → Bool → List Bool → Bool
  | .all, r, bs => if false ∈ bs then false else r
  | .any, r, bs => if true ∈ bs then true else r
  | .single, r, bs => (if r then 1 else 0) + bs.count true == 1
  | .none, r, bs => if true ∈ bs then false else r

theorem predLoop_tested {env : Env} {inner : Bytes} {f : Expr} {p : List Nat} {xs : List Value} {s s1 : EState} {bs : List Bool}
    (h : Tested env inner f p xs s bs s1) (t : Eval.PredType) (r : Bool) :
    ∃ s2, Eval.predLoop t inner (f.eval env p) r xs s = some (.bool (predResult t r bs), s2) := by
  have step : ∀ {x : Value} {xs : List Value} {s s1 : EState} {b : Bool} {bs : List Bool} {v : Value},
      f.eval env p (s.setVar inner x) = some (v, s1) → Eval.truth v = some b →
      (∀ r, ∃ s2, Eval.predLoop t inner (f.eval env p) r xs s1 = some (.bool (predResult t r bs), s2)) →
      ∀ r, ∃ s2, Eval.predLoop t inner (f.eval env p) r (x :: xs) s = some (.bool (predResult t r (b :: bs)), s2) := by
    intro x xs s s1 b bs v hv hb ih r
    simp only [Eval.predLoop, Eval.bind, Eval.setVar, hv, hb]
    cases t <;> cases b <;> simp only [if_true, Bool.false_eq_true, if_false]
    · exact ⟨s1, by simp [predResult, Eval.pure]⟩
    · obtain ⟨s2, h⟩ := ih r; exact ⟨s2, by rw [h]; simp [predResult]⟩
    · obtain ⟨s2, h⟩ := ih r; exact ⟨s2, by rw [h]; simp [predResult]⟩
    · exact ⟨s1, by simp [predResult, Eval.pure]⟩
    · obtain ⟨s2, h⟩ := ih r; exact ⟨s2, by rw [h]; simp [predResult]⟩
    · cases r with
      | true => exact ⟨s1, by simp [predResult, Eval.pure]⟩
      | false => obtain ⟨s2, h⟩ := ih true; exact ⟨s2, by simp only [Bool.false_eq_true, if_false]; rw [h]; simp [predResult, Nat.add_comm]⟩
    · obtain ⟨s2, h⟩ := ih r; exact ⟨s2, by rw [h]; simp [predResult]⟩
    · exact ⟨s1, by simp [predResult, Eval.pure]⟩
  induction h generalizing r with
  | nil s => exact ⟨s, by cases t <;> cases r <;> simp [Eval.predLoop, predResult, Eval.pure]⟩
  | bool head tail ih => exact step head rfl ih r
  | null head tail ih => exact step head rfl ih r
  | empty head tail ih => exact step head rfl ih r

/-- C44: over a list for whose elements the condition evaluates to a boolean, NULL or EMPTY the
predicate is the boolean its name says of the verdicts. -/
theorem C44_predicate {env : Env} {p : List Nat} {name : String} {inner : Bytes} {c f : Expr} {o : Bytes}
    {s s1 s2 : EState} {xs : List Value} {bs : List Bool} {P : Prop}
    (hc : c.eval env (0 :: p) s = some (.list xs, s1)) (ht : Tested env inner f (1 :: p) xs s1 bs s2)
    (hP : Verdict name bs = some P) :
    ∃ b s3, (Expr.predicate (ascii name) inner c (some f) o).eval env p s = some (.bool b, s3) ∧ (b = true ↔ P) := by
  have main : ∀ t : Eval.PredType, Eval.predType (ascii name) = some t → ascii name ≠ ascii "exists" →
      ∃ s3, (Expr.predicate (ascii name) inner c (some f) o).eval env p s = some (.bool (predResult t (Eval.predStart t) bs), s3) := by
    intro t hn he
    obtain ⟨s3, h⟩ := predLoop_tested ht t (Eval.predStart t)
    exact ⟨s3, by simp only [Expr.eval, Eval.predicate, he, if_false, hn, Eval.bind, hc, Eval.onList, Expr.evalO, Option.getD_some, h]⟩
  unfold Verdict at hP
  split at hP
  · rename_i hn; subst hn
    obtain ⟨s3, h⟩ := main .all (by decide +kernel) (by decide +kernel)
    refine ⟨_, s3, h, ?_⟩
    simp only [Option.some.injEq] at hP; subst hP
    simp only [predResult, Eval.predStart]
    by_cases hm : false ∈ bs
    · simp only [hm, if_true, Bool.false_eq_true, false_iff]; intro h; simpa using h false hm
    · simp only [hm, if_false, true_iff]; intro b hb; cases b <;> simp_all
  · split at hP
    · rename_i hn; subst hn
      obtain ⟨s3, h⟩ := main .any (by decide +kernel) (by decide +kernel)
      refine ⟨_, s3, h, ?_⟩
      simp only [Option.some.injEq] at hP; subst hP
      by_cases hm : true ∈ bs <;> simp [predResult, Eval.predStart, hm]
    · split at hP
      · rename_i hn; subst hn
        obtain ⟨s3, h⟩ := main .single (by decide +kernel) (by decide +kernel)
        refine ⟨_, s3, h, ?_⟩
        simp only [Option.some.injEq] at hP; subst hP
        simp [predResult, Eval.predStart]
      · split at hP
        · rename_i hn; subst hn
          obtain ⟨s3, h⟩ := main .none (by decide +kernel) (by decide +kernel)
          refine ⟨_, s3, h, ?_⟩
          simp only [Option.some.injEq] at hP; subst hP
          by_cases hm : true ∈ bs <;> simp [predResult, Eval.predStart, hm]
        · cases hP

/-- C44: a predicate, a list comprehension and a reduce over NULL or EMPTY are that value, over anything else but a
list the type error. -/
theorem C44_collection {env : Env} {p : List Nat} {inner acc : Bytes} {c : Expr} {s s1 : EState} {v : Value}
    (hv : ∀ xs, v ≠ .list xs) :
    let r := match v with | .null n => Value.null n | .empty => .empty | _ => BAD_TYPE
    (∀ name f o, name = "all" ∨ name = "any" ∨ name = "single" ∨ name = "none" → c.eval env (0 :: p) s = some (v, s1) →
      (Expr.predicate (ascii name) inner c f o).eval env p s = some (r, s1)) ∧
    (∀ f m o, c.eval env (0 :: p) s = some (v, s1) → (Expr.listComp inner c f m o).eval env p s = some (r, s1)) ∧
    (∀ i m o s0 i0, i.eval env (0 :: p) s0 = some (i0, s) → c.eval env (1 :: p) s = some (v, s1) →
      (Expr.reduce acc i inner c m o).eval env p s0 = some (r, s1)) := by
  have ho : ∀ f : List Value → Eval Value, Eval.onList v f s1 =
      some ((match v with | .null n => Value.null n | .empty => .empty | _ => BAD_TYPE), s1) := by
    intro f
    cases v <;> first | exact absurd rfl (hv _) | rfl
  refine ⟨?_, ?_, ?_⟩
  · intro name f o hn hc
    have h1 : ascii name ≠ ascii "exists" := by rcases hn with rfl | rfl | rfl | rfl <;> decide +kernel
    have h2 : ∃ t, Eval.predType (ascii name) = some t := by
      rcases hn with rfl | rfl | rfl | rfl
      · exact ⟨.all, by decide +kernel⟩
      · exact ⟨.any, by decide +kernel⟩
      · exact ⟨.single, by decide +kernel⟩
      · exact ⟨.none, by decide +kernel⟩
    obtain ⟨t, h2⟩ := h2
    simp only [Expr.eval, Eval.predicate, h1, if_false, h2, Eval.bind, hc, ho]
  · intro f m o hc
    simp only [Expr.eval, Eval.listComp, Eval.bind, hc, ho]
  · intro i m o s0 i0 hi hc
    simp only [Expr.eval, Eval.reduce, Eval.bind, hi, hc, ho]

/-- The verdicts `bs` do not end the loop that has `result_ = r`. -/
def GoesOn : Eval.PredType → Bool → List Bool → Prop
  | .all, _, bs => false ∉ bs
  | .any, _, bs => true ∉ bs
  | .single, r, bs => (if r then 1 else 0) + bs.count true ≤ 1
  | .none, _, bs => true ∉ bs

theorem predLoop_undecided {env : Env} {inner : Bytes} {f : Expr} {p : List Nat} {xs : List Value} {s s1 : EState} {bs : List Bool}
    (h : Tested env inner f p xs s bs s1) (t : Eval.PredType) (r : Bool) (ys : List Value)
    (hb : GoesOn t r bs) :
    ∃ r', Eval.predLoop t inner (f.eval env p) r (xs ++ ys) s = Eval.predLoop t inner (f.eval env p) r' ys s1 := by
  have step : ∀ {x : Value} {xs : List Value} {s s1 s2 : EState} {b : Bool} {bs : List Bool} {v : Value},
      f.eval env p (s.setVar inner x) = some (v, s1) → Eval.truth v = some b →
      (∀ r, GoesOn t r bs →
        ∃ r', Eval.predLoop t inner (f.eval env p) r (xs ++ ys) s1 = Eval.predLoop t inner (f.eval env p) r' ys s2) →
      ∀ r, GoesOn t r (b :: bs) →
        ∃ r', Eval.predLoop t inner (f.eval env p) r ((x :: xs) ++ ys) s = Eval.predLoop t inner (f.eval env p) r' ys s2 := by
    intro x xs s s1 s2 b bs v hv hb ih r hr
    simp only [List.cons_append, Eval.predLoop, Eval.bind, Eval.setVar, hv, hb]
    cases t <;> cases b <;> simp only [if_true, Bool.false_eq_true, if_false] <;> simp [GoesOn] at hr
    · exact ih r (by simpa [GoesOn] using hr)
    · exact ih r (by simpa [GoesOn] using hr)
    · exact ih r (by simpa [GoesOn] using hr)
    · cases r with
      | true => exfalso; simp at hr; omega
      | false =>
        have := ih true (by simp only [GoesOn, if_true]; have : List.count true bs = 0 := by simpa using hr
                            omega)
        simpa using this
    · exact ih r (by simpa [GoesOn] using hr)
  induction h generalizing r with
  | nil s => exact ⟨r, rfl⟩
  | bool head tail ih => exact step head rfl ih r hb
  | null head tail ih => exact step head rfl ih r hb
  | empty head tail ih => exact step head rfl ih r hb

/-- The verdicts on the first elements do not yet decide the predicate. -/
def Undecided (name : String) (bs : List Bool) : Prop :=
  (name = "all" ∧ false ∉ bs) ∨ (name = "any" ∧ true ∉ bs) ∨ (name = "single" ∧ bs.count true ≤ 1) ∨ (name = "none" ∧ true ∉ bs)

/-- C44: if the verdicts before an element leave the predicate undecided and the condition of that
element is neither a boolean nor NULL nor EMPTY, the predicate is the type error. -/
theorem C44_predicate_type {env : Env} {p : List Nat} {name : String} {inner : Bytes} {c f : Expr} {o : Bytes}
    {s s1 s2 s3 : EState} {xs ys : List Value} {bs : List Bool} {y v : Value}
    (hc : c.eval env (0 :: p) s = some (.list (xs ++ y :: ys), s1)) (ht : Tested env inner f (1 :: p) xs s1 bs s2)
    (hu : Undecided name bs) (hv : f.eval env (1 :: p) (s2.setVar inner y) = some (v, s3)) (hl : NotLogical v) :
    (Expr.predicate (ascii name) inner c (some f) o).eval env p s = some (BAD_TYPE, s3) := by
  have hb : Eval.truth v = none := by
    obtain ⟨a1, a2, a3⟩ := hl
    cases v <;> first | exact absurd rfl (a1 _) | exact absurd rfl (a2 _) | exact absurd rfl a3 | rfl
  have main : ∀ t : Eval.PredType, Eval.predType (ascii name) = some t → ascii name ≠ ascii "exists" →
      GoesOn t (Eval.predStart t) bs →
      (Expr.predicate (ascii name) inner c (some f) o).eval env p s = some (BAD_TYPE, s3) := by
    intro t hn he hr
    obtain ⟨r', h⟩ := predLoop_undecided ht t (Eval.predStart t) (y :: ys) hr
    simp only [Expr.eval, Eval.predicate, he, if_false, hn, Eval.bind, hc, Eval.onList, Expr.evalO, Option.getD_some, h]
    simp only [Eval.predLoop, Eval.bind, Eval.setVar, hv, hb, Eval.pure, kNullBadType]
  rcases hu with ⟨rfl, hu⟩ | ⟨rfl, hu⟩ | ⟨rfl, hu⟩ | ⟨rfl, hu⟩
  · exact main .all (by decide +kernel) (by decide +kernel) hu
  · exact main .any (by decide +kernel) (by decide +kernel) hu
  · exact main .single (by decide +kernel) (by decide +kernel) (by simpa [Eval.predStart, GoesOn] using hu)
  · exact main .none (by decide +kernel) (by decide +kernel) hu

/-- The variables with `n` bound to `x`. -/
def bound (σ : Bytes → Value) (n : Bytes) (x : Value) : Bytes → Value := fun m => if m = n then x else σ m

/-- C44: a list comprehension with condition and mapping over a list is the mapping of the elements whose condition is true, in
the order of the list, each element bound to the inner variable. -/
theorem C44_comprehension {env : Env} {p : List Nat} {inner : Bytes} {c f m : Expr} {o : Bytes} {s s1 : EState} {xs : List Value}
    {F : (Bytes → Value) → Value} {M : (Bytes → Value) → Value}
    (hc : c.eval env (0 :: p) s = some (.list xs, s1))
    (hf : FunctionOf env f (1 :: p) [inner] s1 F) (hm : FunctionOf env m (2 :: p) [inner] s1 M)
    (hi : ∀ t t' v, f.eval env (1 :: p) t = some (v, t') → t'.vars inner = t.vars inner)
    (hl : ∀ x ∈ xs, ¬ NotLogical (F (bound s1.vars inner x))) :
    ∃ keep : Value → Bool, (∀ x, keep x = true ↔ F (bound s1.vars inner x) = .bool true) ∧
      ∃ s2, (Expr.listComp inner c (some f) (some m) o).eval env p s =
        some (.list ((xs.filter keep).map fun x => M (bound s1.vars inner x)), s2) := by
  refine ⟨fun x => Eval.truth (F (bound s1.vars inner x)) = some true, ?_, ?_⟩
  · intro x
    simp only [decide_eq_true_eq]
    cases F (bound s1.vars inner x) <;> simp [Eval.truth]
  · have loop : ∀ (xs ret : List Value) (t : EState), (∀ x ∈ xs, ¬ NotLogical (F (bound s1.vars inner x))) →
        (∀ n, n ∉ [inner] → t.vars n = s1.vars n) → t.agg = s1.agg →
        ∃ s2, Eval.compLoop inner (some (f.eval env (1 :: p))) (some (m.eval env (2 :: p))) ret xs t =
          some (.list (ret ++ (xs.filter fun x => Eval.truth (F (bound s1.vars inner x)) = some true).map fun x => M (bound s1.vars inner x)), s2) := by
      intro xs
      induction xs with
      | nil => intro ret t _ _ _; exact ⟨t, by simp [Eval.compLoop, Eval.pure]⟩
      | cons x xs ih =>
        intro ret t hl h1 h2
        have hvars : (t.setVar inner x).vars = bound s1.vars inner x := by
          funext n
          simp only [EState.setVar, bound]
          by_cases hn : n = inner
          · simp [hn]
          · simp [hn, h1 n (by simpa using hn)]
        obtain ⟨t1, e1, a1, a2⟩ := hf (t.setVar inner x) (by
          intro n hn
          rw [hvars]
          have : n ≠ inner := by simpa using hn
          simp [bound, this]) h2
        rw [hvars] at e1
        have hin := hi _ _ _ e1
        have hvars1 : t1.vars = bound s1.vars inner x := by
          funext n
          by_cases hn : n = inner
          · subst hn; rw [hin, hvars]
          · rw [a1 n (by simpa using hn)]; simp [bound, hn]
        have hx := hl x (by simp)
        have hl' : ∀ y ∈ xs, ¬ NotLogical (F (bound s1.vars inner y)) := fun y hy => hl y (List.mem_cons_of_mem _ hy)
        obtain ⟨t2, e2, b1, b2⟩ := hm t1 a1 a2
        rw [hvars1] at e2
        have hb : ∃ b, Eval.truth (F (bound s1.vars inner x)) = some b := by
          cases hF : F (bound s1.vars inner x) <;> first
            | exact ⟨_, rfl⟩
            | (exfalso; apply hx; rw [hF]; simp [NotLogical])
        obtain ⟨b, hb⟩ := hb
        simp only [Eval.compLoop, Eval.bind, Eval.setVar, e1, Eval.pure, hb]
        cases b
        · obtain ⟨s2, h⟩ := ih ret t1 hl' a1 a2
          exact ⟨s2, by simp only [h, List.filter_cons, hb]; simp⟩
        · obtain ⟨s2, h⟩ := ih (ret ++ [M (bound s1.vars inner x)]) t2 hl' b1 b2
          exact ⟨s2, by simp only [Eval.bind, e2, h, List.filter_cons, hb]; simp⟩
    obtain ⟨s2, h⟩ := loop xs [] s1 hl (fun _ _ => rfl) rfl
    exact ⟨s2, by simp only [Expr.eval, Eval.listComp, Eval.bind, hc, Eval.onList, Expr.evalO]; simpa using h⟩

/-- C44: without a condition every element is mapped, without a mapping the elements whose condition is true are kept, without
both the result is the list. -/
theorem C44_comprehension_short {env : Env} {p : List Nat} {inner : Bytes} {c : Expr} {o : Bytes} {s s1 : EState} {xs : List Value}
    (hc : c.eval env (0 :: p) s = some (.list xs, s1)) :
    (Expr.listComp inner c none none o).eval env p s = some (.list xs, s1) ∧
    (∀ m M, FunctionOf env m (2 :: p) [inner] s1 M →
      ∃ s2, (Expr.listComp inner c none (some m) o).eval env p s = some (.list (xs.map fun x => M (bound s1.vars inner x)), s2)) ∧
    (∀ f F, FunctionOf env f (1 :: p) [inner] s1 F → (∀ x ∈ xs, ¬ NotLogical (F (bound s1.vars inner x))) →
      ∃ keep : Value → Bool, (∀ x, keep x = true ↔ F (bound s1.vars inner x) = .bool true) ∧
        ∃ s2, (Expr.listComp inner c (some f) none o).eval env p s = some (.list (xs.filter keep), s2)) := by
  have hset : ∀ (t : EState) (x : Value), (∀ n, n ∉ [inner] → t.vars n = s1.vars n) → (t.setVar inner x).vars = bound s1.vars inner x := by
    intro t x h1
    funext n
    simp only [EState.setVar, bound]
    by_cases hn : n = inner
    · simp [hn]
    · simp [hn, h1 n (by simpa using hn)]
  have hoff : ∀ (t : EState) (x : Value), (∀ n, n ∉ [inner] → t.vars n = s1.vars n) →
      ∀ n, n ∉ [inner] → (t.setVar inner x).vars n = s1.vars n := by
    intro t x h1 n hn
    rw [hset t x h1]
    have : n ≠ inner := by simpa using hn
    simp [bound, this]
  refine ⟨by simp [Expr.eval, Eval.listComp, Eval.bind, hc, Eval.onList, Expr.evalO, Eval.pure], ?_, ?_⟩
  · intro m M hm
    have loop : ∀ (xs ret : List Value) (t : EState), (∀ n, n ∉ [inner] → t.vars n = s1.vars n) → t.agg = s1.agg →
        ∃ s2, Eval.compLoop inner none (some (m.eval env (2 :: p))) ret xs t =
          some (.list (ret ++ xs.map fun x => M (bound s1.vars inner x)), s2) := by
      intro xs
      induction xs with
      | nil => intro ret t _ _; exact ⟨t, by simp [Eval.compLoop, Eval.pure]⟩
      | cons x xs ih =>
        intro ret t h1 h2
        obtain ⟨t2, e2, b1, b2⟩ := hm (t.setVar inner x) (hoff t x h1) h2
        rw [hset t x h1] at e2
        obtain ⟨s2, h⟩ := ih (ret ++ [M (bound s1.vars inner x)]) t2 b1 b2
        exact ⟨s2, by simp only [Eval.compLoop, Eval.bind, Eval.setVar, Eval.pure, e2, h]; simp⟩
    obtain ⟨s2, h⟩ := loop xs [] s1 (fun _ _ => rfl) rfl
    exact ⟨s2, by simp only [Expr.eval, Eval.listComp, Eval.bind, hc, Eval.onList, Expr.evalO]; simpa using h⟩
  · intro f F hf hl
    refine ⟨fun x => Eval.truth (F (bound s1.vars inner x)) = some true, ?_, ?_⟩
    · intro x
      simp only [decide_eq_true_eq]
      cases F (bound s1.vars inner x) <;> simp [Eval.truth]
    · have loop : ∀ (xs ret : List Value) (t : EState), (∀ x ∈ xs, ¬ NotLogical (F (bound s1.vars inner x))) →
          (∀ n, n ∉ [inner] → t.vars n = s1.vars n) → t.agg = s1.agg →
          ∃ s2, Eval.compLoop inner (some (f.eval env (1 :: p))) none ret xs t =
            some (.list (ret ++ (xs.filter fun x => Eval.truth (F (bound s1.vars inner x)) = some true)), s2) := by
        intro xs
        induction xs with
        | nil => intro ret t _ _ _; exact ⟨t, by simp [Eval.compLoop, Eval.pure]⟩
        | cons x xs ih =>
          intro ret t hl h1 h2
          obtain ⟨t1, e1, a1, a2⟩ := hf (t.setVar inner x) (hoff t x h1) h2
          rw [hset t x h1] at e1
          have hx := hl x (by simp)
          have hl' : ∀ y ∈ xs, ¬ NotLogical (F (bound s1.vars inner y)) := fun y hy => hl y (List.mem_cons_of_mem _ hy)
          have hb : ∃ b, Eval.truth (F (bound s1.vars inner x)) = some b := by
            cases hF : F (bound s1.vars inner x) <;> first
              | exact ⟨_, rfl⟩
              | (exfalso; apply hx; rw [hF]; simp [NotLogical])
          obtain ⟨b, hb⟩ := hb
          simp only [Eval.compLoop, Eval.bind, Eval.setVar, e1, Eval.pure, hb]
          cases b
          · obtain ⟨s2, h⟩ := ih ret t1 hl' a1 a2
            exact ⟨s2, by simp only [h, List.filter_cons, hb]; simp⟩
          · obtain ⟨s2, h⟩ := ih (ret ++ [x]) t1 hl' a1 a2
            exact ⟨s2, by simp only [Eval.bind, Eval.pure, h, List.filter_cons, hb]; simp⟩
      obtain ⟨s2, h⟩ := loop xs [] s1 hl (fun _ _ => rfl) rfl
      exact ⟨s2, by simp only [Expr.eval, Eval.listComp, Eval.bind, hc, Eval.onList, Expr.evalO]; simpa using h⟩

/-- C44: a list comprehension with a condition that is neither boolean, NULL nor EMPTY for the first element is the type error. -/
theorem C44_comprehension_type {env : Env} {p : List Nat} {inner : Bytes} {c f : Expr} {m : Option Expr} {o : Bytes} {s s1 s2 : EState}
    {x v : Value} {xs : List Value} (hc : c.eval env (0 :: p) s = some (.list (x :: xs), s1))
    (hv : f.eval env (1 :: p) (s1.setVar inner x) = some (v, s2)) (hl : NotLogical v) :
    (Expr.listComp inner c (some f) m o).eval env p s = some (BAD_TYPE, s2) := by
  have hb : Eval.truth v = none := by
    obtain ⟨a1, a2, a3⟩ := hl
    cases v <;> first | exact absurd rfl (a1 _) | exact absurd rfl (a2 _) | exact absurd rfl a3 | rfl
  simp [Expr.eval, Eval.listComp, Eval.bind, hc, Eval.onList, Expr.evalO, Eval.compLoop, Eval.setVar, hv, hb, Eval.pure, kNullBadType]

/-- C44: so it is whichever element it is whose condition is neither boolean, NULL nor EMPTY, with a mapping or without. -/
theorem C44_comprehension_error {env : Env} {p : List Nat} {inner : Bytes} {c f : Expr} {m : Option Expr} {o : Bytes} {s s1 : EState}
    {xs : List Value} {F : (Bytes → Value) → Value}
    (hc : c.eval env (0 :: p) s = some (.list xs, s1)) (hf : FunctionOf env f (1 :: p) [inner] s1 F)
    (hm : ∀ m', m = some m' → ∃ M, FunctionOf env m' (2 :: p) [inner] s1 M)
    (hl : ∃ x ∈ xs, NotLogical (F (bound s1.vars inner x))) :
    ∃ s2, (Expr.listComp inner c (some f) m o).eval env p s = some (BAD_TYPE, s2) := by
  have loop : ∀ (xs ret : List Value) (t : EState), (∃ x ∈ xs, NotLogical (F (bound s1.vars inner x))) →
      (∀ n, n ∉ [inner] → t.vars n = s1.vars n) → t.agg = s1.agg →
      ∃ s2, Eval.compLoop inner (some (f.eval env (1 :: p))) (Expr.evalO env m (2 :: p)) ret xs t = some (BAD_TYPE, s2) := by
    intro xs
    induction xs with
    | nil => intro ret t hl _ _; obtain ⟨x, hx, _⟩ := hl; cases hx
    | cons x xs ih =>
      intro ret t hl h1 h2
      have hvars : (t.setVar inner x).vars = bound s1.vars inner x := by
        funext n
        simp only [EState.setVar, bound]
        by_cases hn : n = inner
        · simp [hn]
        · simp [hn, h1 n (by simpa using hn)]
      obtain ⟨t1, e1, a1, a2⟩ := hf (t.setVar inner x) (by
        intro n hn
        rw [hvars]
        have : n ≠ inner := by simpa using hn
        simp [bound, this]) h2
      rw [hvars] at e1
      by_cases hx : NotLogical (F (bound s1.vars inner x))
      · have hb : Eval.truth (F (bound s1.vars inner x)) = none := by
          obtain ⟨q1, q2, q3⟩ := hx
          cases hF : F (bound s1.vars inner x) <;> first | exact absurd hF (q1 _) | exact absurd hF (q2 _) | exact absurd hF q3 | rfl
        exact ⟨t1, by simp only [Eval.compLoop, Eval.bind, Eval.setVar, e1, Eval.pure, hb, kNullBadType]⟩
      · have hl' : ∃ y ∈ xs, NotLogical (F (bound s1.vars inner y)) := by
          obtain ⟨y, hy, hn⟩ := hl
          rcases List.mem_cons.mp hy with rfl | hy
          · exact absurd hn hx
          · exact ⟨y, hy, hn⟩
        have hb : ∃ b, Eval.truth (F (bound s1.vars inner x)) = some b := by
          cases hF : F (bound s1.vars inner x) <;> first
            | exact ⟨_, rfl⟩
            | (exfalso; apply hx; rw [hF]; simp [NotLogical])
        obtain ⟨b, hb⟩ := hb
        simp only [Eval.compLoop, Eval.bind, Eval.setVar, e1, Eval.pure, hb]
        cases b
        · exact ih ret t1 hl' a1 a2
        · cases m with
          | none => exact ih _ t1 hl' a1 a2
          | some m' =>
            obtain ⟨M, hM⟩ := hm m' rfl
            obtain ⟨t2, e2, b1, b2⟩ := hM t1 a1 a2
            simp only [Expr.evalO, Eval.bind, e2]
            exact ih _ t2 hl' b1 b2
  obtain ⟨s2, h⟩ := loop xs [] s1 hl (fun _ _ => rfl) rfl
  exact ⟨s2, by simp only [Expr.eval, Eval.listComp, Eval.bind, hc, Eval.onList, Expr.evalO]; simpa using h⟩

/-- C44: reduce over a list folds the mapping over the elements from the left, starting with the initial value. -/
theorem C44_reduce {env : Env} {p : List Nat} {acc inner : Bytes} {i c m : Expr} {o : Bytes} {s s0 s1 : EState} {xs : List Value} {i0 : Value}
    {M : (Bytes → Value) → Value}
    (hi : i.eval env (0 :: p) s = some (i0, s0)) (hc : c.eval env (1 :: p) s0 = some (.list xs, s1))
    (hm : FunctionOf env m (2 :: p) [acc, inner] s1 M) :
    ∃ s2, (Expr.reduce acc i inner c m o).eval env p s =
      some (xs.foldl (fun a x => M (bound (bound s1.vars acc a) inner x)) i0, s2) := by
  have loop : ∀ (xs : List Value) (a : Value) (t : EState), (∀ n, n ∉ [acc, inner] → t.vars n = s1.vars n) → t.agg = s1.agg →
      t.vars acc = a → ∃ s2, Eval.reduceLoop acc inner (m.eval env (2 :: p)) xs t = some ((), s2) ∧
        s2.vars acc = xs.foldl (fun a x => M (bound (bound s1.vars acc a) inner x)) a := by
    intro xs
    induction xs with
    | nil => intro a t _ _ ha; exact ⟨t, rfl, ha⟩
    | cons x xs ih =>
      intro a t h1 h2 ha
      have hvars : (t.setVar inner x).vars = bound (bound s1.vars acc a) inner x := by
        funext n
        simp only [EState.setVar, bound]
        by_cases hn : n = inner
        · simp [hn]
        · by_cases hn' : n = acc
          · subst hn'; simp [hn, ha]
          · simp [hn, hn', h1 n (by simp [hn, hn'])]
      obtain ⟨t1, e1, b1, b2⟩ := hm (t.setVar inner x) (by
        intro n hn
        rw [hvars]
        have : n ≠ acc ∧ n ≠ inner := by simpa using hn
        simp [bound, this]) h2
      rw [hvars] at e1
      obtain ⟨s2, h, hs⟩ := ih (M (bound (bound s1.vars acc a) inner x)) (t1.setVar acc (M (bound (bound s1.vars acc a) inner x))) (by
        intro n hn
        have hn' : n ≠ acc := by intro e; subst e; simp at hn
        simp [EState.setVar, hn', b1 n hn]) b2 (by simp [EState.setVar])
      exact ⟨s2, by simp only [Eval.reduceLoop, Eval.bind, Eval.setVar, e1, h], by simpa using hs⟩
  obtain ⟨s2, h, hs⟩ := loop xs i0 (s1.setVar acc i0) (by
    intro n hn
    have hn' : n ≠ acc := by intro e; subst e; simp at hn
    simp [EState.setVar, hn']) rfl (by simp [EState.setVar])
  exact ⟨s2, by simp [Expr.eval, Eval.reduce, Eval.bind, hi, hc, Eval.onList, Eval.setVar, h, Eval.getVar, hs]⟩

/-- The inner variable. -/
abbrev x? : Expr := .var (ascii "x") true

/-- The condition `x` on the elements of `[true, NULL, EMPTY, false]`: only the first verdict is true, so `single` holds. -/
example (env : Env) (s : EState) :
    ∃ b s3, (Expr.predicate (ascii "single") (ascii "x") (.const (.list [.bool true, NULL, .empty, .bool false])) (some x?) []).eval env [] s
      = some (.bool b, s3) ∧ (b = true ↔ List.count true [true, false, false, false] = 1) :=
  C44_predicate (env := env) (p := []) (s := s) (name := "single") (o := []) (xs := [.bool true, NULL, .empty, .bool false])
    (bs := [true, false, false, false]) rfl
    (.bool (b := true) rfl (.null (n := .null) rfl (.empty rfl (.bool (b := false) rfl (.nil _))))) rfl

/-- A mapping that is a function of the inner variable: `x IS NULL`. -/
theorem isNull_functionOf (env : Env) (p : List Nat) (s : EState) :
    FunctionOf env (.unary .isNull x?) p [ascii "x"] s (fun σ => .bool (σ (ascii "x")).isNull) :=
  fun t h1 h2 => ⟨t, rfl, h1, h2⟩

/-- `[x IN [1, NULL] WHERE x IS NULL | x IS NULL]` is `[true]`. -/
example (env : Env) (s : EState) :
    ∃ s2, (Expr.listComp (ascii "x") (.const (.list [.int 1, NULL])) (some (.unary .isNull x?)) (some (.unary .isNull x?)) []).eval env [] s =
      some (.list [.bool true], s2) := by
  obtain ⟨keep, hk, s2, h⟩ := C44_comprehension (env := env) (p := []) (s := s) (o := []) (xs := [.int 1, NULL]) (c := .const (.list [.int 1, NULL])) rfl
    (isNull_functionOf env [1] s) (isNull_functionOf env [2] s)
    (by intro t t' v h; simp [Expr.eval, Eval.unOp, Eval.bind, Eval.getVar, Eval.pure] at h; rw [← h.2])
    (by intro x _; simp [NotLogical])
  refine ⟨s2, ?_⟩
  have k1 : keep (.int 1) = false := by
    rw [Bool.eq_false_iff, Ne, hk]; simp [bound, isNull]
  have k2 : keep NULL = true := by rw [hk]; simp [bound, isNull]
  rw [h]
  simp [List.filter_cons, k1, k2, bound, isNull]

/-- `reduce(a = 7, x IN [1, 2] | x IS NULL)` is false. -/
example (env : Env) (s : EState) :
    ∃ s2, (Expr.reduce (ascii "a") (.const (.int 7)) (ascii "x") (.const (.list [.int 1, .int 2])) (.unary .isNull x?) []).eval env [] s =
      some (.bool false, s2) := by
  obtain ⟨s2, h⟩ := C44_reduce (env := env) (p := []) (s := s) (acc := ascii "a") (inner := ascii "x") (i := .const (.int 7)) (i0 := .int 7) (o := [])
    (c := .const (.list [.int 1, .int 2])) (xs := [.int 1, .int 2]) (m := .unary .isNull x?) (M := fun σ => .bool (σ (ascii "x")).isNull) rfl rfl
    (fun t h1 h2 => ⟨t, rfl, h1, h2⟩)
  exact ⟨s2, by rw [h]; simp [bound, isNull]⟩

end Nebula
