import Verif.Expr.FoldSpec
import Verif.Expr.Frame
import Verif.Func.PureProps
/-!
# C122: constant expressions
-/
namespace Nebula
open EvalSpec Value

/-! ## The context -/

theorem binOp_env {env env' : Env} (h : SameLibrary env env') (o : BinOp) (p : List Nat) (l r : Value) : Eval.binOp env o p l r = Eval.binOp env' o p l r := by
  cases o <;> simp only [Eval.binOp, h.1, h.2.1]

theorem unOp_env {env env' : Env} (h : SameLibrary env env') (o : UnOp) (n : Option (Option Bytes)) (m : Eval Value) : Eval.unOp env o n m = Eval.unOp env' o n m := by
  cases o <;> simp only [Eval.unOp, h.2.1]

/-- The functions agree on steady calls. -/
def SameCalls (env env' : Env) : Prop := ∀ n k, Steady n k → ∀ args : List Value, args.length = k →
  (env.fn n k).bind (fun f => f args) = (env'.fn n k).bind fun f => f args

theorem all_length (ms : List (Eval Value)) (s : EState) (vs : List Value) (s' : EState) (h : Eval.all ms s = some (vs, s')) : vs.length = ms.length := by
  induction ms generalizing s vs s' with
  | nil => simp only [Eval.all, Eval.pure, Option.some.injEq, Prod.mk.injEq] at h; simp [← h.1]
  | cons m ms ih =>
    simp only [Eval.all, Eval.bind] at h
    split at h
    · simp at h
    · split at h
      · simp at h
      · rename_i vs' s'' h2
        simp only [Eval.pure, Option.some.injEq, Prod.mk.injEq] at h
        rw [← h.1]
        simp [ih _ _ _ h2]

theorem evals_length (env : Env) (es : List Expr) (i : Nat) (p : List Nat) : (Expr.evals env es i p).length = es.length := by
  induction es generalizing i with
  | nil => simp [Expr.evals]
  | cons e es ih => simp [Expr.evals, ih]

mutual
theorem env_eval {env env' : Env} (hl : SameLibrary env env') (hc : SameCalls env env') :
    ∀ (B : List Bytes) (e : Expr) (p : List Nat), Closed B e → e.eval env p = e.eval env' p
  | B, .const v, p, h => by simp only [Expr.eval]
  | B, .unary o e, p, h => by
    simp only [Closed] at h
    simp only [Expr.eval, env_eval hl hc B e _ h, unOp_env hl]
  | B, .binary o l r, p, h => by
    simp only [Closed] at h
    simp only [Expr.eval, env_eval hl hc B l _ h.1, env_eval hl hc B r _ h.2.1, binOp_env hl]
  | B, .labelAttribute l r, p, h => by simp only [Expr.eval]
  | B, .column i, p, h => by simp only [Closed] at h
  | B, .logical o es, p, h => by
    simp only [Closed] at h
    simp only [Expr.eval, env_evals hl hc B es _ _ h.1]
  | B, .cast ty e, p, h => by
    simp only [Closed] at h
    simp only [Expr.eval, env_eval hl hc B e _ h, hl.2.2.1, hl.2.2.2]
  | B, .call n es, p, h => by
    simp only [Closed] at h
    simp only [Expr.eval, env_evals hl hc B es _ _ h.2]
    funext s
    simp only [Eval.bind]
    split
    · rfl
    · rename_i vs s' hv
      have := all_length _ _ _ _ hv
      rw [evals_length] at this
      simp only [Eval.lift, hc n es.length h.1 vs this]
  | B, .prop k _ sym pr, p, h => by simp only [Closed] at h
  | B, .vertex, p, h => by simp only [Closed] at h
  | B, .edge, p, h => by simp only [Closed] at h
  | B, .uuid _, p, h => by simp only [Expr.eval]
  | B, .var n i, p, h => by simp only [Expr.eval]
  | B, .versionedVar n none, p, h => by simp only [Expr.eval]
  | B, .versionedVar n (some e), p, h => by simp only [Closed] at h
  | B, .coll k es, p, h => by
    simp only [Closed] at h
    simp only [Expr.eval, env_evals hl hc B es _ _ h]
  | B, .map kvs, p, h => by
    simp only [Closed] at h
    simp only [Expr.eval, env_evalKvs hl hc B kvs _ _ h]
  | B, .label n, p, h => by simp only [Expr.eval]
  | B, .case g c d cs, p, h => by
    simp only [Closed] at h
    simp only [Expr.eval, env_evalO hl hc B c _ h.1, env_evalO hl hc B d _ h.2.1, env_evalCases hl hc B cs _ _ h.2.2]
  | B, .predicate n i c f o, p, h => by
    simp only [Closed] at h
    simp only [Expr.eval, env_operands hl hc B c _ h.1, env_eval hl hc B c _ h.1, env_evalO hl hc (i :: B) f _ h.2]
  | B, .listComp i c f m o, p, h => by
    simp only [Closed] at h
    simp only [Expr.eval, env_eval hl hc B c _ h.1, env_evalO hl hc (i :: B) f _ h.2.1, env_evalO hl hc (i :: B) m _ h.2.2]
  | B, .reduce a i v c m o, p, h => by
    simp only [Closed] at h
    simp only [Expr.eval, env_eval hl hc B i _ h.1, env_eval hl hc B c _ h.2.1, env_eval hl hc (v :: a :: B) m _ h.2.2]
  | B, .text _ _, p, h => by simp only [Expr.eval]
  | B, .aggregate n d a, p, h => by simp only [Closed] at h
  | B, .range l lo hi, p, h => by
    simp only [Closed] at h
    simp only [Expr.eval, env_eval hl hc B l _ h.1, env_evalO hl hc B lo _ h.2.1, env_evalO hl hc B hi _ h.2.2]
theorem env_evals {env env' : Env} (hl : SameLibrary env env') (hc : SameCalls env env') :
    ∀ (B : List Bytes) (es : List Expr) (i : Nat) (p : List Nat), ClosedL B es → Expr.evals env es i p = Expr.evals env' es i p
  | B, [], i, p, h => by simp only [Expr.evals]
  | B, e :: es, i, p, h => by
    simp only [ClosedL] at h
    simp only [Expr.evals, env_eval hl hc B e _ h.1, env_evals hl hc B es _ _ h.2]
theorem env_evalO {env env' : Env} (hl : SameLibrary env env') (hc : SameCalls env env') :
    ∀ (B : List Bytes) (e : Option Expr) (p : List Nat), ClosedO B e → Expr.evalO env e p = Expr.evalO env' e p
  | B, none, p, h => by simp only [Expr.evalO]
  | B, some e, p, h => by
    simp only [ClosedO] at h
    simp only [Expr.evalO, env_eval hl hc B e _ h]
theorem env_evalKvs {env env' : Env} (hl : SameLibrary env env') (hc : SameCalls env env') :
    ∀ (B : List Bytes) (es : List (Bytes × Expr)) (i : Nat) (p : List Nat), ClosedKv B es → Expr.evalKvs env es i p = Expr.evalKvs env' es i p
  | B, [], i, p, h => by simp only [Expr.evalKvs]
  | B, (k, e) :: es, i, p, h => by
    simp only [ClosedKv] at h
    simp only [Expr.evalKvs, env_eval hl hc B e _ h.1, env_evalKvs hl hc B es _ _ h.2]
theorem env_evalCases {env env' : Env} (hl : SameLibrary env env') (hc : SameCalls env env') :
    ∀ (B : List Bytes) (es : List (Expr × Expr)) (i : Nat) (p : List Nat), ClosedC B es → Expr.evalCases env es i p = Expr.evalCases env' es i p
  | B, [], i, p, h => by simp only [Expr.evalCases]
  | B, (w, t) :: es, i, p, h => by
    simp only [ClosedC] at h
    simp only [Expr.evalCases, env_eval hl hc B w _ h.1, env_eval hl hc B t _ h.2.1, env_evalCases hl hc B es _ _ h.2.2]
theorem env_operands {env env' : Env} (hl : SameLibrary env env') (hc : SameCalls env env') :
    ∀ (B : List Bytes) (e : Expr) (p : List Nat), Closed B e → Expr.operands env e p = Expr.operands env' e p
  | B, .binary o l r, p, h => by
    simp only [Closed] at h
    simp only [Expr.operands, env_eval hl hc B l _ h.1, env_eval hl hc B r _ h.2.1]
  | B, .labelAttribute l r, p, h => by simp only [Expr.operands]
  | _, .const _, _, _ | _, .unary _ _, _, _ | _, .column _, _, _ | _, .logical _ _, _, _ | _, .cast _ _, _, _ | _, .call _ _, _, _ | _, .prop _ _ _ _, _, _
  | _, .vertex, _, _ | _, .edge, _, _ | _, .uuid _, _, _ | _, .var _ _, _, _ | _, .versionedVar _ _, _, _ | _, .coll _ _, _, _ | _, .map _, _, _
  | _, .label _, _, _ | _, .case _ _ _ _, _, _ | _, .predicate _ _ _ _ _, _, _ | _, .listComp _ _ _ _ _, _, _ | _, .reduce _ _ _ _ _ _, _, _
  | _, .text _ _, _, _ | _, .aggregate _ _ _, _, _ | _, .range _ _ _, _, _ => by simp only [Expr.operands]
end

/-! ## The variables -/

/-- The states agree on the variables `B`. -/
def Agree (B : List Bytes) (s t : EState) : Prop := ∀ n ∈ B, s.vars n = t.vars n

theorem agree_set {B : List Bytes} {s t : EState} (h : Agree B s t) (n : Bytes) (v : Value) : Agree (n :: B) (s.setVar n v) (t.setVar n v) := by
  intro m hm
  simp only [EState.setVar]
  split
  · rfl
  · rcases List.mem_cons.1 hm with rfl | hm
    · contradiction
    · exact h m hm

theorem Agree.tail {B : List Bytes} {n : Bytes} {s t : EState} (h : Agree (n :: B) s t) : Agree B s t := fun m hm => h m (List.mem_cons_of_mem _ hm)

theorem agree_sets (B : List Bytes) (n : Bytes) : Sets (Agree B) n := fun _ _ v h => (agree_set h n v).tail

theorem Both.mono {α : Type} {R S : EState → EState → Prop} (h : ∀ s t, R s t → S s t) {a b : Option (α × EState)} (hb : Both R a b) : Both S a b := by
  cases hb with
  | none => exact .none
  | some v hr => exact .some v (h _ _ hr)

theorem agree_node {B : List Bytes} {x : Expr} (hr : ∀ n, ReadsVar n x → n ∈ B) (ha : ∀ n d a, x ≠ .aggregate n d a) (hl : NoLeftover x) : NodeOk (Agree B) x :=
  ⟨fun n _ => agree_sets B n, fun n hn _ _ h => h n (hr n hn), fun ⟨n, d, a, h⟩ => absurd h (ha n d a), .inr (.inr ⟨fun _ _ _ _ _ h => h, hl⟩)⟩

theorem set_twice (s : EState) (n : Bytes) (v w : Value) : (s.setVar n v).setVar n w = s.setVar n w := by
  simp only [EState.setVar, EState.mk.injEq, and_self, and_true]
  funext m; split <;> rfl

/-- A loop that begins by setting its variable may be entered with any value in it. -/
theorem enter {α : Type} {B : List Bytes} {n : Bytes} {m : Eval α} (x : Value) (hm : Par (Agree (n :: B)) m) (he : ∀ s : EState, m (s.setVar n x) = m s) : Par (Agree B) m := by
  intro s t h
  rw [← he s, ← he t]
  exact (hm _ _ (agree_set h n x)).mono fun _ _ h => h.tail

theorem scope_pred {B : List Bytes} {t : Eval.PredType} {i : Bytes} {f : Eval Value} (hf : Par (Agree (i :: B)) f) (r : Bool) (xs : List Value) :
    Par (Agree B) (Eval.predLoop t i f r xs) := by
  cases xs with
  | nil => exact .pure _
  | cons x xs =>
    refine enter x (Par.predLoop (agree_sets _ i) hf r (x :: xs)) fun s => ?_
    simp only [Eval.predLoop, Eval.bind, Eval.setVar, set_twice]

theorem scope_comp {B : List Bytes} {i : Bytes} {f m : Option (Eval Value)} (hf : ∀ x, f = some x → Par (Agree (i :: B)) x)
    (hm : ∀ x, m = some x → Par (Agree (i :: B)) x) (ret xs : List Value) : Par (Agree B) (Eval.compLoop i f m ret xs) := by
  cases xs with
  | nil => exact .pure _
  | cons x xs =>
    refine enter x (Par.compLoop (agree_sets _ i) hf hm ret (x :: xs)) fun s => ?_
    simp only [Eval.compLoop, Eval.bind, Eval.setVar, set_twice]

theorem scope_reduce {B : List Bytes} {a i : Bytes} {m : Eval Value} (hm : Par (Agree (i :: B)) m) (xs : List Value) : Par (Agree B) (Eval.reduceLoop a i m xs) := by
  cases xs with
  | nil => exact .pure _
  | cons x xs =>
    refine enter x (Par.reduceLoop (agree_sets _ a) (agree_sets _ i) hm (x :: xs)) fun s => ?_
    simp only [Eval.reduceLoop, Eval.bind, Eval.setVar, set_twice]

mutual
theorem agree_eval (env : Env) : ∀ (B : List Bytes) (e : Expr) (p : List Nat), Closed B e → Par (Agree B) (e.eval env p)
  | B, .const v, p, h => by simp only [Expr.eval]; exact .pure _
  | B, .unary o e, p, h => by
    simp only [Closed] at h
    simp only [Expr.eval]
    exact .unary (agree_eval env B e _ h) (agree_node (by intro n hn; cases hn) (by intros; simp) ⟨by intros; simp_all, by simp⟩)
  | B, .binary o l r, p, h => by
    simp only [Closed] at h
    simp only [Expr.eval]
    refine .binary (l := l) (r := r) (agree_eval env B l _ h.1) (agree_eval env B r _ h.2.1) (agree_node (x := .binary o l r) (by intro n hn; cases hn) (by intros; simp) ⟨?_, by simp⟩) ?_
    · intro l' r' he
      injection he with h1 h2 h3
      subst h1 h3
      exact h.2.2 rfl
    · intro k hk
      rcases hk with rfl | rfl <;> simp [Expr.eval]
  | B, .labelAttribute l r, p, h => by simp only [Expr.eval]; exact .fail
  | B, .column i, p, h => by simp only [Closed] at h
  | B, .logical o es, p, h => by
    simp only [Closed] at h
    simp only [Expr.eval]
    refine .logical (es := es) (agree_evals env B es 0 p h.1) (agree_node (by intro n hn; cases hn) (by intros; simp) ⟨by intros; simp_all, ?_⟩) ?_
    · intro he
      injection he with h1 h2
      exact h.2 h1 h2
    · cases es <;> simp [Expr.evals]
  | B, .cast ty e, p, h => by
    simp only [Closed] at h
    simp only [Expr.eval]
    exact .bind (agree_eval env B e _ h) fun v => .lift _
  | B, .call n es, p, h => by
    simp only [Closed] at h
    simp only [Expr.eval]
    exact .bind (.all (agree_evals env B es 0 p h.2)) fun v => .lift _
  | B, .prop k _ sym pr, p, h => by simp only [Closed] at h
  | B, .vertex, p, h => by simp only [Closed] at h
  | B, .edge, p, h => by simp only [Closed] at h
  | B, .uuid _, p, h => by simp only [Expr.eval]; exact .pure _
  | B, .var n i, p, h => by
    simp only [Closed] at h
    simp only [Expr.eval]
    exact .getVar fun s t hr => hr n h
  | B, .versionedVar n none, p, h => by
    simp only [Closed] at h
    simp only [Expr.eval]
    exact .getVar fun s t hr => hr n h
  | B, .versionedVar n (some e), p, h => by simp only [Closed] at h
  | B, .coll k es, p, h => by
    simp only [Closed] at h
    simp only [Expr.eval]
    exact .coll (agree_evals env B es 0 p h)
  | B, .map kvs, p, h => by
    simp only [Closed] at h
    simp only [Expr.eval]
    exact .mapOf (agree_evalKvs env B kvs 0 p h) _
  | B, .label n, p, h => by simp only [Expr.eval]; exact .pure _
  | B, .case g c d cs, p, h => by
    simp only [Closed] at h
    simp only [Expr.eval]
    exact .caseExpr (agree_evalO env B c _ h.1) (agree_evalO env B d _ h.2.1) (agree_evalCases env B cs 2 p h.2.2)
  | B, .predicate n i c f o, p, h => by
    simp only [Closed] at h
    simp only [Expr.eval]
    have hf : Par (Agree (i :: B)) ((Expr.evalO env f (1 :: p)).getD Eval.fail) := by
      cases hm : Expr.evalO env f (1 :: p) with
      | none => exact .fail
      | some m => exact agree_evalO env (i :: B) f _ h.2 m hm
    have ho := agree_operands env B c (0 :: p) h.1
    unfold Eval.predicate
    split
    · split
      · rename_i a b hab
        have := ho (a, b) hab
        exact .bind this.1 fun _ => .bind this.2 fun _ => .pure _
      · exact .fail
    · split
      · exact .pure _
      · exact .bind (agree_eval env B c _ h.1) fun v => .onList fun vs => scope_pred hf _ _
  | B, .listComp i c f m o, p, h => by
    simp only [Closed] at h
    simp only [Expr.eval]
    refine .bind (agree_eval env B c _ h.1) fun v => .onList fun vs => ?_
    split
    · exact .pure _
    · exact scope_comp (agree_evalO env (i :: B) f _ h.2.1) (agree_evalO env (i :: B) m _ h.2.2) _ _
  | B, .reduce a i v c m o, p, h => by
    simp only [Closed] at h
    simp only [Expr.eval]
    refine .bind (agree_eval env B i _ h.1) fun x => .bind (agree_eval env B c _ h.2.1) fun _ => .onList fun vs => ?_
    have key : Par (Agree (a :: B)) (Eval.bind (Eval.reduceLoop a v (m.eval env (2 :: p)) vs) fun _ => Eval.getVar a) :=
      .bind (scope_reduce (agree_eval env (v :: a :: B) m _ h.2.2) vs) fun _ => .getVar fun s t hr => hr a (by simp)
    intro s t hr
    exact (key _ _ (agree_set hr a x)).mono fun _ _ h => h.tail
  | B, .text _ _, p, h => by simp only [Expr.eval]; exact .fail
  | B, .aggregate n d a, p, h => by simp only [Closed] at h
  | B, .range l lo hi, p, h => by
    simp only [Closed] at h
    simp only [Expr.eval]
    exact .range (agree_eval env B l _ h.1) (agree_evalO env B lo _ h.2.1) (agree_evalO env B hi _ h.2.2)
theorem agree_evals (env : Env) : ∀ (B : List Bytes) (es : List Expr) (i : Nat) (p : List Nat), ClosedL B es →
    ∀ m ∈ Expr.evals env es i p, Par (Agree B) m
  | B, [], i, p, h => by simp [Expr.evals]
  | B, e :: es, i, p, h => by
    simp only [ClosedL] at h
    intro m hm
    simp only [Expr.evals, List.mem_cons] at hm
    rcases hm with rfl | hm
    · exact agree_eval env B e _ h.1
    · exact agree_evals env B es (i + 1) p h.2 m hm
theorem agree_evalO (env : Env) : ∀ (B : List Bytes) (e : Option Expr) (p : List Nat), ClosedO B e → ∀ m, Expr.evalO env e p = some m → Par (Agree B) m
  | B, none, p, h => by simp [Expr.evalO]
  | B, some e, p, h => by
    simp only [ClosedO] at h
    intro m hm
    simp only [Expr.evalO, Option.some.injEq] at hm
    subst hm
    exact agree_eval env B e _ h
theorem agree_evalKvs (env : Env) : ∀ (B : List Bytes) (es : List (Bytes × Expr)) (i : Nat) (p : List Nat), ClosedKv B es →
    ∀ m ∈ Expr.evalKvs env es i p, Par (Agree B) m.2
  | B, [], i, p, h => by simp [Expr.evalKvs]
  | B, (k, e) :: es, i, p, h => by
    simp only [ClosedKv] at h
    intro m hm
    simp only [Expr.evalKvs, List.mem_cons] at hm
    rcases hm with rfl | hm
    · exact agree_eval env B e _ h.1
    · exact agree_evalKvs env B es (i + 1) p h.2 m hm
theorem agree_evalCases (env : Env) : ∀ (B : List Bytes) (es : List (Expr × Expr)) (i : Nat) (p : List Nat), ClosedC B es →
    ∀ m ∈ Expr.evalCases env es i p, Par (Agree B) m.1 ∧ Par (Agree B) m.2
  | B, [], i, p, h => by simp [Expr.evalCases]
  | B, (w, t) :: es, i, p, h => by
    simp only [ClosedC] at h
    intro m hm
    simp only [Expr.evalCases, List.mem_cons] at hm
    rcases hm with rfl | hm
    · exact ⟨agree_eval env B w _ h.1, agree_eval env B t _ h.2.1⟩
    · exact agree_evalCases env B es (i + 2) p h.2.2 m hm
theorem agree_operands (env : Env) : ∀ (B : List Bytes) (e : Expr) (p : List Nat), Closed B e →
    ∀ m, Expr.operands env e p = some m → Par (Agree B) m.1 ∧ Par (Agree B) m.2
  | B, .binary o l r, p, h => by
    simp only [Closed] at h
    intro m hm
    simp only [Expr.operands, Option.some.injEq] at hm
    subst hm
    exact ⟨agree_eval env B l _ h.1, agree_eval env B r _ h.2.1⟩
  | B, .labelAttribute l r, p, h => by
    intro m hm
    simp only [Expr.operands, Option.some.injEq] at hm
    subst hm
    exact ⟨.pure _, .pure _⟩
  | _, .const _, _, _ | _, .unary _ _, _, _ | _, .column _, _, _ | _, .logical _ _, _, _ | _, .cast _ _, _, _ | _, .call _ _, _, _ | _, .prop _ _ _ _, _, _
  | _, .vertex, _, _ | _, .edge, _, _ | _, .uuid _, _, _ | _, .var _ _, _, _ | _, .versionedVar _ _, _, _ | _, .coll _ _, _, _ | _, .map _, _, _
  | _, .label _, _, _ | _, .case _ _ _ _, _, _ | _, .predicate _ _ _ _ _, _, _ | _, .listComp _ _ _ _ _, _, _ | _, .reduce _ _ _ _ _ _, _, _
  | _, .text _ _, _, _ | _, .aggregate _ _ _, _, _ | _, .range _ _ _, _, _ => by intro m hm; simp [Expr.operands] at hm
end

/-- Steady calls agree whatever the clock and the random source say. -/
theorem same_calls (env env' : Env) (L : Func.FLib) (w w' : Func.World) : SameCalls (withFunctions env L w) (withFunctions env' L w') := by
  intro n k hs args hk
  simp only [withFunctions]
  cases hg : Func.getInternal n k with
  | none => rfl
  | some f =>
    have hp : Func.getIsPure n args.length = some true := by
      have := hs.1
      rw [hk]
      unfold Func.getIsPure at *
      rw [hg] at *
      simp only [Option.map_some, ne_eq, Option.some.injEq] at *
      cases hb : f.isPure <;> simp_all
    have := Func.C84_pure_partial L n args hp hs.2 w w'
    unfold Func.call at this
    rw [hk, hg] at this
    simp only [Option.map_some, Option.some.injEq] at this
    simp only [Option.map_some, Option.bind_some, this]

/-- C122 (a constant has one value): a closed expression has the same value, or the same lack of one, whatever the variables, properties, columns, vertex, edge and results left behind are, and
whatever the clock and the random source say. -/
theorem C122_constant {env env' : Env} (L : Func.FLib) (w w' : Func.World) (hl : SameLibrary env env') {e : Expr} (hc : Closed [] e) (p : List Nat) (s t : EState) :
    (e.eval (withFunctions env L w) p s).map Prod.fst = (e.eval (withFunctions env' L w') p t).map Prod.fst := by
  have hl' : SameLibrary (withFunctions env L w) (withFunctions env' L w') := hl
  rw [env_eval hl' (same_calls env env' L w w') [] e p hc]
  have := agree_eval (withFunctions env' L w') [] e p hc s t (by intro n hn; cases hn)
  generalize e.eval (withFunctions env' L w') p s = a at this
  generalize e.eval (withFunctions env' L w') p t = b at this
  cases this with
  | none => rfl
  | some v _ => rfl

/-! ## Folding -/

/-- A quiet expression leaves the state as it is. -/
theorem quiet_state {env : Env} {e : Expr} {p : List Nat} {s s' : EState} {v : Value} (hq : Quiet e) (ha : ∀ x ∈ subs e, ∀ f d a, x ≠ .aggregate f d a)
    (h : e.eval env p s = some (v, s')) : s' = s := by
  have hp : Par (fun a b => a = b ∧ a = s) (e.eval env p) := by
    refine par_eval env e p fun x hx => ⟨fun n hn => absurd hn ((hq x hx).1 n), ?_, ?_, .inl (hq x hx).2⟩
    · rintro n _ a _ ⟨rfl, _⟩; rfl
    · rintro ⟨f, d, a, rfl⟩; exact absurd rfl (ha _ hx f d a)
  have := hp s s ⟨rfl, rfl⟩
  rw [h] at this
  cases this with
  | some _ h => exact h.2

mutual
theorem closed_agg : ∀ (B : List Bytes) (e : Expr), Closed B e → ∀ x ∈ subs e, ∀ f d a, x ≠ .aggregate f d a
  | B, .unary o e, h => by
    simp only [Closed] at h
    simp only [subs, List.mem_cons, forall_eq_or_imp]
    exact ⟨by simp, closed_agg B e h⟩
  | B, .binary o l r, h => by
    simp only [Closed] at h
    simp only [subs, List.mem_cons, forall_eq_or_imp, List.mem_append]
    exact ⟨by simp, fun x hx => hx.elim (closed_agg B l h.1 x) (closed_agg B r h.2.1 x)⟩
  | B, .logical o es, h => by
    simp only [Closed] at h
    simp only [subs, List.mem_cons, forall_eq_or_imp]
    exact ⟨by simp, closed_aggL B es h.1⟩
  | B, .cast t e, h => by
    simp only [Closed] at h
    simp only [subs, List.mem_cons, forall_eq_or_imp]
    exact ⟨by simp, closed_agg B e h⟩
  | B, .call n es, h => by
    simp only [Closed] at h
    simp only [subs, List.mem_cons, forall_eq_or_imp]
    exact ⟨by simp, closed_aggL B es h.2⟩
  | B, .versionedVar n none, h => by simp [subs, subsO]
  | B, .versionedVar n (some e), h => by simp only [Closed] at h
  | B, .coll k es, h => by
    simp only [Closed] at h
    simp only [subs, List.mem_cons, forall_eq_or_imp]
    exact ⟨by simp, closed_aggL B es h⟩
  | B, .map kvs, h => by
    simp only [Closed] at h
    simp only [subs, List.mem_cons, forall_eq_or_imp]
    exact ⟨by simp, closed_aggKv B kvs h⟩
  | B, .case g c d cs, h => by
    simp only [Closed] at h
    simp only [subs, List.mem_cons, forall_eq_or_imp, List.mem_append]
    exact ⟨by simp, fun x hx => by
      rcases hx with (hx | hx) | hx
      · exact closed_aggO B c h.1 x hx
      · exact closed_aggO B d h.2.1 x hx
      · exact closed_aggC B cs h.2.2 x hx⟩
  | B, .predicate n i c f o, h => by
    simp only [Closed] at h
    simp only [subs, List.mem_cons, forall_eq_or_imp, List.mem_append]
    exact ⟨by simp, fun x hx => hx.elim (closed_agg B c h.1 x) (closed_aggO (i :: B) f h.2 x)⟩
  | B, .listComp i c f m o, h => by
    simp only [Closed] at h
    simp only [subs, List.mem_cons, forall_eq_or_imp, List.mem_append]
    exact ⟨by simp, fun x hx => by
      rcases hx with (hx | hx) | hx
      · exact closed_agg B c h.1 x hx
      · exact closed_aggO (i :: B) f h.2.1 x hx
      · exact closed_aggO (i :: B) m h.2.2 x hx⟩
  | B, .reduce a i v c m o, h => by
    simp only [Closed] at h
    simp only [subs, List.mem_cons, forall_eq_or_imp, List.mem_append]
    exact ⟨by simp, fun x hx => by
      rcases hx with (hx | hx) | hx
      · exact closed_agg B i h.1 x hx
      · exact closed_agg B c h.2.1 x hx
      · exact closed_agg (v :: a :: B) m h.2.2 x hx⟩
  | B, .range l lo hi, h => by
    simp only [Closed] at h
    simp only [subs, List.mem_cons, forall_eq_or_imp, List.mem_append]
    exact ⟨by simp, fun x hx => by
      rcases hx with (hx | hx) | hx
      · exact closed_agg B l h.1 x hx
      · exact closed_aggO B lo h.2.1 x hx
      · exact closed_aggO B hi h.2.2 x hx⟩
  | B, .aggregate n d a, h => by simp only [Closed] at h
  | B, .const v, h => by simp [subs]
  | B, .labelAttribute l r, h => by simp [subs]
  | B, .column i, h => by simp [subs]
  | B, .prop k a b c, h => by simp [subs]
  | B, .vertex, h => by simp [subs]
  | B, .edge, h => by simp [subs]
  | B, .uuid x, h => by simp [subs]
  | B, .var n i, h => by simp [subs]
  | B, .label n, h => by simp [subs]
  | B, .text a b, h => by simp [subs]
theorem closed_aggL : ∀ (B : List Bytes) (es : List Expr), ClosedL B es → ∀ x ∈ subsL es, ∀ f d a, x ≠ .aggregate f d a
  | B, [], h => by simp [subsL]
  | B, e :: es, h => by
    simp only [ClosedL] at h
    simp only [subsL, List.mem_append]
    exact fun x hx => hx.elim (closed_agg B e h.1 x) (closed_aggL B es h.2 x)
theorem closed_aggO : ∀ (B : List Bytes) (e : Option Expr), ClosedO B e → ∀ x ∈ subsO e, ∀ f d a, x ≠ .aggregate f d a
  | B, none, h => by simp [subsO]
  | B, some e, h => by
    simp only [ClosedO] at h
    simp only [subsO]
    exact closed_agg B e h
theorem closed_aggKv : ∀ (B : List Bytes) (es : List (Bytes × Expr)), ClosedKv B es → ∀ x ∈ subsKv es, ∀ f d a, x ≠ .aggregate f d a
  | B, [], h => by simp [subsKv]
  | B, (k, e) :: es, h => by
    simp only [ClosedKv] at h
    simp only [subsKv, List.mem_append]
    exact fun x hx => hx.elim (closed_agg B e h.1 x) (closed_aggKv B es h.2 x)
theorem closed_aggC : ∀ (B : List Bytes) (es : List (Expr × Expr)), ClosedC B es → ∀ x ∈ subsC es, ∀ f d a, x ≠ .aggregate f d a
  | B, [], h => by simp [subsC]
  | B, (w, t) :: es, h => by
    simp only [ClosedC] at h
    simp only [subsC, List.mem_append]
    exact fun x hx => by
      rcases hx with (hx | hx) | hx
      · exact closed_agg B w h.1 x hx
      · exact closed_agg B t h.2.1 x hx
      · exact closed_aggC B es h.2.2 x hx
end

mutual
/-- The position of a quiet expression does not matter. -/
theorem path_eval (env : Env) : ∀ (B : List Bytes) (e : Expr) (p q : List Nat), Closed B e → Quiet e → e.eval env p = e.eval env q
  | B, .unary o e, p, q, h, hq => by
    simp only [Closed] at h
    simp only [Expr.eval, path_eval env B e (0 :: p) (0 :: q) h (fun x hx => hq x (by simp [subs, hx]))]
  | B, .binary o l r, p, q, h, hq => by
    simp only [Closed] at h
    have ho : o ≠ .attribute := by rintro rfl; exact (hq _ (by simp [subs])).2.1 l r rfl
    have hb : Eval.binOp env o p = Eval.binOp env o q := by cases o <;> first | exact absurd rfl ho | rfl
    simp only [Expr.eval, path_eval env B l (0 :: p) (0 :: q) h.1 (fun x hx => hq x (by simp [subs, hx])), path_eval env B r (1 :: p) (1 :: q) h.2.1 (fun x hx => hq x (by simp [subs, hx])), hb]
  | B, .logical o es, p, q, h, hq => by
    simp only [Closed] at h
    have ho : o ≠ .xor := by rintro rfl; exact (hq _ (by simp [subs])).2.2 es rfl
    simp only [Expr.eval, path_evals env B es 0 p q h.1 (fun x hx => hq x (by simp [subs, hx]))]
    cases o <;> first | exact absurd rfl ho | rfl
  | B, .cast t e, p, q, h, hq => by
    simp only [Closed] at h
    simp only [Expr.eval, path_eval env B e (0 :: p) (0 :: q) h (fun x hx => hq x (by simp [subs, hx]))]
  | B, .call n es, p, q, h, hq => by
    simp only [Closed] at h
    simp only [Expr.eval, path_evals env B es 0 p q h.2 (fun x hx => hq x (by simp [subs, hx]))]
  | B, .versionedVar n none, p, q, h, hq => by simp only [Expr.eval]
  | B, .versionedVar n (some e), p, q, h, hq => by simp only [Closed] at h
  | B, .coll k es, p, q, h, hq => by
    simp only [Closed] at h
    simp only [Expr.eval, path_evals env B es 0 p q h (fun x hx => hq x (by simp [subs, hx]))]
  | B, .map kvs, p, q, h, hq => by
    simp only [Closed] at h
    simp only [Expr.eval, path_evalKvs env B kvs 0 p q h (fun x hx => hq x (by simp [subs, hx]))]
  | B, .case g c d cs, p, q, h, hq => by
    simp only [Closed] at h
    simp only [Expr.eval, path_evalO env B c (0 :: p) (0 :: q) h.1 (fun x hx => hq x (by simp [subs, hx])), path_evalO env B d (1 :: p) (1 :: q) h.2.1 (fun x hx => hq x (by simp [subs, hx])),
      path_evalCases env B cs 2 p q h.2.2 (fun x hx => hq x (by simp [subs, hx]))]
  | B, .predicate n i c f o, p, q, h, hq => absurd (Assigns.predicate n c f o) ((hq _ (by simp [subs])).1 i)
  | B, .listComp i c f m o, p, q, h, hq => absurd (Assigns.listComp c f m o) ((hq _ (by simp [subs])).1 i)
  | B, .reduce a i v c m o, p, q, h, hq => absurd (Assigns.accumulator i v c m o) ((hq _ (by simp [subs])).1 a)
  | B, .range l lo hi, p, q, h, hq => by
    simp only [Closed] at h
    simp only [Expr.eval, path_eval env B l (0 :: p) (0 :: q) h.1 (fun x hx => hq x (by simp [subs, hx])), path_evalO env B lo (1 :: p) (1 :: q) h.2.1 (fun x hx => hq x (by simp [subs, hx])),
      path_evalO env B hi (2 :: p) (2 :: q) h.2.2 (fun x hx => hq x (by simp [subs, hx]))]
  | B, .aggregate n d a, p, q, h, hq => by simp only [Closed] at h
  | B, .const v, p, q, h, hq => by simp only [Expr.eval]
  | B, .labelAttribute l r, p, q, h, hq => by simp only [Expr.eval]
  | B, .column i, p, q, h, hq => by simp only [Expr.eval]
  | B, .prop k a b c, p, q, h, hq => by simp only [Expr.eval]
  | B, .vertex, p, q, h, hq => by simp only [Expr.eval]
  | B, .edge, p, q, h, hq => by simp only [Expr.eval]
  | B, .uuid x, p, q, h, hq => by simp only [Expr.eval]
  | B, .var n i, p, q, h, hq => by simp only [Expr.eval]
  | B, .label n, p, q, h, hq => by simp only [Expr.eval]
  | B, .text a b, p, q, h, hq => by simp only [Expr.eval]
theorem path_evals (env : Env) : ∀ (B : List Bytes) (es : List Expr) (i : Nat) (p q : List Nat), ClosedL B es →
    (∀ x ∈ subsL es, (∀ n, ¬ Assigns n x) ∧ LeavesNothing x) → Expr.evals env es i p = Expr.evals env es i q
  | B, [], i, p, q, h, hq => by simp only [Expr.evals]
  | B, e :: es, i, p, q, h, hq => by
    simp only [ClosedL] at h
    simp only [Expr.evals, path_eval env B e (i :: p) (i :: q) h.1 (fun x hx => hq x (by simp [subsL, hx])), path_evals env B es (i + 1) p q h.2 (fun x hx => hq x (by simp [subsL, hx]))]
theorem path_evalO (env : Env) : ∀ (B : List Bytes) (e : Option Expr) (p q : List Nat), ClosedO B e →
    (∀ x ∈ subsO e, (∀ n, ¬ Assigns n x) ∧ LeavesNothing x) → Expr.evalO env e p = Expr.evalO env e q
  | B, none, p, q, h, hq => by simp only [Expr.evalO]
  | B, some e, p, q, h, hq => by
    simp only [ClosedO] at h
    simp only [Expr.evalO, path_eval env B e p q h (fun x hx => hq x (by simp [subsO, hx]))]
theorem path_evalKvs (env : Env) : ∀ (B : List Bytes) (es : List (Bytes × Expr)) (i : Nat) (p q : List Nat), ClosedKv B es →
    (∀ x ∈ subsKv es, (∀ n, ¬ Assigns n x) ∧ LeavesNothing x) → Expr.evalKvs env es i p = Expr.evalKvs env es i q
  | B, [], i, p, q, h, hq => by simp only [Expr.evalKvs]
  | B, (k, e) :: es, i, p, q, h, hq => by
    simp only [ClosedKv] at h
    simp only [Expr.evalKvs, path_eval env B e (i :: p) (i :: q) h.1 (fun x hx => hq x (by simp [subsKv, hx])), path_evalKvs env B es (i + 1) p q h.2 (fun x hx => hq x (by simp [subsKv, hx]))]
theorem path_evalCases (env : Env) : ∀ (B : List Bytes) (es : List (Expr × Expr)) (i : Nat) (p q : List Nat), ClosedC B es →
    (∀ x ∈ subsC es, (∀ n, ¬ Assigns n x) ∧ LeavesNothing x) → Expr.evalCases env es i p = Expr.evalCases env es i q
  | B, [], i, p, q, h, hq => by simp only [Expr.evalCases]
  | B, (w, t) :: es, i, p, q, h, hq => by
    simp only [ClosedC] at h
    simp only [Expr.evalCases, path_eval env B w (i :: p) (i :: q) h.1 (fun x hx => hq x (by simp [subsC, hx])),
      path_eval env B t ((i + 1) :: p) ((i + 1) :: q) h.2.1 (fun x hx => hq x (by simp [subsC, hx])), path_evalCases env B es (i + 2) p q h.2.2 (fun x hx => hq x (by simp [subsC, hx]))]
end

section
variable {env : Env} {f : Expr → Option Value}

theorem foldL_length (es : List Expr) : (foldL f es).length = es.length := by
  induction es with
  | nil => simp [foldL]
  | cons e es ih => simp [foldL, ih]

variable (hf : ∀ x v, f x = some v → ∀ p, x.eval env p = Eval.pure v)
include hf

theorem pick_eval {e : Expr} {p : List Nat} (ih : (foldIn f e).eval env p = e.eval env p) : (pick (f e) (foldIn f e)).eval env p = e.eval env p := by
  cases h : f e with
  | none => simpa only [pick] using ih
  | some v => simp only [pick, Expr.eval, hf e v h p]

variable (hv : ∀ x, (f x).isSome → x.varName = none)
include hv
omit hf in
theorem pick_var {e : Expr} : (pick (f e) (foldIn f e)).varName = e.varName := by
  cases h : f e with
  | none => cases e <;> simp [pick, foldIn, Expr.varName]
  | some v => rw [hv e (by simp [h])]; rfl

mutual
theorem foldIn_eval : ∀ (e : Expr) (p : List Nat), (foldIn f e).eval env p = e.eval env p
  | .unary o e, p => by simp only [foldIn, Expr.eval, pick_eval hf (foldIn_eval e _), pick_var hv]
  | .binary o l r, p => by simp only [foldIn, Expr.eval, pick_eval hf (foldIn_eval l _), pick_eval hf (foldIn_eval r _)]
  | .logical o es, p => by simp only [foldIn, Expr.eval, foldL_evals es]
  | .cast t e, p => by simp only [foldIn, Expr.eval, pick_eval hf (foldIn_eval e _)]
  | .call n es, p => by simp only [foldIn, Expr.eval, foldL_evals es, foldL_length]
  | .versionedVar n none, p => by simp only [foldIn, foldO, Expr.eval]
  | .versionedVar n (some e), p => by
    simp only [foldIn, foldO, Expr.eval, pick_eval hf (foldIn_eval e _)]
  | .coll k es, p => by simp only [foldIn, Expr.eval, foldL_evals es]
  | .map kvs, p => by simp only [foldIn, Expr.eval, foldKv_evalKvs kvs]
  | .case g c d cs, p => by simp only [foldIn, Expr.eval, foldO_evalO c, foldO_evalO d, foldC_evalCases cs]
  | .predicate n i c g o, p => by
    simp only [foldIn, Expr.eval, foldO_evalO g]
    by_cases hn : n = ascii "exists"
    · simp only [hn, if_pos, Eval.predicate, fold_operands c]
    · simp only [hn, if_false, Eval.predicate, pick_eval hf (foldIn_eval c _)]
  | .listComp i c g m o, p => by simp only [foldIn, Expr.eval, foldO_evalO g, foldO_evalO m, pick_eval hf (foldIn_eval c _)]
  | .reduce a i v c m o, p => by
    simp only [foldIn, Expr.eval, pick_eval hf (foldIn_eval i _), pick_eval hf (foldIn_eval c _), pick_eval hf (foldIn_eval m _)]
  | .aggregate n d a, p => by simp only [foldIn, Expr.eval, foldO_evalO a]
  | .range l lo hi, p => by simp only [foldIn, Expr.eval, pick_eval hf (foldIn_eval l _), foldO_evalO lo, foldO_evalO hi]
  | .const _, _ | .labelAttribute _ _, _ | .column _, _ | .prop _ _ _ _, _ | .vertex, _ | .edge, _ | .uuid _, _ | .var _ _, _ | .label _, _ | .text _ _, _ => by simp only [foldIn]
theorem foldL_evals : ∀ (es : List Expr) (i : Nat) (p : List Nat), Expr.evals env (foldL f es) i p = Expr.evals env es i p
  | [], i, p => by simp only [foldL]
  | e :: es, i, p => by simp only [foldL, Expr.evals, pick_eval hf (foldIn_eval e _), foldL_evals es]
theorem foldO_evalO : ∀ (e : Option Expr) (p : List Nat), Expr.evalO env (foldO f e) p = Expr.evalO env e p
  | none, p => by simp only [foldO]
  | some e, p => by simp only [foldO, Expr.evalO, pick_eval hf (foldIn_eval e _)]
theorem foldKv_evalKvs : ∀ (es : List (Bytes × Expr)) (i : Nat) (p : List Nat), Expr.evalKvs env (foldKv f es) i p = Expr.evalKvs env es i p
  | [], i, p => by simp only [foldKv]
  | (k, e) :: es, i, p => by simp only [foldKv, Expr.evalKvs, pick_eval hf (foldIn_eval e _), foldKv_evalKvs es]
theorem foldC_evalCases : ∀ (es : List (Expr × Expr)) (i : Nat) (p : List Nat), Expr.evalCases env (foldC f es) i p = Expr.evalCases env es i p
  | [], i, p => by simp only [foldC]
  | (w, t) :: es, i, p => by
    simp only [foldC, Expr.evalCases, pick_eval hf (foldIn_eval w _), pick_eval hf (foldIn_eval t _), foldC_evalCases es]
theorem fold_operands : ∀ (e : Expr) (p : List Nat), Expr.operands env (foldIn f e) p = Expr.operands env e p
  | .binary o l r, p => by simp only [foldIn, Expr.operands, pick_eval hf (foldIn_eval l _), pick_eval hf (foldIn_eval r _)]
  | .const _, _ | .unary _ _, _ | .column _, _ | .logical _ _, _ | .cast _ _, _ | .call _ _, _ | .prop _ _ _ _, _ | .labelAttribute _ _, _
  | .vertex, _ | .edge, _ | .uuid _, _ | .var _ _, _ | .versionedVar _ _, _ | .coll _ _, _ | .map _, _ | .label _, _ | .case _ _ _ _, _
  | .predicate _ _ _ _ _, _ | .listComp _ _ _ _ _, _ | .reduce _ _ _ _ _ _, _ | .text _ _, _ | .aggregate _ _ _, _ | .range _ _ _, _ => by
    simp only [foldIn, Expr.operands]
end
end

/-- C122 (constants may be folded): replacing any closed sub-expressions by the values they had at another time, in another context, changes neither the value of the whole nor what
evaluating it does.  Partial: only sub-expressions that set no variable and leave no result behind (`Quiet`), see `C122_fold_violated`. -/
theorem C122_fold_partial {env env' : Env} (L : Func.FLib) (w w' : Func.World) (hl : SameLibrary env env') {f : Expr → Option Value}
    (hf : ∀ x v, f x = some v → Closed [] x ∧ Quiet x ∧ ∃ t, (x.eval (withFunctions env' L w') [] t).map Prod.fst = some v) (e : Expr) (p : List Nat) (s : EState) :
    (fold f e).eval (withFunctions env L w) p s = e.eval (withFunctions env L w) p s := by
  have h1 : ∀ x v, f x = some v → ∀ p, x.eval (withFunctions env L w) p = Eval.pure v := by
    intro x v hx p
    obtain ⟨hc, hq, t, ht⟩ := hf x v hx
    funext s
    rw [path_eval _ [] x p [] hc hq]
    have := C122_constant L w w' hl hc [] s t
    rw [ht] at this
    cases he : x.eval (withFunctions env L w) [] s with
    | none => rw [he] at this; simp at this
    | some r =>
      obtain ⟨u, s'⟩ := r
      rw [he] at this
      simp only [Option.map_some, Option.some.injEq] at this
      rw [quiet_state hq (closed_agg [] x hc) he, this]
      rfl
  have h2 : ∀ x, (f x).isSome → x.varName = none := by
    intro x hx
    obtain ⟨v, hv⟩ := Option.isSome_iff_exists.1 hx
    have hc := (hf x v hv).1
    cases x <;> first | rfl | skip
    · simp [Closed] at hc
    · rename_i n o
      cases o <;> simp [Closed] at hc
  rw [fold, pick_eval h1 (foldIn_eval h1 h2 e p)]

/-- The hypotheses are met: `size("abc") + $x` with `size("abc")` replaced by 3. -/
example (env env' : Env) (L : Func.FLib) (w w' : Func.World) (hl : SameLibrary env env') (p : List Nat) (s : EState) :
    (Expr.binary .add (.const (.int 3)) (.var (ascii "x") true)).eval (withFunctions env L w) p s =
    (Expr.binary .add (.call (ascii "size") [.const (.str (ascii "abc"))]) (.var (ascii "x") true)).eval (withFunctions env L w) p s := by
  have hg : Func.getInternal (ascii "size") 1 = some .size := by decide +kernel
  have := C122_fold_partial L w w' hl (f := fun x => match x with
    | .call n [.const (.str v)] => if n = ascii "size" ∧ v = ascii "abc" then some (.int 3) else none
    | _ => none) (by
      intro x v hx
      split at hx
      · split at hx
        · rename_i hn
          obtain ⟨rfl, rfl⟩ := hn
          cases hx
          refine ⟨?_, ?_, s, ?_⟩
          · refine ⟨⟨?_, ?_⟩, trivial, trivial⟩
            · simp [Func.getIsPure, hg, Func.Fn.isPure]
            · unfold Func.SameName; decide +kernel
          · intro x hx
            simp only [subs, subsL, List.mem_cons, List.mem_append, List.not_mem_nil, or_false] at hx
            rcases hx with rfl | rfl
            · exact ⟨(by intro n hn; cases hn), (by simp), (by simp)⟩
            · exact ⟨(by intro n hn; cases hn), (by simp), (by simp)⟩
          · have h3 : (ascii "abc").length = 3 := by decide +kernel
            simp [Expr.eval, Expr.evals, Eval.bind, Eval.all, Eval.pure, Eval.lift, withFunctions, hg, Func.body, Func.arg, Func.sizeFn, h3]
        · cases hx
      · cases hx) (.binary .add (.call (ascii "size") [.const (.str (ascii "abc"))]) (.var (ascii "x") true)) p s
  simpa [fold, foldIn, foldL, pick] using this

/-- C122 fails for `rand`, which is marked pure. -/
theorem C122_rand_violated (env : Env) (L : Func.FLib) (p : List Nat) (s : EState) :
    Func.getIsPure (ascii "rand") 0 = some true ∧
    ((Expr.call (ascii "rand") []).eval (withFunctions env L Func.worldA) p s).map Prod.fst ≠ ((Expr.call (ascii "rand") []).eval (withFunctions env L Func.worldB) p s).map Prod.fst := by
  have h : Func.getInternal (ascii "rand") 0 = some .rand := by decide +kernel
  refine ⟨by decide +kernel, ?_⟩
  simp [Expr.eval, Expr.evals, Eval.bind, Eval.all, Eval.pure, Eval.lift, withFunctions, h, Func.body, Func.worldA, Func.worldB]
  decide +kernel

/-- C122 (folding) fails for comprehensions: `[x IN [1] | x]` is closed and its value is `[1]`, but it sets `$x`, and with it the value of what follows. -/
theorem C122_fold_violated (env : Env) (p : List Nat) (s : EState) :
    let c := Expr.listComp (ascii "x") (.const (.list [.int 1])) none (some (.var (ascii "x") true)) []
    Closed [] c ∧ (∀ q t, (c.eval env q t).map Prod.fst = some (.list [.int 1])) ∧
    ((Expr.coll .list [c, .var (ascii "x") true]).eval env p s).map Prod.fst = some (.list [.list [.int 1], .int 1]) ∧
    ((Expr.coll .list [.const (.list [.int 1]), .var (ascii "x") true]).eval env p s).map Prod.fst = some (.list [.list [.int 1], s.vars (ascii "x")]) := by
  have hc : ∀ q t, (Expr.listComp (ascii "x") (.const (.list [.int 1])) none (some (.var (ascii "x") true)) []).eval env q t = some (.list [.int 1], t.setVar (ascii "x") (.int 1)) := by
    intro q t
    simp [Expr.eval, Expr.evalO, Eval.listComp, Eval.bind, Eval.pure, Eval.onList, Eval.compLoop, Eval.setVar, Eval.getVar, EState.setVar]
  refine ⟨by simp [Closed, ClosedO], fun q t => by rw [hc]; rfl, ?_, ?_⟩
  · simp only [Expr.eval, Expr.evals, Eval.coll, Eval.all, Eval.bind]
    have := hc (0 :: p) s
    simp only [Expr.eval] at this
    rw [this]
    simp [Eval.getVar, Eval.pure, EState.setVar]
  · simp [Expr.eval, Expr.evals, Eval.coll, Eval.all, Eval.bind, Eval.getVar, Eval.pure]

/-- The hypotheses of `C122_constant` are met by an expression with a variable of its own. -/
example : Closed [] (.predicate (ascii "all") (ascii "x") (.call (ascii "range") [.const (.int 1), .const (.int 3)]) (some (.binary .lt (.var (ascii "x") true) (.const (.int 5)))) []) := by
  refine ⟨⟨⟨by decide +kernel, by unfold Func.SameName; decide +kernel⟩, trivial, trivial, trivial⟩, ?_⟩
  simp [Closed, ClosedO]

end Nebula
