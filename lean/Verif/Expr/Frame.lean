import Verif.Expr.FrameSpec
/-!
# C45, C71: what an evaluation depends on and what it changes

One relational argument for every expression: two evaluations that start in related states fail
together or give the same value and related states.
-/
namespace Nebula
open EvalSpec Value

/-- Both fail, or both give the same value and related states. -/
inductive Both {α : Type} (R : EState → EState → Prop) : Option (α × EState) → Option (α × EState) → Prop
  | none : Both R none none
  | some (v : α) {s t : EState} (h : R s t) : Both R (some (v, s)) (some (v, t))

/-- The computation respects the relation. -/
def Par {α : Type} (R : EState → EState → Prop) (m : Eval α) : Prop := ∀ s t, R s t → Both R (m s) (m t)

variable {R : EState → EState → Prop}

theorem Par.pure {α : Type} (a : α) : Par R (Eval.pure a) := fun _ _ h => .some a h
theorem Par.fail {α : Type} : Par R (Eval.fail (α := α)) := fun _ _ _ => .none
theorem Par.bind {α β : Type} {m : Eval α} {f : α → Eval β} (hm : Par R m) (hf : ∀ a, Par R (f a)) : Par R (Eval.bind m f) := by
  intro s t h
  have := hm s t h
  simp only [Eval.bind]
  generalize m s = a at this
  generalize m t = b at this
  cases this with
  | none => exact .none
  | some v h' => exact hf v _ _ h'
theorem Par.lift {α : Type} (a : Option α) : Par R (Eval.lift a) := by
  intro s t h
  cases a with
  | none => exact .none
  | some a => exact .some a h

/-- Setting the variable in both states keeps them related. -/
def Sets (R : EState → EState → Prop) (n : Bytes) : Prop := ∀ s t v, R s t → R (s.setVar n v) (t.setVar n v)
/-- Related states agree on the variable. -/
def Gets (R : EState → EState → Prop) (n : Bytes) : Prop := ∀ s t, R s t → s.vars n = t.vars n

theorem Par.setVar {n : Bytes} (h : Sets R n) (v : Value) : Par R (Eval.setVar n v) := fun s t hr => .some () (h s t v hr)
theorem Par.getVar {n : Bytes} (h : Gets R n) : Par R (Eval.getVar n) := by
  intro s t hr
  have := h s t hr
  simp only [Eval.getVar, this]
  exact .some _ hr

/-- What related states agree on for aggregates. -/
def Aggs (R : EState → EState → Prop) : Prop :=
  (∀ s t, R s t → s.agg = t.agg) ∧ ∀ s t p d, R s t → R (s.setAgg p d) (t.setAgg p d)

/-- Either related states agree on the left-over results, or these do not matter at all. -/
def MemEq (R : EState → EState → Prop) : Prop :=
  (∀ s t, R s t → s.mem = t.mem) ∧ ∀ s t p v, R s t → R (s.setMem p v) (t.setMem p v)
def MemFree (R : EState → EState → Prop) : Prop := ∀ s t p v w, R s t → R (s.setMem p v) (t.setMem p w)

/-- What a node asks of the relation. -/
def NodeOk (R : EState → EState → Prop) (e : Expr) : Prop :=
  (∀ n, Assigns n e → Sets R n) ∧ (∀ n, ReadsVar n e → Gets R n) ∧
  ((∃ n d a, e = .aggregate n d a) → Aggs R) ∧ (LeavesNothing e ∨ MemEq R ∨ (MemFree R ∧ NoLeftover e))

theorem Par.all {ms : List (Eval Value)} (h : ∀ m ∈ ms, Par R m) : Par R (Eval.all ms) := by
  induction ms with
  | nil => exact .pure _
  | cons m ms ih =>
    exact .bind (h m (by simp)) fun v => .bind (ih fun m hm => h m (List.mem_cons_of_mem _ hm)) fun vs => .pure _

theorem Par.andOr {dom : Bool} {ms : List (Eval Value)} (h : ∀ m ∈ ms, Par R m) (r : Value) : Par R (Eval.andOr dom r ms) := by
  induction ms generalizing r with
  | nil => exact .pure _
  | cons m ms ih =>
    have ih := ih fun m hm => h m (List.mem_cons_of_mem _ hm)
    refine .bind (h m (by simp)) fun v => ?_
    split
    · exact .pure _
    · split
      · split
        · exact .pure _
        · exact ih _
      · exact ih _
      · split
        · exact ih _
        · exact .pure _
      · exact .pure _

theorem Par.xor {ms : List (Eval Value)} (h : ∀ m ∈ ms, Par R m) (r : Value) (a b : Bool) : Par R (Eval.xor r a b ms) := by
  induction ms generalizing r a b with
  | nil => exact .pure _
  | cons m ms ih =>
    have ih := ih fun m hm => h m (List.mem_cons_of_mem _ hm)
    refine .bind (h m (by simp)) fun v => ?_
    split
    · exact .pure _
    · split
      · split
        · exact ih _ _ _
        · split
          · exact ih _ _ _
          · split
            · exact ih _ _ _
            · exact .fail
      · exact ih _ _ _
      · exact .pure _

/-- XOR of at least one operand does not look at the left-over result. -/
theorem xor_fresh (m : Eval Value) (ms : List (Eval Value)) (r r' : Value) :
    Eval.xor r false true (m :: ms) = Eval.xor r' false true (m :: ms) := by
  funext s
  simp only [Eval.xor, Eval.bind]
  split
  · rfl
  · split
    · rfl
    · split <;> simp

theorem Par.logical {o : LogOp} {es : List Expr} {p : List Nat} {ms : List (Eval Value)} (h : ∀ m ∈ ms, Par R m)
    (hok : NodeOk R (.logical o es)) (hlen : es = [] ↔ ms = []) : Par R (Eval.logical o p ms) := by
  cases o with
  | and => exact Par.andOr h _
  | or => exact Par.andOr h _
  | xor =>
    intro s t hr
    simp only [Eval.logical]
    have hx : Both R (Eval.xor (s.mem p) false true ms s) (Eval.xor (t.mem p) false true ms t) := by
      rcases hok.2.2.2 with hq | ⟨hm, _⟩ | ⟨_, hl⟩
      · exact absurd rfl (hq.2 es)
      · rw [hm s t hr]; exact Par.xor h _ _ _ s t hr
      · cases ms with
        | nil => exact absurd (by rw [hlen.2 rfl]) hl.2
        | cons m ms => rw [xor_fresh m ms (t.mem p) (s.mem p)]; exact Par.xor h _ _ _ s t hr
    generalize Eval.xor (s.mem p) false true ms s = a at hx
    generalize Eval.xor (t.mem p) false true ms t = b at hx
    cases hx with
    | none => exact .none
    | some v h' =>
      refine .some v ?_
      rcases hok.2.2.2 with hq | ⟨_, hm⟩ | ⟨hm, _⟩
      · exact absurd rfl (hq.2 es)
      · exact hm _ _ _ _ h'
      · exact hm _ _ _ _ _ h'

theorem attr_fresh {k : Bytes} (hk : k.head? ≠ some 95 ∨ k ∈ ["_src", "_dst", "_rank", "_type"].map ascii) (l x y : Value) :
    (Ops.attr x l (.str k)).map Prod.fst = (Ops.attr y l (.str k)).map Prod.fst := by
  cases l <;> try rfl
  · simp only [Ops.attr]; split <;> rfl
  · rename_i e
    simp only [Ops.attr]
    split
    · rename_i hu
      have : ∃ v, Ops.edgeBuiltin e k = some v := by
        rcases hk with hk | hk
        · exfalso; apply hk; simpa [Ops.underscore] using hu
        · simp only [List.map_cons, List.map_nil, List.mem_cons, List.not_mem_nil, or_false] at hk
          unfold Ops.edgeBuiltin
          split
          · exact ⟨_, rfl⟩
          · split
            · exact ⟨_, rfl⟩
            · split
              · exact ⟨_, rfl⟩
              · split
                · exact ⟨_, rfl⟩
                · exfalso
                  simp_all [Ops.kSrc, Ops.kDst, Ops.kRank, Ops.kType]
      obtain ⟨v, hv⟩ := this
      rw [hv]
    · rfl

theorem Par.attr (p : List Nat) (l r : Value)
    (hok : MemEq R ∨ (MemFree R ∧ ∃ k : Bytes, r = .str k ∧ (k.head? ≠ some 95 ∨ k ∈ ["_src", "_dst", "_rank", "_type"].map ascii))) :
    Par R (fun s => (Ops.attr (s.mem p) l r).map fun x => (x.1, s.setMem p x.2)) := by
  intro s t hr
  show Both R (Option.map (fun x => (x.1, s.setMem p x.2)) (Ops.attr (s.mem p) l r)) (Option.map (fun x => (x.1, t.setMem p x.2)) (Ops.attr (t.mem p) l r))
  rcases hok with ⟨h1, h2⟩ | ⟨h1, k, rfl, hk⟩
  · rw [h1 s t hr]
    cases Ops.attr (t.mem p) l r with
    | none => exact .none
    | some x => exact .some _ (h2 _ _ _ _ hr)
  · have := attr_fresh hk l (s.mem p) (t.mem p)
    generalize Ops.attr (s.mem p) l (.str k) = a at this
    generalize Ops.attr (t.mem p) l (.str k) = b at this
    cases a with
    | none => cases b with
      | none => exact .none
      | some y => cases this
    | some x => cases b with
      | none => cases this
      | some y =>
        simp only [Option.map_some, Option.some.injEq] at this
        simp only [Option.map_some, this]
        exact .some _ (h1 _ _ _ _ _ hr)

theorem Par.binary {env : Env} {o : BinOp} {l r : Expr} {p : List Nat} {ml mr : Eval Value} (hl : Par R ml) (hr : Par R mr)
    (hok : NodeOk R (.binary o l r))
    (hc : ∀ k : Bytes, r = .const (.str k) ∨ r = .label k → mr = Eval.pure (.str k)) :
    Par R (Eval.bind ml fun a => Eval.bind mr fun b => Eval.binOp env o p a b) := by
  by_cases ho : o = .attribute
  · subst ho
    rcases hok.2.2.2 with hq | hm | ⟨hm, hn⟩
    · exact absurd rfl (hq.1 l r)
    · exact .bind hl fun a => .bind hr fun b => Par.attr p a b (.inl hm)
    · obtain ⟨k, hk, hk'⟩ := hn.1 l r rfl
      rw [hc k hk]
      refine .bind hl fun a => ?_
      exact fun s t h => Par.attr p a (.str k) (.inr ⟨hm, k, rfl, hk'⟩) s t h
  · refine .bind hl fun a => .bind hr fun b => ?_
    cases o <;> first | exact absurd rfl ho | exact .lift _ | exact .pure _

theorem Par.unary {env : Env} {o : UnOp} {e : Expr} {m : Eval Value} (hm : Par R m) (hok : NodeOk R (.unary o e)) :
    Par R (Eval.unOp env o e.varName m) := by
  cases o with
  | plus => exact hm
  | incr =>
    simp only [Eval.unOp]
    cases e <;> simp only [Expr.varName] <;> try exact .pure _
    · exact .bind hm fun v => .bind (.lift _) fun r => .bind (.setVar (hok.1 _ (.incrVar _)) _) fun _ => .pure _
    · exact .fail
  | decr =>
    simp only [Eval.unOp]
    cases e <;> simp only [Expr.varName] <;> try exact .pure _
    · exact .bind hm fun v => .bind (.lift _) fun r => .bind (.setVar (hok.1 _ (.decrVar _)) _) fun _ => .pure _
    · exact .fail
  | _ => exact .bind hm fun v => .pure _

theorem Par.pathLoop {ms : List (Eval Value)} (h : ∀ m ∈ ms, Par R m) (i : Nat) (q : Path Value) : Par R (Eval.pathLoop i q ms) := by
  induction ms generalizing i q with
  | nil => exact .pure _
  | cons m ms ih =>
    refine .bind (h m (by simp)) fun v => ?_
    split
    · exact ih (fun m hm => h m (List.mem_cons_of_mem _ hm)) _ _
    · exact .pure _

theorem Par.coll {k : CollKind} {ms : List (Eval Value)} (h : ∀ m ∈ ms, Par R m) : Par R (Eval.coll k ms) := by
  cases k with
  | list => exact .bind (.all h) fun vs => .pure _
  | set => exact .bind (.all h) fun vs => .pure _
  | pathBuild =>
    cases ms with
    | nil => exact .pure _
    | cons m ms =>
      refine .bind (h m (by simp)) fun v => ?_
      split
      · exact .pure _
      · exact Par.pathLoop (fun m hm => h m (List.mem_cons_of_mem _ hm)) _ _

theorem Par.mapOf {ms : List (Bytes × Eval Value)} (h : ∀ m ∈ ms, Par R m.2) (acc : List (Bytes × Value)) : Par R (Eval.mapOf acc ms) := by
  induction ms generalizing acc with
  | nil => exact .pure _
  | cons m ms ih =>
    obtain ⟨k, m⟩ := m
    exact .bind (h (k, m) (by simp)) fun v => ih (fun m hm => h m (List.mem_cons_of_mem _ hm)) _

theorem Par.caseLoop {c : Option Value} {d : Eval Value} {cs : List (Eval Value × Eval Value)} (hd : Par R d)
    (h : ∀ m ∈ cs, Par R m.1 ∧ Par R m.2) : Par R (Eval.caseLoop c d cs) := by
  induction cs with
  | nil => exact hd
  | cons m cs ih =>
    obtain ⟨w, t⟩ := m
    have hh := h (w, t) (by simp)
    have ih := ih fun m hm => h m (List.mem_cons_of_mem _ hm)
    refine .bind hh.1 fun v => ?_
    split
    · split
      · exact hh.2
      · exact ih
    · split
      · split
        · exact hh.2
        · exact ih
      · exact .pure _

theorem Par.caseExpr {c d : Option (Eval Value)} {cs : List (Eval Value × Eval Value)} (hc : ∀ m, c = some m → Par R m)
    (hd : ∀ m, d = some m → Par R m) (h : ∀ m ∈ cs, Par R m.1 ∧ Par R m.2) : Par R (Eval.caseExpr c d cs) := by
  have hd' : Par R (d.getD (Eval.pure kNull)) := by
    cases d with
    | none => exact .pure _
    | some m => exact hd m rfl
  cases c with
  | none => exact .caseLoop hd' h
  | some m => exact .bind (hc m rfl) fun v => .caseLoop hd' h

theorem Par.predLoop {t : Eval.PredType} {inner : Bytes} {f : Eval Value} (hi : Sets R inner) (hf : Par R f) (r : Bool) (xs : List Value) :
    Par R (Eval.predLoop t inner f r xs) := by
  induction xs generalizing r with
  | nil => exact .pure _
  | cons x xs ih =>
    refine .bind (.setVar hi _) fun _ => .bind hf fun v => ?_
    split
    · exact .pure _
    · split <;> split <;> first | exact ih _ | exact .pure _ | skip
      split
      · exact .pure _
      · exact ih _

theorem Par.onList {v : Value} {f : List Value → Eval Value} (hf : ∀ vs, Par R (f vs)) : Par R (Eval.onList v f) := by
  unfold Eval.onList
  split
  · exact .pure _
  · exact .pure _
  · exact hf _
  · exact .pure _

theorem Par.predicate {name inner : Bytes} {ops : Option (Eval Value × Eval Value)} {c : Eval Value} {f : Option (Eval Value)}
    (hi : Sets R inner) (ho : ∀ m, ops = some m → Par R m.1 ∧ Par R m.2) (hc : Par R c) (hf : ∀ m, f = some m → Par R m) :
    Par R (Eval.predicate name inner ops c f) := by
  have hf' : Par R (f.getD Eval.fail) := by
    cases f with
    | none => exact .fail
    | some m => exact hf m rfl
  unfold Eval.predicate
  split
  · split
    · rename_i a b
      have := ho (a, b) rfl
      exact .bind this.1 fun _ => .bind this.2 fun _ => .pure _
    · exact .fail
  · split
    · exact .pure _
    · exact .bind hc fun v => .onList fun vs => .predLoop hi hf' _ _

theorem Par.compLoop {inner : Bytes} {f m : Option (Eval Value)} (hi : Sets R inner) (hf : ∀ x, f = some x → Par R x)
    (hm : ∀ x, m = some x → Par R x) (ret xs : List Value) : Par R (Eval.compLoop inner f m ret xs) := by
  induction xs generalizing ret with
  | nil => exact .pure _
  | cons x xs ih =>
    refine .bind (.setVar hi _) fun _ => .bind ?_ fun b => ?_
    · cases f with
      | none => exact .pure _
      | some f => exact .bind (hf f rfl) fun _ => .pure _
    · split
      · exact .pure _
      · exact ih _
      · refine .bind ?_ fun y => ih _
        cases m with
        | none => exact .pure _
        | some m => exact hm m rfl

theorem Par.listComp {inner : Bytes} {c : Eval Value} {f m : Option (Eval Value)} (hi : Sets R inner) (hc : Par R c)
    (hf : ∀ x, f = some x → Par R x) (hm : ∀ x, m = some x → Par R x) : Par R (Eval.listComp inner c f m) := by
  refine .bind hc fun v => .onList fun vs => ?_
  split
  · exact .pure _
  · exact .compLoop hi hf hm _ _

theorem Par.reduceLoop {acc inner : Bytes} {m : Eval Value} (ha : Sets R acc) (hi : Sets R inner) (hm : Par R m) (xs : List Value) :
    Par R (Eval.reduceLoop acc inner m xs) := by
  induction xs with
  | nil => exact .pure _
  | cons x xs ih => exact .bind (.setVar hi _) fun _ => .bind hm fun v => .bind (.setVar ha _) fun _ => ih

theorem Par.reduce {acc inner : Bytes} {i c m : Eval Value} (ha : Sets R acc) (hg : Gets R acc) (hn : Sets R inner)
    (hi : Par R i) (hc : Par R c) (hm : Par R m) : Par R (Eval.reduce acc i inner c m) :=
  .bind hi fun _ => .bind hc fun _ => .onList fun vs => .bind (.setVar ha _) fun _ =>
    .bind (.reduceLoop ha hn hm vs) fun _ => .getVar hg

theorem Par.aggregate {env : Env} {name : Bytes} {d : Bool} {p : List Nat} {a : Option (Eval Value)} (hg : Aggs R)
    (ha : ∀ m, a = some m → Par R m) : Par R (Eval.aggregate env name d p a) := by
  cases a with
  | none => exact .fail
  | some m =>
    refine .bind (ha m rfl) fun v => ?_
    intro s t hr
    have := hg.1 s t hr
    simp only [this]
    split
    · exact .none
    · split
      · exact .some _ hr
      · split
        · exact .none
        · split
          · exact .none
          · exact .some _ (hg.2 _ _ _ _ hr)

theorem Par.range {l : Eval Value} {lo hi : Option (Eval Value)} (hl : Par R l) (h1 : ∀ m, lo = some m → Par R m)
    (h2 : ∀ m, hi = some m → Par R m) : Par R (Eval.range l lo hi) := by
  refine .bind hl fun v => ?_
  split
  · rename_i vs
    have hw : ∀ x : Int, Par R (match hi with
        | none => Eval.pure (Ops.slice vs x vs.length)
        | some m => Eval.bind m fun b => match Ops.bound vs.length b with
          | .inl r => Eval.pure r
          | .inr h => Eval.pure (Ops.slice vs x h)) := by
      intro x
      cases hi with
      | none => exact .pure _
      | some m =>
        refine .bind (h2 m rfl) fun b => ?_
        split <;> exact .pure _
    cases lo with
    | none => exact hw 0
    | some m =>
      refine .bind (h1 m rfl) fun b => ?_
      simp only
      split
      · exact .pure _
      · exact hw _
  · exact .pure _

mutual
/-- Every evaluation respects a relation that suits all nodes. -/
theorem par_eval (env : Env) : ∀ (e : Expr) (p : List Nat), (∀ x ∈ subs e, NodeOk R x) → Par R (e.eval env p)
  | .const v, p, h => by simp only [Expr.eval]; exact .pure _
  | .unary o e, p, h => by
    simp only [Expr.eval]
    simp only [subs, List.mem_cons, forall_eq_or_imp] at h
    exact .unary (par_eval env e _ h.2) h.1
  | .binary o l r, p, h => by
    simp only [Expr.eval]
    simp only [subs, List.mem_cons, forall_eq_or_imp, List.mem_append] at h
    refine .binary (par_eval env l _ fun x hx => h.2 x (.inl hx)) (par_eval env r _ fun x hx => h.2 x (.inr hx)) h.1 ?_
    intro k hk
    rcases hk with rfl | rfl <;> simp [Expr.eval]
  | .labelAttribute l r, p, h => by simp only [Expr.eval]; exact .fail
  | .column i, p, h => by simp only [Expr.eval]; exact .pure _
  | .logical o es, p, h => by
    simp only [Expr.eval]
    simp only [subs, List.mem_cons, forall_eq_or_imp] at h
    refine .logical (par_evals env es 0 p h.2) h.1 ?_
    cases es <;> simp [Expr.evals]
  | .cast ty e, p, h => by
    simp only [Expr.eval]
    simp only [subs, List.mem_cons, forall_eq_or_imp] at h
    exact .bind (par_eval env e _ h.2) fun v => .lift _
  | .call n es, p, h => by
    simp only [Expr.eval]
    simp only [subs, List.mem_cons, forall_eq_or_imp] at h
    exact .bind (.all (par_evals env es 0 p h.2)) fun v => .lift _
  | .prop k _ sym pr, p, h => by simp only [Expr.eval]; exact .pure _
  | .vertex, p, h => by simp only [Expr.eval]; exact .pure _
  | .edge, p, h => by simp only [Expr.eval]; exact .pure _
  | .uuid _, p, h => by simp only [Expr.eval]; exact .pure _
  | .var n i, p, h => by
    simp only [Expr.eval]
    simp only [subs, List.mem_cons, forall_eq_or_imp] at h
    exact .getVar (h.1.2.1 n (.var _))
  | .versionedVar n none, p, h => by
    simp only [Expr.eval]
    simp only [subs, List.mem_cons, forall_eq_or_imp] at h
    exact .getVar (h.1.2.1 n (.versioned _))
  | .versionedVar n (some e), p, h => by
    simp only [Expr.eval]
    simp only [subs, subsO, List.mem_cons, forall_eq_or_imp] at h
    refine .bind (par_eval env e _ h.2) fun v => ?_
    split <;> exact .pure _
  | .coll k es, p, h => by
    simp only [Expr.eval]
    simp only [subs, List.mem_cons, forall_eq_or_imp] at h
    exact .coll (par_evals env es 0 p h.2)
  | .map kvs, p, h => by
    simp only [Expr.eval]
    simp only [subs, List.mem_cons, forall_eq_or_imp] at h
    exact .mapOf (par_evalKvs env kvs 0 p h.2) _
  | .label n, p, h => by simp only [Expr.eval]; exact .pure _
  | .case g c d cs, p, h => by
    simp only [Expr.eval]
    simp only [subs, List.mem_cons, forall_eq_or_imp, List.mem_append] at h
    exact .caseExpr (par_evalO env c _ fun x hx => h.2 x (.inl (.inl hx))) (par_evalO env d _ fun x hx => h.2 x (.inl (.inr hx)))
      (par_evalCases env cs 2 p fun x hx => h.2 x (.inr hx))
  | .predicate n i c f o, p, h => by
    simp only [Expr.eval]
    simp only [subs, List.mem_cons, forall_eq_or_imp, List.mem_append] at h
    exact .predicate (h.1.1 i (.predicate _ _ _ _)) (par_operands env c _ fun x hx => h.2 x (.inl hx))
      (par_eval env c _ fun x hx => h.2 x (.inl hx)) (par_evalO env f _ fun x hx => h.2 x (.inr hx))
  | .listComp i c f m o, p, h => by
    simp only [Expr.eval]
    simp only [subs, List.mem_cons, forall_eq_or_imp, List.mem_append] at h
    exact .listComp (h.1.1 i (.listComp _ _ _ _)) (par_eval env c _ fun x hx => h.2 x (.inl (.inl hx)))
      (par_evalO env f _ fun x hx => h.2 x (.inl (.inr hx))) (par_evalO env m _ fun x hx => h.2 x (.inr hx))
  | .reduce a i v c m o, p, h => by
    simp only [Expr.eval]
    simp only [subs, List.mem_cons, forall_eq_or_imp, List.mem_append] at h
    exact .reduce (h.1.1 a (.accumulator _ _ _ _ _)) (h.1.2.1 a (.accumulator _ _ _ _ _)) (h.1.1 v (.reduce _ _ _ _ _))
      (par_eval env i _ fun x hx => h.2 x (.inl (.inl hx))) (par_eval env c _ fun x hx => h.2 x (.inl (.inr hx)))
      (par_eval env m _ fun x hx => h.2 x (.inr hx))
  | .text _ _, p, h => by simp only [Expr.eval]; exact .fail
  | .aggregate n d a, p, h => by
    simp only [Expr.eval]
    simp only [subs, List.mem_cons, forall_eq_or_imp] at h
    exact .aggregate (h.1.2.2.1 ⟨n, d, a, rfl⟩) (par_evalO env a _ h.2)
  | .range l lo hi, p, h => by
    simp only [Expr.eval]
    simp only [subs, List.mem_cons, forall_eq_or_imp, List.mem_append] at h
    exact .range (par_eval env l _ fun x hx => h.2 x (.inl (.inl hx))) (par_evalO env lo _ fun x hx => h.2 x (.inl (.inr hx)))
      (par_evalO env hi _ fun x hx => h.2 x (.inr hx))
theorem par_evals (env : Env) : ∀ (es : List Expr) (i : Nat) (p : List Nat), (∀ x ∈ subsL es, NodeOk R x) →
    ∀ m ∈ Expr.evals env es i p, Par R m
  | [], i, p, h => by simp [Expr.evals]
  | e :: es, i, p, h => by
    simp only [subsL, List.mem_append] at h
    intro m hm
    simp only [Expr.evals, List.mem_cons] at hm
    rcases hm with rfl | hm
    · exact par_eval env e _ fun x hx => h x (.inl hx)
    · exact par_evals env es (i + 1) p (fun x hx => h x (.inr hx)) m hm
theorem par_evalO (env : Env) : ∀ (e : Option Expr) (p : List Nat), (∀ x ∈ subsO e, NodeOk R x) →
    ∀ m, Expr.evalO env e p = some m → Par R m
  | none, p, h => by simp [Expr.evalO]
  | some e, p, h => by
    simp only [subsO] at h
    intro m hm
    simp only [Expr.evalO, Option.some.injEq] at hm
    subst hm
    exact par_eval env e _ h
theorem par_evalKvs (env : Env) : ∀ (es : List (Bytes × Expr)) (i : Nat) (p : List Nat), (∀ x ∈ subsKv es, NodeOk R x) →
    ∀ m ∈ Expr.evalKvs env es i p, Par R m.2
  | [], i, p, h => by simp [Expr.evalKvs]
  | (k, e) :: es, i, p, h => by
    simp only [subsKv, List.mem_append] at h
    intro m hm
    simp only [Expr.evalKvs, List.mem_cons] at hm
    rcases hm with rfl | hm
    · exact par_eval env e _ fun x hx => h x (.inl hx)
    · exact par_evalKvs env es (i + 1) p (fun x hx => h x (.inr hx)) m hm
theorem par_evalCases (env : Env) : ∀ (es : List (Expr × Expr)) (i : Nat) (p : List Nat), (∀ x ∈ subsC es, NodeOk R x) →
    ∀ m ∈ Expr.evalCases env es i p, Par R m.1 ∧ Par R m.2
  | [], i, p, h => by simp [Expr.evalCases]
  | (w, t) :: es, i, p, h => by
    simp only [subsC, List.mem_append] at h
    intro m hm
    simp only [Expr.evalCases, List.mem_cons] at hm
    rcases hm with rfl | hm
    · exact ⟨par_eval env w _ fun x hx => h x (.inl (.inl hx)), par_eval env t _ fun x hx => h x (.inl (.inr hx))⟩
    · exact par_evalCases env es (i + 2) p (fun x hx => h x (.inr hx)) m hm
theorem par_operands (env : Env) : ∀ (e : Expr) (p : List Nat), (∀ x ∈ subs e, NodeOk R x) →
    ∀ m, Expr.operands env e p = some m → Par R m.1 ∧ Par R m.2
  | .binary o l r, p, h => by
    simp only [subs, List.mem_cons, forall_eq_or_imp, List.mem_append] at h
    intro m hm
    simp only [Expr.operands, Option.some.injEq] at hm
    subst hm
    exact ⟨par_eval env l _ fun x hx => h.2 x (.inl hx), par_eval env r _ fun x hx => h.2 x (.inr hx)⟩
  | .labelAttribute l r, p, h => by
    intro m hm
    simp only [Expr.operands, Option.some.injEq] at hm
    subst hm
    exact ⟨.pure _, .pure _⟩
  | .const _, _, _ | .unary _ _, _, _ | .column _, _, _ | .logical _ _, _, _ | .cast _ _, _, _ | .call _ _, _, _ | .prop _ _ _ _, _, _
  | .vertex, _, _ | .edge, _, _ | .uuid _, _, _ | .var _ _, _, _ | .versionedVar _ _, _, _ | .coll _ _, _, _ | .map _, _, _
  | .label _, _, _ | .case _ _ _ _, _, _ | .predicate _ _ _ _ _, _, _ | .listComp _ _ _ _ _, _, _ | .reduce _ _ _ _ _ _, _, _
  | .text _ _, _, _ | .aggregate _ _ _, _, _ | .range _ _ _, _, _ => by intro m hm; simp [Expr.operands] at hm
end

/-- C45: two evaluations of the same expression, whatever was evaluated before, give the same value if
the variables and aggregates have the same values.  Partial: no attribute with an unknown name and no
XOR of nothing. -/
theorem C45_depends_partial {env : Env} {e : Expr} {p : List Nat} {s t : EState} (h : SameContext s t)
    (hl : ∀ x ∈ subs e, NoLeftover x) :
    (e.eval env p s = none ∧ e.eval env p t = none) ∨
    ∃ v s' t', e.eval env p s = some (v, s') ∧ e.eval env p t = some (v, t') ∧ SameContext s' t' := by
  have hp : Par SameContext (e.eval env p) := by
    refine par_eval env e p fun x hx => ⟨?_, ?_, ?_, ?_⟩
    · intro n _ s t v h
      exact ⟨by simp [EState.setVar, h.1], h.2⟩
    · intro n _ s t h
      rw [h.1]
    · intro _
      exact ⟨fun s t h => h.2, fun s t p d h => ⟨h.1, by simp [EState.setAgg, h.2]⟩⟩
    · exact .inr (.inr ⟨fun s t p v w h => ⟨h.1, h.2⟩, hl x hx⟩)
  have := hp s t h
  generalize e.eval env p s = a at this
  generalize e.eval env p t = b at this
  cases this with
  | none => exact .inl ⟨rfl, rfl⟩
  | some v h' => exact .inr ⟨v, _, _, rfl, rfl, h'⟩

/-- C45 fails: an attribute of an edge whose name begins with an underscore and is unknown returns what
an earlier evaluation of the same expression left behind, whatever that is. -/
theorem C45_depends_violated (env : Env) (p : List Nat) (d : Edge Value) (v : Value) :
    ∃ (e : Expr) (s t : EState), SameContext s t ∧ e = .binary .attribute (.const (.edge d)) (.label (ascii "_x")) ∧
      (∃ s', e.eval env p s = some (v, s')) ∧ ∃ t', e.eval env p t = some (.empty, t') := by
  have hn : ∀ x : Value, Ops.attr x (.edge d) (.str (ascii "_x")) = some (x, x) := by
    intro x
    have h1 : Ops.underscore (ascii "_x") = true := by decide +kernel
    have h2 : Ops.edgeBuiltin d (ascii "_x") = none := by
      have a1 : ascii "_x" ≠ Ops.kSrc := by decide +kernel
      have a2 : ascii "_x" ≠ Ops.kDst := by decide +kernel
      have a3 : ascii "_x" ≠ Ops.kRank := by decide +kernel
      have a4 : ascii "_x" ≠ Ops.kType := by decide +kernel
      simp [Ops.edgeBuiltin, a1, a2, a3, a4]
    simp [Ops.attr, h1, h2]
  refine ⟨_, ⟨fun _ => .empty, fun _ => v, fun _ => none⟩, ⟨fun _ => .empty, fun _ => .empty, fun _ => none⟩, ⟨rfl, rfl⟩, rfl, ?_, ?_⟩
  · simp [Expr.eval, Eval.bind, Eval.pure, Eval.binOp, hn]
  · simp [Expr.eval, Eval.bind, Eval.pure, Eval.binOp, hn]

/-- C45 fails with an actual history: the same expression object, evaluated on a loop variable, gives for the edge
with an unknown name the source of the edge it was evaluated on before. -/
theorem C45_history_violated (env : Env) (d d' : Edge Value) (s : EState) :
    ∃ e : Expr, ∃ s1 s2 : EState,
      e.eval env [] ((s.setVar (ascii "x") (.edge d)).setVar (ascii "k") (.str (ascii "_src"))) = some (d.src, s1) ∧
      e.eval env [] ((s1.setVar (ascii "x") (.edge d')).setVar (ascii "k") (.str (ascii "_x"))) = some (d.src, s2) := by
  have hn : ∀ x : Value, Ops.attr x (.edge d') (.str (ascii "_x")) = some (x, x) := by
    intro x
    have h1 : Ops.underscore (ascii "_x") = true := by decide +kernel
    have h2 : Ops.edgeBuiltin d' (ascii "_x") = none := by
      have a1 : ascii "_x" ≠ Ops.kSrc := by decide +kernel
      have a2 : ascii "_x" ≠ Ops.kDst := by decide +kernel
      have a3 : ascii "_x" ≠ Ops.kRank := by decide +kernel
      have a4 : ascii "_x" ≠ Ops.kType := by decide +kernel
      simp [Ops.edgeBuiltin, a1, a2, a3, a4]
    simp [Ops.attr, h1, h2]
  have hs : ∀ x : Value, Ops.attr x (.edge d) (.str (ascii "_src")) = some (d.src, d.src) := by
    intro x
    have h1 : Ops.underscore (ascii "_src") = true := by decide +kernel
    simp [Ops.attr, h1, Ops.edgeBuiltin, Ops.kSrc]
  have hxk : ascii "x" ≠ ascii "k" := by decide +kernel
  have h1 : ∀ t : EState, t.vars (ascii "x") = .edge d → t.vars (ascii "k") = .str (ascii "_src") →
      (Expr.binary .attribute (.var (ascii "x") true) (.var (ascii "k") true)).eval env [] t = some (d.src, t.setMem [] d.src) := by
    intro t hx hk
    simp [Expr.eval, Eval.bind, Eval.getVar, Eval.binOp, hx, hk, hs]
  have h2 : ∀ t : EState, t.vars (ascii "x") = .edge d' → t.vars (ascii "k") = .str (ascii "_x") →
      (Expr.binary .attribute (.var (ascii "x") true) (.var (ascii "k") true)).eval env [] t = some (t.mem [], t.setMem [] (t.mem [])) := by
    intro t hx hk
    simp [Expr.eval, Eval.bind, Eval.getVar, Eval.binOp, hx, hk, hn]
  exact ⟨_, _, _, h1 _ (by simp [EState.setVar, hxk]) (by simp [EState.setVar]),
    h2 _ (by simp [EState.setVar, hxk]) (by simp [EState.setVar])⟩

/-- C71: evaluation changes no variable but inner variables, accumulators and the operands of `++` and `--`. -/
theorem C71_variables {env : Env} {e : Expr} {p : List Nat} {s s' : EState} {v : Value} {n : Bytes}
    (h : e.eval env p s = some (v, s')) (hn : ∀ x ∈ subs e, ¬ Assigns n x) : s'.vars n = s.vars n := by
  have hp : Par (fun a b => a = b ∧ a.vars n = s.vars n) (e.eval env p) := by
    refine par_eval env e p fun x hx => ⟨?_, ?_, ?_, ?_⟩
    · rintro m hm a _ w ⟨rfl, ha⟩
      have : n ≠ m := by rintro rfl; exact hn x hx hm
      exact ⟨rfl, by simp [EState.setVar, this, ha]⟩
    · rintro m _ a _ ⟨rfl, _⟩; rfl
    · intro _
      exact ⟨by rintro a _ ⟨rfl, _⟩; rfl, by rintro a _ q d ⟨rfl, ha⟩; exact ⟨rfl, ha⟩⟩
    · exact .inr (.inl ⟨by rintro a _ ⟨rfl, _⟩; rfl, by rintro a _ q d ⟨rfl, ha⟩; exact ⟨rfl, ha⟩⟩)
  have := hp s s ⟨rfl, rfl⟩
  rw [h] at this
  cases this with
  | some _ h => exact h.2

/-- C71: evaluation changes no aggregate if there is no aggregate expression in it. -/
theorem C71_aggregates {env : Env} {e : Expr} {p : List Nat} {s s' : EState} {v : Value}
    (h : e.eval env p s = some (v, s')) (hn : ∀ x ∈ subs e, ∀ f d a, x ≠ .aggregate f d a) : s'.agg = s.agg := by
  have hp : Par (fun a b => a = b ∧ a.agg = s.agg) (e.eval env p) := by
    refine par_eval env e p fun x hx => ⟨?_, ?_, ?_, ?_⟩
    · rintro m _ a _ w ⟨rfl, ha⟩; exact ⟨rfl, ha⟩
    · rintro m _ a _ ⟨rfl, _⟩; rfl
    · rintro ⟨f, d, a, rfl⟩; exact absurd rfl (hn _ hx f d a)
    · exact .inr (.inl ⟨by rintro a _ ⟨rfl, _⟩; rfl, by rintro a _ q d ⟨rfl, ha⟩; exact ⟨rfl, ha⟩⟩)
  have := hp s s ⟨rfl, rfl⟩
  rw [h] at this
  cases this with
  | some _ h => exact h.2

/-- C71: the value depends only on the variables the expression names (and on the aggregates, if it has any).
Partial: as C45. -/
theorem C71_reads_partial {env : Env} {e : Expr} {p : List Nat} {s t : EState}
    (hv : ∀ n, (∃ x ∈ subs e, ReadsVar n x) → s.vars n = t.vars n)
    (ha : (∃ x ∈ subs e, ∃ f d a, x = .aggregate f d a) → s.agg = t.agg)
    (hl : ∀ x ∈ subs e, NoLeftover x) :
    (e.eval env p s).map Prod.fst = (e.eval env p t).map Prod.fst := by
  have hp : Par (fun a b => (∀ n, (∃ x ∈ subs e, ReadsVar n x) → a.vars n = b.vars n) ∧
      ((∃ x ∈ subs e, ∃ f d a, x = .aggregate f d a) → a.agg = b.agg)) (e.eval env p) := by
    refine par_eval env e p fun x hx => ⟨?_, ?_, ?_, ?_⟩
    · intro m _ a b w h
      refine ⟨fun n hn => ?_, h.2⟩
      simp only [EState.setVar]
      split
      · rfl
      · exact h.1 n hn
    · intro m hm a b h
      exact h.1 m ⟨x, hx, hm⟩
    · intro hg
      exact ⟨fun a b h => h.2 ⟨x, hx, hg⟩, fun a b q d h => ⟨h.1, fun hh => by simp [EState.setAgg, h.2 hh]⟩⟩
    · exact .inr (.inr ⟨fun a b q v w h => h, hl x hx⟩)
  have := hp s t ⟨hv, ha⟩
  generalize e.eval env p s = a at this
  generalize e.eval env p t = b at this
  cases this with
  | none => rfl
  | some v _ => rfl

/-- C71 fails where C45 does: the attribute of an edge under an unknown name with an underscore depends on what was evaluated before, with all variables and aggregates
the same. -/
theorem C71_reads_violated (env : Env) (p : List Nat) (d : Edge Value) :
    ∃ (e : Expr) (s t : EState), s.vars = t.vars ∧ s.agg = t.agg ∧ (e.eval env p s).map Prod.fst = some (.int 1) ∧ (e.eval env p t).map Prod.fst = some .empty := by
  obtain ⟨e, s, t, h, -, ⟨s', h1⟩, t', h2⟩ := C45_depends_violated env p d (.int 1)
  exact ⟨e, s, t, h.1, h.2, by rw [h1]; rfl, by rw [h2]; rfl⟩

/-- The hypotheses are met: `$x IS NULL` and `[x IN [1] | x]` assign at most `x`. -/
example (env : Env) (p : List Nat) (s s' : EState) (v : Value)
    (h : (Expr.listComp (ascii "x") (.const (.list [.int 1])) none (some (.var (ascii "x") true)) []).eval env p s = some (v, s')) :
    s'.vars (ascii "y") = s.vars (ascii "y") := by
  refine C71_variables h ?_
  intro x hx ha
  have hxy : ascii "x" ≠ ascii "y" := by decide +kernel
  simp only [subs, subsO, List.mem_cons, List.mem_append, List.not_mem_nil, or_false, false_or] at hx
  rcases hx with rfl | rfl | rfl <;> cases ha
/-- …and such an evaluation exists. -/
example (env : Env) (s : EState) :
    ∃ s', (Expr.listComp (ascii "x") (.const (.list [.int 1])) none (some (.var (ascii "x") true)) []).eval env [] s = some (.list [.int 1], s') :=
  ⟨s.setVar (ascii "x") (.int 1), by simp [Expr.eval, Expr.evalO, Eval.listComp, Eval.bind, Eval.pure, Eval.onList, Eval.compLoop, Eval.setVar, Eval.getVar, EState.setVar]⟩
example : ∀ x ∈ subs (.binary .attribute (.var (ascii "e") true) (.label (ascii "_src"))), NoLeftover x := by
  intro x hx
  simp only [subs, List.mem_cons, List.mem_append, List.not_mem_nil, or_false] at hx
  rcases hx with rfl | rfl | rfl
  · refine ⟨?_, by simp⟩
    intro l r h
    simp only [Expr.binary.injEq, true_and] at h
    obtain ⟨-, rfl⟩ := h
    exact ⟨_, .inr rfl, .inr (by simp)⟩
  · exact ⟨by simp, by simp⟩
  · exact ⟨by simp, by simp⟩

end Nebula
