import Verif.Expr.Refs
import Verif.Expr.Frame
import Mathlib.Data.List.Forall2
/-!
# C144: operands keep their values while other operands are evaluated
-/
namespace Nebula
namespace Refs
open Value EvalSpec
open Eval (truth)

/-! ## Specification -/

/-- The result of the expression may be a reference to the variable `n` or to a part of its value. -/
inductive Points (n : Bytes) : Expr → Prop
  | var (i : Bool) : Points n (.var n i)
  | latest : Points n (.versionedVar n none)
  | «attribute» {l r : Expr} : Points n l → Points n (.binary .attribute l r)
  | subscript {l r : Expr} : Points n l → Points n (.binary .subscript l r)

/-- Evaluating the expression may assign the variable `n`. -/
def Writes (n : Bytes) (e : Expr) : Prop := ∃ x ∈ subs e, Assigns n x
def WritesO (n : Bytes) (o : Option Expr) : Prop := ∃ x ∈ subsO o, Assigns n x

/-- No variable that the node holds a reference to is assigned before the reference is read for the last time. -/
def Tidy : Expr → Prop
  | .binary _ l r => ∀ n, Points n l → ¬Writes n r
  | .call _ es => es.Pairwise fun a b => ∀ n, Points n a → ¬Writes n b
  | .range l lo hi => ∀ n, Points n l → ¬WritesO n lo ∧ ¬WritesO n hi
  | .predicate name i c f _ => name = ascii "exists" ∨ ∀ n, Points n c → n ≠ i ∧ ¬WritesO n f
  | .listComp i c f m _ => (f = none ∧ m = none) ∨ ∀ n, Points n c → n ≠ i ∧ ¬WritesO n f ∧ ¬WritesO n m
  | .reduce a i v c m _ => (∀ n, Points n i → ¬Writes n c) ∧ ∀ n, Points n c → n ≠ a ∧ n ≠ v ∧ ¬Writes n m
  | _ => True

/-! ## The two evaluations side by side -/

/-- Only variables in `W` have been assigned. -/
def Kept (W : Bytes → Prop) (s t : RState) : Prop := ∀ n, ¬W n → t.ver n = s.ver n ∧ t.st.vars n = s.st.vars n

theorem Kept.refl {W : Bytes → Prop} (s : RState) : Kept W s s := fun _ _ => ⟨rfl, rfl⟩
theorem Kept.trans {W : Bytes → Prop} {s t u : RState} (h : Kept W s t) (h' : Kept W t u) : Kept W s u :=
  fun n hn => ⟨(h' n hn).1.trans (h n hn).1, (h' n hn).2.trans (h n hn).2⟩
theorem Kept.mono {W V : Bytes → Prop} {s t : RState} (hw : ∀ n, W n → V n) (h : Kept W s t) : Kept V s t :=
  fun n hn => h n fun hw' => hn (hw n hw')

/-- Both fail, or their results are related and the states are the same. -/
inductive Res {α β : Type} (W : Bytes → Prop) (Q : α → β → RState → Prop) (s : RState) : Option (α × RState) → Option (β × EState) → Prop
  | none : Res W Q s none none
  | some {a : α} {b : β} {t : RState} : Q a b t → Kept W s t → Res W Q s (some (a, t)) (some (b, t.st))

/-- From every state. -/
def Sim {α β : Type} (W : Bytes → Prop) (Q : α → β → RState → Prop) (m : RE α) (c : Eval β) : Prop := ∀ s, Res W Q s (m s) (c s.st)

/-- The same value. -/
def Eq' {α : Type} (a b : α) (_ : RState) : Prop := a = b

def Ref.on (n : Bytes) : Ref → Prop
  | .own _ => False
  | .var m _ => m = n
  | .part m _ _ => m = n

/-- A fresh reference that leads to the value and is one to a variable in `P`. -/
def Leads (P : Bytes → Prop) (r : Ref) (v : Value) (s : RState) : Prop :=
  (∀ keeps, get keeps r s = some v) ∧ ∀ n, r.on n → P n

variable {W : Bytes → Prop} {keeps : Bool}

theorem Leads.kept {P : Bytes → Prop} {r : Ref} {v : Value} {s t : RState} (h : Leads P r v s) (hk : Kept W s t) (hd : ∀ n, P n → ¬W n) :
    Leads P r v t := by
  refine ⟨fun keeps => ?_, h.2⟩
  have h1 := h.1 keeps
  cases r with
  | own v => exact h1
  | var n k =>
    have := hk n (hd n (h.2 n rfl))
    simp only [get, this] at h1 ⊢; exact h1
  | part n k v =>
    have := hk n (hd n (h.2 n rfl))
    simp only [get, this] at h1 ⊢; exact h1

theorem Leads.fresh {P : Bytes → Prop} {n : Bytes} {k : Nat} {v : Value} {s : RState} (h : Leads P (.var n k) v s) : s.ver n = k ∧ v = s.st.vars n := by
  have := h.1 false
  simp only [get, Bool.false_eq_true, or_false] at this
  split at this
  · rename_i e; exact ⟨e, (Option.some.inj this).symm⟩
  · cases this

theorem Leads.inside {P : Bytes → Prop} {r : Ref} {v : Value} {s : RState} (h : Leads P r v s) (x : Value) : Leads P (inside s x r) x s := by
  cases r with
  | own w => exact ⟨fun _ => rfl, fun n hn => hn.elim⟩
  | var n k => exact ⟨fun _ => by simp [Refs.inside, get], h.2⟩
  | part n k w =>
    have := h.1 false
    refine ⟨fun _ => ?_, h.2⟩
    simp only [get] at this
    split at this
    · rename_i e; simp [Refs.inside, get, e]
    · cases this

section
variable {α β γ δ : Type} {Q : α → β → RState → Prop} {Q' : γ → δ → RState → Prop}

theorem Res.mono {V : Bytes → Prop} {s : RState} {x : Option (α × RState)} {y : Option (β × EState)} (hw : ∀ n, W n → V n) (h : Res W Q s x y) : Res V Q s x y := by
  cases h with
  | none => exact .none
  | some hq hk => exact .some hq (hk.mono hw)

theorem Sim.mono {V : Bytes → Prop} {m : RE α} {c : Eval β} (hw : ∀ n, W n → V n) (h : Sim W Q m c) : Sim V Q m c := fun s => (h s).mono hw

theorem Sim.weaken {Q'' : α → β → RState → Prop} {m : RE α} {c : Eval β} (hq : ∀ a b s, Q a b s → Q'' a b s) (h : Sim W Q m c) : Sim W Q'' m c := by
  intro s
  have := h s
  generalize m s = x at this ⊢
  generalize c s.st = y at this ⊢
  cases this with
  | none => exact .none
  | some h hk => exact .some (hq _ _ _ h) hk

/-- One computation after another; the second may use what has been kept since the state `s`. -/
theorem Res.bind {m : RE α} {c : Eval β} {f : α → RE γ} {g : β → Eval δ} {s : RState} (h : Res W Q s (m s) (c s.st))
    (hf : ∀ a b t, Q a b t → Kept W s t → Res W Q' t (f a t) (g b t.st)) : Res W Q' s (Eval.bind m f s) (Eval.bind c g s.st) := by
  simp only [Eval.bind]
  generalize m s = x at h ⊢
  generalize c s.st = y at h ⊢
  cases h with
  | none => exact .none
  | @some a b t hq hk =>
    have := hf _ _ _ hq hk
    dsimp only
    generalize f a t = x at this ⊢
    generalize g b t.st = y at this ⊢
    cases this with
    | none => exact .none
    | some hq' hk' => exact .some hq' (hk.trans hk')

/-- The first one assigns less. -/
theorem Res.bindSub {V : Bytes → Prop} {m : RE α} {c : Eval β} {f : α → RE γ} {g : β → Eval δ} {s : RState} (h : Res V Q s (m s) (c s.st)) (hv : ∀ n, V n → W n)
    (hf : ∀ a b t, Q a b t → Kept V s t → Res W Q' t (f a t) (g b t.st)) : Res W Q' s (Eval.bind m f s) (Eval.bind c g s.st) := by
  have h2 : Res W (fun a b t => Q a b t ∧ Kept V s t) s (m s) (c s.st) := by
    generalize m s = x at h ⊢
    generalize c s.st = y at h ⊢
    cases h with
    | none => exact .none
    | some hq hk => exact .some ⟨hq, hk⟩ (hk.mono hv)
  exact h2.bind fun a b t hq _ => hf a b t hq.1 hq.2

theorem Sim.bind {m : RE α} {c : Eval β} {f : α → RE γ} {g : β → Eval δ} (h : Sim W Q m c)
    (hf : ∀ a b t, Q a b t → Res W Q' t (f a t) (g b t.st)) : Sim W Q' (Eval.bind m f) (Eval.bind c g) :=
  fun s => (h s).bind fun a b t hq _ => hf a b t hq

end

theorem Sim.bindv {α γ δ : Type} {Q' : γ → δ → RState → Prop} {m : RE α} {c : Eval α} {f : α → RE γ} {g : α → Eval δ} (h : Sim W Eq' m c)
    (hf : ∀ a, Sim W Q' (f a) (g a)) : Sim W Q' (Eval.bind m f) (Eval.bind c g) :=
  h.bind fun a b t hq => by cases hq; exact hf a t

theorem Sim.pure {α : Type} (a : α) : Sim W Eq' (Eval.pure a) (Eval.pure a) := fun s => .some rfl (.refl s)
theorem Sim.fail {α β : Type} {Q : α → β → RState → Prop} : Sim W Q (Eval.fail) (Eval.fail) := fun _ => .none
theorem Sim.lift {α : Type} (a : Option α) : Sim W Eq' (Eval.lift a) (Eval.lift a) := by
  intro s
  cases a with
  | none => exact .none
  | some a => exact .some rfl (.refl s)

theorem Sim.setVar {n : Bytes} (h : W n) (v : Value) : Sim W Eq' (Refs.setVar n v) (Eval.setVar n v) := by
  intro s
  refine .some (t := s.setVar n v) rfl ?_
  intro m hm
  have : m ≠ n := by rintro rfl; exact hm h
  simp [RState.setVar, EState.setVar, this]

/-- Reading a fresh reference. -/
theorem Res.read {P : Bytes → Prop} {r : Ref} {v : Value} {s : RState} (h : Leads P r v s) {γ δ : Type} {Q' : γ → δ → RState → Prop} {f : Value → RE γ}
    {y : Option (δ × EState)} (hf : Res W Q' s (f v s) y) : Res W Q' s (Eval.bind (Refs.read keeps r) f s) y := by
  simp only [Eval.bind, Refs.read, h.1 keeps, Option.map_some]
  exact hf

theorem Sim.use {P : Bytes → Prop} {m : RE Ref} {c : Eval Value} (h : Sim W (Leads P) m c) : Sim W Eq' (Refs.use keeps m) c := by
  intro s
  have := h s
  unfold Refs.use
  simp only [Eval.bind]
  generalize m s = x at this ⊢
  generalize c s.st = y at this ⊢
  cases this with
  | none => exact .none
  | some hq hk =>
    simp only [Refs.read, hq.1 keeps, Option.map_some]
    exact .some rfl hk

theorem Sim.own {P : Bytes → Prop} {m : RE Value} {c : Eval Value} (h : Sim W Eq' m c) : Sim W (Leads P) (Refs.own m) c := by
  intro s
  have := h s
  unfold Refs.own
  simp only [Eval.bind]
  generalize m s = x at this ⊢
  generalize c s.st = y at this ⊢
  cases this with
  | none => exact .none
  | some hq hk => cases hq; exact .some ⟨fun _ => rfl, fun n hn => hn.elim⟩ hk

theorem Sim.ownPure {P : Bytes → Prop} (v : Value) : Sim W (Leads P) (Eval.pure (.own v)) (Eval.pure v) :=
  fun s => .some ⟨fun _ => rfl, fun n hn => hn.elim⟩ (.refl s)

/-- A computation that changes no variable. -/
theorem Sim.quiet {α : Type} {c : Eval α} (h : ∀ s a t, c s = some (a, t) → t.vars = s.vars) : Sim W Eq' (Refs.quiet c) c := by
  intro s
  simp only [Refs.quiet]
  cases hc : c s.st with
  | none => exact .none
  | some x =>
    obtain ⟨a, t⟩ := x
    exact .some (t := ⟨t, s.ver⟩) rfl fun n _ => ⟨rfl, by rw [h _ _ _ hc]⟩

/-! ## The functions that copy -/

/-- Lists of computations side by side. -/
def Sims (W : Bytes → Prop) (ms : List (RE Value)) (cs : List (Eval Value)) : Prop := List.Forall₂ (Sim W Eq') ms cs

theorem Sims.all {ms : List (RE Value)} {cs : List (Eval Value)} (h : List.Forall₂ (Sim W Eq') ms cs) : Sim W Eq' (Eval.all ms) (Eval.all cs) := by
  induction h with
  | nil => exact .pure _
  | cons h _ ih => exact h.bindv fun v => ih.bindv fun vs => .pure _

theorem Sims.andOr {dom : Bool} {ms : List (RE Value)} {cs : List (Eval Value)} (h : List.Forall₂ (Sim W Eq') ms cs) (r : Value) :
    Sim W Eq' (Eval.andOr dom r ms) (Eval.andOr dom r cs) := by
  induction h generalizing r with
  | nil => exact .pure _
  | cons h _ ih =>
    refine h.bindv fun v => ?_
    split
    · exact .pure _
    · split
      · split
        · exact .pure _
        · exact ih _
      · exact ih _
      · split
        · exact ih _
        · exact .pure _
      · exact .pure _

theorem Sims.xor {ms : List (RE Value)} {cs : List (Eval Value)} (h : List.Forall₂ (Sim W Eq') ms cs) (r : Value) (a b : Bool) :
    Sim W Eq' (Eval.xor r a b ms) (Eval.xor r a b cs) := by
  induction h generalizing r a b with
  | nil => exact .pure _
  | cons h _ ih =>
    refine h.bindv fun v => ?_
    split
    · exact .pure _
    · split
      · split
        · exact ih _ _ _
        · split
          · exact ih _ _ _
          · split
            · exact ih _ _ _
            · exact .fail
      · exact ih _ _ _
      · exact .pure _

theorem Sims.logical {o : LogOp} {p : List Nat} {ms : List (RE Value)} {cs : List (Eval Value)} (h : List.Forall₂ (Sim W Eq') ms cs) :
    Sim W Eq' (Refs.logical o p ms) (Eval.logical o p cs) := by
  cases o with
  | and => exact Sims.andOr h _
  | or => exact Sims.andOr h _
  | xor =>
    intro s
    have := Sims.xor h (s.st.mem p) false true s
    simp only [Refs.logical, Eval.logical]
    generalize Eval.xor (s.st.mem p) false true ms s = x at this ⊢
    generalize Eval.xor (s.st.mem p) false true cs s.st = y at this ⊢
    cases this with
    | none => exact .none
    | @some a b t hq hk =>
      cases hq
      exact .some (t := ⟨t.st.setMem p a, t.ver⟩) rfl fun n hn => hk n hn

theorem Sims.pathLoop {ms : List (RE Value)} {cs : List (Eval Value)} (h : List.Forall₂ (Sim W Eq') ms cs) (i : Nat) (q : Path Value) :
    Sim W Eq' (Eval.pathLoop i q ms) (Eval.pathLoop i q cs) := by
  induction h generalizing i q with
  | nil => exact .pure _
  | cons h _ ih =>
    refine h.bindv fun v => ?_
    split
    · exact ih _ _
    · exact .pure _

theorem Sims.coll {k : CollKind} {ms : List (RE Value)} {cs : List (Eval Value)} (h : List.Forall₂ (Sim W Eq') ms cs) :
    Sim W Eq' (Eval.coll k ms) (Eval.coll k cs) := by
  cases k with
  | list => exact (Sims.all h).bindv fun vs => .pure _
  | set => exact (Sims.all h).bindv fun vs => .pure _
  | pathBuild =>
    cases h with
    | nil => exact .pure _
    | cons h hs =>
      refine h.bindv fun v => ?_
      split
      · exact .pure _
      · exact Sims.pathLoop hs _ _

theorem Sims.mapOf {ms : List (Bytes × RE Value)} {cs : List (Bytes × Eval Value)} (h : List.Forall₂ (fun a b => a.1 = b.1 ∧ Sim W Eq' a.2 b.2) ms cs)
    (acc : List (Bytes × Value)) : Sim W Eq' (Eval.mapOf acc ms) (Eval.mapOf acc cs) := by
  induction h generalizing acc with
  | nil => exact .pure _
  | @cons a b _ _ h _ ih =>
    obtain ⟨k, m⟩ := a
    obtain ⟨k', c⟩ := b
    obtain ⟨rfl, h⟩ := h
    exact h.bindv fun v => ih _

theorem Sims.caseLoop {ms : List (RE Value × RE Value)} {cs : List (Eval Value × Eval Value)}
    (h : List.Forall₂ (fun a b => Sim W Eq' a.1 b.1 ∧ Sim W Eq' a.2 b.2) ms cs) {d : RE Value} {d' : Eval Value} (hd : Sim W Eq' d d') (cond : Option Value) :
    Sim W Eq' (Eval.caseLoop cond d ms) (Eval.caseLoop cond d' cs) := by
  induction h with
  | nil => exact hd
  | @cons a b _ _ h _ ih =>
    obtain ⟨w, t⟩ := a
    obtain ⟨w', t'⟩ := b
    refine h.1.bindv fun v => ?_
    cases cond with
    | some c =>
      dsimp only
      split
      · exact h.2
      · exact ih
    | none =>
      dsimp only
      split
      · split
        · exact h.2
        · exact ih
      · exact .pure _

/-- Operands that may be missing, side by side. -/
inductive SimO {α β : Type} (W : Bytes → Prop) (Q : α → β → RState → Prop) : Option (RE α) → Option (Eval β) → Prop
  | none : SimO W Q none none
  | some {m : RE α} {c : Eval β} : Sim W Q m c → SimO W Q (some m) (some c)

theorem Sims.caseExpr {ms : List (RE Value × RE Value)} {cs : List (Eval Value × Eval Value)}
    (h : List.Forall₂ (fun a b => Sim W Eq' a.1 b.1 ∧ Sim W Eq' a.2 b.2) ms cs) {c d : Option (RE Value)} {c' d' : Option (Eval Value)}
    (hc : SimO W Eq' c c') (hd : SimO W Eq' d d') : Sim W Eq' (Eval.caseExpr c d ms) (Eval.caseExpr c' d' cs) := by
  have hd : Sim W Eq' (d.getD (Eval.pure kNull)) (d'.getD (Eval.pure kNull)) := by
    cases hd with
    | none => exact .pure _
    | some h => exact h
  cases hc with
  | none => exact Sims.caseLoop h hd _
  | some hc => exact hc.bindv fun v => Sims.caseLoop h hd _

theorem Sim.unOp {env : Env} {o : UnOp} {e : Expr} {P P' : Bytes → Prop} {m : RE Ref} {c : Eval Value} (h : Sim W (Leads P) m c)
    (hw : ∀ n, e.varName = some (some n) → o = .incr ∨ o = .decr → W n) : Sim W (Leads P') (Refs.unOp keeps env o e.varName m) (Eval.unOp env o e.varName c) := by
  have hu : Sim W Eq' (Refs.use keeps m) c := h.use
  have hid : Sim W Eq' (Refs.use keeps m) (Eval.bind c Eval.pure) := by
    have := hu.bindv (g := Eval.pure) (f := Eval.pure) fun a => .pure a
    intro s
    have := this s
    have e1 : Eval.bind (Refs.use keeps m) Eval.pure s = Refs.use keeps m s := by
      simp only [Eval.bind, Eval.pure]; cases Refs.use keeps m s <;> rfl
    rwa [e1] at this
  cases o with
  | plus => exact hu.own
  | negate => exact (hu.bindv fun v => .pure _).own
  | not => exact (hu.bindv fun v => .pure _).own
  | incr =>
    simp only [Refs.unOp, Eval.unOp]
    cases hn : e.varName with
    | none => exact .ownPure _
    | some n =>
      cases n with
      | none => exact .fail
      | some n => exact hu.bindv fun v => (Sim.lift _).bindv fun r => (Sim.setVar (hw n hn (.inl rfl)) r).bindv fun _ => .ownPure _
  | decr =>
    simp only [Refs.unOp, Eval.unOp]
    cases hn : e.varName with
    | none => exact .ownPure _
    | some n =>
      cases n with
      | none => exact .fail
      | some n => exact hu.bindv fun v => (Sim.lift _).bindv fun r => (Sim.setVar (hw n hn (.inr rfl)) r).bindv fun _ => .ownPure _
  | isNull => exact (hu.bindv fun v => .pure _).own
  | isNotNull => exact (hu.bindv fun v => .pure _).own
  | isEmpty => exact (hu.bindv fun v => .pure _).own
  | isNotEmpty => exact (hu.bindv fun v => .pure _).own

/-! ## The functions that hold references -/

theorem binOp_quiet (env : Env) (o : BinOp) (p : List Nat) (l r : Value) (s : EState) (v : Value) (t : EState) (h : Eval.binOp env o p l r s = some (v, t)) :
    t.vars = s.vars := by
  have hl : ∀ a : Option Value, Eval.lift a s = some (v, t) → t.vars = s.vars := by
    intro a h
    cases a with
    | none => cases h
    | some a => cases h; rfl
  have hp : ∀ a : Value, Eval.pure a s = some (v, t) → t.vars = s.vars := by intro a h; cases h; rfl
  cases o
  case «attribute» =>
    simp only [Eval.binOp] at h
    cases ha : Ops.attr (s.mem p) l r with
    | none => rw [ha] at h; cases h
    | some x => rw [ha] at h; cases h; rfl
  all_goals first | exact hl _ h | exact hp _ h

theorem aggregate_quiet (env : Env) (name : Bytes) (d : Bool) (p : List Nat) (w : Value) (s : EState) (v : Value) (t : EState)
    (h : Eval.aggregate env name d p (some (Eval.pure w)) s = some (v, t)) : t.vars = s.vars := by
  simp only [Eval.aggregate, Eval.bind, Eval.pure] at h
  split at h
  · cases h
  split at h
  · cases h; rfl
  split at h
  · cases h
  split at h
  · cases h
  · cases h; rfl

/-- Reading both operands after both have been evaluated. -/
theorem Res.binOp {env : Env} {o : BinOp} {p : List Nat} {P P' PR : Bytes → Prop} {a b : Ref} {l r : Value} {s : RState} (ha : Leads P a l s) (hb : Leads P' b r s)
    (hp : o = .attribute ∨ o = .subscript → ∀ n, P n → PR n) :
    Res W (Leads PR) s (Refs.binOp keeps env o p a b s) (Eval.binOp env o p l r s.st) := by
  unfold Refs.binOp
  refine .read ha (.read hb ?_)
  have h := Sim.quiet (W := W) (c := Eval.binOp env o p l r) (binOp_quiet env o p l r) s
  have hq : ∀ x t, Refs.quiet (Eval.binOp env o p l r) s = Option.some (x, t) → t.ver = s.ver ∧ t.st.vars = s.st.vars := by
    intro x t h
    simp only [Refs.quiet] at h
    cases hc : Eval.binOp env o p l r s.st with
    | none => rw [hc] at h; cases h
    | some y =>
      rw [hc] at h
      obtain ⟨v, u⟩ := y
      cases h
      exact ⟨rfl, binOp_quiet _ _ _ _ _ _ _ _ hc⟩
  simp only [Eval.bind]
  generalize Refs.quiet (Eval.binOp env o p l r) s = x at h hq ⊢
  generalize Eval.binOp env o p l r s.st = y at h ⊢
  cases h with
  | none => exact .none
  | @some v w t he hk =>
    cases he
    refine .some ?_ hk
    have hqt := hq _ _ rfl
    split
    · rename_i hby
      have ha' : Leads P a l t := by
        refine ha.kept (W := fun _ => False) (fun n _ => ⟨by rw [hqt.1], by rw [hqt.2]⟩) fun n _ h => h
      have ho : o = .attribute ∨ o = .subscript := by
        cases o <;> first | (left; rfl) | (right; rfl) | (simp [byRef] at hby)
      have := ha'.inside v
      exact ⟨this.1, fun n hn => hp ho n (this.2 n hn)⟩
    · exact ⟨fun _ => rfl, fun n hn => hn.elim⟩

/-- References to several arguments, each to variables that are not assigned by the later ones. -/
inductive Held : List (Bytes → Prop) → List Ref → List Value → RState → Prop
  | nil {s : RState} : Held [] [] [] s
  | cons {P : Bytes → Prop} {Ps : List (Bytes → Prop)} {r : Ref} {rs : List Ref} {v : Value} {vs : List Value} {s : RState} :
      Leads P r v s → Held Ps rs vs s → Held (P :: Ps) (r :: rs) (v :: vs) s

theorem Held.reads {Ps : List (Bytes → Prop)} {rs : List Ref} {vs : List Value} {s : RState} (h : Held Ps rs vs s) : Refs.reads keeps rs s = some (vs, s) := by
  induction h with
  | nil => rfl
  | cons h _ ih =>
    simp only [Refs.reads, Eval.bind, Refs.read, h.1 keeps, Option.map_some, ih]
    rfl

theorem Sim.predLoop {t : Eval.PredType} {inner : Bytes} {P PF : Bytes → Prop} {m : RE Ref} {c : Eval Value} (hi : W inner) (hm : Sim W (Leads PF) m c) (hd : ∀ n, P n → ¬W n)
    (vs : List Value) : ∀ (result : Bool) (r : Ref) (w : Value) (s : RState), Leads P r w s →
      Res W Eq' s (Refs.predLoop keeps t inner m r result vs s) (Eval.predLoop t inner c result vs s.st) := by
  induction vs with
  | nil =>
    intro result r w s h
    exact .read h (Sim.pure _ s)
  | cons x xs ih =>
    intro result r w s h
    rw [Refs.predLoop, Eval.predLoop]
    refine .read h ?_
    refine (Sim.setVar hi x s).bind fun _ _ t1 _ hk1 => ?_
    refine (hm.use t1).bind fun v v' t2 hv hk2 => ?_
    cases hv
    have h2 := h.kept (hk1.trans hk2) hd
    cases truth v with
    | none => exact Sim.pure _ t2
    | some b =>
      cases t <;> cases b <;> cases result <;>
        first | exact ih _ _ _ _ h2 | exact Sim.pure _ t2

theorem Res.onList {P : Bytes → Prop} {r : Ref} {v : Value} {s : RState} (h : Leads P r v s) {f : Ref → List Value → RE Value} {g : List Value → Eval Value}
    (hf : ∀ l vs, v = .list vs → Leads P l v s → Res W Eq' s (f l vs s) (g vs s.st)) : Res W Eq' s (Refs.onList r v f s) (Eval.onList v g s.st) := by
  unfold Refs.onList Eval.onList
  cases v
  case list vs => exact hf _ _ rfl (h.inside _)
  all_goals exact Sim.pure _ s

theorem Sim.compLoop {inner : Bytes} {P PF : Bytes → Prop} {f m : Option (RE Ref)} {f' m' : Option (Eval Value)} (hi : W inner) (hf : SimO W (Leads PF) f f')
    (hm : SimO W (Leads PF) m m') (hd : ∀ n, P n → ¬W n) (vs : List Value) : ∀ (ret : List Value) (r : Ref) (w : Value) (s : RState), Leads P r w s →
      Res W Eq' s (Refs.compLoop keeps inner f m r ret vs s) (Eval.compLoop inner f' m' ret vs s.st) := by
  induction vs with
  | nil =>
    intro ret r w s h
    exact .read h (Sim.pure _ s)
  | cons x xs ih =>
    intro ret r w s h
    rw [Refs.compLoop]
    refine .read h ?_
    refine Res.bind (Sim.setVar hi x s) fun _ _ t1 _ hk1 => ?_
    refine Res.bind (Q := Eq') ?_ fun b b' t2 hb hk2 => ?_
    · cases hf with
      | none => exact Sim.pure _ t1
      | some hf => exact (hf.use.bindv fun v => .pure _) t1
    cases hb
    have h2 := h.kept (hk1.trans hk2) hd
    match b with
    | none => exact Sim.pure _ t2
    | some false => exact ih _ _ _ _ h2
    | some true =>
      refine Res.bind (Q := Eq') ?_ fun y y' t3 hy hk3 => ?_
      · cases hm with
        | none => exact .read h2 (Sim.pure _ t2)
        | some hm => exact hm.use t2
      · cases hy
        exact ih _ _ _ _ (h2.kept hk3 hd)

theorem Sim.reduceLoop {acc inner : Bytes} {P PF : Bytes → Prop} {m : RE Ref} {c : Eval Value} (ha : W acc) (hi : W inner) (hm : Sim W (Leads PF) m c) (hd : ∀ n, P n → ¬W n)
    (vs : List Value) : ∀ (r : Ref) (w : Value) (s : RState), Leads P r w s →
      Res W Eq' s (Refs.reduceLoop keeps acc inner m r vs s) (Eval.reduceLoop acc inner c vs s.st) := by
  induction vs with
  | nil =>
    intro r w s h
    exact .read h (Sim.pure _ s)
  | cons x xs ih =>
    intro r w s h
    rw [Refs.reduceLoop, Eval.reduceLoop]
    refine .read h ?_
    refine (Sim.setVar hi x s).bind fun _ _ t1 _ hk1 => ?_
    refine (hm.use t1).bind fun v v' t2 hv hk2 => ?_
    cases hv
    refine (Sim.setVar ha v t2).bind fun _ _ t3 _ hk3 => ?_
    exact ih _ _ _ (h.kept ((hk1.trans hk2).trans hk3) hd)

theorem Sim.range {P PF : Bytes → Prop} {WL : Bytes → Prop} {l : RE Ref} {l' : Eval Value} {lo hi : Option (RE Ref)} {lo' hi' : Option (Eval Value)} (hl : Sim WL (Leads P) l l')
    (h1 : SimO W (Leads PF) lo lo') (h2 : SimO W (Leads PF) hi hi') (hw : ∀ n, P n → ¬W n) {V : Bytes → Prop} (hv : ∀ n, WL n → V n) (hv' : ∀ n, W n → V n) :
    Sim V Eq' (Refs.range keeps l lo hi) (Eval.range l' lo' hi') := by
  intro s
  unfold Refs.range Eval.range
  refine ((hl s).mono hv).bind fun r v t hr _ => ?_
  refine .read hr ?_
  refine Res.mono hv' ?_
  cases v
  case list vs =>
    have hr := hr.inside (.list vs)
    have hfin : ∀ a b u, Kept W t u → Res W Eq' u ((Eval.bind (Refs.read keeps (inside t (.list vs) r)) fun _ => Eval.pure (Ops.slice vs a b)) u)
        (Eval.pure (Ops.slice vs a b) u.st) := fun a b u hk => .read (hr.kept hk hw) (Sim.pure _ u)
    have hhi : ∀ a u, Kept W t u → Res W Eq' u
        ((match hi with
          | none => (Eval.bind (Refs.read keeps (inside t (.list vs) r)) fun _ => Eval.pure (Ops.slice vs a vs.length) : RE Value)
          | some m => Eval.bind (Refs.use keeps m) fun b => match Ops.bound vs.length b with
            | .inl x => Eval.pure x
            | .inr h => Eval.bind (Refs.read keeps (inside t (.list vs) r)) fun _ => Eval.pure (Ops.slice vs a h)) u)
        ((match hi' with
          | none => (Eval.pure (Ops.slice vs a vs.length) : Eval Value)
          | some m => Eval.bind m fun b => match Ops.bound vs.length b with
            | .inl r => Eval.pure r
            | .inr h => Eval.pure (Ops.slice vs a h)) u.st) := by
      intro a u hk
      cases h2 with
      | none => exact hfin _ _ u hk
      | some h2 =>
        refine (h2.use u).bind fun b b' u' hb hk' => ?_
        cases hb
        cases Ops.bound vs.length b with
        | inl x => exact Sim.pure _ u'
        | inr x => exact hfin _ _ u' (hk.trans hk')
    cases h1 with
    | none => exact hhi _ t (.refl t)
    | some h1 =>
      refine (h1.use t).bind fun b b' u hb hk => ?_
      cases hb
      cases Ops.bound vs.length b with
      | inl x => exact Sim.pure _ u
      | inr x => exact hhi _ u hk
  all_goals exact Sim.pure _ t

theorem SimO.aggregate {env : Env} {name : Bytes} {d : Bool} {p : List Nat} {P : Bytes → Prop} {a : Option (RE Ref)} {a' : Option (Eval Value)} (h : SimO W (Leads P) a a') :
    Sim W Eq' (Refs.aggregate keeps env name d p a) (Eval.aggregate env name d p a') := by
  cases h with
  | none => exact .fail
  | some h =>
    have := h.use (keeps := keeps)
    intro s
    have := (this s).bind (f := fun v => Refs.quiet (Eval.aggregate env name d p (Option.some (Eval.pure v)))) (g := fun v => Eval.aggregate env name d p (Option.some (Eval.pure v)))
      (Q' := Eq') fun a b t hab _ => by cases hab; exact Sim.quiet (aggregate_quiet env name d p a) t
    exact this

theorem Sim.listComp {inner : Bytes} {P PF WC V : Bytes → Prop} {c : RE Ref} {c' : Eval Value} {f m : Option (RE Ref)} {f' m' : Option (Eval Value)} (hc : Sim WC (Leads P) c c')
    (hi : W inner) (hf : SimO W (Leads PF) f f') (hm : SimO W (Leads PF) m m') (hd : (f = none ∧ m = none) ∨ ∀ n, P n → ¬W n) (hv : ∀ n, WC n → V n) (hv' : ∀ n, W n → V n) :
    Sim V Eq' (Refs.listComp keeps inner c f m) (Eval.listComp inner c' f' m') := by
  intro s
  unfold Refs.listComp Eval.listComp
  refine ((hc s).mono hv).bind fun r v t hr _ => ?_
  refine .read hr ?_
  refine Res.mono hv' ?_
  refine .onList hr fun l vs _ hl => ?_
  have e1 : f.isNone = f'.isNone := by cases hf <;> rfl
  have e2 : m.isNone = m'.isNone := by cases hm <;> rfl
  rw [e1, e2]
  split
  · exact Sim.pure _ t
  · rename_i hn
    rcases hd with ⟨rfl, rfl⟩ | hd
    · rw [← e1, ← e2] at hn; simp at hn
    · exact Sim.compLoop hi hf hm hd vs _ _ _ _ hl

theorem Sim.reduce {acc inner : Bytes} {PI P PF WI WC V : Bytes → Prop} {i c m : RE Ref} {i' c' m' : Eval Value} (hin : Sim WI (Leads PI) i i') (hc : Sim WC (Leads P) c c')
    (ha : W acc) (hi : W inner) (hm : Sim W (Leads PF) m m') (hic : ∀ n, PI n → ¬WC n) (hd : ∀ n, P n → ¬W n)
    (hv : ∀ n, WI n → V n) (hv' : ∀ n, WC n → V n) (hv'' : ∀ n, W n → V n) : Sim V Eq' (Refs.reduce keeps acc i inner c m) (Eval.reduce acc i' inner c' m') := by
  intro s
  unfold Refs.reduce Eval.reduce
  refine ((hin s).mono hv).bind fun ri vi t1 hri _ => ?_
  refine (hc t1).bindSub hv' fun r v t hr hk => ?_
  have hri := hri.kept hk hic
  refine Res.mono hv'' ?_
  refine .read hr (.onList hr fun l vs _ hl => .read hri ?_)
  refine (Sim.setVar ha vi t).bind fun _ _ t2 _ hk2 => ?_
  refine (Sim.reduceLoop ha hi hm hd vs _ _ _ (hl.kept hk2 hd)).bind fun _ _ t3 _ _ => ?_
  exact .some rfl (.refl t3)

/-! ## All expressions -/

theorem SimO.use {P : Bytes → Prop} {m : Option (RE Ref)} {c : Option (Eval Value)} (h : SimO W (Leads P) m c) : SimO W Eq' (m.map (Refs.use keeps)) c := by
  cases h with
  | none => exact .none
  | some h => exact .some h.use

theorem useO_eq (env : Env) (e : Option Expr) (p : List Nat) : useO keeps env e p = (evalO keeps env e p).map (Refs.use keeps) := by
  cases e <;> simp [useO, evalO]

theorem Sim.predicate {name inner : Bytes} {P PF WC V : Bytes → Prop} {ops : Option (RE Ref × RE Ref)} {ops' : Option (Eval Value × Eval Value)} {c : RE Ref} {c' : Eval Value}
    {f : Option (RE Ref)} {f' : Option (Eval Value)}
    (ho : ∀ {γ δ : Type} {Q : γ → δ → RState → Prop} {k : Value → Value → RE γ} {k' : Value → Value → Eval δ}, (∀ a b, Sim V Q (k a b) (k' a b)) →
      Sim V Q (match ops with
        | some (c, x) => Eval.bind c fun c => Eval.bind x fun x => Eval.bind (Refs.read keeps c) fun c => Eval.bind (Refs.read keeps x) fun x => k c x
        | none => Eval.fail)
        (match ops' with
        | some (c, x) => Eval.bind c fun c => Eval.bind x fun x => k' c x
        | none => Eval.fail))
    (hc : Sim WC (Leads P) c c') (hi : W inner) (hf : SimO W (Leads PF) f f') (hd : name = ascii "exists" ∨ ∀ n, P n → ¬W n) (hv : ∀ n, WC n → V n) (hv' : ∀ n, W n → V n) :
    Sim V Eq' (Refs.predicate keeps name inner ops c f) (Eval.predicate name inner ops' c' f') := by
  unfold Refs.predicate Eval.predicate
  split
  · exact ho fun a b => .pure _
  · rename_i hn
    have hd := hd.resolve_left hn
    cases Eval.predType name with
    | none => exact .pure _
    | some t =>
      intro s
      refine (hc s).bindSub hv fun r v t hr _ => ?_
      refine .read hr ?_
      refine Res.mono hv' ?_
      refine .onList hr fun l vs _ hl => ?_
      refine Sim.predLoop (PF := PF) hi ?_ hd vs _ _ _ _ hl
      cases hf with
      | none => exact .fail
      | some hf => exact hf

mutual
theorem subs_trans : ∀ (e : Expr) {x y : Expr}, x ∈ subs e → y ∈ subs x → y ∈ subs e
  | .unary o e, x, y, hx, hy => by
    simp only [subs, List.mem_cons] at hx ⊢
    rcases hx with rfl | hx
    · simpa [subs] using hy
    · exact .inr (subs_trans e hx hy)
  | .binary o l r, x, y, hx, hy => by
    simp only [subs, List.mem_cons, List.mem_append] at hx ⊢
    rcases hx with rfl | hx | hx
    · simpa [subs] using hy
    · exact .inr (.inl (subs_trans l hx hy))
    · exact .inr (.inr (subs_trans r hx hy))
  | .logical o es, x, y, hx, hy => by
    simp only [subs, List.mem_cons] at hx ⊢
    rcases hx with rfl | hx
    · simpa [subs] using hy
    · exact .inr (subsL_trans es hx hy)
  | .cast t e, x, y, hx, hy => by
    simp only [subs, List.mem_cons] at hx ⊢
    rcases hx with rfl | hx
    · simpa [subs] using hy
    · exact .inr (subs_trans e hx hy)
  | .call n es, x, y, hx, hy => by
    simp only [subs, List.mem_cons] at hx ⊢
    rcases hx with rfl | hx
    · simpa [subs] using hy
    · exact .inr (subsL_trans es hx hy)
  | .versionedVar n v, x, y, hx, hy => by
    simp only [subs, List.mem_cons] at hx ⊢
    rcases hx with rfl | hx
    · simpa [subs] using hy
    · exact .inr (subsO_trans v hx hy)
  | .coll k es, x, y, hx, hy => by
    simp only [subs, List.mem_cons] at hx ⊢
    rcases hx with rfl | hx
    · simpa [subs] using hy
    · exact .inr (subsL_trans es hx hy)
  | .map kvs, x, y, hx, hy => by
    simp only [subs, List.mem_cons] at hx ⊢
    rcases hx with rfl | hx
    · simpa [subs] using hy
    · exact .inr (subsKv_trans kvs hx hy)
  | .case g c d cs, x, y, hx, hy => by
    simp only [subs, List.mem_cons, List.mem_append] at hx ⊢
    rcases hx with rfl | (hx | hx) | hx
    · simpa [subs, or_assoc] using hy
    · exact .inr (.inl (.inl (subsO_trans c hx hy)))
    · exact .inr (.inl (.inr (subsO_trans d hx hy)))
    · exact .inr (.inr (subsC_trans cs hx hy))
  | .predicate n i c f o, x, y, hx, hy => by
    simp only [subs, List.mem_cons, List.mem_append] at hx ⊢
    rcases hx with rfl | hx | hx
    · simpa [subs] using hy
    · exact .inr (.inl (subs_trans c hx hy))
    · exact .inr (.inr (subsO_trans f hx hy))
  | .listComp i c f m o, x, y, hx, hy => by
    simp only [subs, List.mem_cons, List.mem_append] at hx ⊢
    rcases hx with rfl | (hx | hx) | hx
    · simpa [subs, or_assoc] using hy
    · exact .inr (.inl (.inl (subs_trans c hx hy)))
    · exact .inr (.inl (.inr (subsO_trans f hx hy)))
    · exact .inr (.inr (subsO_trans m hx hy))
  | .reduce a i v c m o, x, y, hx, hy => by
    simp only [subs, List.mem_cons, List.mem_append] at hx ⊢
    rcases hx with rfl | (hx | hx) | hx
    · simpa [subs, or_assoc] using hy
    · exact .inr (.inl (.inl (subs_trans i hx hy)))
    · exact .inr (.inl (.inr (subs_trans c hx hy)))
    · exact .inr (.inr (subs_trans m hx hy))
  | .aggregate n d a, x, y, hx, hy => by
    simp only [subs, List.mem_cons] at hx ⊢
    rcases hx with rfl | hx
    · simpa [subs] using hy
    · exact .inr (subsO_trans a hx hy)
  | .range l lo hi, x, y, hx, hy => by
    simp only [subs, List.mem_cons, List.mem_append] at hx ⊢
    rcases hx with rfl | (hx | hx) | hx
    · simpa [subs, or_assoc] using hy
    · exact .inr (.inl (.inl (subs_trans l hx hy)))
    · exact .inr (.inl (.inr (subsO_trans lo hx hy)))
    · exact .inr (.inr (subsO_trans hi hx hy))
  | .const _, x, y, hx, hy | .labelAttribute _ _, x, y, hx, hy | .column _, x, y, hx, hy | .prop _ _ _ _, x, y, hx, hy | .vertex, x, y, hx, hy | .edge, x, y, hx, hy
  | .uuid _, x, y, hx, hy | .var _ _, x, y, hx, hy | .label _, x, y, hx, hy | .text _ _, x, y, hx, hy => by
    simp only [subs, List.mem_singleton] at hx; subst hx; exact hy
theorem subsL_trans : ∀ (es : List Expr) {x y : Expr}, x ∈ subsL es → y ∈ subs x → y ∈ subsL es
  | [], x, y, hx, hy => by simp [subsL] at hx
  | e :: es, x, y, hx, hy => by
    simp only [subsL, List.mem_append] at hx ⊢
    exact hx.imp (subs_trans e · hy) (subsL_trans es · hy)
theorem subsO_trans : ∀ (e : Option Expr) {x y : Expr}, x ∈ subsO e → y ∈ subs x → y ∈ subsO e
  | none, x, y, hx, hy => by simp [subsO] at hx
  | some e, x, y, hx, hy => by
    simp only [subsO] at hx ⊢
    exact subs_trans e hx hy
theorem subsKv_trans : ∀ (es : List (Bytes × Expr)) {x y : Expr}, x ∈ subsKv es → y ∈ subs x → y ∈ subsKv es
  | [], x, y, hx, hy => by simp [subsKv] at hx
  | (k, e) :: es, x, y, hx, hy => by
    simp only [subsKv, List.mem_append] at hx ⊢
    exact hx.imp (subs_trans e · hy) (subsKv_trans es · hy)
theorem subsC_trans : ∀ (es : List (Expr × Expr)) {x y : Expr}, x ∈ subsC es → y ∈ subs x → y ∈ subsC es
  | [], x, y, hx, hy => by simp [subsC] at hx
  | (w, t) :: es, x, y, hx, hy => by
    simp only [subsC, List.mem_append] at hx ⊢
    exact hx.imp (Or.imp (subs_trans w · hy) (subs_trans t · hy)) (subsC_trans es · hy)
end

theorem mem_subsL {b : Expr} {z : Expr} : ∀ {es : List Expr}, b ∈ es → z ∈ subs b → z ∈ subsL es
  | [], hb, _ => by cases hb
  | e :: es, hb, hz => by
    simp only [subsL, List.mem_append]
    rcases List.mem_cons.mp hb with rfl | hb
    · exact .inl hz
    · exact .inr (mem_subsL hb hz)

def WritesL (n : Bytes) (es : List Expr) : Prop := ∃ x ∈ subsL es, Assigns n x

mutual
theorem sim_eval (keeps : Bool) (env : Env) : ∀ (e : Expr) (p : List Nat), (∀ x ∈ subs e, Tidy x) →
    Sim (fun n => Writes n e) (Leads fun n => Points n e) (eval keeps env e p) (e.eval env p)
  | .const v, p, h => by simp only [eval, Expr.eval]; exact .ownPure _
  | .unary o e, p, h => by
    simp only [eval, Expr.eval]
    simp only [subs, List.mem_cons, forall_eq_or_imp] at h
    refine Sim.unOp (P := fun n => Points n e) ((sim_eval keeps env e _ h.2).mono ?_) ?_
    · rintro n ⟨x, hx, ha⟩
      exact ⟨x, by simp [subs, hx], ha⟩
    · intro n hn ho
      refine ⟨.unary o e, by simp [subs], ?_⟩
      cases e <;> simp [Expr.varName] at hn
      subst hn
      rcases ho with rfl | rfl <;> constructor
  | .binary o l r, p, h => by
    simp only [eval, Expr.eval]
    simp only [subs, List.mem_cons, forall_eq_or_imp, List.mem_append] at h
    intro s
    refine (sim_eval keeps env l _ (fun x hx => h.2 x (.inl hx)) s).bindSub ?_ fun a v t ha _ => ?_
    · rintro n ⟨x, hx, ha⟩
      exact ⟨x, by simp [subs, hx], ha⟩
    refine (sim_eval keeps env r _ (fun x hx => h.2 x (.inr hx)) t).bindSub ?_ fun b w u hb hk => ?_
    · rintro n ⟨x, hx, ha⟩
      exact ⟨x, by simp [subs, hx], ha⟩
    refine Res.binOp (ha.kept hk h.1) hb ?_
    intro ho n hn
    rcases ho with rfl | rfl
    · exact .attribute hn
    · exact .subscript hn
  | .labelAttribute l r, p, h => by simp only [eval, Expr.eval]; exact .fail
  | .column i, p, h => by simp only [eval, Expr.eval]; exact .ownPure _
  | .logical o es, p, h => by
    simp only [eval, Expr.eval]
    simp only [subs, List.mem_cons, forall_eq_or_imp] at h
    refine (Sims.logical (sim_uses keeps env es 0 p h.2 ?_)).own
    rintro n ⟨x, hx, ha⟩
    exact ⟨x, by simp [subs, hx], ha⟩
  | .cast ty e, p, h => by
    simp only [eval, Expr.eval]
    simp only [subs, List.mem_cons, forall_eq_or_imp] at h
    refine Sim.own (Sim.bindv (Sim.use ((sim_eval keeps env e _ h.2).mono ?_)) fun v => .lift _)
    rintro n ⟨x, hx, ha⟩
    exact ⟨x, by simp [subs, hx], ha⟩
  | .call f es, p, h => by
    simp only [eval, Expr.eval]
    simp only [subs, List.mem_cons, forall_eq_or_imp] at h
    refine Sim.own fun s => ?_
    refine (sim_evals keeps env es 0 p h.2 h.1 s).bindSub ?_ fun rs vs t hr _ => ?_
    · rintro n ⟨x, hx, ha⟩
      exact ⟨x, by simp [subs, hx], ha⟩
    simp only [Eval.bind, hr.reads]
    exact Sim.lift _ t
  | .prop k _ sym pr, p, h => by simp only [eval, Expr.eval]; exact .ownPure _
  | .vertex, p, h => by simp only [eval, Expr.eval]; exact .ownPure _
  | .edge, p, h => by simp only [eval, Expr.eval]; exact .ownPure _
  | .uuid _, p, h => by simp only [eval, Expr.eval]; exact .ownPure _
  | .var n i, p, h => by
    simp only [eval, Expr.eval]
    exact fun s => .some ⟨fun _ => by simp [get], fun m hm => by cases hm; exact .var i⟩ (.refl s)
  | .versionedVar n none, p, h => by
    simp only [eval, Expr.eval]
    exact fun s => .some ⟨fun _ => by simp [get], fun m hm => by cases hm; exact .latest⟩ (.refl s)
  | .versionedVar n (some e), p, h => by
    simp only [eval, Expr.eval]
    simp only [subs, subsO, List.mem_cons, forall_eq_or_imp] at h
    refine Sim.own (Sim.bindv (Sim.use ((sim_eval keeps env e _ h.2).mono ?_)) fun v => ?_)
    · rintro n ⟨x, hx, ha⟩
      exact ⟨x, by simp [subs, subsO, hx], ha⟩
    · cases v <;> exact .pure _
  | .coll k es, p, h => by
    simp only [eval, Expr.eval]
    simp only [subs, List.mem_cons, forall_eq_or_imp] at h
    refine (Sims.coll (sim_uses keeps env es 0 p h.2 ?_)).own
    rintro n ⟨x, hx, ha⟩
    exact ⟨x, by simp [subs, hx], ha⟩
  | .map kvs, p, h => by
    simp only [eval, Expr.eval]
    simp only [subs, List.mem_cons, forall_eq_or_imp] at h
    refine (Sims.mapOf (sim_usesKvs keeps env kvs 0 p h.2 ?_) _).own
    rintro n ⟨x, hx, ha⟩
    exact ⟨x, by simp [subs, hx], ha⟩
  | .label n, p, h => by simp only [eval, Expr.eval]; exact .ownPure _
  | .case g c d cs, p, h => by
    simp only [eval, Expr.eval, useO_eq]
    simp only [subs, List.mem_cons, forall_eq_or_imp, List.mem_append] at h
    refine (Sims.caseExpr (sim_usesCases keeps env cs 2 p (fun x hx => h.2 x (.inr hx)) ?_)
      (SimO.use (sim_evalO keeps env c _ (fun x hx => h.2 x (.inl (.inl hx))) ?_))
      (SimO.use (sim_evalO keeps env d _ (fun x hx => h.2 x (.inl (.inr hx))) ?_))).own
    all_goals
      rintro n ⟨x, hx, ha⟩
      exact ⟨x, by simp [subs, hx], ha⟩
  | .predicate n i c f o, p, h => by
    simp only [eval, Expr.eval]
    simp only [subs, List.mem_cons, forall_eq_or_imp, List.mem_append] at h
    refine Sim.own (Sim.predicate (W := fun m => m = i ∨ WritesO m f) ?_ (sim_eval keeps env c _ fun x hx => h.2 x (.inl hx)) (.inl rfl)
      (sim_evalO keeps env f _ (fun x hx => h.2 x (.inr hx)) fun _ => .inr) ?_ ?_ ?_)
    · intro γ δ Q k k' hk
      refine sim_operands keeps env c _ (fun x hx => h.2 x (.inl hx)) ?_ hk
      rintro n ⟨x, hx, ha⟩
      exact ⟨x, by simp [subs, hx], ha⟩
    · refine h.1.imp id fun hd m hm hw => ?_
      rcases hw with rfl | hw
      · exact (hd _ hm).1 rfl
      · exact (hd _ hm).2 hw
    · rintro n ⟨x, hx, ha⟩
      exact ⟨x, by simp [subs, hx], ha⟩
    · rintro m (rfl | ⟨x, hx, ha⟩)
      · exact ⟨.predicate n m c f o, by simp [subs], .predicate _ _ _ _⟩
      · exact ⟨x, by simp [subs, hx], ha⟩
  | .listComp i c f m o, p, h => by
    simp only [eval, Expr.eval]
    simp only [subs, List.mem_cons, forall_eq_or_imp, List.mem_append] at h
    refine Sim.own (Sim.listComp (W := fun n => n = i ∨ WritesO n f ∨ WritesO n m) (sim_eval keeps env c _ fun x hx => h.2 x (.inl (.inl hx))) (.inl rfl)
      (sim_evalO keeps env f _ (fun x hx => h.2 x (.inl (.inr hx))) fun _ h => .inr (.inl h))
      (sim_evalO keeps env m _ (fun x hx => h.2 x (.inr hx)) fun _ h => .inr (.inr h)) ?_ ?_ ?_)
    · refine h.1.imp (fun hd => by rw [hd.1, hd.2]; simp [evalO]) fun hd n hn hw => ?_
      rcases hw with rfl | hw | hw
      · exact (hd _ hn).1 rfl
      · exact (hd _ hn).2.1 hw
      · exact (hd _ hn).2.2 hw
    · rintro n ⟨x, hx, ha⟩
      exact ⟨x, by simp [subs, hx], ha⟩
    · rintro n (rfl | ⟨x, hx, ha⟩ | ⟨x, hx, ha⟩)
      · exact ⟨.listComp n c f m o, by simp [subs], .listComp _ _ _ _⟩
      · exact ⟨x, by simp [subs, hx], ha⟩
      · exact ⟨x, by simp [subs, hx], ha⟩
  | .reduce a i v c m o, p, h => by
    simp only [eval, Expr.eval]
    simp only [subs, List.mem_cons, forall_eq_or_imp, List.mem_append] at h
    refine Sim.own (Sim.reduce (W := fun n => n = a ∨ n = v ∨ Writes n m) (sim_eval keeps env i _ fun x hx => h.2 x (.inl (.inl hx)))
      (sim_eval keeps env c _ fun x hx => h.2 x (.inl (.inr hx))) (.inl rfl) (.inr (.inl rfl))
      ((sim_eval keeps env m _ fun x hx => h.2 x (.inr hx)).mono fun _ h => .inr (.inr h)) h.1.1 ?_ ?_ ?_ ?_)
    · rintro n hn (rfl | rfl | hw)
      · exact (h.1.2 _ hn).1 rfl
      · exact (h.1.2 _ hn).2.1 rfl
      · exact (h.1.2 _ hn).2.2 hw
    · rintro n ⟨x, hx, ha⟩
      exact ⟨x, by simp [subs, hx], ha⟩
    · rintro n ⟨x, hx, ha⟩
      exact ⟨x, by simp [subs, hx], ha⟩
    · rintro n (rfl | rfl | ⟨x, hx, ha⟩)
      · exact ⟨.reduce n i v c m o, by simp [subs], .accumulator _ _ _ _ _⟩
      · exact ⟨.reduce a i n c m o, by simp [subs], .reduce _ _ _ _ _⟩
      · exact ⟨x, by simp [subs, hx], ha⟩
  | .text _ _, p, h => by simp only [eval, Expr.eval]; exact .fail
  | .aggregate n d a, p, h => by
    simp only [eval, Expr.eval]
    simp only [subs, List.mem_cons, forall_eq_or_imp] at h
    refine Sim.own (SimO.aggregate (sim_evalO keeps env a _ h.2 ?_))
    rintro n ⟨x, hx, ha⟩
    exact ⟨x, by simp [subs, hx], ha⟩
  | .range l lo hi, p, h => by
    simp only [eval, Expr.eval]
    simp only [subs, List.mem_cons, forall_eq_or_imp, List.mem_append] at h
    refine Sim.own (Sim.range (W := fun n => WritesO n lo ∨ WritesO n hi) (sim_eval keeps env l _ fun x hx => h.2 x (.inl (.inl hx)))
      (sim_evalO keeps env lo _ (fun x hx => h.2 x (.inl (.inr hx))) fun _ => .inl) (sim_evalO keeps env hi _ (fun x hx => h.2 x (.inr hx)) fun _ => .inr) ?_ ?_ ?_)
    · rintro n hn (hw | hw)
      · exact (h.1 n hn).1 hw
      · exact (h.1 n hn).2 hw
    · rintro n ⟨x, hx, ha⟩
      exact ⟨x, by simp [subs, hx], ha⟩
    · rintro n (⟨x, hx, ha⟩ | ⟨x, hx, ha⟩)
      · exact ⟨x, by simp [subs, hx], ha⟩
      · exact ⟨x, by simp [subs, hx], ha⟩
theorem sim_evals (keeps : Bool) (env : Env) : ∀ (es : List Expr) (i : Nat) (p : List Nat), (∀ x ∈ subsL es, Tidy x) →
    (es.Pairwise fun a b => ∀ n, Points n a → ¬Writes n b) →
    Sim (fun n => WritesL n es) (Held (es.map fun e n => Points n e)) (refs (evals keeps env es i p)) (Eval.all (Expr.evals env es i p))
  | [], i, p, h, hp => by
    simp only [evals, Expr.evals, refs, Eval.all]
    exact fun s => .some .nil (.refl s)
  | e :: es, i, p, h, hp => by
    simp only [subsL, List.mem_append] at h
    rw [List.pairwise_cons] at hp
    simp only [evals, Expr.evals, refs, Eval.all]
    intro s
    refine (sim_eval keeps env e _ (fun x hx => h x (.inl hx)) s).bindSub ?_ fun a v t ha _ => ?_
    · rintro n ⟨x, hx, ha⟩
      exact ⟨x, by simp [subsL, hx], ha⟩
    refine (sim_evals keeps env es (i + 1) p (fun x hx => h x (.inr hx)) hp.2 t).bindSub ?_ fun as vs u has hk => ?_
    · rintro n ⟨x, hx, ha⟩
      exact ⟨x, by simp [subsL, hx], ha⟩
    refine .some (.cons (ha.kept hk ?_) has) (.refl u)
    rintro n hn ⟨x, hx, hax⟩
    have : ∃ b ∈ es, x ∈ subs b := by
      clear has hk h hp
      induction es with
      | nil => simp [subsL] at hx
      | cons b bs ih =>
        simp only [subsL, List.mem_append] at hx
        rcases hx with hx | hx
        · exact ⟨b, by simp, hx⟩
        · obtain ⟨c, hc, hx⟩ := ih hx
          exact ⟨c, by simp [hc], hx⟩
    obtain ⟨b, hb, hx⟩ := this
    exact hp.1 b hb n hn ⟨x, hx, hax⟩
theorem sim_uses (keeps : Bool) (env : Env) {W : Bytes → Prop} : ∀ (es : List Expr) (i : Nat) (p : List Nat), (∀ x ∈ subsL es, Tidy x) → (∀ n, (∃ x ∈ subsL es, Assigns n x) → W n) →
    List.Forall₂ (Sim W Eq') (uses keeps env es i p) (Expr.evals env es i p)
  | [], i, p, h, hw => by simp only [uses, Expr.evals]; exact .nil
  | e :: es, i, p, h, hw => by
    simp only [subsL, List.mem_append] at h hw
    simp only [uses, Expr.evals]
    refine .cons (Sim.use ((sim_eval keeps env e _ fun x hx => h x (.inl hx)).mono ?_)) (sim_uses keeps env es (i + 1) p (fun x hx => h x (.inr hx)) ?_)
    · exact fun n ⟨x, hx, ha⟩ => hw n ⟨x, .inl hx, ha⟩
    · exact fun n ⟨x, hx, ha⟩ => hw n ⟨x, .inr hx, ha⟩
theorem sim_evalO (keeps : Bool) (env : Env) {W : Bytes → Prop} : ∀ (e : Option Expr) (p : List Nat), (∀ x ∈ subsO e, Tidy x) → (∀ n, WritesO n e → W n) →
    SimO W (Leads fun _ => True) (evalO keeps env e p) (Expr.evalO env e p)
  | none, p, h, hw => by simp only [evalO, Expr.evalO]; exact .none
  | some e, p, h, hw => by
    simp only [subsO, WritesO] at h hw
    simp only [evalO, Expr.evalO]
    exact .some (((sim_eval keeps env e _ h).mono hw).weaken fun a b s hq => ⟨hq.1, fun _ _ => trivial⟩)
theorem sim_usesKvs (keeps : Bool) (env : Env) {W : Bytes → Prop} : ∀ (es : List (Bytes × Expr)) (i : Nat) (p : List Nat), (∀ x ∈ subsKv es, Tidy x) →
    (∀ n, (∃ x ∈ subsKv es, Assigns n x) → W n) → List.Forall₂ (fun a b => a.1 = b.1 ∧ Sim W Eq' a.2 b.2) (usesKvs keeps env es i p) (Expr.evalKvs env es i p)
  | [], i, p, h, hw => by simp only [usesKvs, Expr.evalKvs]; exact .nil
  | (k, e) :: es, i, p, h, hw => by
    simp only [subsKv, List.mem_append] at h hw
    simp only [usesKvs, Expr.evalKvs]
    refine .cons ⟨rfl, Sim.use ((sim_eval keeps env e _ fun x hx => h x (.inl hx)).mono ?_)⟩ (sim_usesKvs keeps env es (i + 1) p (fun x hx => h x (.inr hx)) ?_)
    · exact fun n ⟨x, hx, ha⟩ => hw n ⟨x, .inl hx, ha⟩
    · exact fun n ⟨x, hx, ha⟩ => hw n ⟨x, .inr hx, ha⟩
theorem sim_usesCases (keeps : Bool) (env : Env) {W : Bytes → Prop} : ∀ (es : List (Expr × Expr)) (i : Nat) (p : List Nat), (∀ x ∈ subsC es, Tidy x) →
    (∀ n, (∃ x ∈ subsC es, Assigns n x) → W n) → List.Forall₂ (fun a b => Sim W Eq' a.1 b.1 ∧ Sim W Eq' a.2 b.2) (usesCases keeps env es i p) (Expr.evalCases env es i p)
  | [], i, p, h, hw => by simp only [usesCases, Expr.evalCases]; exact .nil
  | (w, t) :: es, i, p, h, hw => by
    simp only [subsC, List.mem_append] at h hw
    simp only [usesCases, Expr.evalCases]
    refine .cons ⟨Sim.use ((sim_eval keeps env w _ fun x hx => h x (.inl (.inl hx))).mono ?_), Sim.use ((sim_eval keeps env t _ fun x hx => h x (.inl (.inr hx))).mono ?_)⟩
      (sim_usesCases keeps env es (i + 2) p (fun x hx => h x (.inr hx)) ?_)
    · exact fun n ⟨x, hx, ha⟩ => hw n ⟨x, .inl (.inl hx), ha⟩
    · exact fun n ⟨x, hx, ha⟩ => hw n ⟨x, .inl (.inr hx), ha⟩
    · exact fun n ⟨x, hx, ha⟩ => hw n ⟨x, .inr hx, ha⟩
theorem sim_operands (keeps : Bool) (env : Env) {V : Bytes → Prop} : ∀ (e : Expr) (p : List Nat), (∀ x ∈ subs e, Tidy x) → (∀ n, Writes n e → V n) →
    ∀ {γ δ : Type} {Q : γ → δ → RState → Prop} {k : Value → Value → RE γ} {k' : Value → Value → Eval δ}, (∀ a b, Sim V Q (k a b) (k' a b)) →
      Sim V Q (match operands keeps env e p with
        | some (c, x) => Eval.bind c fun c => Eval.bind x fun x => Eval.bind (Refs.read keeps c) fun c => Eval.bind (Refs.read keeps x) fun x => k c x
        | none => Eval.fail)
        (match Expr.operands env e p with
        | some (c, x) => Eval.bind c fun c => Eval.bind x fun x => k' c x
        | none => Eval.fail)
  | .binary o l r, p, h, hw => by
    intro hk
    simp only [subs, List.mem_cons, forall_eq_or_imp, List.mem_append] at h
    simp only [operands, Expr.operands]
    intro s
    refine (sim_eval keeps env l _ (fun x hx => h.2 x (.inl hx)) s).bindSub ?_ fun a v t ha _ => ?_
    · rintro n ⟨x, hx, ha⟩
      exact hw n ⟨x, by simp [subs, hx], ha⟩
    refine (sim_eval keeps env r _ (fun x hx => h.2 x (.inr hx)) t).bindSub ?_ fun b w u hb hku => ?_
    · rintro n ⟨x, hx, ha⟩
      exact hw n ⟨x, by simp [subs, hx], ha⟩
    exact .read (ha.kept hku h.1) (.read hb (hk _ _ u))
  | .labelAttribute l r, p, h, hw => by
    intro hk
    simp only [operands, Expr.operands]
    exact fun s => hk _ _ s
  | .const _, _, _, _ | .unary _ _, _, _, _ | .column _, _, _, _ | .logical _ _, _, _, _ | .cast _ _, _, _, _ | .call _ _, _, _, _ | .prop _ _ _ _, _, _, _
  | .vertex, _, _, _ | .edge, _, _, _ | .uuid _, _, _, _ | .var _ _, _, _, _ | .versionedVar _ _, _, _, _ | .coll _ _, _, _, _ | .map _, _, _, _
  | .label _, _, _, _ | .case _ _ _ _, _, _, _ | .predicate _ _ _ _ _, _, _, _ | .listComp _ _ _ _ _, _, _, _ | .reduce _ _ _ _ _ _, _, _, _
  | .text _ _, _, _, _ | .aggregate _ _ _, _, _, _ | .range _ _ _, _, _, _ => by
    intro hk; simp only [operands, Expr.operands]; exact .fail
end

/-! ## C144 -/

/-- An expression in which no variable is assigned between the evaluation of an operand that refers to it and the use of that operand gives, with references, what
it gives when every operand is copied at once, and leaves the same variables behind, whatever the context does to references. Partial: other
expressions need not, see the theorems below. -/
theorem C144_same_partial (keeps : Bool) (env : Env) (e : Expr) (p : List Nat) (s : RState) (h : ∀ x ∈ subs e, Tidy x) :
    (use keeps (eval keeps env e p) s).map (fun x => (x.1, x.2.st)) = e.eval env p s.st := by
  have := (sim_eval keeps env e p h).use (keeps := keeps) s
  generalize use keeps (eval keeps env e p) s = x at this ⊢
  generalize e.eval env p s.st = y at this ⊢
  cases this with
  | none => rfl
  | some hq _ => cases hq; rfl

/-- The same of every expression that assigns no variable. -/
theorem C144_readonly (keeps : Bool) (env : Env) (e : Expr) (p : List Nat) (s : RState) (h : ∀ n, ∀ x ∈ subs e, ¬Assigns n x) :
    (use keeps (eval keeps env e p) s).map (fun x => (x.1, x.2.st)) = e.eval env p s.st := by
  refine C144_same_partial keeps env e p s fun x hx => ?_
  have hsub : ∀ y ∈ subs x, y ∈ subs e := fun y hy => subs_trans e hx hy
  have hw : ∀ n y, (∀ z ∈ subs y, z ∈ subs x) → ¬Writes n y := fun n y hy ⟨z, hz, ha⟩ => h n z (hsub z (hy z hz)) ha
  have hwo : ∀ n y, (∀ z ∈ subsO y, z ∈ subs x) → ¬WritesO n y := fun n y hy ⟨z, hz, ha⟩ => h n z (hsub z (hy z hz)) ha
  have hx' := fun n => h n x hx
  cases x with
  | binary o l r => exact fun n _ => hw n r fun z hz => by simp [subs, hz]
  | call f es =>
    refine List.Pairwise.imp_of_mem (R := fun _ _ => True) (fun {a b} _ hb _ n _ => hw n b fun z hz => ?_) (List.pairwise_of_forall fun _ _ => trivial)
    simp only [subs, List.mem_cons]
    exact .inr (mem_subsL hb hz)
  | range l lo hi => exact fun n _ => ⟨hwo n lo fun z hz => by simp [subs, hz], hwo n hi fun z hz => by simp [subs, hz]⟩
  | predicate name i c f o => exact absurd (Assigns.predicate name c f o) (hx' i)
  | listComp i c f m o => exact absurd (Assigns.listComp c f m o) (hx' i)
  | reduce a i v c m o => exact absurd (Assigns.accumulator i v c m o) (hx' a)
  | _ => trivial

/-- What a caller has got stays readable and the same while variables are assigned to which the expression does not refer. -/
theorem C144_result_partial (keeps : Bool) (env : Env) (e : Expr) (p : List Nat) (s t : RState) (r : Ref) (h : ∀ x ∈ subs e, Tidy x) (he : eval keeps env e p s = some (r, t))
    (n : Bytes) (w : Value) (hn : ¬Points n e) : ∃ v, e.eval env p s.st = some (v, t.st) ∧ get keeps r t = some v ∧ get keeps r (t.setVar n w) = some v := by
  have := sim_eval keeps env e p h s
  rw [he] at this
  generalize hy : e.eval env p s.st = y at this
  cases this with
  | @some _ v _ hq hk =>
    refine ⟨v, rfl, hq.1 keeps, ?_⟩
    refine (hq.kept (t := t.setVar n w) (W := fun m => m = n) (fun m hm => ?_) fun m hm hmn => hn (hmn ▸ hm)).1 keeps
    simp [RState.setVar, EState.setVar, hm]

/-- `[n IN $l | n + 1]`: the condition is met. -/
example : ∀ x ∈ subs (.listComp (ascii "n") (.var (ascii "l") false) none (some (.binary .add (.var (ascii "n") true) (.const (.int 1)))) []), Tidy x := by
  have hne : ascii "l" ≠ ascii "n" := by decide +kernel
  intro x hx
  simp only [subs, subsO, List.append_nil, List.nil_append, List.mem_cons, List.mem_append, List.not_mem_nil, or_false] at hx
  rcases hx with rfl | rfl | rfl | rfl | rfl
  · refine .inr fun n hn => ?_
    cases hn
    refine ⟨hne, fun ⟨x, hx, _⟩ => by simp [subsO] at hx, fun ⟨x, hx, ha⟩ => ?_⟩
    simp only [subs, subsO, List.mem_cons, List.mem_append, List.not_mem_nil, or_false] at hx
    rcases hx with rfl | rfl | rfl <;> cases ha
  · trivial
  · intro n _ hw
    obtain ⟨x, hx, ha⟩ := hw
    simp only [subs, List.mem_cons, List.not_mem_nil, or_false] at hx
    subst hx; cases ha
  · trivial
  · trivial

/-- `$x - ++$x`. -/
def decrement : Expr := .binary .minus (.var (ascii "x") false) (.unary .incr (.var (ascii "x") false))

/-- The code violates the property: of `$x - ++$x` the left operand changes while the right one is evaluated. With a context that assigns in place the difference is 0
and not -1; with one that replaces the variable, as that of the tests does, the memory has been freed. -/
theorem C144_operand_violated (env : Env) (s : RState) (h : s.st.vars (ascii "x") = .int 5) :
    (decrement.eval env [] s.st).map Prod.fst = some (.int (-1)) ∧ value true env decrement [] s = some (.int 0) ∧ value false env decrement [] s = none := by
  have ha : Value.add env.lib.fmt (.int 5) (.int 1) = some (.int 6) := rfl
  have hb : Value.sub (.int 5) (.int 6) = some (.int (-1)) := rfl
  have hc : Value.sub (.int 6) (.int 6) = some (.int 0) := rfl
  refine ⟨?_, ?_, ?_⟩
  · simp [decrement, Expr.eval, Eval.bind, Eval.getVar, Eval.unOp, Expr.varName, Eval.lift, Eval.setVar, Eval.pure, Eval.binOp, h, ha, hb, hc, EState.setVar]
  · simp [value, use, decrement, eval, Eval.bind, unOp, Expr.varName, Eval.lift, setVar, Eval.pure, binOp, read, get, quiet, byRef, Eval.binOp, h, ha, hb, hc, RState.setVar, EState.setVar]
  · simp [value, use, decrement, eval, Eval.bind, unOp, Expr.varName, Eval.lift, setVar, Eval.pure, binOp, read, get, h, ha, RState.setVar, EState.setVar]

/-- Nor does it hold of the arguments of a function: `f($x, ++$x)` gets the new value twice, or a freed one. -/
theorem C144_argument_violated (env : Env) (s : RState) (f : Bytes) (g : List Value → Option Value) (hf : env.fn f 2 = some g) (h : s.st.vars (ascii "x") = .int 5) :
    ((Expr.call f [.var (ascii "x") false, .unary .incr (.var (ascii "x") false)]).eval env [] s.st).map Prod.fst = g [.int 5, .int 6] ∧
    value true env (.call f [.var (ascii "x") false, .unary .incr (.var (ascii "x") false)]) [] s = g [.int 6, .int 6] ∧
    value false env (.call f [.var (ascii "x") false, .unary .incr (.var (ascii "x") false)]) [] s = none := by
  have ha : Value.add env.lib.fmt (.int 5) (.int 1) = some (.int 6) := rfl
  refine ⟨?_, ?_, ?_⟩
  · simp [Expr.eval, Expr.evals, Eval.all, Eval.bind, Eval.getVar, Eval.unOp, Expr.varName, Eval.lift, Eval.setVar, Eval.pure, h, hf, ha, EState.setVar]
    cases g [.int 5, .int 6] <;> rfl
  · simp [value, use, eval, evals, refs, reads, own, Eval.bind, unOp, Expr.varName, Eval.lift, setVar, Eval.pure, read, get, h, hf, ha, RState.setVar, EState.setVar]
    cases g [.int 6, .int 6] <;> rfl
  · simp [value, use, eval, evals, refs, reads, own, Eval.bind, unOp, Expr.varName, Eval.lift, setVar, Eval.pure, read, get, h, ha, RState.setVar, EState.setVar]

/-- Nor of a collection that is the inner variable itself: for `[n IN $n | n]` the list is freed by the first item, whatever the context does. -/
theorem C144_collection_violated (keeps : Bool) (env : Env) (s : RState) (n o : Bytes) (i j : Bool) (x : Value) (xs : List Value) (h : s.st.vars n = .list (x :: xs)) :
    value keeps env (.listComp n (.var n i) none (some (.var n j)) o) [] s = none := by
  have hk : s.ver n + 1 ≠ s.ver n := by omega
  cases xs <;>
    simp [value, use, own, eval, evalO, listComp, onList, compLoop, compFilter, compItem, Eval.bind, setVar, Eval.pure, read, get, inside, h, RState.setVar, EState.setVar]

/-- Nor of the accumulator: `reduce(a = 0, v IN $a | e)` iterates over a freed list. -/
theorem C144_accumulator_violated (keeps : Bool) (env : Env) (s : RState) (a v o : Bytes) (m : Expr) (b : Bool) (w : Value) (xs : List Value)
    (h : s.st.vars a = .list xs) : value keeps env (.reduce a (.const w) v (.var a b) m o) [] s = none := by
  cases xs <;>
    simp [value, use, own, eval, reduce, onList, reduceLoop, Eval.bind, setVar, Eval.pure, read, get, inside, h, RState.setVar, EState.setVar]

end Refs
end Nebula
