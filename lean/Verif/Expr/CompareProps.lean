import Verif.Expr.Compare
import Verif.Expr.CompareSpec
import Verif.Expr.Eval
import Verif.Expr.FrameSpec
import Verif.Value.EqFloatProps
/-!
# Properties of comparing and copying expressions (C94, C95)
-/
namespace Nebula
namespace Expr
open Value Spec

/-! ## Helpers -/

theorem kind_of_head {R : Value → Value → Prop} {D : Bool → Bool → Prop} {e f : Expr} (h : SameHead R D e f) :
    e.kind = f.kind := by
  cases e <;> cases f <;> simp only [SameHead] at h <;> simp_all [kind]

theorem kind_of_eq {same : Bool} {e f : Expr} (h : e.kind ≠ f.kind) : eqE same e f = some false := by
  cases e <;> cases f <;> simp_all [kind, eqE]

/-- What is to be shown of two expressions. -/
def Meant (R : Value → Value → Prop) (D : Bool → Bool → Prop) (e f : Expr) : Prop :=
  ∃ b : Bool, eqE false e f = some b ∧ (b = true ↔ Alike R D e f)

theorem andB_some (a b : Bool) : andB (some a) (some b) = some (a && b) := by cases a <;> rfl

/-- All aligned elements are alike. -/
def AlikeL (R : Value → Value → Prop) (D : Bool → Bool → Prop) (as bs : List Expr) : Prop :=
  ∀ (i : Nat) (x y : Expr), as[i]? = some x → bs[i]? = some y → Alike R D x y

theorem alikeL_nil {R : Value → Value → Prop} {D : Bool → Bool → Prop} : AlikeL R D [] [] := by
  intro i x y h; simp at h

theorem alikeL_cons {R : Value → Value → Prop} {D : Bool → Bool → Prop} {a b : Expr} {as bs : List Expr} :
    AlikeL R D (a :: as) (b :: bs) ↔ Alike R D a b ∧ AlikeL R D as bs := by
  constructor
  · intro h
    refine ⟨h 0 a b rfl rfl, fun i x y hx hy => h (i + 1) x y (by simpa using hx) (by simpa using hy)⟩
  · rintro ⟨h1, h2⟩ i x y hx hy
    cases i with
    | zero => simp at hx hy; subst hx; subst hy; exact h1
    | succ i => exact h2 i x y (by simpa using hx) (by simpa using hy)

theorem alike_iff {R : Value → Value → Prop} {D : Bool → Bool → Prop} {e f : Expr} :
    Alike R D e f ↔ SameHead R D e f ∧ AlikeL R D e.children f.children :=
  ⟨fun h => by cases h with | mk h1 h2 => exact ⟨h1, h2⟩, fun h => .mk h.1 h.2⟩

theorem meant_of {R : Value → Value → Prop} {D : Bool → Bool → Prop} {e f : Expr} {b : Bool}
    (h1 : eqE false e f = some b) (h2 : b = true ↔ (SameHead R D e f ∧ AlikeL R D e.children f.children)) :
    Meant R D e f := ⟨b, h1, h2.trans alike_iff.symm⟩

/-- The value of the loop over operands. -/
theorem eqL_meant {R : Value → Value → Prop} {D : Bool → Bool → Prop} : ∀ (as bs : List Expr), as.length = bs.length →
    (∀ a ∈ as, ∀ b ∈ bs, Meant R D a b) → ∃ b : Bool, eqL false as bs = some b ∧ (b = true ↔ AlikeL R D as bs)
  | [], [], _, _ => ⟨true, by simp [eqL], by simp [alikeL_nil]⟩
  | a :: as, b :: bs, hl, h => by
    obtain ⟨x, hx1, hx2⟩ := h a (by simp) b (by simp)
    obtain ⟨y, hy1, hy2⟩ := eqL_meant as bs (by simpa using hl) fun a ha b hb =>
      h a (by simp [ha]) b (by simp [hb])
    refine ⟨x && y, by rw [eqL, hx1, hy1, andB_some], ?_⟩
    rw [alikeL_cons, ← hx2, ← hy2, Bool.and_eq_true]

theorem eqKvs_meant {R : Value → Value → Prop} {D : Bool → Bool → Prop} : ∀ (as bs : List (Bytes × Expr)),
    as.length = bs.length → (∀ a ∈ as, ∀ b ∈ bs, Meant R D a.2 b.2) →
    ∃ b : Bool, eqKvs false as bs = some b ∧
      (b = true ↔ as.map Prod.fst = bs.map Prod.fst ∧ AlikeL R D (as.map Prod.snd) (bs.map Prod.snd))
  | [], [], _, _ => ⟨true, by simp [eqKvs], by simp [alikeL_nil]⟩
  | (k, a) :: as, (l, b) :: bs, hl, h => by
    by_cases hk : k = l
    · obtain ⟨x, hx1, hx2⟩ := h (k, a) (by simp) (l, b) (by simp)
      obtain ⟨y, hy1, hy2⟩ := eqKvs_meant as bs (by simpa using hl) fun a ha b hb =>
        h a (by simp [ha]) b (by simp [hb])
      refine ⟨x && y, by rw [eqKvs]; simp [hk, hx1, hy1, andB_some], ?_⟩
      simp only [List.map_cons, alikeL_cons, ← hx2, Bool.and_eq_true, hy2, List.cons.injEq, hk, true_and]
      constructor
      · rintro ⟨a, b, c⟩; exact ⟨b, a, c⟩
      · rintro ⟨b, a, c⟩; exact ⟨a, b, c⟩
    · exact ⟨false, by rw [eqKvs]; simp [hk], by simp [hk]⟩

theorem eqCases_meant {R : Value → Value → Prop} {D : Bool → Bool → Prop} : ∀ (as bs : List (Expr × Expr)),
    as.length = bs.length → (∀ a ∈ as, ∀ b ∈ bs, Meant R D a.1 b.1 ∧ Meant R D a.2 b.2) →
    ∃ b : Bool, eqCases false as bs = some b ∧
      (b = true ↔ AlikeL R D (as.flatMap fun x => [x.1, x.2]) (bs.flatMap fun x => [x.1, x.2]))
  | [], [], _, _ => ⟨true, by simp [eqCases], by simp [alikeL_nil]⟩
  | (w, t) :: as, (x, u) :: bs, hl, h => by
    obtain ⟨⟨b1, h1, h1'⟩, ⟨b2, h2, h2'⟩⟩ := h (w, t) (by simp) (x, u) (by simp)
    obtain ⟨b3, h3, h3'⟩ := eqCases_meant as bs (by simpa using hl) fun a ha b hb =>
      h a (by simp [ha]) b (by simp [hb])
    refine ⟨b1 && (b2 && b3), by rw [eqCases, h1, h2, h3, andB_some, andB_some], ?_⟩
    simp only [List.flatMap_cons, List.cons_append, List.nil_append, alikeL_cons, Bool.and_eq_true, h1', h2', h3']

/-- The operands that may be missing. -/
theorem eqOpt_meant {R : Value → Value → Prop} {D : Bool → Bool → Prop} (a b : Option Expr)
    (h : ∀ x ∈ a.toList, ∀ y ∈ b.toList, Meant R D x y) :
    ∃ z : Bool, eqOpt false a b = some z ∧ (z = true ↔ a.isSome = b.isSome ∧ AlikeL R D a.toList b.toList) := by
  cases a with
  | none => cases b with
    | none => exact ⟨true, by simp [eqOpt], by simp [alikeL_nil]⟩
    | some b => exact ⟨false, by simp [eqOpt], by simp⟩
  | some a => cases b with
    | none => exact ⟨false, by simp [eqOpt], by simp⟩
    | some b =>
      obtain ⟨z, h1, h2⟩ := h a (by simp) b (by simp)
      exact ⟨z, by rw [eqOpt, h1], by simp [alikeL_cons, alikeL_nil, h2]⟩

theorem eqPtr_eq (a b : Option Expr) : eqPtr false a b = eqOpt false a b := by
  cases a <;> cases b <;> simp [eqPtr, eqOpt]

theorem eqDeref_eq {a b : Option Expr} (ha : a ≠ none) (hb : b ≠ none) : eqDeref false a b = eqOpt false a b := by
  cases a <;> cases b <;> simp_all [eqDeref, eqOpt]

/-- The operands of two nodes, one after the other. -/
theorem alikeL_append {R : Value → Value → Prop} {D : Bool → Bool → Prop} : ∀ {as bs cs ds : List Expr},
    as.length = bs.length → (AlikeL R D (as ++ cs) (bs ++ ds) ↔ AlikeL R D as bs ∧ AlikeL R D cs ds)
  | [], [], cs, ds, _ => by simp [alikeL_nil]
  | a :: as, b :: bs, cs, ds, h => by
    simp only [List.cons_append, alikeL_cons, alikeL_append (as := as) (bs := bs) (cs := cs) (ds := ds) (by simpa using h),
      and_assoc]

theorem length_toList {a b : Option Expr} (h : a.isSome = b.isSome) : a.toList.length = b.toList.length := by
  cases a <;> cases b <;> simp_all

theorem meant (R : Value → Value → Prop) (D : Bool → Bool → Prop) (hR : ∀ v w, Value.beq v w = true ↔ R v w)
    (hD : ∀ a b, D a b) (e : Expr) : ∀ f : Expr, All WholeHere e → All WholeHere f → All NoTextHere e →
    Meant R D e f := by
  induction e using children_induction with
  | h e ih =>
    intro f he hf ht
    have ih' : ∀ x ∈ e.children, ∀ y ∈ f.children, Meant R D x y := fun x hx y hy =>
      ih x hx y (he.kids x hx) (hf.kids y hy) (ht.kids x hx)
    have he' := he.here
    have hf' := hf.here
    have ht' := ht.here
    by_cases hk : e.kind = f.kind
    swap
    · exact ⟨false, kind_of_eq hk, by simp only [Bool.false_eq_true, false_iff]; exact fun h => hk (kind_of_head (alike_iff.1 h).1)⟩
    clear ih he hf ht
    cases e with
    | const v => cases f with
      | const w => exact meant_of (b := Value.beq v w) (by simp [eqE]) (by simp [SameHead, children, alikeL_nil, hR])
      | _ => simp [kind] at hk
    | unary o a => cases f with
      | unary o' b =>
        simp only [kind, Kind.un.injEq] at hk
        obtain ⟨z, h1, h2⟩ := ih' a (by simp [children]) b (by simp [children])
        exact meant_of (b := z) (by simp [eqE, hk, h1]) (by simp [SameHead, children, alikeL_cons, alikeL_nil, hk, h2])
      | _ => simp [kind] at hk
    | binary o l r => cases f with
      | binary o' l' r' =>
        simp only [kind, Kind.bin.injEq] at hk
        obtain ⟨y, h1, h2⟩ := ih' l (by simp [children]) l' (by simp [children])
        obtain ⟨z, h3, h4⟩ := ih' r (by simp [children]) r' (by simp [children])
        exact meant_of (b := y && z) (by simp [eqE, hk, h1, h3, andB_some])
          (by simp [SameHead, children, alikeL_cons, alikeL_nil, hk, h2, h4])
      | _ => simp [kind] at hk
    | labelAttribute l r => cases f with
      | labelAttribute l' r' =>
        exact meant_of (b := l == l' && Value.beq r r') (by simp [eqE]) (by simp [SameHead, children, alikeL_nil, hR])
      | _ => simp [kind] at hk
    | column i => cases f with
      | column j => exact meant_of (b := i == j) (by simp [eqE]) (by simp [SameHead, children, alikeL_nil])
      | _ => simp [kind] at hk
    | logical o es => cases f with
      | logical o' es' =>
        simp only [kind, Kind.logical.injEq] at hk
        by_cases hl : es.length = es'.length
        · obtain ⟨z, h1, h2⟩ := eqL_meant es es' hl ih'
          exact meant_of (b := z) (by simp [eqE, hk, hl, h1]) (by simp [SameHead, children, hk, hl, h2])
        · exact meant_of (b := false) (by simp [eqE, hl]) (by simp [SameHead, hl])
      | _ => simp [kind] at hk
    | cast t a => cases f with
      | cast t' b =>
        obtain ⟨z, h1, h2⟩ := ih' a (by simp [children]) b (by simp [children])
        by_cases h : t = t'
        · exact meant_of (b := z) (by simp [eqE, h, h1]) (by simp [SameHead, children, alikeL_cons, alikeL_nil, h, h2])
        · exact meant_of (b := false) (by simp [eqE, h]) (by simp [SameHead, h])
      | _ => simp [kind] at hk
    | call n es => cases f with
      | call n' es' =>
        by_cases hn : n = n'
        · by_cases hl : es.length = es'.length
          · obtain ⟨z, h1, h2⟩ := eqL_meant es es' hl ih'
            exact meant_of (b := z) (by simp [eqE, hn, hl, h1]) (by simp [SameHead, children, hn, hl, h2])
          · exact meant_of (b := false) (by simp [eqE, hl]) (by simp [SameHead, hl])
        · exact meant_of (b := false) (by simp [eqE, hn]) (by simp [SameHead, hn])
      | _ => simp [kind] at hk
    | prop k r s p => cases f with
      | prop k' r' s' p' =>
        simp only [kind, Kind.prop.injEq] at hk
        exact meant_of (b := r == r' && s == s' && p == p') (by simp [eqE, hk])
          (by simp [SameHead, children, alikeL_nil, hk, and_assoc])
      | _ => simp [kind] at hk
    | vertex => cases f with
      | vertex => exact meant_of (b := true) (by simp [eqE]) (by simp [SameHead, children, alikeL_nil])
      | _ => simp [kind] at hk
    | edge => cases f with
      | edge => exact meant_of (b := true) (by simp [eqE]) (by simp [SameHead, children, alikeL_nil])
      | _ => simp [kind] at hk
    | uuid a => cases f with
      | uuid b => exact meant_of (b := a == b) (by simp [eqE]) (by simp [SameHead, children, alikeL_nil])
      | _ => simp [kind] at hk
    | var n i => cases f with
      | var m j => exact meant_of (b := n == m) (by simp [eqE]) (by simp [SameHead, children, alikeL_nil])
      | _ => simp [kind] at hk
    | versionedVar n v => cases f with
      | versionedVar m w =>
        obtain ⟨z, h1, h2⟩ := eqOpt_meant v w ih'
        by_cases h : n = m
        · exact meant_of (b := z) (by simp only [eqE, h, if_true]; rw [eqDeref_eq he' hf', h1])
            (by simp [SameHead, children, h, h2])
        · exact meant_of (b := false) (by simp [eqE, h]) (by simp [SameHead, h])
      | _ => simp [kind] at hk
    | coll k es => cases f with
      | coll k' es' =>
        simp only [kind, Kind.coll.injEq] at hk
        by_cases hl : es.length = es'.length
        · obtain ⟨z, h1, h2⟩ := eqL_meant es es' hl ih'
          exact meant_of (b := z) (by simp [eqE, hk, hl, h1]) (by simp [SameHead, children, hk, hl, h2])
        · exact meant_of (b := false) (by simp [eqE, hl]) (by simp [SameHead, hl])
      | _ => simp [kind] at hk
    | map kvs => cases f with
      | map kvs' =>
        by_cases hl : kvs.length = kvs'.length
        · obtain ⟨z, h1, h2⟩ := eqKvs_meant kvs kvs' hl fun a ha b hb =>
            ih' a.2 (List.mem_map.2 ⟨a, ha, rfl⟩) b.2 (List.mem_map.2 ⟨b, hb, rfl⟩)
          exact meant_of (b := z) (by simp [eqE, hl, h1]) (by simp [SameHead, children, h2])
        · exact meant_of (b := false) (by simp [eqE, hl]) (by
            simp only [SameHead, Bool.false_eq_true, false_iff]
            exact fun h => hl (by simpa using congrArg List.length h.1))
      | _ => simp [kind] at hk
    | label a => cases f with
      | label b => exact meant_of (b := a == b) (by simp [eqE]) (by simp [SameHead, children, alikeL_nil])
      | _ => simp [kind] at hk
    | case g c d cs => cases f with
      | case g' c' d' cs' =>
        by_cases hg : g = g'
        swap
        · exact meant_of (b := false) (by simp [eqE, hg]) (by simp [SameHead, hg])
        obtain ⟨x, h1, h2⟩ := eqOpt_meant c c' fun a ha b hb => ih' a (by simp [children, ha]) b (by simp [children, hb])
        obtain ⟨y, h3, h4⟩ := eqOpt_meant d d' fun a ha b hb => ih' a (by simp [children, ha]) b (by simp [children, hb])
        by_cases hl : cs.length = cs'.length
        · obtain ⟨z, h5, h6⟩ := eqCases_meant cs cs' hl fun a ha b hb =>
            ⟨ih' a.1 (by simp only [children, List.mem_append, List.mem_flatMap]; exact .inr ⟨a, ha, by simp⟩)
               b.1 (by simp only [children, List.mem_append, List.mem_flatMap]; exact .inr ⟨b, hb, by simp⟩),
             ih' a.2 (by simp only [children, List.mem_append, List.mem_flatMap]; exact .inr ⟨a, ha, by simp⟩)
               b.2 (by simp only [children, List.mem_append, List.mem_flatMap]; exact .inr ⟨b, hb, by simp⟩)⟩
          refine meant_of (b := x && (y && z)) (by simp [eqE, hg, hl, h1, h3, h5, andB_some]) ?_
          simp only [SameHead, children, Bool.and_eq_true, h2, h4, h6, hg, hl, true_and, and_true]
          constructor
          · rintro ⟨⟨a1, a2⟩, ⟨b1, b2⟩, c1⟩
            refine ⟨⟨a1, b1⟩, ?_⟩
            rw [alikeL_append (by simp [length_toList a1, length_toList b1]), alikeL_append (length_toList a1)]
            exact ⟨⟨a2, b2⟩, c1⟩
          · rintro ⟨⟨a1, b1⟩, h⟩
            rw [alikeL_append (by simp [length_toList a1, length_toList b1]), alikeL_append (length_toList a1)] at h
            exact ⟨⟨a1, h.1.1⟩, ⟨b1, h.1.2⟩, h.2⟩
        · refine meant_of (b := x && (y && false)) (by simp [eqE, hg, hl, h1, h3]; cases x <;> cases y <;> rfl) (by simp [SameHead, hl])
      | _ => simp [kind] at hk
    | predicate n i c fl o => cases f with
      | predicate n' i' c' fl' o' =>
        by_cases hn : n = n'
        swap
        · exact meant_of (b := false) (by simp [eqE, hn]) (by simp [SameHead, hn])
        by_cases hi : i = i'
        swap
        · refine meant_of (b := false) ?_ (by simp [SameHead, hi])
          have : ¬(i.isEmpty = true ∧ i'.isEmpty = true) := fun h => hi (by
            rw [List.isEmpty_iff.1 h.1, List.isEmpty_iff.1 h.2])
          cases h1 : i.isEmpty <;> cases h2 : i'.isEmpty <;> simp_all [eqE]
        obtain ⟨x, h1, h2⟩ := ih' c (by simp [children]) c' (by simp [children])
        obtain ⟨y, h3, h4⟩ := eqOpt_meant fl fl' fun a ha b hb => ih' a (by simp [children] at ha ⊢; simp [ha]) b (by simp [children] at hb ⊢; simp [hb])
        refine meant_of (b := x && y) (by subst hn; subst hi; simp [eqE, h1, h3, andB_some]) ?_
        simp only [SameHead, children, Bool.and_eq_true, h2, h4, hn, hi, alikeL_cons, true_and]
        constructor
        · rintro ⟨a, b, c⟩; exact ⟨b, a, c⟩
        · rintro ⟨b, a, c⟩; exact ⟨a, b, c⟩
      | _ => simp [kind] at hk
    | listComp i c fl m o => cases f with
      | listComp i' c' fl' m' o' =>
        by_cases hi : i = i'
        swap
        · exact meant_of (b := false) (by simp [eqE, hi]) (by simp [SameHead, hi])
        obtain ⟨x, h1, h2⟩ := ih' c (by simp [children]) c' (by simp [children])
        obtain ⟨y, h3, h4⟩ := eqOpt_meant fl fl' fun a ha b hb => ih' a (by simp [children] at ha ⊢; simp [ha]) b (by simp [children] at hb ⊢; simp [hb])
        obtain ⟨z, h5, h6⟩ := eqOpt_meant m m' fun a ha b hb => ih' a (by simp [children] at ha ⊢; simp [ha]) b (by simp [children] at hb ⊢; simp [hb])
        refine meant_of (b := x && (y && z)) (by subst hi; simp [eqE, h1, h3, h5, andB_some]) ?_
        simp only [SameHead, children, Bool.and_eq_true, h2, h4, h6, hi, alikeL_cons, true_and]
        constructor
        · rintro ⟨a, ⟨b, c⟩, d, e⟩
          exact ⟨⟨b, d⟩, a, (alikeL_append (length_toList b)).2 ⟨c, e⟩⟩
        · rintro ⟨⟨b, d⟩, a, h⟩
          rw [alikeL_append (length_toList b)] at h
          exact ⟨a, ⟨b, h.1⟩, d, h.2⟩
      | _ => simp [kind] at hk
    | reduce a i v c m o => cases f with
      | reduce a' i' v' c' m' o' =>
        obtain ⟨x, h1, h2⟩ := ih' i (by simp [children]) i' (by simp [children])
        obtain ⟨y, h3, h4⟩ := ih' c (by simp [children]) c' (by simp [children])
        obtain ⟨z, h5, h6⟩ := ih' m (by simp [children]) m' (by simp [children])
        by_cases ha : a = a'
        swap
        · exact meant_of (b := false) (by simp [eqE, ha]) (by simp [SameHead, ha])
        by_cases hv : v = v'
        · exact meant_of (b := x && (y && z)) (by subst ha; subst hv; simp [eqE, h1, h3, h5, andB_some])
            (by simp [SameHead, children, alikeL_cons, alikeL_nil, ha, hv, h2, h4, h6])
        · exact meant_of (b := x && false) (by subst ha; simp [eqE, h1, hv, andB_some]) (by simp [SameHead, hv])
      | _ => simp [kind] at hk
    | text k a => exact ht'.elim
    | aggregate n d a => cases f with
      | aggregate n' d' b =>
        obtain ⟨z, h1, h2⟩ := eqOpt_meant a b ih'
        by_cases h : n = n'
        · exact meant_of (b := z) (by simp only [eqE, h, if_true]; rw [eqDeref_eq he' hf', h1])
            (by simp [SameHead, children, h, h2, hD])
        · exact meant_of (b := false) (by simp [eqE, h]) (by simp [SameHead, h])
      | _ => simp [kind] at hk
    | range l lo hi => cases f with
      | range l' lo' hi' =>
        obtain ⟨x, h1, h2⟩ := ih' l (by simp [children]) l' (by simp [children])
        obtain ⟨y, h3, h4⟩ := eqOpt_meant lo lo' fun a ha b hb => ih' a (by simp [children] at ha ⊢; simp [ha]) b (by simp [children] at hb ⊢; simp [hb])
        obtain ⟨z, h5, h6⟩ := eqOpt_meant hi hi' fun a ha b hb => ih' a (by simp [children] at ha ⊢; simp [ha]) b (by simp [children] at hb ⊢; simp [hb])
        refine meant_of (b := x && (y && z)) (by simp [eqE, eqPtr_eq, h1, h3, h5, andB_some]) ?_
        simp only [SameHead, children, Bool.and_eq_true, h2, h4, h6, alikeL_cons]
        constructor
        · rintro ⟨a, ⟨b, c⟩, d, e⟩
          exact ⟨⟨b, d⟩, a, (alikeL_append (length_toList b)).2 ⟨c, e⟩⟩
        · rintro ⟨⟨b, d⟩, a, h⟩
          rw [alikeL_append (length_toList b)] at h
          exact ⟨a, ⟨b, h.1⟩, d, h.2⟩
      | _ => simp [kind] at hk

/-! ## C94: comparing -/

/-- Equality of the values of constants. -/
abbrev ValueEq (v w : Value) : Prop := Value.beq v w = true

/-- C94 (meaning): for expressions that contain no text search and no null pointer, `==` returns, and
it returns true exactly when the two trees are alike node by node: the same kinds, names, numbers and
operands present, equal constants.  DISTINCT is not compared. -/
theorem C94_meaning (e f : Expr) (he : All WholeHere e) (hf : All WholeHere f) (ht : All NoTextHere e) :
    ∃ b : Bool, eqE false e f = some b ∧ (b = true ↔ Alike ValueEq (fun _ _ => True) e f) :=
  meant ValueEq (fun _ _ => True) (fun _ _ => Iff.rfl) (fun _ _ => trivial) e f he hf ht

theorem all_of {P : Expr → Prop} {e : Expr} (h : P e) (hk : ∀ x ∈ e.children, All P x) : All P e := .mk h hk
theorem all_leaf {P : Expr → Prop} {e : Expr} (h : P e) (hk : e.children = []) : All P e :=
  .mk h (by simp [hk])

/-- The expression `f(x, $n{v}) > 1`, for some constant. -/
def sampleE (v : Value) : Expr :=
  .binary .gt (.call (ascii "f") [.var (ascii "x") true, .versionedVar (ascii "n") (some (.const (.int 0)))]) (.const v)

theorem sampleE_whole (v : Value) : All WholeHere (sampleE v) := by
  refine .mk trivial ?_
  simp only [children, sampleE, List.mem_cons, List.not_mem_nil, or_false, forall_eq_or_imp, forall_eq]
  refine ⟨.mk trivial ?_, all_leaf trivial rfl⟩
  simp only [children, List.mem_cons, List.not_mem_nil, or_false, forall_eq_or_imp, forall_eq]
  refine ⟨all_leaf trivial rfl, .mk (by simp [WholeHere]) ?_⟩
  simp only [children, Option.toList_some, List.mem_cons, List.not_mem_nil, or_false, forall_eq]
  exact all_leaf trivial rfl

theorem sampleE_noText (v : Value) : All NoTextHere (sampleE v) := by
  refine .mk trivial ?_
  simp only [children, sampleE, List.mem_cons, List.not_mem_nil, or_false, forall_eq_or_imp, forall_eq]
  refine ⟨.mk trivial ?_, all_leaf trivial rfl⟩
  simp only [children, List.mem_cons, List.not_mem_nil, or_false, forall_eq_or_imp, forall_eq]
  refine ⟨all_leaf trivial rfl, .mk trivial ?_⟩
  simp only [children, Option.toList_some, List.mem_cons, List.not_mem_nil, or_false, forall_eq]
  exact all_leaf trivial rfl

example : eqE false (sampleE (.int 1)) (sampleE (.int 1)) = some true ∧
    eqE false (sampleE (.int 1)) (sampleE (.int 2)) = some false := by
  constructor <;> simp [sampleE, eqE, eqL, eqDeref, andB, Value.beq]

/-! ### Being alike is an equivalence -/

theorem head_refl {R : Value → Value → Prop} {D : Bool → Bool → Prop} (hD : ∀ a, D a a) {e : Expr}
    (h : ConstHere (fun v => R v v) e) : SameHead R D e e := by
  cases e <;> first | exact ⟨rfl, hD _, rfl⟩ | simp_all [SameHead, ConstHere]

theorem alike_refl {R : Value → Value → Prop} {D : Bool → Bool → Prop} (hD : ∀ a, D a a) (e : Expr) :
    All (ConstHere fun v => R v v) e → Alike R D e e := by
  induction e using children_induction with
  | h e ih =>
    intro h
    refine .mk (head_refl hD h.here) fun i x y hx hy => ?_
    have : x = y := by rw [hx] at hy; exact Option.some.inj hy
    subst this
    exact ih x (List.mem_of_getElem? hx) (h.kids x (List.mem_of_getElem? hx))

theorem alike_symm {R : Value → Value → Prop} {D : Bool → Bool → Prop} {P : Value → Prop}
    (hR : ∀ v w, P v → P w → R v w → R w v) (hD : ∀ a b, D a b → D b a) {e f : Expr} (h : Alike R D e f) :
    All (ConstHere P) e → All (ConstHere P) f → Alike R D f e := by
  induction h with
  | @mk e f head kids ih =>
    intro he hf
    refine .mk ?_ fun i x y hx hy => ih i y x hy hx (he.kids y (List.mem_of_getElem? hy)) (hf.kids x (List.mem_of_getElem? hx))
    have he' := he.here
    have hf' := hf.here
    cases e <;> cases f <;> simp only [SameHead] at head ⊢ <;>
      first | exact ⟨head.1.symm, hD _ _ head.2.1, head.2.2.symm⟩ | simp_all [ConstHere]

/-- Alike nodes have equally many operands. -/
theorem head_length {R : Value → Value → Prop} {D : Bool → Bool → Prop} {e f : Expr} (h : SameHead R D e f) :
    e.children.length = f.children.length := by
  have key : ∀ {a b : Option Expr}, a.isSome = b.isSome → a.toList.length = b.toList.length := fun h => length_toList h
  cases e <;> cases f <;> simp only [SameHead] at h <;> simp only [children, List.length_cons, List.length_append,
    List.length_nil, List.length_map, List.length_flatMap]
  case logical => exact h.2
  case call => exact h.2
  case coll => exact h.2
  case versionedVar => exact key h.2
  case map => simpa using congrArg List.length h
  case case => 
    have sum : ∀ l : List (Expr × Expr), (l.map fun a => 0 + 1 + 1).sum = 2 * l.length := by
      intro l; induction l with
      | nil => rfl
      | cons a l ih => simp only [List.map_cons, List.sum_cons, List.length_cons, ih]; omega
    rw [sum, sum, key h.2.1, key h.2.2.1, h.2.2.2]
  case predicate => rw [key h.2.2]
  case listComp => rw [key h.2.1, key h.2.2]
  case aggregate => exact key h.2.2
  case range => rw [key h.1, key h.2]

theorem alike_trans {R : Value → Value → Prop} {D : Bool → Bool → Prop} {P : Value → Prop}
    (hR : ∀ u v w, P u → P v → P w → R u v → R v w → R u w) (hD : ∀ a b c, D a b → D b c → D a c)
    {e f : Expr} (h : Alike R D e f) : ∀ g : Expr, Alike R D f g →
    All (ConstHere P) e → All (ConstHere P) f → All (ConstHere P) g → Alike R D e g := by
  induction h with
  | @mk e f head kids ih =>
    intro g hg he hf hg'
    obtain ⟨head2, kids2⟩ := alike_iff.1 hg
    refine .mk ?_ fun i x z hx hz => ?_
    · have he' := he.here
      have hf' := hf.here
      have hg'' := hg'.here
      cases e <;> cases f <;> simp only [SameHead] at head <;> cases g <;> simp only [SameHead] at head2 ⊢ <;>
        first | exact ⟨head.1.trans head2.1, hD _ _ _ head.2.1 head2.2.1, head.2.2.trans head2.2.2⟩ | simp_all [ConstHere]
      case const.const.const => exact hR _ _ _ he' hf' hg'' head head2
      case labelAttribute.labelAttribute.labelAttribute => exact hR _ _ _ he' hf' hg'' head.2 head2.2
    · have hi : i < f.children.length := by
        rw [← head_length head]
        exact (List.getElem?_eq_some_iff.1 hx).1
      have hy : f.children[i]? = some f.children[i] := List.getElem?_eq_getElem hi
      exact ih i x _ hx hy z (kids2 i _ z hy hz) (he.kids x (List.mem_of_getElem? hx)) (hf.kids _ (List.mem_of_getElem? hy))
        (hg'.kids z (List.mem_of_getElem? hz))

/-- The expressions C94 speaks about. -/
structure Comparable (e : Expr) : Prop where
  whole : All WholeHere e
  noText : All NoTextHere e
  consts : All (ConstHere Plain) e

/-- C94 (equivalence): on expressions without text search, null pointers and constants that contain
floats, `==` is reflexive (an expression equals an expression built the same way), symmetric and
transitive. -/
theorem C94_equivalence_partial : EquivalenceOn (fun e f => eqE false e f == some true) Comparable := by
  have key : ∀ e f, Comparable e → Comparable f →
      ((eqE false e f == some true) = true ↔ Alike ValueEq (fun _ _ => True) e f) := by
    intro e f he hf
    obtain ⟨b, h1, h2⟩ := C94_meaning e f he.whole hf.whole he.noText
    rw [h1, ← h2]; cases b <;> simp
  have eqv := C11_equivalence_partial
  constructor
  · intro e he
    exact (key e e he he).2 (alike_refl (fun _ => trivial) e (he.consts.imp fun x hx => by
      cases x <;> simp_all [ConstHere] <;> exact eqv.refl _ hx))
  · intro e f he hf h
    exact (key f e hf he).2 (alike_symm (P := Plain) (fun v w hv hw h => eqv.symm v w hv hw h) (fun _ _ _ => trivial)
      ((key e f he hf).1 h) he.consts hf.consts)
  · intro e f g he hf hg h1 h2
    exact (key e g he hg).2 (alike_trans (P := Plain) (fun u v w hu hv hw h1 h2 => eqv.trans u v w hu hv hw h1 h2)
      (fun _ _ _ _ _ => trivial) ((key e f he hf).1 h1) g ((key f g hf hg).1 h2) he.consts hf.consts hg.consts)

/-- C94 (floats, reflexive): an expression whose constants contain only finite floats equals an expression built
the same way. -/
theorem C94_float_reflexive (e : Expr) (hw : All WholeHere e) (ht : All NoTextHere e) (hc : All (ConstHere Finite) e) :
    eqE false e e = some true := by
  obtain ⟨b, h1, h2⟩ := C94_meaning e e hw hw ht
  rw [h1, h2.2 (alike_refl (fun _ => trivial) e (hc.imp fun x hx => by
    cases x <;> simp_all [ConstHere] <;> exact C11_reflexive _ hx))]

/-- C94 (floats, symmetric): comparing two expressions whose constants contain no sets gives the same answer in
either order, whatever floats they contain. -/
theorem C94_float_symmetric_partial (e f : Expr) (he : All WholeHere e) (hf : All WholeHere f) (ht : All NoTextHere e)
    (ht' : All NoTextHere f) (hc : All (ConstHere Setless) e) (hc' : All (ConstHere Setless) f) :
    eqE false e f = eqE false f e := by
  obtain ⟨b, h1, h2⟩ := C94_meaning e f he hf ht
  obtain ⟨c, h3, h4⟩ := C94_meaning f e hf he ht'
  have hR : ∀ v w, Setless v → Setless w → ValueEq v w → ValueEq w v := fun v w hv hw h => by
    have := C11_symmetric_partial v w hv hw
    unfold ValueEq at *; rw [← this]; exact h
  have e1 : b = true → c = true := fun h => h4.2 (alike_symm (P := Setless) hR (fun _ _ _ => trivial) (h2.1 h) hc hc')
  have e2 : c = true → b = true := fun h => h2.2 (alike_symm (P := Setless) hR (fun _ _ _ => trivial) (h4.1 h) hc' hc)
  rw [h1, h3]
  cases b <;> cases c <;> simp_all

/-- The expression 1.5 + 2 meets the conditions. -/
example : All (ConstHere Finite) (.binary .add (.const (.float (.fin (3/2)))) (.const (.int 2))) ∧
    All (ConstHere Setless) (.binary .add (.const (.float (.fin (3/2)))) (.const (.int 2))) := by
  constructor
  · refine .mk trivial fun x hx => ?_
    simp only [children, List.mem_cons, List.not_mem_nil, or_false] at hx
    rcases hx with rfl | rfl
    · exact .mk (.mk ⟨_, rfl⟩ (by simp [Value.children])) (by simp [children])
    · exact .mk (.mk trivial (by simp [Value.children])) (by simp [children])
  · refine .mk trivial fun x hx => ?_
    simp only [children, List.mem_cons, List.not_mem_nil, or_false] at hx
    rcases hx with rfl | rfl <;> exact .mk (.mk trivial (by simp [Value.children])) (by simp [children])

/-- C94 (itself): an expression compared with itself is equal, whatever it contains, if its constants
equal themselves. -/
theorem C94_itself (e : Expr) : All WholeHere e → All (ConstHere fun v => Value.beq v v = true) e → eqE true e e = some true := by
  have hL : ∀ es : List Expr, (∀ x ∈ es, eqE true x x = some true) → eqL true es es = some true := by
    intro es; induction es with
    | nil => intro _; simp [eqL]
    | cons a as ih => intro h; rw [eqL, h a (by simp), ih fun x hx => h x (by simp [hx])]; rfl
  have hKv : ∀ es : List (Bytes × Expr), (∀ x ∈ es.map Prod.snd, eqE true x x = some true) → eqKvs true es es = some true := by
    intro es; induction es with
    | nil => intro _; simp [eqKvs]
    | cons a as ih =>
      intro h; obtain ⟨k, a⟩ := a
      rw [eqKvs, h a (by simp), ih fun x hx => h x (by simp only [List.map_cons, List.mem_cons]; exact .inr hx)]; simp [andB]
  have hC : ∀ es : List (Expr × Expr), (∀ x ∈ es.flatMap fun x => [x.1, x.2], eqE true x x = some true) →
      eqCases true es es = some true := by
    intro es; induction es with
    | nil => intro _; simp [eqCases]
    | cons a as ih =>
      intro h; obtain ⟨w, t⟩ := a
      rw [eqCases, h w (by simp), h t (by simp), ih fun x hx => h x (by
        simp only [List.flatMap_cons, List.mem_append]; exact .inr hx)]
      simp [andB]
  have hO : ∀ o : Option Expr, (∀ x ∈ o.toList, eqE true x x = some true) → eqOpt true o o = some true := by
    intro o h; cases o with
    | none => simp [eqOpt]
    | some a => rw [eqOpt]; exact h a (by simp)
  have hP : ∀ o : Option Expr, eqPtr true o o = some true := by intro o; cases o <;> simp [eqPtr]
  induction e using children_induction with
  | h e ih =>
    intro hw hc
    have ih' : ∀ x ∈ e.children, eqE true x x = some true := fun x hx => ih x hx (hw.kids x hx) (hc.kids x hx)
    have hw' := hw.here
    have hc' := hc.here
    clear ih hw hc
    cases e with
    | const v => simpa [eqE, ConstHere] using hc'
    | labelAttribute l r => simpa [eqE, ConstHere] using hc'
    | unary o a => simpa [eqE, children] using ih'
    | binary o l r => simp [children] at ih'; simp [eqE, ih', andB]
    | logical o es => simp [eqE, hL es ih']
    | cast t a => simpa [eqE, children] using ih'
    | call n es => simp [eqE, hL es ih']
    | coll k es => simp [eqE, hL es ih']
    | map kvs => simp [eqE, hKv kvs ih']
    | versionedVar n v => cases v with
      | none => exact absurd rfl hw'
      | some v => simpa [eqE, eqDeref, children] using ih'
    | aggregate n d a => cases a with
      | none => exact absurd rfl hw'
      | some v => simpa [eqE, eqDeref, children] using ih'
    | case g c d cs =>
      simp only [children, List.mem_append] at ih'
      simp [eqE, hO c fun x hx => ih' x (.inl (.inl hx)), hO d fun x hx => ih' x (.inl (.inr hx)),
        hC cs fun x hx => ih' x (.inr hx), andB]
    | predicate n i c f o =>
      simp only [children, List.mem_cons] at ih'
      simp [eqE, ih' c (.inl rfl), hO f fun x hx => ih' x (.inr hx), andB]
    | listComp i c f m o =>
      simp only [children, List.mem_cons, List.mem_append] at ih'
      simp [eqE, ih' c (.inl rfl), hO f fun x hx => ih' x (.inr (.inl hx)), hO m fun x hx => ih' x (.inr (.inr hx)), andB]
    | reduce a i v c m o => simp [children] at ih'; simp [eqE, ih', andB]
    | range l lo hi =>
      simp only [children, List.mem_cons, List.mem_append] at ih'
      simp [eqE, ih' l (.inl rfl), hP, andB]
    | text k a => simp [eqE]
    | _ => simp [eqE]

example : eqE true (.text .fuzzy (makeTextArg [1] [2] [3])) (.text .fuzzy (makeTextArg [1] [2] [3])) = some true :=
  C94_itself _ (all_leaf trivial rfl) (all_leaf trivial rfl)

/-- C94 is violated for text searches: two text searches built apart are never equal, even if all
their members are. -/
theorem C94_text_violated (k : TextKind) (a : TextArg) : eqE false (.text k a) (.text k a) = some false := by simp [eqE]

/-- C94 is violated for versioned variables without a version and aggregates without argument: the
comparison follows a null pointer. -/
theorem C94_null_violated (n : Bytes) (d : Bool) : eqE true (.versionedVar n none) (.versionedVar n none) = none ∧
    eqE true (.aggregate n d none) (.aggregate n d none) = none := by simp [eqE, eqDeref]

/-! ### Equal expressions have equal values -/

/-- The constants of the expression, from left to right. -/
def consts (e : Expr) : List Value := (EvalSpec.subs e).filterMap fun x => match x with
  | .const v => some v
  | .labelAttribute _ v => some v
  | _ => none

/-- The DISTINCT flags of the aggregates in the expression, from left to right. -/
def distincts (e : Expr) : List Bool := (EvalSpec.subs e).filterMap fun x => match x with
  | .aggregate _ d _ => some d
  | _ => none

theorem subsL_eq (es : List Expr) : EvalSpec.subsL es = es.flatMap EvalSpec.subs := by
  induction es with
  | nil => rfl
  | cons a as ih => rw [EvalSpec.subsL, ih, List.flatMap_cons]

theorem subsO_eq (o : Option Expr) : EvalSpec.subsO o = o.toList.flatMap EvalSpec.subs := by
  cases o <;> simp [EvalSpec.subsO]

theorem subsKv_eq (es : List (Bytes × Expr)) : EvalSpec.subsKv es = (es.map Prod.snd).flatMap EvalSpec.subs := by
  induction es with
  | nil => rfl
  | cons a as ih => obtain ⟨k, a⟩ := a; rw [EvalSpec.subsKv, ih, List.map_cons, List.flatMap_cons]

theorem subsC_eq (es : List (Expr × Expr)) :
    EvalSpec.subsC es = (es.flatMap fun x => [x.1, x.2]).flatMap EvalSpec.subs := by
  induction es with
  | nil => rfl
  | cons a as ih =>
    obtain ⟨w, t⟩ := a
    rw [EvalSpec.subsC, ih, List.flatMap_cons, List.flatMap_append]; simp

theorem subs_eq (e : Expr) : EvalSpec.subs e = e :: e.children.flatMap EvalSpec.subs := by
  cases e <;> simp [EvalSpec.subs, children, subsL_eq, subsO_eq, subsKv_eq, subsC_eq, List.flatMap_append, List.append_assoc]

/-- The constant of a node. -/
def ownConst : Expr → List Value
  | .const v => [v]
  | .labelAttribute _ v => [v]
  | _ => []
def ownDistinct : Expr → List Bool
  | .aggregate _ d _ => [d]
  | _ => []

theorem consts_eq (e : Expr) : consts e = ownConst e ++ e.children.flatMap consts := by
  rw [consts, subs_eq, List.filterMap_cons, List.filterMap_flatMap]
  cases e <;> rfl

theorem distincts_eq (e : Expr) : distincts e = ownDistinct e ++ e.children.flatMap distincts := by
  rw [distincts, subs_eq, List.filterMap_cons, List.filterMap_flatMap]
  cases e <;> rfl

theorem flatMap_lengths {α : Type} {g : Expr → List α} : ∀ {as bs : List Expr}, as.length = bs.length →
    (∀ (i : Nat) (x y : Expr), as[i]? = some x → bs[i]? = some y → (g x).length = (g y).length) →
    (as.flatMap g).length = (bs.flatMap g).length
  | [], [], _, _ => rfl
  | a :: as, b :: bs, hl, h => by
    rw [List.flatMap_cons, List.flatMap_cons, List.length_append, List.length_append, h 0 a b rfl rfl,
      flatMap_lengths (as := as) (bs := bs) (by simpa using hl) fun i x y hx hy => h (i + 1) x y (by simpa using hx) (by simpa using hy)]

theorem flatMap_aligned {α : Type} {g : Expr → List α} : ∀ {as bs : List Expr}, as.length = bs.length →
    (∀ (i : Nat) (x y : Expr), as[i]? = some x → bs[i]? = some y → (g x).length = (g y).length) →
    as.flatMap g = bs.flatMap g → ∀ (i : Nat) (x y : Expr), as[i]? = some x → bs[i]? = some y → g x = g y
  | [], [], _, _, _, i, x, y, hx, _ => by simp at hx
  | a :: as, b :: bs, hl, h, he, i, x, y, hx, hy => by
    rw [List.flatMap_cons, List.flatMap_cons] at he
    obtain ⟨h1, h2⟩ := List.append_inj he (h 0 a b rfl rfl)
    cases i with
    | zero => simp at hx hy; subst hx; subst hy; exact h1
    | succ i =>
      exact flatMap_aligned (as := as) (bs := bs) (by simpa using hl)
        (fun i x y hx hy => h (i + 1) x y (by simpa using hx) (by simpa using hy)) h2 i x y (by simpa using hx) (by simpa using hy)

theorem alike_lengths {R : Value → Value → Prop} {D : Bool → Bool → Prop} {e f : Expr} (h : Alike R D e f) :
    (consts e).length = (consts f).length ∧ (distincts e).length = (distincts f).length := by
  induction h with
  | @mk e f head kids ih =>
    have h1 : (ownConst e).length = (ownConst f).length := by
      cases e <;> cases f <;> simp only [SameHead] at head <;> rfl
    have h2 : (ownDistinct e).length = (ownDistinct f).length := by
      cases e <;> cases f <;> simp only [SameHead] at head <;> rfl
    rw [consts_eq e, consts_eq f, distincts_eq e, distincts_eq f]
    simp only [List.length_append, h1, h2,
      flatMap_lengths (head_length head) fun i x y hx hy => (ih i x y hx hy).1,
      flatMap_lengths (head_length head) fun i x y hx hy => (ih i x y hx hy).2, and_self]

/-- Alike expressions with the same constants and flags are alike with identical constants. -/
theorem alike_sharpen {R : Value → Value → Prop} {D : Bool → Bool → Prop} {e f : Expr} (h : Alike R D e f) :
    consts e = consts f → distincts e = distincts f → Alike Eq Eq e f := by
  induction h with
  | @mk e f head kids ih =>
    intro hc hd
    have h1 : (ownConst e).length = (ownConst f).length := by
      cases e <;> cases f <;> simp only [SameHead] at head <;> rfl
    have h2 : (ownDistinct e).length = (ownDistinct f).length := by
      cases e <;> cases f <;> simp only [SameHead] at head <;> rfl
    rw [consts_eq e, consts_eq f] at hc
    rw [distincts_eq e, distincts_eq f] at hd
    obtain ⟨hc1, hc2⟩ := List.append_inj hc h1
    obtain ⟨hd1, hd2⟩ := List.append_inj hd h2
    refine .mk ?_ fun i x y hx hy => ih i x y hx hy
      (flatMap_aligned (head_length head) (fun i x y hx hy => (alike_lengths (kids i x y hx hy)).1) hc2 i x y hx hy)
      (flatMap_aligned (head_length head) (fun i x y hx hy => (alike_lengths (kids i x y hx hy)).2) hd2 i x y hx hy)
    cases e <;> cases f <;> simp only [SameHead] at head ⊢ <;> simp_all [ownConst, ownDistinct]

/-- The same computation. -/
def SameEval (env : Env) (e f : Expr) : Prop :=
  (∀ p, eval env e p = eval env f p) ∧ (∀ p, operands env e p = operands env f p) ∧ e.varName = f.varName

theorem evals_same {env : Env} : ∀ (as bs : List Expr), as.length = bs.length →
    (∀ (i : Nat) (x y : Expr), as[i]? = some x → bs[i]? = some y → SameEval env x y) →
    ∀ i p, evals env as i p = evals env bs i p
  | [], [], _, _, _, _ => rfl
  | a :: as, b :: bs, hl, h, i, p => by
    rw [evals, evals, (h 0 a b rfl rfl).1, evals_same as bs (by simpa using hl)
      fun i x y hx hy => h (i + 1) x y (by simpa using hx) (by simpa using hy)]

theorem evalKvs_same {env : Env} : ∀ (as bs : List (Bytes × Expr)), as.map Prod.fst = bs.map Prod.fst →
    (∀ (i : Nat) (x y : Expr), (as.map Prod.snd)[i]? = some x → (bs.map Prod.snd)[i]? = some y → SameEval env x y) →
    ∀ i p, evalKvs env as i p = evalKvs env bs i p
  | [], [], _, _, _, _ => rfl
  | [], _ :: _, hl, _, _, _ => by simp at hl
  | _ :: _, [], hl, _, _, _ => by simp at hl
  | (k, a) :: as, (l, b) :: bs, hl, h, i, p => by
    simp only [List.map_cons, List.cons.injEq] at hl
    rw [evalKvs, evalKvs, hl.1, (h 0 a b rfl rfl).1, evalKvs_same as bs hl.2
      fun i x y hx hy => h (i + 1) x y (by simpa using hx) (by simpa using hy)]

theorem evalCases_same {env : Env} : ∀ (as bs : List (Expr × Expr)), as.length = bs.length →
    (∀ (i : Nat) (x y : Expr), (as.flatMap fun x => [x.1, x.2])[i]? = some x → (bs.flatMap fun x => [x.1, x.2])[i]? = some y →
      SameEval env x y) →
    ∀ i p, evalCases env as i p = evalCases env bs i p
  | [], [], _, _, _, _ => rfl
  | (w, t) :: as, (x, u) :: bs, hl, h, i, p => by
    rw [evalCases, evalCases, (h 0 w x rfl rfl).1, (h 1 t u rfl rfl).1, evalCases_same as bs (by simpa using hl)
      fun i x y hx hy => h (i + 2) x y (by simpa using hx) (by simpa using hy)]

theorem evalO_same {env : Env} {a b : Option Expr} (hs : a.isSome = b.isSome)
    (h : ∀ (x y : Expr), a = some x → b = some y → SameEval env x y) (p : List Nat) : evalO env a p = evalO env b p := by
  cases a <;> cases b <;> simp at hs
  · rfl
  · rw [evalO, evalO, (h _ _ rfl rfl).1]

/-- The operand at the end of aligned lists. -/
theorem aligned_right {as bs cs ds : List Expr} {i : Nat} {x y : Expr} (hl : as.length = bs.length)
    (hx : cs[i]? = some x) (hy : ds[i]? = some y) :
    (as ++ cs)[as.length + i]? = some x ∧ (bs ++ ds)[as.length + i]? = some y := by
  constructor
  · rw [List.getElem?_append_right (by omega)]; simpa using hx
  · rw [List.getElem?_append_right (by omega), hl]; simpa using hy

theorem aligned_left {as bs cs ds : List Expr} {i : Nat} {x y : Expr}
    (hx : as[i]? = some x) (hy : bs[i]? = some y) : (as ++ cs)[i]? = some x ∧ (bs ++ ds)[i]? = some y := by
  have h1 := (List.getElem?_eq_some_iff.1 hx).1
  have h2 := (List.getElem?_eq_some_iff.1 hy).1
  rw [List.getElem?_append_left h1, List.getElem?_append_left h2]
  exact ⟨hx, hy⟩

theorem alike_eval {env : Env} {e f : Expr} (h : Alike Eq Eq e f) : SameEval env e f := by
  induction h with
  | @mk e f head kids ih =>
    clear kids
    cases e with
    | const v => cases f <;> simp only [SameHead] at head; subst head; exact ⟨fun _ => rfl, fun _ => rfl, rfl⟩
    | labelAttribute l r =>
      cases f <;> simp only [SameHead] at head
      obtain ⟨rfl, rfl⟩ := head; exact ⟨fun _ => rfl, fun _ => rfl, rfl⟩
    | column i => cases f <;> simp only [SameHead] at head; subst head; exact ⟨fun _ => rfl, fun _ => rfl, rfl⟩
    | vertex => cases f <;> simp only [SameHead] at head; exact ⟨fun _ => rfl, fun _ => rfl, rfl⟩
    | edge => cases f <;> simp only [SameHead] at head; exact ⟨fun _ => rfl, fun _ => rfl, rfl⟩
    | uuid a => cases f <;> simp only [SameHead] at head; subst head; exact ⟨fun _ => rfl, fun _ => rfl, rfl⟩
    | label a => cases f <;> simp only [SameHead] at head; subst head; exact ⟨fun _ => rfl, fun _ => rfl, rfl⟩
    | prop k r s p =>
      cases f <;> simp only [SameHead] at head
      obtain ⟨rfl, rfl, rfl, rfl⟩ := head; exact ⟨fun _ => rfl, fun _ => rfl, rfl⟩
    | text k a =>
      cases f <;> simp only [SameHead] at head
      obtain ⟨rfl, rfl⟩ := head; exact ⟨fun _ => rfl, fun _ => rfl, rfl⟩
    | var n i =>
      cases f with
      | var m j => simp only [SameHead] at head; subst head; exact ⟨fun _ => by rw [eval, eval], fun _ => by simp [operands], rfl⟩
      | _ => simp only [SameHead] at head
    | unary o a =>
      cases f with
      | unary o' b =>
        simp only [SameHead] at head; subst head
        have h := ih 0 a b rfl rfl
        exact ⟨fun p => by rw [eval, eval, h.1, h.2.2], fun _ => by simp [operands], rfl⟩
      | _ => simp only [SameHead] at head
    | binary o l r =>
      cases f with
      | binary o' l' r' =>
        simp only [SameHead] at head; subst head
        have h := ih 0 l l' rfl rfl
        have h' := ih 1 r r' rfl rfl
        exact ⟨fun p => by rw [eval, eval, h.1, funext fun p => h'.1 p],
          fun _ => by rw [operands, operands, h.1, h'.1], rfl⟩
      | _ => simp only [SameHead] at head
    | logical o es =>
      cases f with
      | logical o' es' =>
        simp only [SameHead] at head; obtain ⟨rfl, hl⟩ := head
        exact ⟨fun p => by rw [eval, eval, evals_same es es' hl ih], fun _ => by simp [operands], rfl⟩
      | _ => simp only [SameHead] at head
    | cast t a =>
      cases f with
      | cast t' b =>
        simp only [SameHead] at head; subst head
        have h := ih 0 a b rfl rfl
        exact ⟨fun p => by rw [eval, eval, h.1], fun _ => by simp [operands], rfl⟩
      | _ => simp only [SameHead] at head
    | call n es =>
      cases f with
      | call n' es' =>
        simp only [SameHead] at head; obtain ⟨rfl, hl⟩ := head
        exact ⟨fun p => by rw [eval, eval, evals_same es es' hl ih, hl], fun _ => by simp [operands], rfl⟩
      | _ => simp only [SameHead] at head
    | coll k es =>
      cases f with
      | coll k' es' =>
        simp only [SameHead] at head; obtain ⟨rfl, hl⟩ := head
        exact ⟨fun p => by rw [eval, eval, evals_same es es' hl ih], fun _ => by simp [operands], rfl⟩
      | _ => simp only [SameHead] at head
    | map kvs =>
      cases f with
      | map kvs' =>
        simp only [SameHead] at head
        exact ⟨fun p => by rw [eval, eval, evalKvs_same kvs kvs' head ih], fun _ => by simp [operands], rfl⟩
      | _ => simp only [SameHead] at head
    | versionedVar n v =>
      cases f with
      | versionedVar m w =>
        simp only [SameHead] at head; obtain ⟨rfl, hl⟩ := head
        cases v <;> cases w <;> simp at hl
        · exact ⟨fun _ => rfl, fun _ => rfl, rfl⟩
        · rename_i a b
          have h := ih 0 a b rfl rfl
          exact ⟨fun p => by rw [eval, eval, h.1], fun _ => by simp [operands], rfl⟩
      | _ => simp only [SameHead] at head
    | case g c d cs =>
      cases f with
      | case g' c' d' cs' =>
        simp only [SameHead] at head
        obtain ⟨rfl, hc, hd, hl⟩ := head
        have l1 := length_toList hc
        have l2 := length_toList hd
        refine ⟨fun p => ?_, fun _ => by simp [operands], rfl⟩
        rw [eval, eval, evalO_same hc, evalO_same hd, evalCases_same cs cs' hl]
        · intro i x y hx hy
          have := aligned_right (as := c.toList ++ d.toList) (bs := c'.toList ++ d'.toList) (by simp [l1, l2]) hx hy
          exact ih _ x y this.1 this.2
        · intro x y hx hy
          subst hx; subst hy
          have := aligned_right (as := c.toList) (bs := c'.toList) (cs := [x]) (ds := [y]) (i := 0) l1 rfl rfl
          have := aligned_left (cs := cs.flatMap fun x => [x.1, x.2]) (ds := cs'.flatMap fun x => [x.1, x.2]) this.1 this.2
          exact ih _ x y this.1 this.2
        · intro x y hx hy
          subst hx; subst hy
          exact ih 0 x y (by simp [children]) (by simp [children])
      | _ => simp only [SameHead] at head
    | predicate n i c fl o =>
      cases f with
      | predicate n' i' c' fl' o' =>
        simp only [SameHead] at head
        obtain ⟨rfl, rfl, hf⟩ := head
        have h := ih 0 c c' rfl rfl
        refine ⟨fun p => ?_, fun _ => by simp [operands], rfl⟩
        rw [eval, eval, h.1, h.2.1, evalO_same hf]
        intro x y hx hy
        subst hx; subst hy
        exact ih 1 x y (by simp [children]) (by simp [children])
      | _ => simp only [SameHead] at head
    | listComp i c fl m o =>
      cases f with
      | listComp i' c' fl' m' o' =>
        simp only [SameHead] at head
        obtain ⟨rfl, hf, hm⟩ := head
        have h := ih 0 c c' rfl rfl
        refine ⟨fun p => ?_, fun _ => by simp [operands], rfl⟩
        rw [eval, eval, h.1, evalO_same hf, evalO_same hm]
        · intro x y hx hy
          subst hx; subst hy
          have := aligned_right (as := c :: fl.toList) (bs := c' :: fl'.toList) (cs := [x]) (ds := [y]) (i := 0)
            (by simp [length_toList hf]) rfl rfl
          exact ih _ x y this.1 this.2
        · intro x y hx hy
          subst hx; subst hy
          exact ih 1 x y (by simp [children]) (by simp [children])
      | _ => simp only [SameHead] at head
    | reduce a i v c m o =>
      cases f with
      | reduce a' i' v' c' m' o' =>
        simp only [SameHead] at head
        obtain ⟨rfl, rfl⟩ := head
        exact ⟨fun p => by rw [eval, eval, (ih 0 i i' rfl rfl).1, (ih 1 c c' rfl rfl).1, (ih 2 m m' rfl rfl).1],
          fun _ => by simp [operands], rfl⟩
      | _ => simp only [SameHead] at head
    | aggregate n d a =>
      cases f with
      | aggregate n' d' b =>
        simp only [SameHead] at head
        obtain ⟨rfl, rfl, hs⟩ := head
        refine ⟨fun p => ?_, fun _ => by simp [operands], rfl⟩
        rw [eval, eval, evalO_same hs]
        intro x y hx hy
        subst hx; subst hy
        exact ih 0 x y (by simp [children]) (by simp [children])
      | _ => simp only [SameHead] at head
    | range l lo hi =>
      cases f with
      | range l' lo' hi' =>
        simp only [SameHead] at head
        obtain ⟨hf, hm⟩ := head
        have h := ih 0 l l' rfl rfl
        refine ⟨fun p => ?_, fun _ => by simp [operands], rfl⟩
        rw [eval, eval, h.1, evalO_same hf, evalO_same hm]
        · intro x y hx hy
          subst hx; subst hy
          have := aligned_right (as := l :: lo.toList) (bs := l' :: lo'.toList) (cs := [x]) (ds := [y]) (i := 0)
            (by simp [length_toList hf]) rfl rfl
          exact ih _ x y this.1 this.2
        · intro x y hx hy
          subst hx; subst hy
          exact ih 1 x y (by simp [children]) (by simp [children])
      | _ => simp only [SameHead] at head

/-- C94 (values): expressions that compare equal, whose constants are the same values (not just equal
ones) and whose aggregates agree on DISTINCT, evaluate to the same value and have the same effects in
every context. -/
theorem C94_value_partial (env : Env) (e f : Expr) (he : All WholeHere e) (hf : All WholeHere f) (ht : All NoTextHere e)
    (h : eqE false e f = some true) (hc : consts e = consts f) (hd : distincts e = distincts f) (p : List Nat) (s : EState) :
    eval env e p s = eval env f p s := by
  obtain ⟨b, h1, h2⟩ := C94_meaning e f he hf ht
  rw [h1] at h
  have h3 := h2.1 (Option.some.inj h)
  rw [(alike_eval (alike_sharpen h3 hc hd)).1 p]

example : eqE false (.binary .add (.var [120] true) (.const (.int 1))) (.binary .add (.var [120] false) (.const (.int 1))) = some true ∧
    consts (.binary .add (.var [120] true) (.const (.int 1))) = [.int 1] := by
  constructor
  · simp [eqE, andB, Value.beq]
  · simp [consts, EvalSpec.subs]

/-- C94 is violated for equal constants: `7 / 2` equals `7.0 / 2`, but the first is 3 and the second
3.5. -/
theorem C94_value_violated (env : Env) (s : EState) : ∃ e f : Expr, eqE false e f = some true ∧
    eval env e [] s = some (.int 3, s) ∧ eval env f [] s = some (.float (.fin (7 / 2)), s) := by
  refine ⟨.binary .division (.const (.int 7)) (.const (.int 2)), .binary .division (.const (.float (.fin 7))) (.const (.int 2)), ?_, ?_, ?_⟩
  · have h1 : Value.beq (.int 7) (.float (.fin 7)) = true := by decide +kernel
    have h2 : Value.beq (.int 2) (.int 2) = true := by decide +kernel
    simp [eqE, h1, h2, andB]
  · have h : Value.div (.int 7) (.int 2) = some (.int 3) := by decide +kernel
    simp [eval, Eval.bind, Eval.pure, Eval.binOp, Eval.lift, h]
  · have h : Value.div (.float (.fin 7)) (.int 2) = some (.float (.fin (7 / 2))) := by decide +kernel
    simp [eval, Eval.bind, Eval.pure, Eval.binOp, Eval.lift, h]

/-- C94 is violated for aggregates: `count(distinct x)` equals `count(x)`. -/
theorem C94_distinct_violated (n : Bytes) (a : Expr) (h : eqE false a a = some true) :
    eqE false (.aggregate n true (some a)) (.aggregate n false (some a)) = some true := by
  simp [eqE, eqDeref, h]

/-! ## C95: copying -/

theorem makeProp_made {k : PropKind} {r s p : Bytes} (h : PropMade (.prop k r s p)) : makeProp k s p = .prop k r s p := by
  cases k <;> simp only [PropMade] at h <;> simp_all [makeProp, Ops.kSrc, Ops.kDst, Ops.kRank, Ops.kType]

theorem cloneL_some {es : List Expr} (h : ∀ x ∈ es, clone x = some x) : cloneL es = some es := by
  induction es with
  | nil => rfl
  | cons a as ih => rw [cloneL, h a (by simp), ih fun x hx => h x (by simp [hx])]; rfl

theorem cloneKvs_some {es : List (Bytes × Expr)} (h : ∀ x ∈ es.map Prod.snd, clone x = some x) : cloneKvs es = some es := by
  induction es with
  | nil => rfl
  | cons a as ih =>
    obtain ⟨k, a⟩ := a
    rw [cloneKvs, h a (by simp), ih fun x hx => h x (by simp only [List.map_cons, List.mem_cons]; exact .inr hx)]; rfl

theorem cloneCases_some {es : List (Expr × Expr)} (h : ∀ x ∈ es.flatMap fun x => [x.1, x.2], clone x = some x) :
    cloneCases es = some es := by
  induction es with
  | nil => rfl
  | cons a as ih =>
    obtain ⟨w, t⟩ := a
    rw [cloneCases, h w (by simp), h t (by simp), ih fun x hx => h x (by
      simp only [List.flatMap_cons, List.mem_append]; exact .inr hx)]; rfl

theorem cloneO_some {o : Option Expr} (h : ∀ x ∈ o.toList, clone x = some x) : cloneO o = some o := by
  cases o with
  | none => rfl
  | some a => rw [cloneO, h a (by simp)]; rfl

/-- C95 (copy): the copy of an expression that contains no text search and no null pointer and whose
property expressions are as the constructors make them, is the same expression — so it has the same
value in every context, the same encoding, and it equals the original. -/
theorem C95_clone_partial (e : Expr) : All WholeHere e → All NoTextHere e → All PropMade e → clone e = some e := by
  induction e using children_induction with
  | h e ih =>
    intro hw ht hp
    have ih' : ∀ x ∈ e.children, clone x = some x := fun x hx => ih x hx (hw.kids x hx) (ht.kids x hx) (hp.kids x hx)
    have hw' := hw.here
    have ht' := ht.here
    have hp' := hp.here
    clear ih hw ht hp
    cases e with
    | unary o a => simp [children] at ih'; simp [clone, ih']
    | binary o l r => simp [children] at ih'; simp [clone, ih']
    | logical o es => simp [clone, cloneL_some (es := es) ih']
    | cast t a => simp [children] at ih'; simp [clone, ih']
    | call n es => simp [clone, cloneL_some (es := es) ih']
    | coll k es => simp [clone, cloneL_some (es := es) ih']
    | map kvs => simp [clone, cloneKvs_some ih']
    | prop k r s p => simp [clone, makeProp_made hp']
    | versionedVar n v => cases v with
      | none => exact absurd rfl hw'
      | some v => simp [children] at ih'; simp [clone, ih']
    | aggregate n d a => cases a with
      | none => exact absurd rfl hw'
      | some v => simp [children] at ih'; simp [clone, ih']
    | case g c d cs =>
      simp only [children, List.mem_append] at ih'
      simp [clone, cloneO_some fun x hx => ih' x (.inl (.inl hx)), cloneO_some fun x hx => ih' x (.inl (.inr hx)),
        cloneCases_some fun x hx => ih' x (.inr hx)]
    | predicate n i c f o =>
      simp only [children, List.mem_cons] at ih'
      simp [clone, ih' c (.inl rfl), cloneO_some fun x hx => ih' x (.inr hx)]
    | listComp i c f m o =>
      simp only [children, List.mem_cons, List.mem_append] at ih'
      simp [clone, ih' c (.inl rfl), cloneO_some fun x hx => ih' x (.inr (.inl hx)), cloneO_some fun x hx => ih' x (.inr (.inr hx))]
    | reduce a i v c m o => simp [children] at ih'; simp [clone, ih']
    | range l lo hi =>
      simp only [children, List.mem_cons, List.mem_append] at ih'
      simp [clone, ih' l (.inl rfl), cloneO_some fun x hx => ih' x (.inr (.inl hx)), cloneO_some fun x hx => ih' x (.inr (.inr hx))]
    | text k a => exact ht'.elim
    | _ => rfl

theorem sampleE_propMade (v : Value) : All PropMade (sampleE v) := by
  refine .mk trivial ?_
  simp only [children, sampleE, List.mem_cons, List.not_mem_nil, or_false, forall_eq_or_imp, forall_eq]
  refine ⟨.mk trivial ?_, all_leaf trivial rfl⟩
  simp only [children, List.mem_cons, List.not_mem_nil, or_false, forall_eq_or_imp, forall_eq]
  refine ⟨all_leaf trivial rfl, .mk trivial ?_⟩
  simp only [children, Option.toList_some, List.mem_cons, List.not_mem_nil, or_false, forall_eq]
  exact all_leaf trivial rfl

example : clone (sampleE (.int 1)) = some (sampleE (.int 1)) :=
  C95_clone_partial _ (sampleE_whole _) (sampleE_noText _) (sampleE_propMade _)
example : All PropMade (.prop .src (ascii "$^") (ascii "player") (ascii "age")) := all_leaf rfl rfl

/-- C95 (copy, what users do with it): the copy evaluates like the original and equals it. -/
theorem C95_copy_partial (env : Env) (e : Expr) (hw : All WholeHere e) (ht : All NoTextHere e) (hp : All PropMade e)
    (hc : All (ConstHere fun v => Value.beq v v = true) e) :
    ∃ f, clone e = some f ∧ eqE false e f = some true ∧ (∀ p s, eval env f p s = eval env e p s) := by
  refine ⟨e, C95_clone_partial e hw ht hp, ?_, fun _ _ => rfl⟩
  obtain ⟨b, h1, h2⟩ := C94_meaning e e hw hw ht
  rw [h1, h2.2 (alike_refl (fun _ => trivial) e hc)]

theorem cloneL_isSome {es : List Expr} (h : ∀ x ∈ es, (clone x).isSome = true ↔ All WholeHere x) :
    (cloneL es).isSome = true ↔ ∀ x ∈ es, All WholeHere x := by
  induction es with
  | nil => simp [cloneL]
  | cons a as ih =>
    have ih := ih fun x hx => h x (by simp [hx])
    simp only [List.mem_cons, forall_eq_or_imp, ← h a (by simp), ← ih]
    rw [cloneL]
    cases clone a <;> cases cloneL as <;> simp

theorem cloneKvs_isSome {es : List (Bytes × Expr)} (h : ∀ x ∈ es.map Prod.snd, (clone x).isSome = true ↔ All WholeHere x) :
    (cloneKvs es).isSome = true ↔ ∀ x ∈ es.map Prod.snd, All WholeHere x := by
  induction es with
  | nil => simp [cloneKvs]
  | cons a as ih =>
    obtain ⟨k, a⟩ := a
    have ih := ih fun x hx => h x (by simp only [List.map_cons, List.mem_cons]; exact .inr hx)
    simp only [List.map_cons, List.mem_cons, forall_eq_or_imp, ← h a (by simp)]
    rw [← ih, cloneKvs]
    cases clone a <;> cases cloneKvs as <;> simp

theorem cloneCases_isSome {es : List (Expr × Expr)}
    (h : ∀ x ∈ es.flatMap fun x => [x.1, x.2], (clone x).isSome = true ↔ All WholeHere x) :
    (cloneCases es).isSome = true ↔ ∀ x ∈ es.flatMap fun x => [x.1, x.2], All WholeHere x := by
  induction es with
  | nil => simp [cloneCases]
  | cons a as ih =>
    obtain ⟨w, t⟩ := a
    have ih := ih fun x hx => h x (by simp only [List.flatMap_cons, List.mem_append]; exact .inr hx)
    simp only [List.flatMap_cons, List.cons_append, List.nil_append, List.mem_cons, forall_eq_or_imp,
      ← h w (by simp), ← h t (by simp)]
    rw [← ih, cloneCases]
    cases clone w <;> cases clone t <;> cases cloneCases as <;> simp

theorem cloneO_isSome {o : Option Expr} (h : ∀ x ∈ o.toList, (clone x).isSome = true ↔ All WholeHere x) :
    (cloneO o).isSome = true ↔ ∀ x ∈ o.toList, All WholeHere x := by
  cases o with
  | none => simp [cloneO]
  | some a =>
    simp only [Option.toList_some, List.mem_singleton, forall_eq, ← h a (by simp)]
    rw [cloneO]
    cases clone a <;> simp

theorem all_iff {P : Expr → Prop} {e : Expr} : All P e ↔ P e ∧ ∀ x ∈ e.children, All P x :=
  ⟨fun h => ⟨h.here, h.kids⟩, fun h => .mk h.1 h.2⟩

/-- C95 (defined): copying returns exactly if the expression contains no versioned variable without
version and no aggregate without argument. -/
theorem C95_defined (e : Expr) : (clone e).isSome = true ↔ All WholeHere e := by
  induction e using children_induction with
  | h e ih =>
    rw [all_iff]
    cases e with
    | unary o a =>
      have h := ih a (by simp [children])
      simp only [children, WholeHere, List.mem_singleton, forall_eq, true_and, ← h]
      rw [clone]; cases clone a <;> simp
    | binary o l r =>
      have h1 := ih l (by simp [children])
      have h2 := ih r (by simp [children])
      simp only [children, WholeHere, List.mem_cons, List.not_mem_nil, or_false, forall_eq_or_imp, forall_eq, true_and, ← h1, ← h2]
      rw [clone]; cases clone l <;> cases clone r <;> simp
    | logical o es =>
      have h := cloneL_isSome ih
      simp only [children, WholeHere, true_and] at h ⊢
      rw [← h, clone]; cases cloneL es <;> simp
    | cast t a =>
      have h := ih a (by simp [children])
      simp only [children, WholeHere, List.mem_singleton, forall_eq, true_and, ← h]
      rw [clone]; cases clone a <;> simp
    | call n es =>
      have h := cloneL_isSome ih
      simp only [children, WholeHere, true_and] at h ⊢
      rw [← h, clone]; cases cloneL es <;> simp
    | coll k es =>
      have h := cloneL_isSome ih
      simp only [children, WholeHere, true_and] at h ⊢
      rw [← h, clone]; cases cloneL es <;> simp
    | map kvs =>
      have h := cloneKvs_isSome ih
      simp only [children, WholeHere, true_and]
      rw [← h, clone]; cases cloneKvs kvs <;> simp
    | versionedVar n v => cases v with
      | none => simp [clone, WholeHere]
      | some a =>
        have h := ih a (by simp [children])
        simp only [children, WholeHere, Option.toList_some, List.mem_singleton, forall_eq, ← h]
        rw [clone]; cases clone a <;> simp
    | aggregate n d v => cases v with
      | none => simp [clone, WholeHere]
      | some a =>
        have h := ih a (by simp [children])
        simp only [children, WholeHere, Option.toList_some, List.mem_singleton, forall_eq, ← h]
        rw [clone]; cases clone a <;> simp
    | case g c d cs =>
      have h1 := cloneO_isSome (o := c) fun x hx => ih x (by simp only [children, List.mem_append]; exact .inl (.inl hx))
      have h2 := cloneO_isSome (o := d) fun x hx => ih x (by simp only [children, List.mem_append]; exact .inl (.inr hx))
      have h3 := cloneCases_isSome (es := cs) fun x hx => ih x (by simp only [children, List.mem_append]; exact .inr hx)
      simp only [children, WholeHere, true_and, List.mem_append, or_imp, forall_and]
      rw [← h1, ← h2, ← h3, clone]
      cases cloneO c <;> cases cloneO d <;> cases cloneCases cs <;> simp
    | predicate n i c f o =>
      have h1 := ih c (by simp [children])
      have h2 := cloneO_isSome (o := f) fun x hx => ih x (by simp only [children, List.mem_cons]; exact .inr hx)
      simp only [children, WholeHere, true_and, List.mem_cons, or_imp, forall_and, forall_eq]
      rw [← h1, ← h2, clone]
      cases clone c <;> cases cloneO f <;> simp
    | listComp i c f m o =>
      have h1 := ih c (by simp [children])
      have h2 := cloneO_isSome (o := f) fun x hx => ih x (by simp only [children, List.mem_cons, List.mem_append]; exact .inr (.inl hx))
      have h3 := cloneO_isSome (o := m) fun x hx => ih x (by simp only [children, List.mem_cons, List.mem_append]; exact .inr (.inr hx))
      simp only [children, WholeHere, true_and, List.mem_cons, List.mem_append, or_imp, forall_and, forall_eq]
      rw [← h1, ← h2, ← h3, clone]
      cases clone c <;> cases cloneO f <;> cases cloneO m <;> simp
    | reduce a i v c m o =>
      have h1 := ih i (by simp [children])
      have h2 := ih c (by simp [children])
      have h3 := ih m (by simp [children])
      simp only [children, WholeHere, true_and, List.mem_cons, List.not_mem_nil, or_false, or_imp, forall_and, forall_eq]
      rw [← h1, ← h2, ← h3, clone]
      cases clone i <;> cases clone c <;> cases clone m <;> simp
    | range c f m =>
      have h1 := ih c (by simp [children])
      have h2 := cloneO_isSome (o := f) fun x hx => ih x (by simp only [children, List.mem_cons, List.mem_append]; exact .inr (.inl hx))
      have h3 := cloneO_isSome (o := m) fun x hx => ih x (by simp only [children, List.mem_cons, List.mem_append]; exact .inr (.inr hx))
      simp only [children, WholeHere, true_and, List.mem_cons, List.mem_append, or_imp, forall_and, forall_eq]
      rw [← h1, ← h2, ← h3, clone]
      cases clone c <;> cases cloneO f <;> cases cloneO m <;> simp
    | _ => simp [clone, WholeHere, children]

/-- C95 is violated for text searches: the copy keeps the kind, the schema, the property and the text,
but the operator, the fuzziness, the limit and the timeout are the default ones. -/
theorem C95_text_violated : ∃ (k : TextKind) (a b : TextArg), clone (.text k a) = some (.text k b) ∧
    b.from = a.from ∧ b.prop = a.prop ∧ b.val = a.val ∧
    a.op = ascii "or" ∧ b.op = [] ∧ a.fuzziness = 2 ∧ b.fuzziness = -2 ∧ a.limit = 1000 ∧ b.limit = 100 ∧
    a.timeout = 5000 ∧ b.timeout = 200 :=
  ⟨.fuzzy, ⟨[116], [112], [118], ascii "or", 2, 1000, 5000⟩, _, rfl, rfl, rfl, rfl, rfl, rfl, rfl, rfl, rfl, rfl, rfl, rfl⟩

/-- C95 (text searches): a text search is copied faithfully if and only if it has the default options. -/
theorem C95_text_partial (k : TextKind) (a : TextArg) : clone (.text k a) = some (.text k a) ↔
    a.op = [] ∧ a.fuzziness = -2 ∧ a.limit = 100 ∧ a.timeout = 200 := by
  obtain ⟨f, p, v, o, z, l, t⟩ := a
  simp only [clone, makeTextArg, Option.some.injEq, Expr.text.injEq, TextArg.mk.injEq, true_and]
  constructor
  · rintro ⟨rfl, rfl, rfl, rfl⟩; exact ⟨rfl, rfl, rfl, rfl⟩
  · rintro ⟨rfl, rfl, rfl, rfl⟩; exact ⟨rfl, rfl, rfl, rfl⟩

example : clone (.text .prefix (makeTextArg [1] [2] [3])) = some (.text .prefix (makeTextArg [1] [2] [3])) := rfl

end Expr
end Nebula
