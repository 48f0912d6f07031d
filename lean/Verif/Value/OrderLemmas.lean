import Verif.Value.Lemmas
import Verif.Value.Spec
import Verif.Date.Props
import Mathlib.Tactic.Linarith
import Mathlib.Algebra.Order.Ring.Rat
import Mathlib.Tactic.FieldSimp
import Mathlib.Tactic.Positivity
import Mathlib.Data.Rat.Floor
/-!
# Lemmas for C10: strict weak orders, lists, hereditary predicates
-/
namespace Nebula
open Spec

/-- Working form of a strict weak order on the members of `S`: asymmetric and negatively transitive. -/
structure Swo {α : Type} (lt : α → α → Bool) (S : α → Prop) : Prop where
  asym : ∀ a b, S a → S b → lt a b = true → lt b a = false
  nt : ∀ a b c, S a → S b → S c → lt a b = true → lt a c = true ∨ lt c b = true

theorem Swo.strictWeak {α : Type} {lt : α → α → Bool} {S : α → Prop} (h : Swo lt S) :
    StrictWeakOrder lt S where
  irrefl a ha := by
    cases e : lt a a with
    | false => rfl
    | true => have := h.asym a a ha ha e; rw [e] at this; exact this
  asymm := h.asym
  trans a b c ha hb hc h1 h2 := by
    rcases h.nt a b c ha hb hc h1 with h3 | h3
    · exact h3
    · have := h.asym b c hb hc h2; rw [this] at h3; simp at h3
  incomp_trans a b c ha hb hc h1 h2 h3 h4 := by
    constructor
    · cases e : lt a c with
      | false => rfl
      | true => rcases h.nt a c b ha hc hb e with h | h <;> simp_all
    · cases e : lt c a with
      | false => rfl
      | true => rcases h.nt c a b hc ha hb e with h | h <;> simp_all

theorem Swo.mono {α : Type} {lt : α → α → Bool} {S T : α → Prop} (h : Swo lt S) (hs : ∀ a, T a → S a) :
    Swo lt T :=
  ⟨fun a b ha hb => h.asym a b (hs a ha) (hs b hb),
   fun a b c ha hb hc => h.nt a b c (hs a ha) (hs b hb) (hs c hc)⟩

/-- Lexicographic combination: a rank, then an order among equal rank. -/
theorem Swo.byRank {α : Type} {lt : α → α → Bool} {S : α → Prop} (g : α → Nat)
    (hne : ∀ a b, S a → S b → g a ≠ g b → lt a b = decide (g a < g b))
    (heq : ∀ n, Swo lt (fun a => S a ∧ g a = n)) : Swo lt S := by
  constructor
  · intro a b ha hb hab
    by_cases e : g a = g b
    · exact (heq (g a)).asym a b ⟨ha, rfl⟩ ⟨hb, e.symm⟩ hab
    · rw [hne a b ha hb e] at hab
      rw [hne b a hb ha (Ne.symm e)]
      simp only [decide_eq_true_eq, decide_eq_false_iff_not] at *
      omega
  · intro a b c ha hb hc hab
    by_cases e : g a = g b
    · by_cases e2 : g c = g a
      · exact (heq (g a)).nt a b c ⟨ha, rfl⟩ ⟨hb, e.symm⟩ ⟨hc, e2⟩ hab
      · rw [hne a c ha hc (Ne.symm e2), hne c b hc hb (by omega)]
        simp only [decide_eq_true_eq]; omega
    · rw [hne a b ha hb e] at hab
      simp only [decide_eq_true_eq] at hab
      by_cases e2 : g a < g c
      · left; rw [hne a c ha hc (by omega)]; simpa
      · right; rw [hne c b hc hb (by omega)]; simp; omega

/-- A comparison that is the order of an image. -/
theorem Swo.comap {α β : Type} {lt : β → β → Bool} {S : α → Prop} {T : β → Prop} (h : Swo lt T)
    (f : α → β) (hf : ∀ a, S a → T (f a)) : Swo (fun a b => lt (f a) (f b)) S :=
  ⟨fun a b ha hb => h.asym _ _ (hf a ha) (hf b hb),
   fun a b c ha hb hc => h.nt _ _ _ (hf a ha) (hf b hb) (hf c hc)⟩

theorem Swo.congr {α : Type} {lt lt' : α → α → Bool} {S : α → Prop} (h : Swo lt S)
    (e : ∀ a b, S a → S b → lt' a b = lt a b) : Swo lt' S :=
  ⟨fun a b ha hb => by rw [e a b ha hb, e b a hb ha]; exact h.asym a b ha hb,
   fun a b c ha hb hc => by rw [e a b ha hb, e a c ha hc, e c b hc hb]; exact h.nt a b c ha hb hc⟩

/-- `std::lexicographical_compare` of a strict weak order is a strict weak order. -/
theorem Swo.vec {α : Type} {lt : α → α → Bool} {S : α → Prop} (h : Swo lt S) :
    Swo (vecLt lt) (fun l => ∀ x ∈ l, S x) := by
  constructor
  · intro a
    induction a with
    | nil => intro b _ _ _; cases b <;> rfl
    | cons x xs ih =>
      intro b ha hb hab
      cases b with
      | nil => simp [vecLt] at hab
      | cons y ys =>
        have hx := ha x (by simp)
        have hy := hb y (by simp)
        simp only [vecLt] at hab ⊢
        split at hab
        · rename_i e; rw [h.asym x y hx hy e, e]; simp
        · rename_i e
          split at hab
          · simp at hab
          · rename_i e2
            rw [if_neg e2, if_neg e]
            exact ih ys (fun z hz => ha z (by simp [hz])) (fun z hz => hb z (by simp [hz])) hab
  · intro a
    induction a with
    | nil =>
      intro b c _ _ _ hab
      cases b with
      | nil => simp [vecLt] at hab
      | cons y ys => cases c with
        | nil => right; rfl
        | cons z zs => left; rfl
    | cons x xs ih =>
      intro b c ha hb hc hab
      cases b with
      | nil => simp [vecLt] at hab
      | cons y ys =>
        cases c with
        | nil => right; rfl
        | cons z zs =>
          have hx := ha x (by simp)
          have hy := hb y (by simp)
          have hz := hc z (by simp)
          simp only [vecLt] at hab ⊢
          by_cases exz : lt x z = true
          · left; simp [exz]
          by_cases ezy : lt z y = true
          · right; simp [ezy]
          split at hab
          · rename_i e
            rcases h.nt x y z hx hy hz e with h1 | h1
            · exact absurd h1 exz
            · exact absurd h1 ezy
          · rename_i e
            split at hab
            · simp at hab
            · rename_i e2
              have ezx : ¬ lt z x = true := by
                intro hh
                rcases h.nt z x y hz hx hy hh with h1 | h1
                · exact ezy h1
                · exact e2 h1
              have eyz : ¬ lt y z = true := by
                intro hh
                rcases h.nt y z x hy hz hx hh with h1 | h1
                · exact e2 h1
                · exact exz h1
              rw [if_neg exz, if_neg ezx, if_neg ezy, if_neg eyz]
              exact ih ys zs (fun w hw => ha w (by simp [hw])) (fun w hw => hb w (by simp [hw]))
                (fun w hw => hc w (by simp [hw])) hab

/-- Comparison by a first component (with its own equality) and then by a second one. -/
theorem Swo.lex {α : Type} {S : α → Prop} {eq1 lt1 lt2 : α → α → Bool}
    (h1 : Swo lt1 S) (h2 : Swo lt2 S)
    (heq : ∀ a b, S a → S b → (eq1 a b = true ↔ lt1 a b = false ∧ lt1 b a = false)) :
    Swo (fun a b => if !eq1 a b then lt1 a b else lt2 a b) S := by
  constructor
  · intro a b ha hb hab
    have e1 := heq a b ha hb
    have e2 := heq b a hb ha
    have a1 := h1.asym a b ha hb
    have a2 := h2.asym a b ha hb
    have a3 := h1.asym b a hb ha
    cases h : eq1 a b <;> cases h' : eq1 b a <;> cases l1 : lt1 a b <;> cases l2 : lt1 b a <;> simp_all
  · intro a b c ha hb hc hab
    have e1 := heq a b ha hb
    have e2 := heq a c ha hc
    have e3 := heq c b hc hb
    have n1 := h1.nt a b c ha hb hc
    have n2 := h2.nt a b c ha hb hc
    have n3 := h1.nt c a b hc ha hb
    have n4 := h1.nt b c a hb hc ha
    have a1 := h1.asym a c ha hc
    have a2 := h1.asym c b hc hb
    have a3 := h1.asym a b ha hb
    cases h : eq1 a b <;> cases h' : eq1 a c <;> cases h'' : eq1 c b <;> cases l1 : lt1 a b <;>
      cases l2 : lt1 a c <;> cases l3 : lt1 c b <;> cases l4 : lt1 b a <;> cases l5 : lt1 c a <;>
      cases l6 : lt1 b c <;> simp_all

theorem Swo.ofTotal {α : Type} {lt eq : α → α → Bool} (h : StrictTotalOrder lt eq) (S : α → Prop) : Swo lt S := by
  have asym : ∀ a b, lt a b = true → lt b a = false := by
    intro a b hab
    cases e : lt b a with
    | false => rfl
    | true => have := h.trans a b a hab e; rw [h.irrefl] at this; exact absurd this (by simp)
  constructor
  · intro a b _ _; exact asym a b
  · intro a b c _ _ _ hab
    rcases h.total a c with h1 | h1 | h1
    · exact .inl h1
    · rw [h.eq_sound] at h1; subst h1; exact .inr hab
    · exact .inr (h.trans c a b h1 hab)

theorem Swo.int (S : Int → Prop) : Swo (fun a b => decide (a < b)) S := by
  constructor
  · intro a b _ _; simp; omega
  · intro a b c _ _ _; simp; omega

theorem Swo.nat (S : Nat → Prop) : Swo (fun a b => decide (a < b)) S := by
  constructor
  · intro a b _ _; simp; omega
  · intro a b c _ _ _; simp; omega

theorem Swo.const {α : Type} (S : α → Prop) : Swo (fun _ _ => false) S :=
  ⟨fun _ _ _ _ => by simp, fun _ _ _ _ _ _ => by simp⟩

theorem Swo.bytes (S : Bytes → Prop) : Swo bytesLt S := by
  constructor
  · intro a b _ _; exact bytesLt_asymm a b
  · intro a b c _ _ _ hab
    rcases bytesLt_total a c with h1 | h1 | h1
    · exact .inl h1
    · subst h1; exact .inr hab
    · exact .inr (bytesLt_trans c a b h1 hab)

theorem Swo.f64 : Swo F64.lt (fun f => f ≠ .nan) := by
  constructor
  · intro a b ha hb
    cases a with
    | nan => exact absurd rfl ha
    | inf s => cases b with
      | nan => exact absurd rfl hb
      | inf t => cases s <;> cases t <;> simp [F64.lt]
      | fin q => cases s <;> simp [F64.lt]
    | fin p => cases b with
      | nan => exact absurd rfl hb
      | inf t => cases t <;> simp [F64.lt]
      | fin q => simp only [F64.lt, decide_eq_true_eq, decide_eq_false_iff_not]; intro h; linarith
  · intro a b c ha hb hc
    cases a with
    | nan => exact absurd rfl ha
    | inf s => cases b with
      | nan => exact absurd rfl hb
      | inf t => cases c with
        | nan => exact absurd rfl hc
        | inf u => cases s <;> cases t <;> cases u <;> simp [F64.lt]
        | fin r => cases s <;> cases t <;> simp [F64.lt]
      | fin q => cases c with
        | nan => exact absurd rfl hc
        | inf u => cases s <;> cases u <;> simp [F64.lt]
        | fin r => cases s <;> simp [F64.lt]
    | fin p => cases b with
      | nan => exact absurd rfl hb
      | inf t => cases c with
        | nan => exact absurd rfl hc
        | inf u => cases t <;> cases u <;> simp [F64.lt]
        | fin r => cases t <;> simp [F64.lt]
      | fin q => cases c with
        | nan => exact absurd rfl hc
        | inf u => cases u <;> simp [F64.lt]
        | fin r =>
          simp only [F64.lt, decide_eq_true_eq]; intro h
          by_cases h2 : p < r
          · exact .inl h2
          · right; linarith

/-! ## Induction over nesting -/

/-- `P` holds for a value and for everything reached from it through `k`. -/
inductive HeredBy (k : Value → List Value) (P : Value → Prop) : Value → Prop
  | mk {v : Value} : P v → (∀ x ∈ k v, HeredBy k P x) → HeredBy k P v

theorem Value.Hered.by {P : Value → Prop} {v : Value} (h : Value.Hered P v) : HeredBy Value.children P v := by
  induction h with
  | mk hp _ ih => exact .mk hp ih

/-- Nesting depth at most `n`, with `P` everywhere. -/
def HeredN (k : Value → List Value) (P : Value → Prop) : Nat → Value → Prop
  | 0, _ => False
  | n + 1, v => P v ∧ ∀ x ∈ k v, HeredN k P n x

theorem HeredN.mono {k : Value → List Value} {P : Value → Prop} :
    ∀ {n m : Nat} {v : Value}, n ≤ m → HeredN k P n v → HeredN k P m v
  | 0, _, _, _, h => h.elim
  | n + 1, 0, _, hle, _ => by omega
  | n + 1, m + 1, v, hle, h => ⟨h.1, fun x hx => HeredN.mono (by omega) (h.2 x hx)⟩

theorem HeredBy.bounded {k : Value → List Value} {P : Value → Prop} {v : Value} (h : HeredBy k P v) :
    ∃ n, HeredN k P n v := by
  induction h with
  | @mk v hp _ ih =>
    have : ∀ l : List Value, (∀ x ∈ l, ∃ n, HeredN k P n x) → ∃ n, ∀ x ∈ l, HeredN k P n x := by
      intro l
      induction l with
      | nil => intro _; exact ⟨0, by simp⟩
      | cons y ys ihl =>
        intro hl
        obtain ⟨n, hn⟩ := hl y (by simp)
        obtain ⟨m, hm⟩ := ihl (fun x hx => hl x (by simp [hx]))
        refine ⟨max n m, fun x hx => ?_⟩
        rcases List.mem_cons.mp hx with rfl | hx
        · exact hn.mono (by omega)
        · exact (hm x hx).mono (by omega)
    obtain ⟨n, hn⟩ := this _ ih
    exact ⟨n + 1, hp, hn⟩

theorem Swo.hered {lt : Value → Value → Bool} {k : Value → List Value} {P : Value → Prop}
    (step : ∀ S, Swo lt S → Swo lt (fun v => P v ∧ ∀ x ∈ k v, S x)) : Swo lt (HeredBy k P) := by
  have hn : ∀ n, Swo lt (HeredN k P n) := by
    intro n
    induction n with
    | zero => exact ⟨fun _ _ h => h.elim, fun _ _ _ h => h.elim⟩
    | succ n ih => exact step _ ih
  constructor
  · intro a b ha hb
    obtain ⟨n, h1⟩ := ha.bounded
    obtain ⟨m, h2⟩ := hb.bounded
    exact (hn (max n m)).asym a b (h1.mono (by omega)) (h2.mono (by omega))
  · intro a b c ha hb hc
    obtain ⟨n, h1⟩ := ha.bounded
    obtain ⟨m, h2⟩ := hb.bounded
    obtain ⟨k, h3⟩ := hc.bounded
    exact (hn (max n (max m k))).nt a b c (h1.mono (by omega)) (h2.mono (by omega)) (h3.mono (by omega))

theorem EquivalenceOn.hered {eq : Value → Value → Bool} {k : Value → List Value} {P : Value → Prop}
    (step : ∀ S, EquivalenceOn eq S → EquivalenceOn eq (fun v => P v ∧ ∀ x ∈ k v, S x)) :
    EquivalenceOn eq (HeredBy k P) := by
  have hn : ∀ n, EquivalenceOn eq (HeredN k P n) := by
    intro n
    induction n with
    | zero => exact ⟨fun _ h => h.elim, fun _ _ h => h.elim, fun _ _ _ h => h.elim⟩
    | succ n ih => exact step _ ih
  constructor
  · intro a ha
    obtain ⟨n, h1⟩ := ha.bounded
    exact (hn n).refl a h1
  · intro a b ha hb
    obtain ⟨n, h1⟩ := ha.bounded
    obtain ⟨m, h2⟩ := hb.bounded
    exact (hn (max n m)).symm a b (h1.mono (by omega)) (h2.mono (by omega))
  · intro a b c ha hb hc
    obtain ⟨n, h1⟩ := ha.bounded
    obtain ⟨m, h2⟩ := hb.bounded
    obtain ⟨k, h3⟩ := hc.bounded
    exact (hn (max n (max m k))).trans a b c (h1.mono (by omega)) (h2.mono (by omega)) (h3.mono (by omega))

/-! ## Exact conversion of small integers to `double` -/

namespace F64

theorem roundEven_int (n : Int) : roundEven (n : Rat) = n := by
  unfold roundEven
  have : (n : Rat).floor = n := by simp
  simp only [this]
  rw [if_pos (by norm_num)]

theorem ofInt_small_pos (i : Int) (h0 : 0 < i) (h : i < 9007199254740992) : ofInt i = .fin i := by
  unfold ofInt round
  have hq : (0 : Rat) < (i : Rat) := by exact_mod_cast h0
  rw [if_neg (ne_of_gt hq)]
  have hneg : ¬ ((i : Rat) < 0) := not_lt.mpr (le_of_lt hq)
  simp only [if_neg hneg]
  -- exponent
  have hlog : ilog2 (i : Rat) ≤ 52 := by
    unfold ilog2
    have h1 : ((i : Rat).num.natAbs.log2 : Int) ≤ 52 := by
      have : (i : Rat).num = i := by simp
      rw [this]
      have : i.natAbs.log2 < 53 := (Nat.log2_lt (by omega)).mpr (by omega)
      omega
    have h2 : ((i : Rat).den.log2 : Int) = 0 := by
      have : (i : Rat).den = 1 := by simp
      rw [this]; decide +kernel
    simp only [h2]
    split <;> omega
  obtain ⟨k, hk⟩ : ∃ k : Nat, max (ilog2 (i : Rat) - 52) (-1074) = -(k : Int) := by
    refine ⟨(-(max (ilog2 (i : Rat) - 52) (-1074))).toNat, ?_⟩
    omega
  rw [hk]
  have hp : pow2 (-(k : Int)) = 1 / ((2 ^ k : Nat) : Rat) := by
    unfold pow2
    split
    · have : k = 0 := by omega
      subst this; simp
    · simp
  have hpos : (0 : Rat) < ((2 ^ k : Nat) : Rat) := by positivity
  have h2 : ((i : Rat) / pow2 (-(k : Int))) = ((i * (2 ^ k : Nat) : Int) : Rat) := by
    rw [hp]; push_cast; field_simp
  rw [h2, roundEven_int]
  have h3 : (((i * (2 ^ k : Nat) : Int)) : Rat) * pow2 (-(k : Int)) = i := by
    rw [hp]; push_cast; field_simp
  rw [h3]
  rw [if_neg]
  have : pow2 1024 = ((2 ^ 1024 : Nat) : Rat) := rfl
  rw [this, not_le]
  have : i < ((2 ^ 1024 : Nat) : Int) := lt_of_lt_of_le h (by decide +kernel)
  exact_mod_cast this

/-- Every integer of at most 53 bits is converted exactly. -/
theorem ofInt_small (i : Int) (h1 : -9007199254740992 ≤ i) (h2 : i ≤ 9007199254740992) : ofInt i = .fin i := by
  by_cases e0 : i = 0
  · subst e0; rfl
  by_cases e1 : i = 9007199254740992
  · subst e1; decide +kernel
  by_cases e2 : i = -9007199254740992
  · subst e2; decide +kernel
  by_cases hp : 0 < i
  · exact ofInt_small_pos i hp (by omega)
  · have := ofInt_small_pos (-i) (by omega) (by omega)
    unfold ofInt round at this ⊢
    have hq : (i : Rat) < 0 := by have : i < 0 := by omega
                                  exact_mod_cast this
    have hq' : ¬ (((-i : Int) : Rat) < 0) := by push_cast; linarith
    have hq0 : ((-i : Int) : Rat) ≠ 0 := by push_cast; linarith
    rw [if_neg hq0] at this
    rw [if_neg (ne_of_lt hq)]
    simp only [if_neg hq', if_pos hq] at this ⊢
    push_cast at this
    split at this
    · simp at this
    · rename_i hh
      rw [if_neg hh]
      simp only [fin.injEq] at this ⊢
      rw [this]; ring

end F64

end Nebula
