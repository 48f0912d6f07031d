import Verif.Expr.CodecProps
import Verif.Expr.FrameSpec
/-! # C36: the expressions that cannot be encoded -/
namespace Nebula
namespace Expr
open EvalSpec

/-- An attribute of a label, a versioned variable, a text search and a UUID without a field. -/
inductive Unwritable : Expr → Prop
  | labelAttribute (l r) : Unwritable (.labelAttribute l r)
  | versionedVar (n v) : Unwritable (.versionedVar n v)
  | text (k a) : Unwritable (.text k a)
  | uuid : Unwritable (.uuid [])

theorem exists_here {a : Expr} {l : List Expr} : (∃ x, x ∈ a :: l ∧ Unwritable x) ↔ Unwritable a ∨ ∃ x, x ∈ l ∧ Unwritable x := by
  simp only [List.mem_cons, or_and_right, exists_or, exists_eq_left]

mutual
theorem aborts_iff : ∀ e : Expr, aborts e = true ↔ ∃ x ∈ subs e, Unwritable x
  | .labelAttribute l r => by simp only [aborts, subs, true_iff]; exact ⟨_, List.mem_cons_self, .labelAttribute l r⟩
  | .versionedVar n v => by simp only [aborts, subs, true_iff]; exact ⟨_, List.mem_cons_self, .versionedVar n v⟩
  | .text k a => by simp only [aborts, subs, true_iff]; exact ⟨_, List.mem_cons_self, .text k a⟩
  | .uuid f => by
    simp only [aborts, subs, List.mem_singleton, exists_eq_left]
    cases f with
    | nil => exact ⟨fun _ => .uuid, fun _ => rfl⟩
    | cons a f => exact ⟨fun h => (by cases h), fun h => (by cases h)⟩
  | .unary o e => by
    simp only [aborts, subs, aborts_iff e, exists_here, show ¬ Unwritable (.unary o e) from nofun, false_or]
  | .binary o l r => by
    simp only [aborts, subs, Bool.or_eq_true, aborts_iff l, aborts_iff r, exists_here, show ¬ Unwritable (.binary o l r) from nofun, false_or, List.mem_append, or_and_right, exists_or]
  | .logical o es => by
    simp only [aborts, subs, abortsAll_iff es, exists_here, show ¬ Unwritable (.logical o es) from nofun, false_or]
  | .cast t e => by
    simp only [aborts, subs, aborts_iff e, exists_here, show ¬ Unwritable (.cast t e) from nofun, false_or]
  | .call n es => by
    simp only [aborts, subs, abortsAll_iff es, exists_here, show ¬ Unwritable (.call n es) from nofun, false_or]
  | .coll k es => by
    simp only [aborts, subs, abortsAll_iff es, exists_here, show ¬ Unwritable (.coll k es) from nofun, false_or]
  | .map kvs => by
    simp only [aborts, subs, abortsEntries_iff kvs, exists_here, show ¬ Unwritable (.map kvs) from nofun, false_or]
  | .case g c d cs => by
    simp only [aborts, subs, Bool.or_eq_true, abortsOpt_iff c, abortsOpt_iff d, abortsCases_iff cs, exists_here, show ¬ Unwritable (.case g c d cs) from nofun, false_or, List.mem_append, or_and_right, exists_or]
  | .predicate n i c f o => by
    simp only [aborts, subs, Bool.or_eq_true, aborts_iff c, abortsOpt_iff f, exists_here, show ¬ Unwritable (.predicate n i c f o) from nofun, false_or, List.mem_append, or_and_right, exists_or]
  | .listComp i c f m o => by
    simp only [aborts, subs, Bool.or_eq_true, aborts_iff c, abortsOpt_iff f, abortsOpt_iff m, exists_here, show ¬ Unwritable (.listComp i c f m o) from nofun, false_or, List.mem_append, or_and_right, exists_or]
  | .reduce a i v c m o => by
    simp only [aborts, subs, Bool.or_eq_true, aborts_iff i, aborts_iff c, aborts_iff m, exists_here, show ¬ Unwritable (.reduce a i v c m o) from nofun, false_or, List.mem_append, or_and_right, exists_or]
  | .aggregate n d a => by
    simp only [aborts, subs, abortsOpt_iff a, exists_here, show ¬ Unwritable (.aggregate n d a) from nofun, false_or]
  | .range l lo hi => by
    simp only [aborts, subs, Bool.or_eq_true, aborts_iff l, abortsOpt_iff lo, abortsOpt_iff hi, exists_here, show ¬ Unwritable (.range l lo hi) from nofun, false_or, List.mem_append, or_and_right, exists_or]
  | .const v => by simp only [aborts, subs, List.mem_singleton, exists_eq_left]; exact ⟨nofun, nofun⟩
  | .column i => by simp only [aborts, subs, List.mem_singleton, exists_eq_left]; exact ⟨nofun, nofun⟩
  | .prop k r s p => by simp only [aborts, subs, List.mem_singleton, exists_eq_left]; exact ⟨nofun, nofun⟩
  | .vertex => by simp only [aborts, subs, List.mem_singleton, exists_eq_left]; exact ⟨nofun, nofun⟩
  | .edge => by simp only [aborts, subs, List.mem_singleton, exists_eq_left]; exact ⟨nofun, nofun⟩
  | .var n i => by simp only [aborts, subs, List.mem_singleton, exists_eq_left]; exact ⟨nofun, nofun⟩
  | .label n => by simp only [aborts, subs, List.mem_singleton, exists_eq_left]; exact ⟨nofun, nofun⟩
theorem abortsAll_iff : ∀ es : List Expr, abortsAll es = true ↔ ∃ x ∈ subsL es, Unwritable x
  | [] => by simp [abortsAll, subsL]
  | e :: es => by simp only [abortsAll, subsL, Bool.or_eq_true, aborts_iff e, abortsAll_iff es, List.mem_append, or_and_right, exists_or]
theorem abortsEntries_iff : ∀ es : List (Bytes × Expr), abortsEntries es = true ↔ ∃ x ∈ subsKv es, Unwritable x
  | [] => by simp [abortsEntries, subsKv]
  | (k, e) :: es => by simp only [abortsEntries, subsKv, Bool.or_eq_true, aborts_iff e, abortsEntries_iff es, List.mem_append, or_and_right, exists_or]
theorem abortsCases_iff : ∀ es : List (Expr × Expr), abortsCases es = true ↔ ∃ x ∈ subsC es, Unwritable x
  | [] => by simp [abortsCases, subsC]
  | (w, t) :: es => by simp only [abortsCases, subsC, Bool.or_eq_true, aborts_iff w, aborts_iff t, abortsCases_iff es, List.mem_append, or_and_right, exists_or]
theorem abortsOpt_iff : ∀ e : Option Expr, abortsOpt e = true ↔ ∃ x ∈ subsO e, Unwritable x
  | none => by simp [abortsOpt, subsO]
  | some e => by simp only [abortsOpt, subsO, aborts_iff e]
end

/-- **C36 (what cannot be encoded).** Encoding ends the process if and only if somewhere in the expression there is an attribute of a label, a versioned variable, a text search or a UUID without a
field. -/
theorem C36_fatal (bits : F64 → Nat) (e : Expr) : encode bits e = none ↔ ∃ x ∈ subs e, Unwritable x := by
  rw [← aborts_iff]
  unfold encode
  cases aborts e <;> simp

/-- The kinds named by the model are these. -/
theorem abortsHere_iff (e : Expr) : abortsHere e = true ↔ Unwritable e := by
  cases e with
  | labelAttribute l r => exact ⟨fun _ => .labelAttribute l r, fun _ => rfl⟩
  | versionedVar n v => exact ⟨fun _ => .versionedVar n v, fun _ => rfl⟩
  | text k a => exact ⟨fun _ => .text k a, fun _ => rfl⟩
  | uuid f => cases f with
    | nil => exact ⟨fun _ => .uuid, fun _ => rfl⟩
    | cons a f => exact ⟨nofun, nofun⟩
  | _ => exact ⟨nofun, nofun⟩

/-- A text search deep in a list, and an expression without any. -/
example (bits : F64 → Nat) (k : TextKind) (a : TextArg) : encode bits (.binary .eq (.coll .list [.label [97], .text k a]) (.label [98])) = none ∧
    encode bits (.binary .eq (.coll .list [.label [97], .uuid [98]]) (.label [98])) ≠ none := by
  refine ⟨(C36_fatal bits _).2 ⟨.text k a, by simp [subs, subsL], .text k a⟩, ?_⟩
  rw [Ne, C36_fatal]
  simp only [subs, subsL, List.mem_cons, List.mem_append, List.not_mem_nil, or_false]
  rintro ⟨x, h, hx⟩
  rcases h with rfl | (rfl | rfl | rfl) | rfl <;> cases hx
end Expr
end Nebula
