import Verif.Func.Spec
/-!
# Properties of the function table: lookup and arity (C82)
-/
namespace Nebula
namespace Func

theorem all_complete (f : Fn) : f ∈ Fn.all := by cases f <;> decide

theorem name_inj : ∀ f ∈ Fn.all, ∀ g ∈ Fn.all, ascii f.name = ascii g.name → f = g := by decide +kernel
theorem name_lower : ∀ f ∈ Fn.all, (ascii f.name).map Value.toLower = ascii f.name := by decide +kernel

theorem lookup_iff (n : Bytes) (f : Fn) : lookup n = some f ↔ SameName n (ascii f.name) := by
  unfold lookup SameName
  rw [name_lower f (all_complete f)]
  constructor
  · intro h
    have := List.find?_some h
    simpa using (beq_iff_eq.1 this).symm
  · intro h
    cases hf : Fn.all.find? (fun g => ascii g.name == n.map Value.toLower) with
    | none =>
      have := List.find?_eq_none.1 hf f (all_complete f)
      exact absurd (by simp [h]) this
    | some g =>
      have h2 := List.find?_some hf
      have := beq_iff_eq.1 h2
      rw [name_inj g (all_complete g) f (all_complete f) (this.trans h)]

/-- C82 (every registered function is found under its name in any case, and nothing else is): -/
theorem C82_lookup (n : Bytes) (k : Nat) (f : Fn) :
    getInternal n k = some f ↔ SameName n (ascii f.name) ∧ f.minArity ≤ k ∧ k ≤ f.maxArity := by
  unfold getInternal
  constructor
  · intro h
    split at h
    · cases h
    · rename_i g hg
      split at h
      · cases h
      · injection h with h; subst h
        exact ⟨(lookup_iff n g).1 hg, by omega, by omega⟩
  · rintro ⟨h, h1, h2⟩
    rw [(lookup_iff n f).2 h]
    dsimp only
    rw [if_neg (by omega)]

/-- C82: case does not matter. -/
theorem C82_case (m n : Bytes) (k : Nat) (h : SameName m n) : getInternal m k = getInternal n k := by
  unfold getInternal lookup; rw [show m.map Value.toLower = n.map Value.toLower from h]

example : getInternal (ascii "SubStr") 2 = some .substr := by decide +kernel
example : getInternal (ascii "SUBSTR") 1 = none := by decide +kernel
example : getInternal (ascii "sub") 1 = none := by decide +kernel

theorem arg_lt {args : List Value} {i : Nat} (h : i < args.length) (k : Value → Res) :
    arg args i k = k args[i] := by unfold arg; simp [h]

/-- C82 (an accepted call never reads an argument that was not passed): -/
theorem C82_arguments_present (L : FLib) (w : World) (n : Bytes) (args : List Value) :
    call L w n args ≠ some .noArg := by
  intro hc
  unfold call at hc
  cases hg : getInternal n args.length with
  | none => rw [hg] at hc; cases hc
  | some f =>
    rw [hg] at hc
    have hb : body L w f args = .noArg := by simpa using hc
    obtain ⟨-, h1, h2⟩ := (C82_lookup n args.length f).1 hg
    clear hg hc
    have ofOpt_ne : ∀ o, ofOpt o ≠ .noArg := by intro o; cases o <;> simp [ofOpt]
    have pad_ne : ∀ j v s x, pad j v s x ≠ .noArg := by
      intro j v s x; unfold pad; repeat' split
      all_goals simp
    have range_ne : ∀ a b s, rangeFn a b s ≠ .noArg := by
      intro a b s; unfold rangeFn rangeFn.go; repeat' split
      all_goals simp [badType, badData]
    have ts_ne : ∀ v, toTimestamp L v ≠ .noArg := by
      intro v; unfold toTimestamp checkTimestamp; repeat' split
      all_goals simp [badType, badData]
    have hash_ne : ∀ v, hashFn L v ≠ .noArg := by
      intro v; unfold hashFn; repeat' split
      all_goals first | exact ofOpt_ne _ | simp [badType]
    have row_ne : ∀ c r i j, rowCol c r i j ≠ .noArg := by
      intro c r i j; unfold rowCol; repeat' split
      all_goals first | exact ofOpt_ne _ | simp [badData]
    have ofR_ne : ∀ {α : Type} (r : R α) k, ofR r k ≠ .noArg := by
      intro α r k; cases r <;> simp [ofR, badData, ofOpt_ne]
    rcases args with _ | ⟨a, _ | ⟨b, _ | ⟨c, _ | ⟨d, args⟩⟩⟩⟩ <;>
      simp only [List.length_nil, List.length_cons] at h1 h2 <;>
      cases f <;> simp only [Fn.minArity, Fn.maxArity] at h1 h2 <;> first
        | omega
        | (simp only [body, arg, math1, mathLog, str1, lpad, rpad, substrFn, List.getElem?_cons_zero,
            List.getElem?_cons_succ, List.length_nil, List.length_cons] at hb
           repeat' split at hb
           all_goals first
             | exact ofOpt_ne _ hb
             | exact pad_ne _ _ _ _ hb
             | exact range_ne _ _ _ hb
             | exact ts_ne _ hb
             | exact hash_ne _ hb
             | exact row_ne _ _ _ _ hb
             | exact ofR_ne _ _ hb
             | omega
             | contradiction
             | (simp [badType, badData, nullRes] at hb; done)
             | cases hb)

example : (getInternal (ascii "range") 3).isSome := by decide +kernel

/-- The numbers of arguments of the declared signatures. -/
def sigArities (f : Fn) : List Nat := (f.sigs.getD []).map fun s => s.1.length

/-- C82 (the table of signatures and the accepted numbers of arguments agree): for a function with
declared signatures, a number of arguments is accepted exactly if some signature has it. -/
theorem C82_signature_arity (f : Fn) (h : f.sigs ≠ none) (k : Nat) :
    k ∈ sigArities f ↔ f.minArity ≤ k ∧ k ≤ f.maxArity := by
  cases f <;> first
    | exact absurd rfl h
    | (simp [sigArities, Fn.sigs, Fn.minArity, Fn.maxArity, Fn.floatSigs, Fn.float2Sigs]; try omega)

example : Fn.sigs .substr ≠ none := by decide

end Func
end Nebula
