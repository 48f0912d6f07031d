import Verif.Names.Model
import Verif.Expr.CodecLemmas
/-!
# C150: the names printed for codes, kinds and types tell them apart

The tables are finite, so that what is said of their rows is settled by computation in the kernel; the statements range over every number
an enumeration can hold and over every value.
-/
namespace Nebula
namespace Names

theorem codes_nodup : (codes.map (·.2)).Nodup := by decide +kernel
theorem names_nodup : (codes.map (·.1)).Nodup := by decide +kernel
theorem names_known : "Unknown error" ∉ codes.map (·.1) := by decide +kernel

private theorem nodup_snd {α β γ : Type} {f : α → β} {g : α → γ} {l : List α} (hf : (l.map f).Nodup) {a b : α} (ha : a ∈ l) (hb : b ∈ l) (h : f a = f b) : g a = g b := by
  induction l with
  | nil => simp at ha
  | cons x xs ih =>
    simp only [List.map_cons, List.nodup_cons, List.mem_map, not_exists, not_and] at hf
    rcases List.mem_cons.mp ha with ea | ha' <;> rcases List.mem_cons.mp hb with eb | hb'
    · rw [ea, eb]
    · exact absurd (h.symm.trans (by rw [ea])) (hf.1 b hb')
    · exact absurd (h.trans (by rw [eb])) (hf.1 a ha')
    · exact ih hf.2 ha' hb'

/-- **C150 (one table).** The program and the interface file declare the same error codes under the same names. -/
theorem C150_declared (n : String) (c : Int) : (n, c) ∈ codes ↔ (n, c) ∈ idlCodes := by
  have : codes = idlCodes := rfl
  rw [this]

/-- **C150 (codes are distinct).** Two error codes have the same name exactly if they have the same number. -/
theorem C150_codes {n m : String} {c d : Int} (h : (n, c) ∈ codes) (h' : (m, d) ∈ codes) : n = m ↔ c = d :=
  ⟨fun e => nodup_snd (g := (·.2)) names_nodup h h' e, fun e => nodup_snd (g := (·.1)) codes_nodup h h' e⟩

example : ("E_LEADER_CHANGED", -4) ∈ codes ∧ ("E_PART_NOT_FOUND", -16) ∈ codes := by decide +kernel

/-- **C150 (success).** There is one code for success, 0, and all others are negative. -/
theorem C150_success {n : String} {c : Int} (h : (n, c) ∈ codes) : (c = 0 ↔ n = "SUCCEEDED") ∧ (c ≠ 0 → c < 0) := by
  have hall : ∀ e ∈ codes, (e.2 = 0 ↔ e.1 = "SUCCEEDED") ∧ (e.2 ≠ 0 → e.2 < 0) := by decide +kernel
  exact hall _ h

/-- **C150 (text of a code).** For every number a code can be, the text is the name declared for it, and "Unknown error" if none is. -/
theorem C150_text (c : Int) : (∃ n, (n, c) ∈ codes ∧ errorCode c = n) ∨ ((∀ n, (n, c) ∉ codes) ∧ errorCode c = "Unknown error") := by
  unfold errorCode errorCodeIn
  cases h : codes.find? fun e => e.2 == c with
  | some e =>
    have h1 := List.mem_of_find?_eq_some h
    have h2 : e.2 = c := by simpa using List.find?_some h
    subst h2
    exact .inl ⟨e.1, h1, rfl⟩
  | none =>
    refine .inr ⟨fun n hn => ?_, rfl⟩
    have := List.find?_eq_none.mp h _ hn
    simp at this

/-- **C150 (text tells the code).** A number that prints like a declared code is that code. -/
theorem C150_text_inj {n : String} {c d : Int} (h : (n, c) ∈ codes) (he : errorCode d = errorCode c) : d = c := by
  have hc : errorCode c = n := by
    rcases C150_text c with ⟨m, hm, e⟩ | ⟨hn, _⟩
    · rw [e]; exact (C150_codes hm h).mpr rfl
    · exact absurd h (hn n)
  rcases C150_text d with ⟨m, hm, e⟩ | ⟨_, e⟩
  · exact (C150_codes hm h).mp (by rw [← e, he, hc])
  · exfalso
    apply names_known
    rw [← e, he, hc]
    exact List.mem_map_of_mem (f := (·.1)) h

example : errorCode 0 = "SUCCEEDED" ∧ errorCode 7 = "Unknown error" := by decide +kernel

theorem kind_names_nodup : (Expr.kinds.map kindName).Nodup := by decide +kernel
theorem kind_names_ne : ∀ k ∈ Expr.kinds, kindName k ≠ [] := by decide +kernel

/-- **C150 (kinds of expressions).** Different kinds print different names, and nothing is printed for a byte that is no kind. -/
theorem C150_kinds (b b' : Nat) : (kindText b = [] ↔ Expr.kinds.length ≤ b) ∧ (kindText b = kindText b' → b < Expr.kinds.length → b = b') := by
  have hne : kindText b = [] ↔ Expr.kinds.length ≤ b := by
    unfold kindText
    cases h : Expr.kinds[b]? with
    | none => simpa using h
    | some k =>
      obtain ⟨hb, _⟩ := List.getElem?_eq_some_iff.mp h
      exact ⟨fun e => absurd e (kind_names_ne k (List.mem_of_getElem? h)), fun e => by omega⟩
  refine ⟨hne, fun h hb => ?_⟩
  have hb' : b' < Expr.kinds.length := by
    rcases Nat.lt_or_ge b' Expr.kinds.length with h' | h'
    · exact h'
    · have e : kindText b' = [] := by
        unfold kindText
        rw [List.getElem?_eq_none h']
      rw [e] at h
      have := hne.mp h
      omega
  unfold kindText at h
  rw [List.getElem?_eq_getElem hb, List.getElem?_eq_getElem hb'] at h
  exact (List.getElem_inj (h₀ := by simpa using hb) (h₁ := by simpa using hb') kind_names_nodup).mp (by simpa using h)

example : kindText 11 = ascii "Equal" ∧ kindText 68 = ascii "SubscriptRange" ∧ kindText 69 = [] := by decide +kernel

/-- **C150 (every kind is named).** The kind of every expression has its place among the bytes, and the text for that byte is its name. -/
theorem C150_kinds_all (k : Kind) : ∃ b, b < 69 ∧ Expr.putKind k = [UInt8.ofNat b] ∧ kindText b = kindName k ∧ ∀ k', kindName k' = kindName k → k' = k := by
  have hl : Expr.kinds.length = 69 := rfl
  have hk : ∀ k : Kind, Expr.kinds[Expr.kindNum k]? = some k := fun k => (Expr.kinds_num k).1
  have ht : ∀ k : Kind, kindText (Expr.kindNum k) = kindName k := fun k => by unfold kindText; rw [hk]
  have hlt : ∀ k : Kind, Expr.kindNum k < 69 := fun k => hl ▸ (List.getElem?_eq_some_iff.mp (hk k)).1
  refine ⟨Expr.kindNum k, hlt k, rfl, ht k, fun k' h => ?_⟩
  have e := (C150_kinds (Expr.kindNum k') (Expr.kindNum k)).2 (by rw [ht, ht, h]) (hl ▸ hlt k')
  have := hk k'
  rw [e, hk k] at this
  exact (Option.some.inj this).symm

/-- The types of values (Value.h:63-80). -/
def types : List Nat := [1, 2, 4, 8, 16, 32, 64, 128, 256, 512, 1024, 2048, 4096, 8192, 16384, 9223372036854775808]

/-- **C150 (types in expressions).** Different types print different names; what is no type prints `__UNKNOWN__`, and no type does. -/
theorem C150_type_text (t t' : Nat) : (Expr.typeName t = ascii "__UNKNOWN__" ↔ t ∉ types) ∧ (Expr.typeName t = Expr.typeName t' → t ∈ types → t = t') := by
  have hno : ∀ t, t ∉ types → Expr.typeName t = ascii "__UNKNOWN__" := by
    intro t ht
    simp only [types, List.mem_cons, List.not_mem_nil, or_false, not_or] at ht
    simp only [Expr.typeName, ht, if_false]
  have hyes : ∀ t ∈ types, Expr.typeName t ≠ ascii "__UNKNOWN__" := by decide +kernel
  have hinj : ∀ t ∈ types, ∀ t' ∈ types, Expr.typeName t = Expr.typeName t' → t = t' := by decide +kernel
  refine ⟨⟨fun h ht => hyes t ht h, hno t⟩, fun h ht => ?_⟩
  by_cases ht' : t' ∈ types
  · exact hinj t ht t' ht' h
  · exact absurd (h.trans (hno t' ht')) (hyes t ht)

/-- **C150 (types of values).** Two values that are not null have the same type name exactly if they are of the same type, and no null has such a name; two nulls
have the same name exactly if they are of the same kind. -/
theorem C150_value_types (v w : Value) :
    ((∀ n, v ≠ .null n) → (valueTypeName v = valueTypeName w ↔ v.typeFlag = w.typeFlag)) ∧
    (∀ a b, valueTypeName (.null a) = valueTypeName (.null b) ↔ a = b) := by
  constructor
  · intro hv
    cases v <;> first
      | (rename_i a; exact absurd rfl (hv a))
      | (cases w <;> first
          | (rename_i a; cases a <;> simp only [valueTypeName, nullName, Value.typeFlag] <;> decide +kernel)
          | (simp only [valueTypeName, Value.typeFlag] <;> decide +kernel))
  · intro a b
    cases a <;> cases b <;> simp only [valueTypeName, nullName] <;> decide +kernel

/-- **C150 (no type is unknown), for the nulls the table has.** -/
theorem C150_type_known_partial (v : Value) (h : v ≠ .null .outOfRange) : valueTypeName v ≠ ascii "__UNKNOWN__" := by
  cases v <;> first
    | (rename_i a; cases a <;> first | exact absurd rfl h | (simp only [valueTypeName, nullName]; decide +kernel))
    | (simp only [valueTypeName]; decide +kernel)

/-- **C150 fails for the null of overflowing ranges:** its type is reported as unknown, though it is a value like any other. -/
theorem C150_type_known_violated : valueTypeName (.null .outOfRange) = ascii "__UNKNOWN__" := rfl

end Names
end Nebula
