import Verif.Meta.SchemaIter
import Verif.Meta.SchemaProps
/-! # C146: iterators over schemas, names of fields and the life time of records -/
namespace Nebula
namespace Meta

variable {E : Type}

/-- What a program can do with an iterator: go on by one, or by a number of steps. -/
inductive Move where
  | incr
  | plus (steps : UInt16)

/-- The number of fields a move goes on by. -/
def Move.steps : Move → Nat
  | .incr => 1
  | .plus n => n.toNat

def Move.run (schemas : Nat → Schema E) (it : Iter E) : Move → Iter E
  | .incr => it.incr schemas
  | .plus n => (it.plus schemas n).2

/-- The field an iterator must be at after these moves from the `k`-th on: `none` at the end, where moves have no effect. -/
def landing (n : Nat) : Nat → List Move → Option Nat
  | k, [] => if k < n then some k else none
  | k, m :: ms => if k < n then landing n (k + m.steps) ms else none

theorem fieldAt_nat (s : Schema E) (k : Nat) : s.fieldAt (k : Int) = s.fields[k]? := by
  unfold Schema.fieldAt
  rw [if_neg (by omega)]
  split
  · rw [List.getElem?_eq_none (by omega)]
  · simp

theorem at_nat (schemas : Nat → Schema E) (p k : Nat) : Iter.at schemas p (k : Int) = ⟨p, k, (schemas p).fields[k]?⟩ := by
  simp [Iter.at, fieldAt_nat]

theorem run_move (schemas : Nat → Schema E) (p k : Nat) (m : Move) (hk : k < (schemas p).fields.length) :
    m.run schemas (Iter.at schemas p (k : Int)) = Iter.at schemas p ((k + m.steps : Nat) : Int) := by
  have h : ((schemas p).fieldAt (k : Int)).isSome := by simp [fieldAt_nat, hk]
  cases m with
  | incr => simp [Move.run, Iter.incr, Iter.at, h, Move.steps]
  | plus n => simp [Move.run, Iter.plus, Iter.at, h, Move.steps]

theorem run_end (schemas : Nat → Schema E) (p k : Nat) (m : Move) (hk : (schemas p).fields.length ≤ k) :
    m.run schemas (Iter.at schemas p (k : Int)) = Iter.at schemas p (k : Int) := by
  have h : (schemas p).fields[k]? = none := List.getElem?_eq_none hk
  cases m <;> simp [Move.run, Iter.incr, Iter.plus, at_nat, h]

theorem runs (schemas : Nat → Schema E) (p : Nat) : ∀ (ms : List Move) (k : Nat), ∃ j, ms.foldl (Move.run schemas) (Iter.at schemas p (k : Int)) = Iter.at schemas p (j : Nat) ∧
    landing (schemas p).fields.length k ms = if j < (schemas p).fields.length then some j else none := by
  intro ms
  induction ms with
  | nil => intro k; exact ⟨k, rfl, rfl⟩
  | cons m ms ih =>
    intro k
    by_cases hk : k < (schemas p).fields.length
    · obtain ⟨j, h1, h2⟩ := ih (k + m.steps)
      exact ⟨j, by rw [List.foldl_cons, run_move schemas p k m hk, h1], by rw [landing, if_pos hk, h2]⟩
    · obtain ⟨j, h1, _⟩ := ih k
      have hs : ∀ ms : List Move, ms.foldl (Move.run schemas) (Iter.at schemas p (k : Int)) = Iter.at schemas p (k : Int) := by
        intro ms
        induction ms with
        | nil => rfl
        | cons m ms ih => rw [List.foldl_cons, run_end schemas p k m (by omega), ih]
      exact ⟨k, hs _, by rw [landing, if_neg hk, if_neg hk]⟩

/-- **C146 (iteration).** After any moves from the beginning the iterator is at the field that many places on, or at the end; it converts to
true exactly if it is at a field, and equals the end iterator exactly if it is not. -/
theorem C146_moves (schemas : Nat → Schema E) (p : Nat) (ms : List Move) :
    let it := ms.foldl (Move.run schemas) (.begin schemas p)
    let j := landing (schemas p).fields.length 0 ms
    it.here = j.bind (fun k => (schemas p).fields[k]?) ∧ it.valid = j.isSome ∧ it.eq (.end schemas p) = !it.valid := by
  obtain ⟨j, h1, h2⟩ := runs schemas p ms 0
  dsimp only
  have hb : Iter.begin schemas p = Iter.at schemas p ((0 : Nat) : Int) := rfl
  rw [hb, h1, h2, at_nat]
  have he : Iter.end schemas p = ⟨p, (schemas p).fields.length, none⟩ := by
    unfold Iter.end; rw [at_nat, List.getElem?_eq_none (Nat.le_refl _)]
  rw [he]
  by_cases hj : j < (schemas p).fields.length
  · simp only [hj, if_true, Option.bind_some, Iter.valid, Option.isSome_some, Iter.eq, List.getElem?_eq_getElem hj]
    simp
    omega
  · simp only [hj, if_false, Option.bind_none, Iter.valid, Option.isSome_none, Iter.eq, List.getElem?_eq_none (Nat.le_of_not_lt hj)]
    simp

/-- **C146 (iteration).** The loop `for (it = begin(); it; ++it)` sees every field once, in order, and then stops. -/
theorem C146_loop (schemas : Nat → Schema E) (p k : Nat) :
    ((List.replicate k Move.incr).foldl (Move.run schemas) (.begin schemas p)).here = (schemas p).fields[k]? := by
  have h := (C146_moves schemas p (List.replicate k .incr)).1
  rw [h]
  have hl : ∀ k i : Nat, landing (schemas p).fields.length i (List.replicate k .incr) = if i + k < (schemas p).fields.length then some (i + k) else none := by
    intro k
    induction k with
    | zero => intro i; rfl
    | succ k ih =>
      intro i
      rw [List.replicate_succ, landing, show Move.incr.steps = 1 from rfl, ih, show i + 1 + k = i + (k + 1) by omega]
      by_cases h1 : i + (k + 1) < (schemas p).fields.length
      · rw [if_pos h1, if_pos (by omega)]
      · rw [if_neg h1]; split <;> rfl
  rw [hl, Nat.zero_add]
  by_cases h1 : k < (schemas p).fields.length
  · rw [if_pos h1, Option.bind_some]
  · rw [if_neg h1, Option.bind_none, List.getElem?_eq_none (by omega)]

/-- **C146 (comparison).** Two iterators made from the beginning by moves are equal exactly if they are over the same schema and at the same field, or
both at the end. -/
theorem C146_equal (schemas : Nat → Schema E) (p q : Nat) (ms ns : List Move) :
    (ms.foldl (Move.run schemas) (.begin schemas p)).eq (ns.foldl (Move.run schemas) (.begin schemas q)) = true ↔
    p = q ∧ landing (schemas p).fields.length 0 ms = landing (schemas q).fields.length 0 ns := by
  obtain ⟨j, h1, h2⟩ := runs schemas p ms 0
  obtain ⟨k, h3, h4⟩ := runs schemas q ns 0
  have hb : ∀ p, Iter.begin schemas p = Iter.at schemas p ((0 : Nat) : Int) := fun _ => rfl
  rw [hb, hb, h1, h2, h3, h4, at_nat, at_nat]
  simp only [Iter.eq, Bool.and_eq_true, beq_iff_eq, Bool.or_eq_true, Bool.not_eq_true', Option.isSome_eq_false_iff, Option.isNone_iff_eq_none, List.getElem?_eq_none_iff]
  constructor
  · rintro ⟨rfl, h⟩
    refine ⟨rfl, ?_⟩
    rcases h with h | h
    · rw [show j = k by omega]
    · rw [if_neg (by omega), if_neg (by omega)]
  · rintro ⟨rfl, h⟩
    refine ⟨rfl, ?_⟩
    by_cases hj : j < (schemas p).fields.length
    · rw [if_pos hj] at h
      by_cases hk : k < (schemas p).fields.length
      · rw [if_pos hk] at h; left; have := Option.some.inj h; omega
      · rw [if_neg hk] at h; cases h
    · rw [if_neg hj] at h
      by_cases hk : k < (schemas p).fields.length
      · rw [if_pos hk] at h; cases h
      · right; omega

/-- **C146 violated:** `it + n` moves `it` itself. -/
theorem C146_plus_violated (schemas : Nat → Schema E) (p : Nat) (n : UInt16) (hn : n ≠ 0) (h : (schemas p).fields ≠ []) :
    ((Iter.begin schemas p).plus schemas n).2 = ((Iter.begin schemas p).plus schemas n).1 ∧
    ((Iter.begin schemas p).plus schemas n).2.eq (.begin schemas p) = false := by
  refine ⟨rfl, ?_⟩
  have hpos : 0 < (schemas p).fields.length := List.length_pos_iff.2 h
  have hb : Iter.begin schemas p = ⟨p, 0, (schemas p).fields[0]?⟩ := at_nat schemas p 0
  have hn' : n.toNat ≠ 0 := fun h0 => hn (UInt16.toNat.inj h0)
  simp only [Iter.plus, hb, List.getElem?_eq_getElem hpos, Option.isSome_some, if_true, Iter.eq, beq_self_eq_true, Bool.true_and, Bool.not_true, Bool.and_false, Bool.or_false]
  simp [hn']

/-- **C146 (names).** The name of a field is the name of the column, if there is no NUL in it; no other index has a name. -/
theorem C146_name_partial {ver : Int} {cs : List (Col E)} {s : Schema E} (h : addFields (newSchema ver) cs = some s) (hz : ∀ c ∈ cs, (0 : UInt8) ∉ c.name) (i : Int) :
    s.nameAt i = if 0 ≤ i then (cs[i.toNat]?).map Col.name else none := by
  have hi := schema_inv h
  unfold Schema.nameAt
  by_cases h0 : 0 ≤ i
  · rw [if_pos h0]
    by_cases h1 : i.toNat < cs.length
    · rw [if_neg (by rw [hi.len]; omega)]
      have hc := List.getElem?_eq_getElem h1
      rw [hi.field _ _ hc, hc]
      simp only [Option.map_some, Option.some.injEq]
      have hx := hz _ (List.getElem_mem h1)
      exact cstr_of_no_nul hx
    · rw [if_pos (by rw [hi.len]; omega), List.getElem?_eq_none (by omega)]; rfl
  · rw [if_pos (by omega), if_neg h0]

/-- **C146 violated (names):** two fields that are told apart by `field(name)` have the same name by `getFieldName`. -/
theorem C146_name_violated (ver : Int) : ∃ (cs : List (Col E)) (s : Schema E) (a b : Bytes), addFields (newSchema ver) cs = some s ∧ a ≠ b ∧
    s.getFieldIndex a = 0 ∧ s.getFieldIndex b = 1 ∧ s.nameAt 0 = s.nameAt 1 :=
  ⟨[⟨[97], .int64, 0, false, none⟩, ⟨[97, 0], .int64, 0, false, none⟩], _, [97], [97, 0], rfl, by decide, rfl, rfl, rfl⟩

/-- **C146 (life time).** A schema has a life time exactly if a column that is not empty and a duration above 0 were set, and these are the ones reported. -/
theorem C146_ttl (p : SchemaProp) (col : Bytes) (d : Int) :
    p.ttlInfo = some (col, d) ↔ p.ttlCol = some col ∧ col ≠ [] ∧ p.ttlDuration = some d ∧ 0 < d := by
  rcases p with ⟨dur, c⟩
  unfold SchemaProp.ttlInfo
  cases c with
  | none => simp
  | some c =>
    cases dur with
    | none => simp
    | some t =>
      simp only [Option.getD_some, Option.some.injEq]
      constructor
      · intro h
        split at h
        · cases h
        · rename_i hn
          simp only [Option.some.injEq, Prod.mk.injEq] at h
          obtain ⟨rfl, rfl⟩ := h
          refine ⟨rfl, ?_, rfl, by omega⟩
          rintro rfl; exact hn (Or.inl rfl)
      · rintro ⟨rfl, h1, rfl, h2⟩
        rw [if_neg]
        rintro (h3 | h3)
        · exact h1 (List.isEmpty_iff.1 h3)
        · omega

/-- **C146 violated (life time):** the column of the life time need not be one of the schema, nor one that holds a time. -/
theorem C146_ttl_violated : ∃ (cs : List (Col E)) (s : Schema E) (p q : SchemaProp) (c d : Bytes), addFields (newSchema 0) cs = some s ∧
    p.ttlInfo = some (c, 1) ∧ s.fieldNamed c = none ∧ q.ttlInfo = some (d, 1) ∧ s.typeNamed d = .bool :=
  ⟨[⟨[97], .bool, 0, false, none⟩], _, ⟨some 1, some [98]⟩, ⟨some 1, some [97]⟩, [98], [97], rfl, rfl, rfl, rfl, rfl⟩

/-- The hypotheses are met: a schema of two columns; two steps from the beginning are at the end, one is at the second. -/
example : ∃ s : Schema Unit, addFields (newSchema 3) [⟨ascii "a", .int64, 0, false, none⟩, ⟨ascii "b", .string, 0, true, none⟩] = some s ∧ s.fields ≠ [] ∧
    landing s.fields.length 0 [.incr, .incr] = none ∧ landing s.fields.length 0 [.plus 1] = some 1 ∧ s.nameAt 1 = some (ascii "b") :=
  ⟨_, rfl, by simp, rfl, rfl, by decide +kernel⟩

end Meta
end Nebula
