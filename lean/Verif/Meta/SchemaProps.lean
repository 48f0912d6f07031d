import Verif.Meta.Schema
/-! # C56: the layout of schemas -/
namespace Nebula
namespace Meta

variable {E : Type}

/-- The size of a column as documented: fixed strings take their length, strings an offset and a length of four bytes each. -/
def Col.bytes (c : Col E) : Nat := match c.type with
  | .bool => 1 | .int8 => 1 | .int16 => 2 | .int32 => 4 | .int64 => 8 | .vid => 8 | .timestamp => 8
  | .float => 4 | .double => 8 | .string => 8 | .fixedString => c.len | .date => 4 | .time => 7 | .datetime => 11
  | .unknown => 0

/-- A column a schema can have. -/
def Col.Ok (c : Col E) : Prop := c.type ≠ .unknown ∧ (c.type = .fixedString → 0 < c.len)

/-- The bytes of some columns together. -/
def total (cs : List (Col E)) : Nat := (cs.map Col.bytes).sum

/-- The nullable ones of some columns. -/
def nullables (cs : List (Col E)) : Nat := cs.countP Col.nullable

theorem fieldSize_ok (c : Col E) : fieldSize c.type c.len = if c.type ≠ .unknown ∧ (c.type = .fixedString → 0 < c.len) then some c.bytes else none := by
  unfold Col.bytes
  cases h : c.type <;> simp [fieldSize]

structure Schema.Inv (cs : List (Col E)) (s : Schema E) : Prop where
  len : s.fields.length = cs.length
  field : ∀ (i : Nat) (c : Col E), cs[i]? = some c → s.fields[i]? = some ⟨c.name, c.type, c.nullable, c.dflt.isSome, c.dflt, c.bytes, total (cs.take i),
    if c.nullable then nullables (cs.take i) else 0⟩
  size : s.size = total cs
  nulls : s.numNullable = nullables cs
  index : ∀ n : Bytes, s.index.find n = cs.findIdx? (fun c => c.name == n)

theorem total_append (a b : List (Col E)) : total (a ++ b) = total a + total b := by simp [total]

theorem addField_inv {cs : List (Col E)} {s s' : Schema E} {c : Col E} (hi : Schema.Inv cs s) (h : addField s c = some s') :
    c.Ok ∧ Schema.Inv (cs ++ [c]) s' ∧ s'.ver = s.ver := by
  unfold addField at h
  rw [fieldSize_ok] at h
  by_cases hok : c.type ≠ .unknown ∧ (c.type = .fixedString → 0 < c.len)
  · rw [if_pos hok] at h
    rw [Option.map_some] at h
    cases h
    refine ⟨hok, ⟨?_, ?_, ?_, ?_, ?_⟩, rfl⟩
    · simp [hi.len]
    · intro i d hd
      by_cases hlt : i < cs.length
      · rw [List.getElem?_append_left hlt] at hd
        dsimp only
        rw [List.getElem?_append_left (by rw [hi.len]; exact hlt), List.take_append_of_le_length (by omega)]
        exact hi.field i d hd
      · rw [List.getElem?_append_right (by omega)] at hd
        have : i = cs.length := by
          cases hk : i - cs.length with
          | zero => omega
          | succ k => rw [hk] at hd; simp at hd
        subst this
        simp at hd
        subst hd
        dsimp only
        rw [List.getElem?_append_right (by rw [hi.len]; exact Nat.le_refl _), hi.len, Nat.sub_self]
        simp [hi.size, hi.nulls]
    · rw [total_append, ← hi.size]
      conv => lhs; unfold Schema.size
      dsimp only
      rw [List.getLast?_append]
      simp [total]
      rfl
    · dsimp only
      unfold nullables
      rw [List.countP_append, ← nullables, hi.nulls]
      cases hc : c.nullable <;> simp [hc, nullables]
    · intro n
      dsimp only
      rw [AMap.find_emplace, List.findIdx?_append, hi.index, hi.index, hi.len]
      by_cases e : c.name = n
      · subst e
        rw [if_pos rfl]
        cases cs.findIdx? (fun d => d.name == c.name) with
        | some i => rfl
        | none => simp
      · rw [if_neg e]
        cases cs.findIdx? (fun d => d.name == n) with
        | some i => rfl
        | none => simp [e]
  · rw [if_neg hok] at h; cases h

theorem addFields_inv : ∀ (ds cs : List (Col E)) (s s' : Schema E), Schema.Inv cs s → addFields s ds = some s' →
    (∀ c ∈ ds, c.Ok) ∧ Schema.Inv (cs ++ ds) s' ∧ s'.ver = s.ver
  | [], cs, s, s', hi, h => by
    rw [addFields] at h; cases h
    exact ⟨by simp, by simpa using hi, rfl⟩
  | d :: ds, cs, s, s', hi, h => by
    rw [addFields] at h
    obtain ⟨t, h1, h2⟩ := Option.bind_eq_some_iff.1 h
    obtain ⟨a1, a2, a3⟩ := addField_inv hi h1
    obtain ⟨b1, b2, b3⟩ := addFields_inv ds _ _ _ a2 h2
    refine ⟨?_, by simpa using b2, b3.trans a3⟩
    intro c hc
    rcases List.mem_cons.1 hc with rfl | hc
    · exact a1
    · exact b1 c hc

theorem new_inv (ver : Int) : Schema.Inv ([] : List (Col E)) (newSchema ver) :=
  ⟨rfl, by intro i c h; simp at h, rfl, rfl, fun _ => rfl⟩

theorem schema_inv {ver : Int} {cs : List (Col E)} {s : Schema E} (h : addFields (newSchema ver) cs = some s) : Schema.Inv cs s := by
  have := (addFields_inv cs [] _ s (new_inv ver) h).2.1
  simpa using this

/-- **C56.** A schema can be made exactly of columns with a known type and fixed strings of positive length. -/
theorem C56_made (ver : Int) (cs : List (Col E)) : (addFields (newSchema ver) cs).isSome ↔ ∀ c ∈ cs, c.Ok := by
  constructor
  · intro h
    obtain ⟨s, hs⟩ := Option.isSome_iff_exists.1 h
    exact (addFields_inv cs [] _ s (new_inv ver) hs).1
  · intro h
    generalize newSchema ver = s
    induction cs generalizing s with
    | nil => rfl
    | cons c cs ih =>
      rw [addFields]
      have hc : c.type ≠ .unknown ∧ (c.type = .fixedString → 0 < c.len) := h c List.mem_cons_self
      unfold addField
      rw [fieldSize_ok, if_pos hc]
      exact ih (fun d hd => h d (List.mem_cons_of_mem _ hd)) _

/-- **C56.** The fields are the columns in their order, each with the size of its type, at the offset where the fields before it end; the
record is as long as all fields together. -/
theorem C56_layout {ver : Int} {cs : List (Col E)} {s : Schema E} (h : addFields (newSchema ver) cs = some s) :
    s.fields.length = cs.length ∧ s.size = total cs ∧
    ∀ i c, cs[i]? = some c → ∃ f, s.fields[i]? = some f ∧ f.name = c.name ∧ f.type = c.type ∧ f.nullable = c.nullable ∧ f.dflt = c.dflt ∧
      (f.hasDefault = true ↔ c.dflt ≠ none) ∧ f.size = c.bytes ∧ f.offset = total (cs.take i) := by
  have hi := schema_inv h
  refine ⟨hi.len, hi.size, fun i c hc => ⟨_, hi.field i c hc, rfl, rfl, rfl, rfl, ?_, rfl, rfl⟩⟩
  cases c.dflt <;> simp

theorem take_split {cs : List (Col E)} {i j : Nat} (hlt : i < cs.length) (hij : i < j) :
    cs.take i ++ cs[i] :: (cs.take j).drop (i + 1) = cs.take j := by
  have hl : i < (cs.take j).length := by rw [List.length_take]; omega
  conv => rhs; rw [← List.take_append_drop i (cs.take j)]
  rw [List.take_take, Nat.min_eq_left (by omega), List.drop_eq_getElem_cons hl]
  simp

theorem total_take_le {cs : List (Col E)} {i : Nat} {c : Col E} (hc : cs[i]? = some c) {j : Nat} (hij : i < j) :
    total (cs.take i) + c.bytes ≤ total (cs.take j) := by
  obtain ⟨hlt, rfl⟩ := List.getElem?_eq_some_iff.1 hc
  rw [← take_split hlt hij, total_append]
  simp only [total, List.map_cons, List.sum_cons]
  omega
/-- **C56.** Different fields occupy different bytes, inside the record; nullable fields have different flags, the positions of which are
0, 1, ... in the order of the fields. -/
theorem C56_disjoint {ver : Int} {cs : List (Col E)} {s : Schema E} (h : addFields (newSchema ver) cs = some s) :
    (∀ (i j : Nat) f g, s.fields[i]? = some f → s.fields[j]? = some g → i < j → f.offset + f.size ≤ g.offset) ∧
    (∀ (i : Nat) f, s.fields[i]? = some f → f.offset + f.size ≤ s.size) ∧
    (∀ (i j : Nat) f g, s.fields[i]? = some f → s.fields[j]? = some g → i < j → f.nullable = true → g.nullable = true →
      f.nullFlagPos < g.nullFlagPos) ∧
    (∀ (i : Nat) f, s.fields[i]? = some f → f.nullable = true → f.nullFlagPos = nullables (cs.take i)) ∧
    (∀ (i : Nat) f, s.fields[i]? = some f → f.nullable = true → f.nullFlagPos < s.numNullable) ∧
    s.numNullable = nullables cs := by
  have hi := schema_inv h
  have hget : ∀ (i : Nat) f, s.fields[i]? = some f → ∃ c, cs[i]? = some c ∧ f = ⟨c.name, c.type, c.nullable, c.dflt.isSome, c.dflt, c.bytes,
      total (cs.take i), if c.nullable then nullables (cs.take i) else 0⟩ := by
    intro i f hf
    have hlt := (List.getElem?_eq_some_iff.1 hf).1
    rw [hi.len] at hlt
    have hc : cs[i]? = some cs[i] := List.getElem?_eq_getElem hlt
    have := hi.field i _ hc
    rw [hf] at this
    exact ⟨_, hc, Option.some.inj this⟩
  have hnull : ∀ (i : Nat) c, cs[i]? = some c → c.nullable = true → ∀ j, i < j → nullables (cs.take i) < nullables (cs.take j) := by
    intro i c hc hn j hij
    obtain ⟨hlt, rfl⟩ := List.getElem?_eq_some_iff.1 hc
    have e := take_split hlt hij
    rw [← e]
    unfold nullables
    rw [List.countP_append, List.countP_cons_of_pos hn]
    omega
  refine ⟨?_, ?_, ?_, ?_, ?_, hi.nulls⟩
  · intro i j f g hf hg hij
    obtain ⟨c, hc, rfl⟩ := hget i f hf
    obtain ⟨d, hd, rfl⟩ := hget j g hg
    exact total_take_le hc hij
  · intro i f hf
    obtain ⟨c, hc, rfl⟩ := hget i f hf
    have hlt := (List.getElem?_eq_some_iff.1 hc).1
    have := total_take_le hc hlt
    rw [List.take_length] at this
    rw [hi.size]; exact this
  · intro i j f g hf hg hij hfn hgn
    obtain ⟨c, hc, rfl⟩ := hget i f hf
    obtain ⟨d, hd, rfl⟩ := hget j g hg
    dsimp only at hfn hgn ⊢
    rw [if_pos hfn, if_pos hgn]
    exact hnull i c hc hfn j hij
  · intro i f hf hn
    obtain ⟨c, hc, rfl⟩ := hget i f hf
    dsimp only at hn ⊢
    rw [if_pos hn]
  · intro i f hf hn
    obtain ⟨c, hc, rfl⟩ := hget i f hf
    dsimp only at hn ⊢
    rw [if_pos hn, hi.nulls]
    have := hnull i c hc hn cs.length (List.getElem?_eq_some_iff.1 hc).1
    rwa [List.take_length] at this

/-- **C56.** Lookups agree: a name stands for the first column of that name, an index for the field there; everything else is
reported as missing. -/
theorem C56_lookup {ver : Int} {cs : List (Col E)} {s : Schema E} (h : addFields (newSchema ver) cs = some s) :
    (∀ n, (∀ c ∈ cs, c.name ≠ n) → s.getFieldIndex n = -1 ∧ s.fieldNamed n = none ∧ s.typeNamed n = .unknown) ∧
    (∀ n (i : Nat) c, cs[i]? = some c → c.name = n → (∀ d ∈ cs.take i, d.name ≠ n) →
      s.getFieldIndex n = i ∧ s.fieldNamed n = s.fieldAt i ∧ s.typeNamed n = c.type ∧ s.typeAt i = c.type) ∧
    (∀ i : Int, s.fieldAt i = if 0 ≤ i then s.fields[i.toNat]? else none) ∧
    (∀ i : Int, (i < 0 ∨ cs.length ≤ i) → s.fieldAt i = none ∧ s.typeAt i = .unknown) ∧
    s.iterate (s.fields.length + 1) 0 = s.fields := by
  have hi := schema_inv h
  have hat : ∀ i : Int, s.fieldAt i = if 0 ≤ i then s.fields[i.toNat]? else none := by
    intro i
    unfold Schema.fieldAt
    by_cases h0 : i < 0
    · rw [if_pos h0, if_neg (by omega)]
    · have h0' : 0 ≤ i := by omega
      rw [if_neg h0, if_pos h0']
      split
      · rename_i hge
        rw [List.getElem?_eq_none (by omega)]
      · rfl
  refine ⟨?_, ?_, hat, ?_, ?_⟩
  · intro n hn
    have : s.index.find n = none := by
      rw [hi.index, List.findIdx?_eq_none_iff]
      intro c hc; simpa using hn c hc
    unfold Schema.getFieldIndex Schema.fieldNamed Schema.typeNamed
    rw [this]; exact ⟨rfl, rfl, rfl⟩
  · intro n i c hc hcn hd
    obtain ⟨hlt, hce⟩ := List.getElem?_eq_some_iff.1 hc
    have : s.index.find n = some i := by
      rw [hi.index, List.findIdx?_eq_some_iff_getElem]
      refine ⟨hlt, by rw [hce]; simp [hcn], ?_⟩
      intro j hj
      have := hd cs[j] (by rw [List.mem_take_iff_getElem]; exact ⟨j, by omega, rfl⟩)
      simpa using this
    have hf := hi.field i c hc
    unfold Schema.getFieldIndex Schema.fieldNamed Schema.typeNamed Schema.typeAt
    have h0 : (0 : Int) ≤ i := by omega
    have h1 : ¬ ((i : Int) < 0 ∨ (i : Int) ≥ s.fields.length) := by rw [hi.len]; omega
    rw [this, hat, if_pos h0, if_neg h1]
    dsimp only [Option.bind_some]
    rw [Int.toNat_natCast, hf]
    exact ⟨rfl, rfl, rfl, rfl⟩
  · intro i hx
    constructor
    · rw [hat]
      split
      · rw [List.getElem?_eq_none (by rw [hi.len]; omega)]
      · rfl
    · unfold Schema.typeAt
      rw [if_pos (by rw [hi.len]; omega)]
  · have key : ∀ n k : Nat, k + n = s.fields.length + 1 → s.iterate n k = s.fields.drop k := by
      intro n
      induction n with
      | zero => intro k hk; rw [List.drop_eq_nil_of_le (by omega)]; rfl
      | succ n ih =>
        intro k hk
        rw [Schema.iterate, hat, if_pos (by omega), Int.toNat_natCast]
        by_cases hlt : k < s.fields.length
        · rw [List.getElem?_eq_getElem hlt, List.drop_eq_getElem_cons hlt]
          dsimp only
          rw [← ih (k + 1) (by omega)]
          rfl
        · rw [List.getElem?_eq_none (by omega), List.drop_eq_nil_of_le (by omega)]
    simpa using key (s.fields.length + 1) 0 (by omega)

example : ∃ s, addFields (newSchema (E := Unit) 3) [⟨ascii "a", .int32, 0, true, none⟩, ⟨ascii "b", .fixedString, 5, false, none⟩,
    ⟨ascii "c", .datetime, 0, true, some ()⟩] = some s ∧ s.size = 20 ∧ s.fields.map (·.offset) = [0, 4, 9] ∧
    s.getFieldIndex (ascii "c") = 2 ∧ s.getFieldIndex (ascii "d") = -1 :=
  ⟨_, rfl, by decide +kernel, by decide +kernel, by decide +kernel, by decide +kernel⟩

end Meta
end Nebula
