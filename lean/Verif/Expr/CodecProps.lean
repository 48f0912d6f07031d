import Verif.Expr.DecodeLemmas
/-!
# Encoding and decoding of expressions (C36, C37)
-/
namespace Nebula
namespace Expr
open Wire (BitsOk Fits Plain)

/-! ## C36 -/

/-- Writing does not end the process. -/
theorem aborts_false (e : Expr) : Storable e → aborts e = false := by
  induction e using children_induction with
  | h e ih =>
    intro he
    have hk : ∀ x ∈ e.children, aborts x = false := fun x hx => ih x hx (he.kids x hx)
    have hall : ∀ es : List Expr, (∀ x ∈ es, aborts x = false) → abortsAll es = false := by
      intro es; induction es with
      | nil => intro _; rfl
      | cons a es ih => intro h; rw [abortsAll, h a (by simp), ih fun x hx => h x (by simp [hx])]; rfl
    have hopt : ∀ o : Option Expr, (∀ x ∈ o.toList, aborts x = false) → abortsOpt o = false := by
      intro o ho; cases o with
      | none => rfl
      | some x => exact ho x (by simp)
    have hh := he.here
    cases e with
    | unary o e => exact hk e (by simp [children])
    | binary o l r => rw [aborts, hk l (by simp [children]), hk r (by simp [children])]; rfl
    | logical o es => exact hall es hk
    | cast t e => exact hk e (by simp [children])
    | call n es => exact hall es hk
    | uuid f => cases f with
      | nil => exact absurd rfl hh.1
      | cons a f => rfl
    | coll k es => exact hall es hk
    | map kvs =>
      rw [aborts]
      have : ∀ kvs : List (Bytes × Expr), (∀ kv ∈ kvs, aborts kv.2 = false) → abortsEntries kvs = false := by
        intro es; induction es with
        | nil => intro _; rfl
        | cons a es ih => intro h; obtain ⟨k, e⟩ := a; rw [abortsEntries, h (k, e) (by simp), ih fun x hx => h x (by simp [hx])]; rfl
      exact this kvs fun kv hkv => hk kv.2 (List.mem_map_of_mem hkv)
    | case g c d cs =>
      rw [aborts, hopt c fun x hx => hk x (by simp only [children, List.mem_append]; exact .inl (.inl hx)),
        hopt d fun x hx => hk x (by simp only [children, List.mem_append]; exact .inl (.inr hx))]
      have : ∀ cs : List (Expr × Expr), (∀ x ∈ cs, aborts x.1 = false ∧ aborts x.2 = false) → abortsCases cs = false := by
        intro es; induction es with
        | nil => intro _; rfl
        | cons a es ih =>
          intro h; obtain ⟨k, e⟩ := a
          have := h (k, e) (by simp)
          rw [abortsCases, this.1, this.2, ih fun x hx => h x (by simp [hx])]; rfl
      rw [this cs]; rfl
      intro x hx
      exact ⟨hk x.1 (by simp only [children, List.mem_append, List.mem_flatMap]; exact .inr ⟨x, hx, by simp⟩),
        hk x.2 (by simp only [children, List.mem_append, List.mem_flatMap]; exact .inr ⟨x, hx, by simp⟩)⟩
    | predicate n i c f o =>
      rw [aborts, hk c (by simp [children]), hopt f fun x hx => hk x (by simp only [children, List.mem_cons]; exact .inr hx)]; rfl
    | listComp i c f m o =>
      rw [aborts, hk c (by simp [children]),
        hopt f fun x hx => hk x (by simp only [children, List.mem_cons, List.mem_append]; exact .inr (.inl hx)),
        hopt m fun x hx => hk x (by simp only [children, List.mem_cons, List.mem_append]; exact .inr (.inr hx))]; rfl
    | reduce a i v c m o => rw [aborts, hk i (by simp [children]), hk c (by simp [children]), hk m (by simp [children])]; rfl
    | aggregate n d a => exact hopt a hk
    | range l lo hi =>
      rw [aborts, hk l (by simp [children]),
        hopt lo fun x hx => hk x (by simp only [children, List.mem_cons, List.mem_append]; exact .inr (.inl hx)),
        hopt hi fun x hx => hk x (by simp only [children, List.mem_cons, List.mem_append]; exact .inr (.inr hx))]; rfl
    | labelAttribute _ _ => exact hh.elim
    | versionedVar _ _ => exact hh.elim
    | text _ _ => exact hh.elim
    | _ => rfl

theorem decode_write {bits : F64 → Nat} (hb : BitsOk bits) (e : Expr) (he : Storable e) (rest : Bytes) :
    decode (writeTo bits e ++ rest) = .ok (some (received e)) rest := by
  have hne : writeTo bits e ++ rest ≠ [] := by
    intro h
    have h1 := decodeF_write hb e he (writeTo bits e).length (Nat.le_refl _) []
    rw [List.append_eq_nil_iff] at h
    rw [h.1] at h1
    cases h1
  rw [decode, if_neg (by simpa using hne)]
  rw [decodeF_write hb e he _ (by simp)]

/-- C36: an expression of the storable kinds is encoded, and decoding the encoding followed by anything
gives the expression with its constants as the wire format of values delivers them, and consumes exactly
the encoding. -/
theorem C36_received {bits : F64 → Nat} (hb : BitsOk bits) (e : Expr) (he : Storable e) :
    ∃ b, encode bits e = some b ∧ ∀ rest, decode (b ++ rest) = .ok (some (received e)) rest :=
  ⟨writeTo bits e, by rw [encode, aborts_false e he]; rfl, decode_write hb e he⟩

/-- C36 (partial: storable kinds, plain constants): the expression itself comes back. -/
theorem C36_round_trip_partial {bits : F64 → Nat} (hb : BitsOk bits) (e : Expr) (he : Storable e) (hu : Unchanged e) :
    ∃ b, encode bits e = some b ∧ ∀ rest, decode (b ++ rest) = .ok (some e) rest := by
  obtain ⟨b, h1, h2⟩ := C36_received hb e he
  exact ⟨b, h1, fun rest => by rw [h2, unchanged_received e hu]⟩

/-- C36: different storable expressions have different encodings, and no encoding is a proper prefix of
another. -/
theorem C36_prefix_free {bits : F64 → Nat} (hb : BitsOk bits) (e e' : Expr) (he : Storable e) (he' : Storable e')
    (hu : Unchanged e) (hu' : Unchanged e') (b b' s : Bytes) (h : encode bits e = some b) (h' : encode bits e' = some b')
    (hp : b' = b ++ s) : e = e' ∧ s = [] := by
  obtain ⟨c, h1, h2⟩ := C36_round_trip_partial hb e he hu
  obtain ⟨c', h1', h2'⟩ := C36_round_trip_partial hb e' he' hu'
  rw [h] at h1; cases h1
  rw [h'] at h1'; cases h1'
  have a := h2 s
  have a' := h2' []
  rw [List.append_nil, hp, a] at a'
  simp at a'
  exact a'

/-- An expression with nested operands: `[1, NOT x, "a"] ++ CASE WHEN $-.. ` in small: a logical AND over a
list, a case and a subscript range. -/
def sample : Expr :=
  .logical .and [.coll .list [.const (.int 1), .unary .not (.var [120] true)],
    .case true none (some (.const (.str [97]))) [(.const (.bool true), .call [102] [.label [98]])],
    .range (.prop .tag [] [116] [112]) none (some (.const (.int 3))),
    .aggregate [99] true (some (.map [([107], .vertex)]))]

theorem sample_storable : Storable sample := by
  have leaf : ∀ {e : Expr}, e.children = [] → StorableHere e → Storable e := fun h0 h => .mk h (by rw [h0]; simp)
  have cst : ∀ (v : Value), v.children = [] → Wire.FitsHere v → Storable (.const v) := fun v h0 h =>
    leaf rfl (Value.Hered.mk h (by rw [h0]; simp))
  unfold sample
  refine .mk (by simp [StorableHere, Count32]) ?_
  intro x hx
  simp only [children, List.mem_cons, List.not_mem_nil, or_false] at hx
  rcases hx with rfl | rfl | rfl | rfl
  · refine .mk (by simp [StorableHere, Count32]) ?_
    intro x hx
    simp only [children, List.mem_cons, List.not_mem_nil, or_false] at hx
    rcases hx with rfl | rfl
    · exact cst _ rfl (by simp [Wire.FitsHere, InI64])
    · refine .mk trivial ?_
      intro x hx
      simp only [children, List.mem_cons, List.not_mem_nil, or_false] at hx
      subst hx
      exact leaf rfl (by simp [StorableHere, Size64])
  · refine .mk (by simp [StorableHere, Count32]) ?_
    intro x hx
    simp [children] at hx
    rcases hx with rfl | rfl | rfl
    · exact cst _ rfl (by simp [Wire.FitsHere, Wire.Small])
    · exact cst _ rfl trivial
    · refine .mk (by simp [StorableHere, Size64]) ?_
      intro x hx
      simp only [children, List.mem_cons, List.not_mem_nil, or_false] at hx
      subst hx
      exact leaf rfl (by simp [StorableHere, Size64])
  · refine .mk (by simp [StorableHere]) ?_
    intro x hx
    simp [children] at hx
    rcases hx with rfl | rfl
    · exact leaf rfl (by simp [StorableHere, Size64])
    · exact cst _ rfl (by simp [Wire.FitsHere, InI64])
  · refine .mk (by simp [StorableHere, Size64]) ?_
    intro x hx
    simp [children] at hx
    subst hx
    refine .mk (by simp [StorableHere, Count32, Size64]) ?_
    intro x hx
    simp [children] at hx
    subst hx
    exact leaf rfl trivial

/-- Non-vacuity of C36. -/
example {bits : F64 → Nat} (hb : BitsOk bits) : ∃ b, encode bits sample = some b ∧ decode b = .ok (some sample) [] := by
  obtain ⟨b, h1, h2⟩ := C36_received hb sample sample_storable
  exact ⟨b, h1, by have := h2 []; rw [List.append_nil] at this; rw [this]; rfl⟩

/-- C36 is violated by a column expression: `writeTo` puts the column number as eight raw bytes
(ColumnExpression.cpp:36-39), `resetFrom` reads a serialised value (41-43).  The encoding of
column 0 ends the process that decodes it. -/
theorem C36_column_violated (bits : F64 → Nat) : ∃ i b, encode bits (.column i) = some b ∧ decode b = .abort :=
  ⟨0, _, rfl, by rfl⟩

/-- C36 is violated by an aggregate without argument: it is encoded, but the decoder always reads an
argument. -/
theorem C36_aggregate_violated (bits : F64 → Nat) : ∃ b, encode bits (.aggregate [99] false none) = some b ∧ decode b = .abort := by
  have key : ∀ x : Res (Option Expr), (match x with | .abort => true | _ => false) = true → x = .abort := by
    intro x h; cases x <;> first | rfl | cases h
  exact ⟨[63, 1, 0, 0, 0, 0, 0, 0, 0, 99, 34, 0], by rfl, key _ (by decide +kernel)⟩

/-- C36 is violated by a range without bounds: one bound is announced and none written, so that the decoder
runs past the end. -/
theorem C36_range_violated (bits : F64 → Nat) :
    ∃ b, encode bits (.range .vertex none none) = some b ∧ decode b = .oob 8 :=
  ⟨_, rfl, by rfl⟩

/-! ## C37 -/

/-- C37 is violated: after the kind of a list the element count is read without checking the end. -/
theorem C37_violated : ∃ bs n, decode bs = .oob n ∧ 0 < n := ⟨[50], 8, by rfl, by decide⟩

/-- C37 (partial): no input makes the decoder read more than eight bytes past the end. -/
theorem C37_overrun_partial (bs : Bytes) (n : Nat) (h : decode bs = .oob n) : 1 ≤ n ∧ n ≤ 8 := by
  unfold decode at h
  split at h
  · cases h
  · cases hd : decodeF bs.length bs with
    | ok a r => rw [hd] at h; cases h
    | abort => rw [hd] at h; cases h
    | oob m => rw [hd] at h; cases h; exact over_decodeF _ _ _ hd

theorem sizedByte_iff : ∀ n : Fin 256, (∃ k, kinds[n.val]? = some k ∧ Sized k = true) →
    n.val ∈ [30, 31, 32, 33, 34, 50, 51, 52, 54, 58, 68] := by
  have key : ∀ n : Fin 256, (kinds[n.val]?).any Sized = true → n.val ∈ [30, 31, 32, 33, 34, 50, 51, 52, 54, 58, 68] := by decide +kernel
  rintro n ⟨k, h1, h2⟩
  exact key n (by rw [h1]; exact h2)

/-- C37 (partial): an input that contains none of the numbers of the kinds with an element count (logical
operators, casts, calls, lists, sets, maps, cases, path building, ranges) never makes the decoder read past
the end. -/
theorem C37_no_size_partial (bs : Bytes)
    (h : ∀ b ∈ bs, b.toNat ∉ [30, 31, 32, 33, 34, 50, 51, 52, 54, 58, 68]) (n : Nat) : decode bs ≠ .oob n := by
  intro e
  unfold decode at e
  split at e
  · cases e
  · have hq := (quiet_decodeF bs.length bs fun b hb ⟨k, h1, h2⟩ =>
      h b hb (sizedByte_iff ⟨b.toNat, b.toNat_lt⟩ ⟨k, h1, h2⟩)).1
    cases hd : decodeF bs.length bs with
    | ok a r => rw [hd] at e; cases e
    | abort => rw [hd] at e; cases e
    | oob m => exact hq m hd

/-- C37: an expression that is returned was read from the front of the input; what follows was not looked
at. -/
theorem C37_local (bs : Bytes) (e : Expr) (r : Bytes) (h : decode bs = .ok (some e) r) :
    ∃ c, c ≠ [] ∧ bs = c ++ r ∧ ∀ s, decode (c ++ s) = .ok (some e) s := by
  unfold decode at h
  split at h
  · cases h
  · cases hd : decodeF bs.length bs with
    | abort => rw [hd] at h; cases h
    | oob m => rw [hd] at h; cases h
    | ok a r' =>
      rw [hd] at h; cases h
      obtain ⟨c, hc, rfl, _⟩ := dstab_decodeF bs.length 0 bs e r hd
      have hne : c ≠ [] := by intro h; rw [h] at hc; simp at hc
      refine ⟨c, hne, rfl, fun s => ?_⟩
      obtain ⟨c', _, hc', hs⟩ := dstab_decodeF (c ++ r).length (c ++ s).length (c ++ r) e r hd
      have : c' = c := (List.append_cancel_right hc').symm
      subst this
      rw [decode, if_neg (by simp [hne]), hs (by simp; omega) s]

/-- C37: an encoding of which the end is missing never decodes to an expression, at whatever byte it is cut
off. -/
theorem C37_truncated {bits : F64 → Nat} (hb : BitsOk bits) (e : Expr) (he : Storable e) (b p q : Bytes)
    (h : encode bits e = some b) (hpq : b = p ++ q) (hq : q ≠ []) (x : Expr) (r : Bytes) : decode p ≠ .ok (some x) r := by
  intro hd
  obtain ⟨c, _, rfl, hs⟩ := C37_local p x r hd
  obtain ⟨b', h1, h2⟩ := C36_received hb e he
  rw [h] at h1; cases h1
  have := h2 []
  rw [List.append_nil, hpq, List.append_assoc, hs (r ++ q)] at this
  simp at this
  exact hq this.2.2

end Expr
end Nebula
