import Verif.Wire.Props
/-!
# Readers look only at what they consume

`Stab n d d'`: if `d` succeeds, what it leaves is a suffix of its input, and `d'` reads the consumed
part — if shorter than `n` bytes — in the same way whatever follows it.  The two readers differ in the
bound on the nesting they are given.
-/
namespace Nebula
namespace Wire

def Stab {α : Type} (n : Nat) (d d' : Bytes → Option (α × Bytes)) : Prop :=
  ∀ bs a r, d bs = some (a, r) → ∃ c, bs = c ++ r ∧ (c.length < n → ∀ s, d' (c ++ s) = some (a, s))

/-- The same for a reader that consumes at least one byte. -/
def StabP {α : Type} (n : Nat) (d d' : Bytes → Option (α × Bytes)) : Prop :=
  ∀ bs a r, d bs = some (a, r) → ∃ c, c ≠ [] ∧ bs = c ++ r ∧ (c.length < n → ∀ s, d' (c ++ s) = some (a, s))

/-- A step followed by another. -/
def seqR {α β : Type} (d : Bytes → Option (α × Bytes)) (k : α → Bytes → Option (β × Bytes)) (bs : Bytes) :
    Option (β × Bytes) :=
  match d bs with
  | none => none
  | some (a, r) => k a r

section
variable {α β : Type} {n : Nat}

theorem Stab.mono {m : Nat} {d d' : Bytes → Option (α × Bytes)} (h : Stab n d d') (hm : m ≤ n) : Stab m d d' := by
  intro bs a r e
  obtain ⟨c, hc, hs⟩ := h bs a r e
  exact ⟨c, hc, fun hl => hs (by omega)⟩

theorem Stab.ret (a : α) : Stab n (fun bs => some (a, bs)) (fun bs => some (a, bs)) := by
  rintro bs b r h; cases h; exact ⟨[], rfl, fun _ _ => rfl⟩

theorem Stab.fail {d' : Bytes → Option (α × Bytes)} : Stab n (fun _ => none) d' := by
  rintro bs b r h; cases h

theorem Stab.seq {d d' : Bytes → Option (α × Bytes)} {k k' : α → Bytes → Option (β × Bytes)} (h : Stab n d d')
    (hk : ∀ a, Stab n (k a) (k' a)) : Stab n (seqR d k) (seqR d' k') := by
  intro bs b r e
  unfold seqR at e
  cases hd : d bs with
  | none => rw [hd] at e; cases e
  | some x =>
    obtain ⟨a, r1⟩ := x
    rw [hd] at e
    obtain ⟨c1, rfl, h1⟩ := h bs a r1 hd
    obtain ⟨c2, rfl, h2⟩ := hk a r1 b r e
    refine ⟨c1 ++ c2, by simp, fun hl s => ?_⟩
    rw [List.length_append] at hl
    rw [seqR, List.append_assoc, h1 (by omega)]
    exact h2 (by omega) s

theorem StabP.stab {d d' : Bytes → Option (α × Bytes)} (h : StabP n d d') : Stab n d d' := by
  intro bs a r e
  obtain ⟨c, _, hc, hs⟩ := h bs a r e
  exact ⟨c, hc, hs⟩

theorem Stab.zero {d d' e : Bytes → Option (α × Bytes)} (h : Stab n d d') : Stab 0 d e := by
  intro bs a r e
  obtain ⟨c, hc, hs⟩ := h bs a r e
  exact ⟨c, hc, fun hl => by omega⟩

theorem StabP.seq {d d' : Bytes → Option (α × Bytes)} {k k' : α → Bytes → Option (β × Bytes)} (h : StabP (n + 1) d d')
    (hk : ∀ a, Stab n (k a) (k' a)) : StabP (n + 1) (seqR d k) (seqR d' k') := by
  intro bs b r e
  unfold seqR at e
  cases hd : d bs with
  | none => rw [hd] at e; cases e
  | some x =>
    obtain ⟨a, r1⟩ := x
    rw [hd] at e
    obtain ⟨c1, hn, rfl, h1⟩ := h bs a r1 hd
    obtain ⟨c2, rfl, h2⟩ := hk a r1 b r e
    have := List.length_pos_iff.2 hn
    refine ⟨c1 ++ c2, by simp [hn], by simp, fun hl s => ?_⟩
    rw [List.length_append] at hl
    rw [seqR, List.append_assoc, h1 (by omega)]
    exact h2 (by omega) s

theorem StabP.congr {d e d' e' : Bytes → Option (α × Bytes)} (h : StabP n d d') (he : ∀ bs, e bs = d bs)
    (he' : ∀ bs, e' bs = d' bs) : StabP n e e' := by
  have : e = d := funext he
  have : e' = d' := funext he'
  subst_vars; exact h

theorem Stab.ext_left {d e d' : Bytes → Option (α × Bytes)} (h : Stab n d d') (he : ∀ bs, e bs = d bs) : Stab n e d' := by
  intro bs a r x; rw [he] at x; exact h bs a r x

theorem Stab.congr {d e d' e' : Bytes → Option (α × Bytes)} (h : Stab n d d') (he : ∀ bs, e bs = d bs)
    (he' : ∀ bs, e' bs = d' bs) : Stab n e e' := by
  have : e = d := funext he
  have : e' = d' := funext he'
  subst_vars; exact h

/-- A step whose result is transformed, possibly failing. -/
theorem Stab.post {d d' : Bytes → Option (α × Bytes)} (g : α → Option β) (h : Stab n d d') :
    Stab n (seqR d fun a r => (g a).map fun b => (b, r)) (seqR d' fun a r => (g a).map fun b => (b, r)) := by
  refine h.seq fun a => ?_
  cases g a with
  | none => exact Stab.fail
  | some b => exact Stab.ret b

theorem Stab.map {d d' : Bytes → Option (α × Bytes)} (g : α → β) (h : Stab n d d') :
    Stab n (fun bs => (d bs).map fun x => (g x.1, x.2)) (fun bs => (d' bs).map fun x => (g x.1, x.2)) := by
  refine (h.post fun a => some (g a)).congr ?_ ?_
  · intro bs; unfold seqR; cases d bs <;> rfl
  · intro bs; unfold seqR; cases d' bs <;> rfl

theorem Stab.block {σ : Type} {d d' : Bytes → Option (α × Bytes)} (set : σ → α → σ) (s : σ) (h : Stab n d d') :
    Stab n (block d set s) (block d' set s) :=
  (h.map fun a => set s a).congr (fun bs => by unfold Wire.block; cases d bs <;> rfl)
    (fun bs => by unfold Wire.block; cases d' bs <;> rfl)

theorem Stab.readN {d d' : Bytes → Option (α × Bytes)} (h : Stab n d d') : ∀ k, Stab n (readN d k) (readN d' k)
  | 0 => Stab.ret []
  | k + 1 => by
    have := h.seq fun a => (Stab.readN h k).map fun as => a :: as
    refine this.congr ?_ ?_
    · intro bs; rw [Wire.readN, seqR]
      cases d bs with
      | none => rfl
      | some x => obtain ⟨a, r⟩ := x; dsimp only; cases Wire.readN d k r <;> rfl
    · intro bs; rw [Wire.readN, seqR]
      cases d' bs with
      | none => rfl
      | some x => obtain ⟨a, r⟩ := x; dsimp only; cases Wire.readN d' k r <;> rfl
end

/-! ## Primitives -/

theorem stab_varint (n : Nat) : ∀ k, StabP n (readVarint k) (readVarint k)
  | 0 => by rintro bs a r h; cases h
  | k + 1 => by
    rintro bs a r h
    cases bs with
    | nil => cases h
    | cons b bs =>
      rw [readVarint] at h
      split at h
      · next hb => cases h; exact ⟨[b], by simp, rfl, fun _ s => by rw [List.cons_append, readVarint, if_pos hb]; rfl⟩
      · next hb =>
        cases hv : readVarint k bs with
        | none => rw [hv] at h; cases h
        | some x =>
          obtain ⟨m, q⟩ := x
          rw [hv] at h; cases h
          obtain ⟨c, _, rfl, hs⟩ := stab_varint n k bs m r hv
          refine ⟨b :: c, by simp, rfl, fun hl s => ?_⟩
          rw [List.cons_append, readVarint, if_neg hb, hs (by simp at hl; omega)]

theorem stab_u32 (n : Nat) : Stab n readU32 readU32 :=
  ((stab_varint n 5).stab.map fun m => m % 2 ^ 32).congr (fun bs => by unfold readU32; cases readVarint 5 bs <;> rfl)
    (fun bs => by unfold readU32; cases readVarint 5 bs <;> rfl)
theorem stab_u64 (n : Nat) : Stab n readU64 readU64 :=
  ((stab_varint n 10).stab.map fun m => m % 2 ^ 64).congr (fun bs => by unfold readU64; cases readVarint 10 bs <;> rfl)
    (fun bs => by unfold readU64; cases readVarint 10 bs <;> rfl)
theorem stab_i16 (n : Nat) : Stab n readI16 readI16 :=
  ((stab_u32 n).map fun m => wrapI16 (unzigzag m)).congr (fun bs => by unfold readI16; cases readU32 bs <;> rfl)
    (fun bs => by unfold readI16; cases readU32 bs <;> rfl)
theorem stab_i32 (n : Nat) : Stab n readI32 readI32 :=
  ((stab_u32 n).map unzigzag).congr (fun bs => by unfold readI32; cases readU32 bs <;> rfl)
    (fun bs => by unfold readI32; cases readU32 bs <;> rfl)
theorem stab_i64 (n : Nat) : Stab n readI64 readI64 :=
  ((stab_u64 n).map unzigzag).congr (fun bs => by unfold readI64; cases readU64 bs <;> rfl)
    (fun bs => by unfold readI64; cases readU64 bs <;> rfl)
theorem stab_byte (n : Nat) : Stab n readByte readByte := by
  rintro bs a r h
  cases bs with
  | nil => cases h
  | cons b bs => cases h; exact ⟨[b], rfl, fun _ _ => rfl⟩
theorem stab_takeN (n k : Nat) : Stab n (takeN k) (takeN k) := by
  rintro bs a r h
  unfold takeN at h
  split at h
  · next hk =>
    cases h
    refine ⟨bs.take k, by simp, fun _ s => ?_⟩
    have : (bs.take k).length = k := by simp; omega
    conv => lhs; arg 1; rw [← this]
    exact takeN_append _ s
  · cases h
theorem stabP_size (n : Nat) : StabP n readSize readSize := by
  intro bs a r h
  unfold readSize readU32 at h
  cases hv : readVarint 5 bs with
  | none => rw [hv] at h; cases h
  | some x =>
    obtain ⟨m, q⟩ := x
    obtain ⟨c, hn, rfl, hs⟩ := stab_varint n 5 bs m q hv
    rw [hv] at h
    dsimp only at h
    split at h
    · next hm =>
      cases h
      refine ⟨c, hn, rfl, fun hl s => ?_⟩
      rw [readSize, readU32, hs hl]
      simp only [hm, if_true]
    · cases h
theorem stab_size (n : Nat) : Stab n readSize readSize := (stabP_size n).stab
theorem stab_binary (n : Nat) : Stab n readBinary readBinary := by
  have e : ∀ bs, readBinary bs = seqR readSize takeN bs := fun bs => by unfold readBinary seqR; cases readSize bs <;> rfl
  exact ((stab_size n).seq fun k => stab_takeN n k).congr e e
theorem stab_double (n : Nat) : Stab n readDouble readDouble :=
  ((stab_takeN n 8).map fun d => F64.ofBits (beVal 0 d)).congr (fun bs => by unfold readDouble; cases takeN 8 bs <;> rfl)
    (fun bs => by unfold readDouble; cases takeN 8 bs <;> rfl)

/-- The header of a field is at least one byte. -/
theorem header_stab {last : Int} {bs : Bytes} {x : Option (Int × Nat)} {r : Bytes}
    (h : readFieldHeader last bs = some (x, r)) :
    ∃ b c, bs = b :: c ++ r ∧ ∀ s, readFieldHeader last (b :: c ++ s) = some (x, s) := by
  cases bs with
  | nil => cases h
  | cons b bs =>
    simp only [readFieldHeader] at h
    split at h
    · next h0 => cases h; exact ⟨b, [], rfl, fun s => by simp [readFieldHeader, h0]⟩
    · next h0 =>
      split at h
      · next h1 =>
        cases hv : readI16 bs with
        | none => rw [hv] at h; cases h
        | some y =>
          obtain ⟨i, q⟩ := y
          rw [hv] at h; cases h
          obtain ⟨c, rfl, hs⟩ := stab_i16 (bs.length + 1) bs i r hv
          refine ⟨b, c, rfl, fun s => ?_⟩
          have := hs (by simp; omega) s
          simp [readFieldHeader, h0, h1, this]
      · next h1 => cases h; exact ⟨b, [], rfl, fun s => by simp [readFieldHeader, h0, h1]⟩

theorem stab_listHeader (n : Nat) : StabP n (fun bs => (readListHeader bs).map fun x => ((x.1, x.2.1), x.2.2))
    (fun bs => (readListHeader bs).map fun x => ((x.1, x.2.1), x.2.2)) := by
  rintro bs a r h
  cases bs with
  | nil => cases h
  | cons b bs =>
    simp only [readListHeader] at h
    split at h
    · next hd =>
      cases hv : readSize bs with
      | none => rw [hv] at h; cases h
      | some y =>
        obtain ⟨i, q⟩ := y
        rw [hv] at h; cases h
        obtain ⟨c, rfl, hs⟩ := stab_size n bs i _ hv
        refine ⟨b :: c, by simp, rfl, fun hl s => ?_⟩
        have := hs (by simp at hl; omega) s
        simp [readListHeader, hd, this]
    · next hd => cases h; exact ⟨[b], by simp, rfl, fun _ s => by simp [readListHeader, hd]⟩

theorem stab_mapHeader (n : Nat) : StabP (n + 1) (fun bs => (readMapHeader bs).map fun x => ((x.1, x.2.1, x.2.2.1), x.2.2.2))
    (fun bs => (readMapHeader bs).map fun x => ((x.1, x.2.1, x.2.2.1), x.2.2.2)) := by
  have hb : Stab n (fun bs : Bytes => match bs with | [] => none | b :: r => some (b.toNat, r))
      (fun bs : Bytes => match bs with | [] => none | b :: r => some (b.toNat, r)) := by
    rintro bs a r h
    cases bs with
    | nil => cases h
    | cons b bs => cases h; exact ⟨[b], rfl, fun _ _ => rfl⟩
  have := (stabP_size (n + 1)).seq (k := fun m => if m = 0 then (fun r => some ((0, 0, 0), r)) else
      seqR (fun bs : Bytes => match bs with | [] => none | b :: r => some (b.toNat, r)) fun b r => some ((b / 16, b % 16, m), r))
    (k' := fun m => if m = 0 then (fun r => some ((0, 0, 0), r)) else
      seqR (fun bs : Bytes => match bs with | [] => none | b :: r => some (b.toNat, r)) fun b r => some ((b / 16, b % 16, m), r))
    fun m => by
      split
      · exact Stab.ret _
      · exact hb.seq fun _ => Stab.ret _
  have e : ∀ bs, (readMapHeader bs).map (fun x => ((x.1, x.2.1, x.2.2.1), x.2.2.2)) =
      seqR readSize (fun m => if m = 0 then (fun r => some ((0, 0, 0), r)) else
      seqR (fun bs : Bytes => match bs with | [] => none | b :: r => some (b.toNat, r)) fun b r => some ((b / 16, b % 16, m), r)) bs := by
    intro bs; unfold readMapHeader seqR
    cases readSize bs with
    | none => rfl
    | some x =>
      obtain ⟨m, r⟩ := x
      dsimp only
      by_cases hm : m = 0
      · simp [hm]
      · simp only [hm, if_false]
        cases r <;> rfl
  exact this.congr e e

/-! ## Skipping -/

/-- A skipping step as a reader. -/
def unitR (d : Bytes → Option Bytes) (bs : Bytes) : Option (Unit × Bytes) := (d bs).map fun r => ((), r)

theorem unitR_snd {α : Type} (d : Bytes → Option (α × Bytes)) (bs : Bytes) :
    unitR (fun bs => (d bs).map Prod.snd) bs = (d bs).map fun x => ((fun _ => ()) x.1, x.2) := by
  unfold unitR; dsimp only; cases d bs <;> rfl

theorem Stab.unit {α : Type} {n : Nat} {d d' : Bytes → Option (α × Bytes)} (h : Stab n d d') :
    Stab n (unitR fun bs => (d bs).map Prod.snd) (unitR fun bs => (d' bs).map Prod.snd) :=
  (h.map fun _ => ()).congr (unitR_snd d) (unitR_snd d')

theorem stab_skipElems {n : Nat} {sk sk' : Nat → Bytes → Option Bytes} (h : ∀ ct, Stab n (unitR (sk ct)) (unitR (sk' ct))) :
    Stab (n + 1) (unitR (skipElems sk)) (unitR (skipElems sk')) := by
  have := (stab_listHeader (n + 1)).seq fun x => ((h (elemCt x.1)).readN x.2).map fun _ => ()
  have e : ∀ (sk : Nat → Bytes → Option Bytes) (bs : Bytes), unitR (skipElems sk) bs =
      seqR (fun bs => (readListHeader bs).map fun x => ((x.1, x.2.1), x.2.2))
        (fun x bs => (readN (unitR (sk (elemCt x.1))) x.2 bs).map fun y => ((fun _ => ()) y.1, y.2)) bs := by
    intro sk bs
    rw [unitR, skipElems, seqR]
    cases hh : readListHeader bs with
    | none => rfl
    | some x =>
      obtain ⟨et, k, r⟩ := x
      show ((readN (unitR (sk (elemCt et))) k r).map Prod.snd).map _ = (readN (unitR (sk (elemCt et))) k r).map _
      rw [Option.map_map]
      rfl
  exact (this.congr (e sk) (e sk')).stab

theorem stab_two {n : Nat} {sk sk' sl sl' : Bytes → Option Bytes} (h : Stab n (unitR sk) (unitR sk')) (hl : Stab n (unitR sl) (unitR sl')) :
    Stab n (fun b => match sk b with | none => none | some r => (sl r).map fun r => ((), r))
      (fun b => match sk' b with | none => none | some r => (sl' r).map fun r => ((), r)) := by
  have e : ∀ (sk sl : Bytes → Option Bytes) (b : Bytes), (match sk b with | none => none | some r => (sl r).map fun r => ((), r)) =
      seqR (unitR sk) (fun _ => unitR sl) b := by
    intro sk sl b; unfold seqR unitR; cases sk b <;> rfl
  exact (h.seq fun _ => hl).congr (e sk sl) (e sk' sl')

theorem stab_skipEntries {n : Nat} {sk sk' : Nat → Bytes → Option Bytes} (h : ∀ ct, Stab n (unitR (sk ct)) (unitR (sk' ct))) :
    Stab (n + 1) (unitR (skipEntries sk)) (unitR (skipEntries sk')) := by
  have := (stab_mapHeader n).seq fun x => ((stab_two (h (elemCt x.1)) (h (elemCt x.2.1))).readN x.2.2).map fun _ => ()
  have e : ∀ (sk : Nat → Bytes → Option Bytes) (bs : Bytes), unitR (skipEntries sk) bs =
      seqR (fun bs => (readMapHeader bs).map fun x => ((x.1, x.2.1, x.2.2.1), x.2.2.2))
        (fun x bs => (readN (fun b => match sk (elemCt x.1) b with
          | none => none | some r => (sk (elemCt x.2.1) r).map fun r => ((), r)) x.2.2 bs).map fun y => ((fun _ => ()) y.1, y.2)) bs := by
    intro sk bs
    rw [unitR, skipEntries, seqR]
    cases readMapHeader bs with
    | none => rfl
    | some x =>
      obtain ⟨kt, vt, k, r⟩ := x
      simp only [Option.map_some, Option.map_map]
      rfl
  exact (this.congr (e sk) (e sk')).stab

theorem stab_skip : ∀ (f m ct : Nat), Stab m (unitR (skip f ct)) (unitR (skip m ct)) := by
  intro f
  induction f with
  | zero => intro m ct bs a r h; simp [unitR, skip] at h
  | succ f ih =>
    have hF : ∀ (g k m : Nat) (last : Int), Stab (min (m + 1) (k + 1)) (unitR (skip.skipFields f g last)) (unitR (skip.skipFields m k last)) := by
      intro g
      induction g with
      | zero => intro k m last bs a r h; simp [unitR, skip.skipFields] at h
      | succ g ihg =>
        intro k m last bs a r h
        unfold unitR at h
        rw [skip.skipFields] at h
        cases hh : readFieldHeader last bs with
        | none => rw [hh] at h; cases h
        | some x =>
          obtain ⟨x, r1⟩ := x
          obtain ⟨b, c, rfl, hs⟩ := header_stab hh
          rw [hh] at h
          cases x with
          | none =>
            cases h
            refine ⟨b :: c, rfl, fun hl s => ?_⟩
            cases k with
            | zero => simp at hl
            | succ k => rw [unitR, skip.skipFields, hs]; rfl
          | some x =>
            obtain ⟨id, ct⟩ := x
            dsimp only at h
            cases hk : skip f ct r1 with
            | none => rw [hk] at h; cases h
            | some r2 =>
              rw [hk] at h
              obtain ⟨c2, rfl, h2⟩ := ih m ct r1 () r2 (by simp [unitR, hk])
              obtain ⟨c3, rfl, h3⟩ := ihg (k - 1) m id r2 a r h
              refine ⟨b :: c ++ c2 ++ c3, by simp, fun hl s => ?_⟩
              simp only [List.length_append, List.length_cons] at hl
              cases k with
              | zero => omega
              | succ k =>
                have e2 := h2 (by omega) (c3 ++ s)
                have e3 := h3 (by simp only [Nat.add_sub_cancel]; omega) s
                simp only [unitR, Option.map_eq_some_iff, Prod.mk.injEq, true_and, exists_eq_right, Nat.add_sub_cancel] at e2 e3
                rw [unitR, skip.skipFields, List.append_assoc, List.append_assoc, hs]
                simp only [e2, e3, Option.map_some]
    have main : ∀ m ct, Stab (m + 1) (unitR (skip (f + 1) ct)) (unitR (skip (m + 1) ct)) := by
      intro m ct
      have key : ∀ {d d' : Bytes → Option Bytes}, (∀ bs, skip (f + 1) ct bs = d bs) →
          (∀ bs, skip (m + 1) ct bs = d' bs) → Stab (m + 1) (unitR d) (unitR d') →
          Stab (m + 1) (unitR (skip (f + 1) ct)) (unitR (skip (m + 1) ct)) := by
        intro d d' h1 h2 h
        exact h.congr (fun bs => by unfold unitR; rw [h1]) (fun bs => by unfold unitR; rw [h2])
      by_cases c1 : ct = ctTrue ∨ ct = ctFalse
      · exact key (fun bs => by rw [skip, if_pos c1]) (fun bs => by rw [skip, if_pos c1]) (Stab.ret ())
      by_cases c2 : ct = ctByte
      · exact key (fun bs => by rw [skip, if_neg c1, if_pos c2]) (fun bs => by rw [skip, if_neg c1, if_pos c2]) (stab_byte _).unit
      by_cases c3 : ct = ctI16 ∨ ct = ctI32
      · exact key (fun bs => by rw [skip, if_neg c1, if_neg c2, if_pos c3]) (fun bs => by rw [skip, if_neg c1, if_neg c2, if_pos c3])
          (stab_u32 _).unit
      by_cases c4 : ct = ctI64
      · exact key (fun bs => by rw [skip, if_neg c1, if_neg c2, if_neg c3, if_pos c4])
          (fun bs => by rw [skip, if_neg c1, if_neg c2, if_neg c3, if_pos c4]) (stab_u64 _).unit
      by_cases c5 : ct = ctDouble
      · exact key (fun bs => by rw [skip, if_neg c1, if_neg c2, if_neg c3, if_neg c4, if_pos c5])
          (fun bs => by rw [skip, if_neg c1, if_neg c2, if_neg c3, if_neg c4, if_pos c5]) (stab_takeN _ 8).unit
      by_cases c6 : ct = ctBinary
      · exact key (fun bs => by rw [skip, if_neg c1, if_neg c2, if_neg c3, if_neg c4, if_neg c5, if_pos c6])
          (fun bs => by rw [skip, if_neg c1, if_neg c2, if_neg c3, if_neg c4, if_neg c5, if_pos c6]) (stab_binary _).unit
      by_cases c7 : ct = ctList ∨ ct = ctSet
      · exact key (fun bs => by rw [skip, if_neg c1, if_neg c2, if_neg c3, if_neg c4, if_neg c5, if_neg c6, if_pos c7])
          (fun bs => by rw [skip, if_neg c1, if_neg c2, if_neg c3, if_neg c4, if_neg c5, if_neg c6, if_pos c7])
          (stab_skipElems fun ct => ih m ct)
      by_cases c8 : ct = ctMap
      · exact key (fun bs => by rw [skip, if_neg c1, if_neg c2, if_neg c3, if_neg c4, if_neg c5, if_neg c6, if_neg c7, if_pos c8])
          (fun bs => by rw [skip, if_neg c1, if_neg c2, if_neg c3, if_neg c4, if_neg c5, if_neg c6, if_neg c7, if_pos c8])
          (stab_skipEntries fun ct => ih m ct)
      by_cases c9 : ct = ctStruct
      · exact key (fun bs => by rw [skip, if_neg c1, if_neg c2, if_neg c3, if_neg c4, if_neg c5, if_neg c6, if_neg c7, if_neg c8, if_pos c9])
          (fun bs => by rw [skip, if_neg c1, if_neg c2, if_neg c3, if_neg c4, if_neg c5, if_neg c6, if_neg c7, if_neg c8, if_pos c9])
          ((hF f m m 0).mono (by omega))
      · intro bs a r h
        rw [unitR, skip, if_neg c1, if_neg c2, if_neg c3, if_neg c4, if_neg c5, if_neg c6, if_neg c7, if_neg c8, if_neg c9] at h
        cases h
    intro m ct
    cases m with
    | zero => exact (main 0 ct).zero
    | succ m => exact main m ct

/-- A reader whose bound is taken from the length of the input. -/
theorem Stab.len {α : Type} {d : Nat → Bytes → Option (α × Bytes)} (h : ∀ f m, Stab m (d f) (d m)) (n : Nat) :
    Stab n (fun bs => d (bs.length + 1) bs) (fun bs => d (bs.length + 1) bs) := by
  intro bs a r e
  obtain ⟨c, rfl, _⟩ := h (bs.length + 1) 0 bs a r e
  refine ⟨c, rfl, fun _ s => ?_⟩
  obtain ⟨c', hc, hs⟩ := h ((c ++ r).length + 1) ((c ++ s).length + 1) (c ++ r) a r e
  have : c' = c := (List.append_cancel_right hc).symm
  subst this
  exact hs (by simp; omega) s

theorem stab_skipLen (n ct : Nat) : Stab n (unitR fun bs => skip (bs.length + 1) ct bs) (unitR fun bs => skip (bs.length + 1) ct bs) :=
  Stab.len (d := fun f => unitR (skip f ct)) (fun f m => stab_skip f m ct) n

/-! ## Structures -/

/-- Two readers of a structure whose blocks correspond. -/
structure RStab {σ : Type} (n : Nat) (R R' : Reader σ) : Prop where
  next : R.next = R'.next
  label : ∀ id, (R.label id = none ∧ R'.label id = none) ∨
    ∃ ty g g', R.label id = some (ty, g) ∧ R'.label id = some (ty, g') ∧ ∀ s, Stab n (g s) (g' s)

theorem advance_eq {σ : Type} (R : Reader σ) (curr : Int) (b : UInt8) :
    (∃ x, ∀ r, R.advance curr (b :: r) = some (x, r)) ∨ (∀ r, R.advance curr (b :: r) = none) := by
  unfold Reader.advance
  cases R.next curr with
  | none =>
    dsimp only
    by_cases h : b.toNat = 0
    · exact .inl ⟨none, fun r => by rw [if_pos h]⟩
    · exact .inr fun r => by rw [if_neg h]
  | some x =>
    obtain ⟨nid, ct⟩ := x
    dsimp only
    by_cases h : (b.toNat : Int) = (nid - curr) * 16 + ct
    · exact .inl ⟨some nid, fun r => by rw [if_pos h]⟩
    · exact .inr fun r => by rw [if_neg h]

theorem advance_congr {σ : Type} {R R' : Reader σ} (h : R.next = R'.next) (curr : Int) (bs : Bytes) :
    R'.advance curr bs = R.advance curr bs := by
  cases bs with
  | nil => rfl
  | cons b r => unfold Reader.advance; rw [h]

theorem stab_run {σ : Type} {n : Nat} {R R' : Reader σ} (hR : RStab n R R') : ∀ (f k : Nat) (adv : Bool) (curr : Int) (s : σ),
    Stab (min n (k + 1)) (R.run f adv curr s) (R'.run k adv curr s) := by
  intro f
  induction f with
  | zero => intro k adv curr s bs a r h; simp [Reader.run] at h
  | succ f ih =>
    intro k adv curr s bs a r h
    cases bs with
    | nil => cases adv <;> simp [Reader.run, Reader.advance, readFieldHeader] at h
    | cons b bs =>
      -- after the block of a field
      have blk : ∀ (pre : Bytes) (id : Int) (ty : Nat) (g g' : σ → Bytes → Option (σ × Bytes)) (adv' : Bool) (r1 : Bytes),
          (∀ s, Stab n (g s) (g' s)) → b :: bs = pre ++ r1 → pre ≠ [] →
          (match g s r1 with | none => none | some (s, r) => R.run f true id s r) = some (a, r) →
          (∀ x, R'.run (k - 1 + 1) adv curr s (pre ++ x) = match g' s x with | none => none | some (s, r) => R'.run (k - 1) true id s r) →
          ∃ c, b :: bs = c ++ r ∧ (c.length < min n (k + 1) → ∀ s', R'.run k adv curr s (c ++ s') = some (a, s')) := by
        intro pre id ty g g' adv' r1 hg hb hp h1 h2
        cases hk : g s r1 with
        | none => rw [hk] at h1; cases h1
        | some y =>
          obtain ⟨s1, r2⟩ := y
          rw [hk] at h1
          obtain ⟨c2, rfl, h3⟩ := hg s r1 s1 r2 hk
          obtain ⟨c3, rfl, h4⟩ := ih (k - 1) true id s1 r2 a r h1
          have hl := List.length_pos_iff.2 hp
          refine ⟨pre ++ c2 ++ c3, by simp [hb], fun hlen s' => ?_⟩
          simp only [List.length_append] at hlen
          cases k with
          | zero => omega
          | succ k =>
            simp only [Nat.add_sub_cancel] at h2 h4
            rw [List.append_assoc, List.append_assoc, h2, h3 (by omega)]
            exact h4 (by omega) s'
      have skp : ∀ (pre : Bytes) (id : Int) (ct : Nat) (r1 : Bytes), b :: bs = pre ++ r1 → pre ≠ [] →
          (match skip (r1.length + 1) ct r1 with | none => none | some r => R.run f false id s r) = some (a, r) →
          (∀ x, R'.run (k - 1 + 1) adv curr s (pre ++ x) = match skip (x.length + 1) ct x with | none => none | some r => R'.run (k - 1) false id s r) →
          ∃ c, b :: bs = c ++ r ∧ (c.length < min n (k + 1) → ∀ s', R'.run k adv curr s (c ++ s') = some (a, s')) := by
        intro pre id ct r1 hb hp h1 h2
        cases hk : skip (r1.length + 1) ct r1 with
        | none => rw [hk] at h1; cases h1
        | some r2 =>
          rw [hk] at h1
          obtain ⟨c2, rfl, h3⟩ := stab_skipLen n ct r1 () r2 (by simp [unitR, hk])
          obtain ⟨c3, rfl, h4⟩ := ih (k - 1) false id s r2 a r h1
          have hl := List.length_pos_iff.2 hp
          refine ⟨pre ++ c2 ++ c3, by simp [hb], fun hlen s' => ?_⟩
          simp only [List.length_append] at hlen
          cases k with
          | zero => omega
          | succ k =>
            simp only [Nat.add_sub_cancel] at h2 h4
            have e3 := h3 (by omega) (c3 ++ s')
            simp only [unitR, Option.map_eq_some_iff, Prod.mk.injEq, true_and, exists_eq_right] at e3
            rw [List.append_assoc, List.append_assoc, h2, e3]
            exact h4 (by omega) s'
      have fin : ∀ (pre r1 : Bytes), b :: bs = pre ++ r1 → pre ≠ [] → some (s, r1) = some (a, r) →
          (∀ x, R'.run (k - 1 + 1) adv curr s (pre ++ x) = some (s, x)) →
          ∃ c, b :: bs = c ++ r ∧ (c.length < min n (k + 1) → ∀ s', R'.run k adv curr s (c ++ s') = some (a, s')) := by
        intro pre r1 hb hp h1 h2
        cases h1
        have hl := List.length_pos_iff.2 hp
        refine ⟨pre, hb, fun hlen s' => ?_⟩
        cases k with
        | zero => omega
        | succ k => exact h2 s'
      have advR : ∀ x, R'.advance curr x = R.advance curr x := advance_congr hR.next curr
      rw [Reader.run] at h
      -- does `advanceToNextField` decide?
      have slow : (∀ x, (if adv then R.advance curr (b :: x) else none) = none) →
          ∃ c, b :: bs = c ++ r ∧ (c.length < min n (k + 1) → ∀ s', R'.run k adv curr s (c ++ s') = some (a, s')) := by
        intro hno
        rw [hno] at h
        dsimp only at h
        cases hh : readFieldHeader curr (b :: bs) with
        | none => rw [hh] at h; cases h
        | some x =>
          obtain ⟨x, r1⟩ := x
          obtain ⟨b', c, hb, hs⟩ := header_stab hh
          have : b' = b := by simp at hb; exact hb.1.symm
          subst this
          rw [hh] at h
          have run' : ∀ x, R'.run (k - 1 + 1) adv curr s (b' :: c ++ x) = _ := fun x => by
            rw [Reader.run, advR, show b' :: c ++ x = b' :: (c ++ x) from rfl, hno, ← List.cons_append, hs]
          cases x with
          | none => exact fin (b' :: c) r1 hb (by simp) h fun x => by rw [run']
          | some x =>
            obtain ⟨id, ct⟩ := x
            dsimp only at h run'
            rcases hR.label id with ⟨l1, l2⟩ | ⟨ty, g, g', l1, l2, hg⟩
            · rw [l1] at h
              exact skp (b' :: c) id ct r1 hb (by simp) h fun x => by rw [run', l2]; rfl
            · rw [l1] at h
              dsimp only at h
              by_cases ht : ty = ct
              · rw [if_pos ht] at h
                refine blk (b' :: c) id ty g g' adv r1 hg hb (by simp) h fun x => ?_
                rw [run', l2]; dsimp only; rw [if_pos ht]; rfl
              · rw [if_neg ht] at h
                refine skp (b' :: c) id ct r1 hb (by simp) h fun x => ?_
                rw [run', l2]; dsimp only; rw [if_neg ht]; rfl
      cases adv with
      | false => exact slow fun x => rfl
      | true =>
        rcases advance_eq R curr b with ⟨x, hx⟩ | hx
        · simp only [if_true, hx] at h
          have run' : ∀ y, R'.run (k - 1 + 1) true curr s ([b] ++ y) = _ := fun y => by
            rw [Reader.run, advR, show [b] ++ y = b :: y from rfl, if_pos rfl, hx]
          cases x with
          | none => exact fin [b] bs rfl (by simp) h fun y => by rw [run']
          | some nid =>
            dsimp only at h run'
            rcases hR.label nid with ⟨l1, l2⟩ | ⟨ty, g, g', l1, l2, hg⟩
            · rw [l1] at h
              exact fin [b] bs rfl (by simp) h fun y => by rw [run', l2]
            · rw [l1] at h
              exact blk [b] nid ty g g' true bs hg rfl (by simp) h fun y => by rw [run', l2]; rfl
        · exact slow fun x => by rw [if_pos rfl, hx]

theorem stab_read {σ : Type} {n : Nat} {R R' : Reader σ} (hR : RStab n R R') (s : σ) : Stab n (R.read s) (R'.read s) := by
  intro bs a r h
  obtain ⟨c, rfl, _⟩ := stab_run hR (bs.length + 1) 0 true 0 s bs a r h
  refine ⟨c, rfl, fun hl s' => ?_⟩
  obtain ⟨c', hc, hs⟩ := stab_run hR ((c ++ r).length + 1) ((c ++ s').length + 1) true 0 s (c ++ r) a r h
  have : c' = c := (List.append_cancel_right hc).symm
  subst this
  exact hs (by simp; omega) s'

/-! ## Containers and graph types -/

theorem stab_list {α : Type} {n : Nat} {d d' : Bytes → Option (α × Bytes)} (h : Stab n d d') (ct : Nat) :
    Stab n (readList d ct) (readList d' ct) := by
  have hs : ∀ et k, Stab n (fun r => (readN (unitR fun b => skip (b.length + 1) (elemCt et) b) k r).map fun x => (([] : List α), x.2))
      (fun r => (readN (unitR fun b => skip (b.length + 1) (elemCt et) b) k r).map fun x => (([] : List α), x.2)) := fun et k =>
    ((stab_skipLen n (elemCt et)).readN k).map fun _ => []
  have := ((stab_listHeader n).stab).seq (k := fun x => if x.1 = ct then readN d x.2 else
      fun r => (readN (unitR fun b => skip (b.length + 1) (elemCt x.1) b) x.2 r).map fun x => (([] : List α), x.2))
    (k' := fun x => if x.1 = ct then readN d' x.2 else
      fun r => (readN (unitR fun b => skip (b.length + 1) (elemCt x.1) b) x.2 r).map fun x => (([] : List α), x.2)) fun x => by
      split
      · exact h.readN _
      · exact hs _ _
  have e : ∀ (d : Bytes → Option (α × Bytes)) (bs : Bytes), readList d ct bs =
      seqR (fun bs => (readListHeader bs).map fun x => ((x.1, x.2.1), x.2.2)) (fun x => if x.1 = ct then readN d x.2 else
      fun r => (readN (unitR fun b => skip (b.length + 1) (elemCt x.1) b) x.2 r).map fun x => (([] : List α), x.2)) bs := by
    intro d bs
    rw [readList, seqR]
    cases readListHeader bs with
    | none => rfl
    | some x =>
      obtain ⟨et, k, r⟩ := x
      simp only [Option.map_some]
      by_cases he : et = ct
      · simp only [he, if_true]
      · simp only [he, if_false]
        show (match readN (unitR fun b => skip (b.length + 1) (elemCt et) b) k r with | none => none | some (_, r) => some ([], r)) = _
        cases readN (unitR fun b => skip (b.length + 1) (elemCt et) b) k r <;> rfl
  exact this.congr (e d) (e d')

theorem stab_props {V : Type} {n : Nat} {rv rv' : Bytes → Option (V × Bytes)} (h : Stab n rv rv') :
    Stab n (readProps rv) (readProps rv') := by
  have hp : Stab n (seqR readBinary fun k => fun b => (rv b).map fun x => ((k, x.1), x.2))
      (seqR readBinary fun k => fun b => (rv' b).map fun x => ((k, x.1), x.2)) :=
    (stab_binary n).seq fun k => h.map fun v => (k, v)
  have hs : ∀ kt vt, Stab n (fun b => match skip (b.length + 1) (elemCt kt) b with
      | none => none | some b => (skip (b.length + 1) (elemCt vt) b).map fun r => ((), r))
      (fun b => match skip (b.length + 1) (elemCt kt) b with
      | none => none | some b => (skip (b.length + 1) (elemCt vt) b).map fun r => ((), r)) := fun kt vt =>
    stab_two (stab_skipLen n (elemCt kt)) (stab_skipLen n (elemCt vt))
  let K (rv : Bytes → Option (V × Bytes)) : Nat × Nat × Nat → Bytes → Option (Props V × Bytes) := fun x =>
    if x.2.2 = 0 then fun r => some ([], r)
    else if x.1 = ctBinary ∧ x.2.1 = ctStruct then
      fun r => (readN (seqR readBinary fun k => fun b => (rv b).map fun x => ((k, x.1), x.2)) x.2.2 r).map fun y =>
        (y.1.foldl (fun m kv => mapSet m kv.1 kv.2) [], y.2)
    else fun r => (readN (fun b => match skip (b.length + 1) (elemCt x.1) b with
      | none => none | some b => (skip (b.length + 1) (elemCt x.2.1) b).map fun r => ((), r)) x.2.2 r).map fun y => ([], y.2)
  have := ((stab_mapHeader n).stab.mono (Nat.le_succ n)).seq (k := K rv) (k' := K rv') fun x => by
    simp only [K]
    split
    · exact Stab.ret _
    · split
      · exact (hp.readN x.2.2).map fun y => y.foldl (fun m kv => mapSet m kv.1 kv.2) []
      · exact ((hs x.1 x.2.1).readN x.2.2).map fun _ => []
  have e : ∀ (rv : Bytes → Option (V × Bytes)) (bs : Bytes), readProps rv bs =
      seqR (fun bs => (readMapHeader bs).map fun x => ((x.1, x.2.1, x.2.2.1), x.2.2.2)) (K rv) bs := by
    intro rv bs
    rw [readProps, seqR]
    cases readMapHeader bs with
    | none => rfl
    | some x =>
      obtain ⟨kt, vt, k, r⟩ := x
      simp only [Option.map_some, K]
      by_cases hk : k = 0
      · simp only [hk, if_true]
      · simp only [hk, if_false]
        by_cases ht : kt = ctBinary ∧ vt = ctStruct
        · rw [if_pos ht, if_pos ht]
          have : (fun b => match readBinary b with
              | none => none
              | some (k, b) => match rv b with
                | none => none
                | some (v, b) => some ((k, v), b)) = seqR readBinary fun k => fun b => (rv b).map fun x => ((k, x.1), x.2) := by
            funext b
            rw [seqR]
            cases readBinary b with
            | none => rfl
            | some y => obtain ⟨k, b⟩ := y; dsimp only; cases rv b <;> rfl
          refine (congrArg (fun d : Bytes → Option ((Bytes × V) × Bytes) => match readN d k r with
            | none => none
            | some (kvs, r) => some (kvs.foldl (fun (m : Props V) (kv : Bytes × V) => mapSet m kv.1 kv.2) [], r)) this).trans ?_
          cases readN (seqR readBinary fun k => fun b => (rv b).map fun x => ((k, x.1), x.2)) k r <;> rfl
        · rw [if_neg ht, if_neg ht]
          show (match readN (fun b => match skip (b.length + 1) (elemCt kt) b with
            | none => none | some b => (skip (b.length + 1) (elemCt vt) b).map fun r => ((), r)) k r with
            | none => none | some (_, r) => some ([], r)) = _
          cases readN (fun b => match skip (b.length + 1) (elemCt kt) b with
            | none => none | some b => (skip (b.length + 1) (elemCt vt) b).map fun r => ((), r)) k r <;> rfl
  exact this.congr (e rv) (e rv')

theorem Stab.blockAt {σ α : Type} {n : Nat} {d d' : α → Bytes → Option (α × Bytes)} (get : σ → α) (set : σ → α → σ) (s : σ)
    (h : ∀ a, Stab n (d a) (d' a)) : Stab n (blockAt d get set s) (blockAt d' get set s) :=
  ((h (get s)).map fun a => set s a).congr (fun bs => by unfold Wire.blockAt; cases d (get s) bs <;> rfl)
    (fun bs => by unfold Wire.blockAt; cases d' (get s) bs <;> rfl)

/-- The labels of a reader, one `if` after the other. -/
theorem rlabel_some {σ : Type} {n : Nat} {p : Prop} [Decidable p] {ty : Nat} {g g' : σ → Bytes → Option (σ × Bytes)}
    {x x' : Option (Nat × (σ → Bytes → Option (σ × Bytes)))} (hg : ∀ s, Stab n (g s) (g' s))
    (h : (x = none ∧ x' = none) ∨ ∃ ty g g', x = some (ty, g) ∧ x' = some (ty, g') ∧ ∀ s, Stab n (g s) (g' s)) :
    ((if p then some (ty, g) else x) = none ∧ (if p then some (ty, g') else x') = none) ∨
      ∃ ty' h h', (if p then some (ty, g) else x) = some (ty', h) ∧ (if p then some (ty, g') else x') = some (ty', h') ∧
        ∀ s, Stab n (h s) (h' s) := by
  by_cases hp : p
  · exact .inr ⟨ty, g, g', by rw [if_pos hp], by rw [if_pos hp], hg⟩
  · rw [if_neg hp, if_neg hp]; exact h

theorem rlabel_none {σ : Type} {n : Nat} : ((none : Option (Nat × (σ → Bytes → Option (σ × Bytes)))) = none ∧
    (none : Option (Nat × (σ → Bytes → Option (σ × Bytes)))) = none) ∨ ∃ (ty : Nat) (g g' : σ → Bytes → Option (σ × Bytes)),
      none = some (ty, g) ∧ none = some (ty, g') ∧ ∀ s, Stab n (g s) (g' s) := .inl ⟨rfl, rfl⟩

section
variable {V : Type} {n : Nat} {rv rv' : V → Bytes → Option (V × Bytes)} (h : ∀ v, Stab n (rv v) (rv' v)) (v0 : V)

theorem rstab_date : RStab n dateReader dateReader where
  next := rfl
  label _ := rlabel_some (fun s => (stab_i16 n).block _ s) <| rlabel_some (fun s => (stab_byte n).block _ s) <|
    rlabel_some (fun s => (stab_byte n).block _ s) rlabel_none
theorem rstab_time : RStab n timeReader timeReader where
  next := rfl
  label _ := rlabel_some (fun s => (stab_byte n).block _ s) <| rlabel_some (fun s => (stab_byte n).block _ s) <|
    rlabel_some (fun s => (stab_byte n).block _ s) <| rlabel_some (fun s => (stab_i32 n).block _ s) rlabel_none
theorem rstab_dateTime : RStab n dateTimeReader dateTimeReader where
  next := rfl
  label _ := rlabel_some (fun s => (stab_i16 n).block _ s) <| rlabel_some (fun s => (stab_byte n).block _ s) <|
    rlabel_some (fun s => (stab_byte n).block _ s) <| rlabel_some (fun s => (stab_byte n).block _ s) <|
    rlabel_some (fun s => (stab_byte n).block _ s) <| rlabel_some (fun s => (stab_byte n).block _ s) <|
    rlabel_some (fun s => (stab_i32 n).block _ s) rlabel_none
include h
theorem rstab_tag : RStab n (tagReader rv v0) (tagReader rv' v0) where
  next := rfl
  label _ := rlabel_some (fun s => (stab_binary n).block _ s) <| rlabel_some (fun s => (stab_props (h v0)).block _ s) rlabel_none
theorem rstab_vertex : RStab n (vertexReader rv v0) (vertexReader rv' v0) where
  next := rfl
  label _ := rlabel_some (fun s => Stab.blockAt _ _ s h) <|
    rlabel_some (fun s => (stab_list (stab_read (rstab_tag h v0) _) _).block _ s) rlabel_none
theorem rstab_edge : RStab n (edgeReader rv v0) (edgeReader rv' v0) where
  next := rfl
  label _ := rlabel_some (fun s => Stab.blockAt _ _ s h) <| rlabel_some (fun s => Stab.blockAt _ _ s h) <|
    rlabel_some (fun s => (stab_i32 n).block _ s) <| rlabel_some (fun s => (stab_binary n).block _ s) <|
    rlabel_some (fun s => (stab_i64 n).block _ s) <| rlabel_some (fun s => (stab_props (h v0)).block _ s) rlabel_none
theorem rstab_step : RStab n (stepReader rv v0) (stepReader rv' v0) where
  next := rfl
  label _ := rlabel_some (fun s => Stab.blockAt _ _ s fun v => stab_read (rstab_vertex h v0) v) <|
    rlabel_some (fun s => (stab_i32 n).block _ s) <| rlabel_some (fun s => (stab_binary n).block _ s) <|
    rlabel_some (fun s => (stab_i64 n).block _ s) <| rlabel_some (fun s => (stab_props (h v0)).block _ s) rlabel_none
theorem rstab_path : RStab n (pathReader rv v0) (pathReader rv' v0) where
  next := rfl
  label _ := rlabel_some (fun s => Stab.blockAt _ _ s fun v => stab_read (rstab_vertex h v0) v) <|
    rlabel_some (fun s => (stab_list (stab_read (rstab_step h v0) _) _).block _ s) rlabel_none
theorem rstab_list : RStab n (listReader rv v0) (listReader rv' v0) where
  next := rfl
  label _ := rlabel_some (fun s => (stab_list (h v0) _).block _ s) rlabel_none
theorem rstab_map : RStab n (mapReader rv v0) (mapReader rv' v0) where
  next := rfl
  label _ := rlabel_some (fun s => (stab_props (h v0)).block _ s) rlabel_none
theorem rstab_set (eq : V → V → Bool) : RStab n (setReader eq rv v0) (setReader eq rv' v0) where
  next := rfl
  label _ := rlabel_some (fun s => (stab_list (h v0) _).block _ s) rlabel_none
theorem rstab_dataSet : RStab n (dataSetReader rv v0) (dataSetReader rv' v0) where
  next := rfl
  label _ := rlabel_some (fun s => (stab_list (stab_binary n) _).block _ s) <|
    rlabel_some (fun s => (stab_list (stab_read (rstab_list h v0) _) _).block _ s) rlabel_none
end

/-! ## Values -/

/-- Both readers take the field, or both skip it. -/
def UStab (n : Nat) (x x' : Option (Bytes → Option (Value × Bytes))) : Prop :=
  (x = none ∧ x' = none) ∨ ∃ g g', x = some g ∧ x' = some g' ∧ Stab n g g'

theorem ustab_ite {n : Nat} {p : Prop} [Decidable p] {x x' y y' : Option (Bytes → Option (Value × Bytes))} (hx : UStab n x x')
    (hy : UStab n y y') : UStab n (if p then x else y) (if p then x' else y') := by
  split
  · exact hx
  · exact hy
theorem ustab_some {n : Nat} {g g' : Bytes → Option (Value × Bytes)} (h : Stab n g g') : UStab n (some g) (some g') :=
  .inr ⟨g, g', rfl, rfl, h⟩
theorem ustab_none {n : Nat} : UStab n none none := .inl ⟨rfl, rfl⟩

theorem stab_null (n : Nat) : Stab n (fun bs => match readI32 bs with
      | none => none
      | some (i, r) => (nullOf i).map fun n => (Value.null n, r)) (fun bs => match readI32 bs with
      | none => none
      | some (i, r) => (nullOf i).map fun n => (Value.null n, r)) := by
  have e : ∀ bs, (match readI32 bs with
      | none => none
      | some (i, r) => (nullOf i).map fun n => (Value.null n, r)) =
      seqR readI32 (fun i r => ((nullOf i).map Value.null).map fun b => (b, r)) bs := by
    intro bs; rw [seqR]
    cases readI32 bs with
    | none => rfl
    | some x => obtain ⟨i, r⟩ := x; dsimp only; cases nullOf i <;> rfl
  exact ((stab_i32 n).post _).congr e e

theorem stab_union {n : Nat} {rv rv' : Value → Bytes → Option (Value × Bytes)} (h : ∀ v, Stab n (rv v) (rv' v)) (id : Int) (ct : Nat) :
    UStab n (unionField rv id ct) (unionField rv' id ct) := by
  have st : ∀ {α : Type} (R R' : Reader α) (a : α) (mk : α → Value), RStab n R R' →
      UStab n (if ct = ctStruct then some fun bs => (R.read a bs).map fun x => (mk x.1, x.2) else none)
        (if ct = ctStruct then some fun bs => (R'.read a bs).map fun x => (mk x.1, x.2) else none) := by
    intro α R R' a mk hR
    exact ustab_ite (ustab_some ((stab_read hR a).map mk)) ustab_none
  unfold unionField
  refine ustab_ite (ustab_ite (ustab_some (stab_null n)) ustab_none) ?_
  refine ustab_ite (ustab_ite (ustab_some (Stab.ret _)) (ustab_ite (ustab_some (Stab.ret _)) ustab_none)) ?_
  refine ustab_ite (ustab_ite (ustab_some ((stab_i64 n).map _)) ustab_none) ?_
  refine ustab_ite (ustab_ite (ustab_some ((stab_double n).map _)) ustab_none) ?_
  refine ustab_ite (ustab_ite (ustab_some ((stab_binary n).map _)) ustab_none) ?_
  refine ustab_ite (st _ _ _ _ rstab_date) ?_
  refine ustab_ite (st _ _ _ _ rstab_time) ?_
  refine ustab_ite (st _ _ _ _ rstab_dateTime) ?_
  refine ustab_ite (st _ _ _ _ (rstab_vertex h _)) ?_
  refine ustab_ite (st _ _ _ _ (rstab_edge h _)) ?_
  refine ustab_ite (st _ _ _ _ (rstab_path h _)) ?_
  refine ustab_ite (st _ _ _ _ (rstab_list h _)) ?_
  refine ustab_ite (st _ _ _ _ (rstab_map h _)) ?_
  refine ustab_ite (st _ _ _ _ (rstab_set h _ _)) ?_
  exact ustab_ite (st _ _ _ (fun x => .dataset x.1 x.2) (rstab_dataSet h _)) ustab_none

theorem stab_value : ∀ (f m : Nat) (old : Value), Stab m (readValue f old) (readValue m old) := by
  intro f
  induction f with
  | zero => intro m old bs a r h; simp [readValue] at h
  | succ f ih =>
    have main : ∀ m old, Stab (m + 1) (readValue (f + 1) old) (readValue (m + 1) old) := by
      intro m old bs a r h
      rw [readValue] at h
      cases hh : readFieldHeader 0 bs with
      | none => rw [hh] at h; cases h
      | some x =>
        obtain ⟨x, r1⟩ := x
        obtain ⟨b, c, rfl, hs⟩ := header_stab hh
        rw [hh] at h
        cases x with
        | none =>
          cases h
          exact ⟨b :: c, rfl, fun _ s => by rw [readValue, hs]⟩
        | some x =>
          obtain ⟨id, ct⟩ := x
          simp only at h
          -- the body of the union
          have body : ∀ (g g' : Bytes → Option (Value × Bytes)), Stab m g g' →
              (match g r1 with | none => none | some (v, r) => match readFieldHeader id r with
                | some (none, r) => some (v, r) | _ => none) = some (a, r) →
              (∀ x, readValue (m + 1) old (b :: c ++ x) = match g' x with | none => none | some (v, r) => match readFieldHeader id r with
                | some (none, r) => some (v, r) | _ => none) →
              ∃ c', b :: c ++ r1 = c' ++ r ∧ (c'.length < m + 1 → ∀ s, readValue (m + 1) old (c' ++ s) = some (a, s)) := by
            intro g g' hg h1 h2
            cases hv : g r1 with
            | none => rw [hv] at h1; cases h1
            | some y =>
              obtain ⟨v, r2⟩ := y
              obtain ⟨c2, rfl, h3⟩ := hg r1 v r2 hv
              rw [hv] at h1
              dsimp only at h1
              cases hh2 : readFieldHeader id r2 with
              | none => rw [hh2] at h1; cases h1
              | some z =>
                obtain ⟨z, r3⟩ := z
                obtain ⟨b2, c3, rfl, hs2⟩ := header_stab hh2
                rw [hh2] at h1
                cases z with
                | some _ => cases h1
                | none =>
                  cases h1
                  refine ⟨b :: c ++ c2 ++ (b2 :: c3), by simp, fun hl s => ?_⟩
                  simp only [List.length_append, List.length_cons] at hl
                  rw [List.append_assoc, List.append_assoc, h2, h3 (by omega)]
                  simp only [hs2]
          rcases stab_union (ih m) id ct with ⟨u1, u2⟩ | ⟨g, g', u1, u2, hg⟩
          · rw [u1] at h
            have hsk : Stab m (fun r => (skip (r.length + 1) ct r).map fun r => (old, r)) (fun r => (skip (r.length + 1) ct r).map fun r => (old, r)) :=
              ((stab_skipLen m ct).map fun _ => old).congr
                (fun bs => by unfold unitR; dsimp only; cases skip (bs.length + 1) ct bs <;> rfl)
                (fun bs => by unfold unitR; dsimp only; cases skip (bs.length + 1) ct bs <;> rfl)
            refine body _ _ hsk h fun x => ?_
            rw [readValue, hs]
            simp only [u2]
            rfl
          · rw [u1] at h
            refine body g g' hg h fun x => ?_
            rw [readValue, hs]
            simp only [u2]
            rfl
    intro m old
    cases m with
    | zero => exact (main 0 old).zero
    | succ m => exact main m old

theorem stab_deserialize (n : Nat) : Stab n deserialize deserialize :=
  Stab.len (d := fun f => readValue f .empty) (fun f m => stab_value f m .empty) n

end Wire
end Nebula
