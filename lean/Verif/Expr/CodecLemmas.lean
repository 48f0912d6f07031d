import Verif.Expr.Codec
import Verif.Expr.CodecSpec
import Verif.Wire.Props
/-! # Lemmas for the expression codec -/
namespace Nebula
namespace Expr

/-! ## The recursive functions as maps -/

theorem receivedAll_eq (es : List Expr) : receivedAll es = es.map received := by
  induction es with
  | nil => rfl
  | cons e es ih => simp [receivedAll, ih]
theorem receivedEntries_eq (es : List (Bytes × Expr)) : receivedEntries es = es.map fun kv => (kv.1, received kv.2) := by
  induction es with
  | nil => rfl
  | cons e es ih => simp [receivedEntries, ih]
theorem receivedCases_eq (es : List (Expr × Expr)) : receivedCases es = es.map fun x => (received x.1, received x.2) := by
  induction es with
  | nil => rfl
  | cons e es ih => simp [receivedCases, ih]
theorem receivedOpt_eq (o : Option Expr) : receivedOpt o = o.map received := by cases o <;> rfl

section
variable (bits : F64 → Nat)
theorem writeAll_eq (es : List Expr) : writeAll bits es = es.flatMap (writeTo bits) := by
  induction es with
  | nil => rfl
  | cons e es ih => simp [writeAll, ih]
theorem writeEntries_eq (es : List (Bytes × Expr)) :
    writeEntries bits es = es.flatMap fun kv => putStr kv.1 ++ writeTo bits kv.2 := by
  induction es with
  | nil => rfl
  | cons e es ih => simp [writeEntries, ih]
theorem writeCases_eq (es : List (Expr × Expr)) :
    writeCases bits es = es.flatMap fun x => writeTo bits x.1 ++ writeTo bits x.2 := by
  induction es with
  | nil => rfl
  | cons e es ih => simp [writeCases, ih]
end

theorem unchanged_received (e : Expr) : Unchanged e → received e = e := by
  induction e using children_induction with
  | h e ih =>
    intro hu
    have hk : ∀ x ∈ e.children, received x = x := fun x hx => ih x hx (hu.kids x hx)
    have hopt : ∀ o : Option Expr, (∀ x ∈ o.toList, received x = x) → receivedOpt o = o := by
      intro o ho; cases o with
      | none => rfl
      | some x => rw [receivedOpt, ho x (by simp)]
    have hall : ∀ es : List Expr, (∀ x ∈ es, received x = x) → receivedAll es = es := by
      intro es h; rw [receivedAll_eq, Wire.list_id h]
    cases e with
    | const v => rw [received, Wire.wireImage_plain v hu.here]
    | unary o e => rw [received, hk e (by simp [children])]
    | binary o l r => rw [received, hk l (by simp [children]), hk r (by simp [children])]
    | logical o es => rw [received, hall es hk]
    | cast t e => rw [received, hk e (by simp [children])]
    | call n es => rw [received, hall es hk]
    | var n i => rw [received]; have := hu.here; simp only [UnchangedHere] at this; rw [this]
    | versionedVar n v => rw [received, hopt v hk]
    | coll k es => rw [received, hall es hk]
    | map kvs =>
      rw [received, receivedEntries_eq, Wire.list_id]
      intro kv hkv
      rw [hk kv.2 (List.mem_map_of_mem hkv)]
    | case g c d cs =>
      rw [received, hopt c fun x hx => hk x (by simp only [children, List.mem_append]; exact .inl (.inl hx)),
        hopt d fun x hx => hk x (by simp only [children, List.mem_append]; exact .inl (.inr hx)), receivedCases_eq, Wire.list_id]
      intro x hx
      have h1 := hk x.1 (by simp only [children, List.mem_append, List.mem_flatMap]; exact .inr ⟨x, hx, by simp⟩)
      have h2 := hk x.2 (by simp only [children, List.mem_append, List.mem_flatMap]; exact .inr ⟨x, hx, by simp⟩)
      rw [h1, h2]
    | predicate n i c f o =>
      rw [received, hk c (by simp [children]), hopt f fun x hx => hk x (by simp only [children, List.mem_cons]; exact .inr hx)]
    | listComp i c f m o =>
      rw [received, hk c (by simp [children]),
        hopt f fun x hx => hk x (by simp only [children, List.mem_cons, List.mem_append]; exact .inr (.inl hx)),
        hopt m fun x hx => hk x (by simp only [children, List.mem_cons, List.mem_append]; exact .inr (.inr hx))]
    | reduce a i v c m o => rw [received, hk i (by simp [children]), hk c (by simp [children]), hk m (by simp [children])]
    | aggregate n d a => rw [received, hopt a hk]
    | range l lo hi =>
      rw [received, hk l (by simp [children]),
        hopt lo fun x hx => hk x (by simp only [children, List.mem_cons, List.mem_append]; exact .inr (.inl hx)),
        hopt hi fun x hx => hk x (by simp only [children, List.mem_cons, List.mem_append]; exact .inr (.inr hx))]
    | _ => rfl

/-! ## Reading back -/

/-- The step `d` reads the bytes `b` as `x`, whatever follows them. -/
def Reads {α : Type} (d : Dec α) (b : Bytes) (x : α) : Prop := ∀ rest, d (b ++ rest) = .ok x rest

theorem Reads.pure {α : Type} (x : α) : Reads (Pure.pure x : Dec α) [] x := fun _ => rfl

theorem Reads.bind {α β : Type} {d : Dec α} {k : α → Dec β} {b c : Bytes} {x : α} {y : β} (h : Reads d b x)
    (h' : Reads (k x) c y) : Reads (d >>= k) (b ++ c) y := by
  intro rest
  show (match d (b ++ c ++ rest) with | .ok a r => k a r | .abort => .abort | .oob n => .oob n) = _
  rw [List.append_assoc, h]
  exact h' rest

/-- The same where the last step only wraps the result. -/
theorem Reads.map {α β : Type} {d : Dec α} {g : α → β} {b : Bytes} {x : α} (h : Reads d b x) :
    Reads (d >>= fun a => Pure.pure (g a)) b (g x) := by
  have := h.bind (Reads.pure (g x)) (k := fun a => Pure.pure (g a))
  rwa [List.append_nil] at this

theorem le64_length : ∀ k n, (le64 k n).length = k
  | 0, _ => rfl
  | k + 1, n => by simp [le64, le64_length k]

theorem leVal_le64 : ∀ k n, n < 256 ^ k → leVal (le64 k n) = n
  | 0, n, h => by simp at h; simp [le64, leVal, h]
  | k + 1, n, h => by
    have : n / 256 < 256 ^ k := by rw [Nat.div_lt_iff_lt_mul (by omega)]; rwa [Nat.pow_succ] at h
    have e : (UInt8.ofNat (n % 256)).toNat = n % 256 := Wire.ofNat_toNat (Nat.mod_lt _ (by omega))
    rw [le64, leVal, e, leVal_le64 k _ this]; omega

theorem reads_size {n : Nat} (h : n < 2 ^ 64) : Reads readSize (putSize n) n := by
  intro rest
  have hl : (le64 8 n).length = 8 := le64_length 8 n
  have ht : (le64 8 n ++ rest).take 8 = le64 8 n := by
    exact List.take_left' hl
  have hd : (le64 8 n ++ rest).drop 8 = rest := by
    exact List.drop_left' hl
  rw [readSize, putSize, if_pos (by simp [hl]), ht, hd, leVal_le64 8 n h]

theorem reads_str {s : Bytes} (h : s.length < 2 ^ 64) : Reads readStr (putStr s) s := by
  intro rest
  have hl : (le64 8 s.length).length = 8 := le64_length 8 _
  have ht : (le64 8 s.length ++ (s ++ rest)).take 8 = le64 8 s.length := by
    exact List.take_left' hl
  have hd : (le64 8 s.length ++ (s ++ rest)).drop 8 = s ++ rest := by
    exact List.drop_left' hl
  rw [readStr, putStr, putSize, List.append_assoc, if_neg (by simp [hl]), ht, hd, leVal_le64 8 _ h]
  simp

theorem reads_val {bits : F64 → Nat} (hb : Wire.BitsOk bits) {v : Value} (h : Wire.Fits v) :
    Reads readVal (putVal bits v) (Wire.wireImage v) := by
  intro rest
  rw [readVal, putVal, Wire.C67_image hb v h]

theorem reads_bool {bits : F64 → Nat} (hb : Wire.BitsOk bits) (b : Bool) : Reads readBool (putVal bits (.bool b)) b := by
  have h : Wire.Fits (.bool b) := .mk trivial (by simp [Value.children])
  have := (reads_val hb h).bind (k := fun v => match v with | .bool b => Pure.pure b | _ => Dec.fail) (Reads.pure b)
  rwa [List.append_nil] at this

theorem reads_many {α β : Type} {d : Dec β} {w : α → Bytes} {g : α → β} : ∀ (l : List α), (∀ a ∈ l, Reads d (w a) (g a)) →
    Reads (readMany d l.length) (l.flatMap w) (l.map g)
  | [], _ => Reads.pure _
  | a :: l, h => by
    rw [List.flatMap_cons]
    exact (h a List.mem_cons_self).bind (reads_many l fun b hb => h b (List.mem_cons_of_mem _ hb)).map

theorem reads_many32 {α β : Type} {d : Dec β} {w : α → Bytes} {g : α → β} (l : List α) (hl : l.length < 2 ^ 32)
    (h : ∀ a ∈ l, Reads d (w a) (g a)) : Reads (readMany32 d l.length) (l.flatMap w) (l.map g) := by
  intro rest
  rw [readMany32, if_pos hl]
  exact reads_many l h rest

theorem reads_opt {d : Dec Expr} {bits : F64 → Nat} (o : Option Expr) (h : ∀ x ∈ o.toList, Reads d (writeTo bits x) (received x)) :
    Reads (readOpt d o.isSome) (writeOpt bits o) (receivedOpt o) := by
  cases o with
  | none => exact Reads.pure _
  | some x => exact (h x (by simp)).map

theorem reads_optStr {s : Bytes} (h : s.length < 2 ^ 64) :
    Reads (readOptStr !s.isEmpty) (if s.isEmpty then [] else putStr s) s := by
  cases s with
  | nil => exact Reads.pure _
  | cons a s => exact reads_str h

/-! ## Lengths -/

theorem len_child (bits : F64 → Nat) (e : Expr) (he : StorableHere e) :
    ∀ x ∈ e.children, (writeTo bits x).length < (writeTo bits e).length := by
  intro x hx
  have hk : ∀ k, (putKind k).length = 1 := fun _ => rfl
  have hall : ∀ es : List Expr, x ∈ es → (writeTo bits x).length ≤ (writeAll bits es).length := by
    intro es
    induction es with
    | nil => simp
    | cons a es ih =>
      intro h
      rcases List.mem_cons.1 h with rfl | h
      · simp [writeAll]
      · have := ih h; simp [writeAll]; omega
  have hopt : ∀ o : Option Expr, x ∈ o.toList → (writeTo bits x).length ≤ (writeOpt bits o).length := by
    intro o h; cases o <;> simp at h; subst h; simp [writeOpt]
  have hbnd : ∀ i (o : Option Expr), x ∈ o.toList → (writeTo bits x).length ≤ (writeBound bits i o).length := by
    intro i o h; cases o <;> simp at h; subst h; simp [writeBound]
  cases e with
  | unary o e => simp [children] at hx; subst hx; simp [writeTo, hk]
  | binary o l r => simp [children] at hx; rcases hx with rfl | rfl <;> simp [writeTo, hk] <;> omega
  | logical o es => have := hall es hx; simp [writeTo, hk]; omega
  | cast t e => simp [children] at hx; subst hx; simp [writeTo, hk]; omega
  | call n es => have := hall es hx; simp [writeTo, hk]; omega
  | versionedVar n v => exact he.elim
  | coll k es => have := hall es hx; simp [writeTo, hk]; omega
  | map kvs =>
    obtain ⟨kv, hkv, rfl⟩ := List.mem_map.1 hx
    have : (writeTo bits kv.2).length ≤ (writeEntries bits kvs).length := by
      clear hx he hall hopt hbnd
      induction kvs with
      | nil => simp at hkv
      | cons a es ih =>
        obtain ⟨k, v⟩ := a
        rcases List.mem_cons.1 hkv with rfl | h
        · simp [writeEntries]; omega
        · have := ih h; simp [writeEntries]; omega
    simp [writeTo, hk]; omega
  | case g c d cs =>
    simp only [children, List.mem_append, List.mem_flatMap] at hx
    rcases hx with (hx | hx) | ⟨y, hy, hx⟩
    · have := hopt c hx; simp [writeTo, hk]; omega
    · have := hopt d hx; simp [writeTo, hk]; omega
    · have : (writeTo bits x).length ≤ (writeCases bits cs).length := by
        clear he hall hopt hbnd
        induction cs with
        | nil => simp at hy
        | cons a es ih =>
          obtain ⟨k, v⟩ := a
          rcases List.mem_cons.1 hy with rfl | h
          · simp at hx; rcases hx with rfl | rfl <;> simp [writeCases] <;> omega
          · have := ih h; simp [writeCases]; omega
      simp [writeTo, hk]; omega
  | predicate n i c f o =>
    simp only [children, List.mem_cons] at hx
    rcases hx with rfl | hx
    · simp [writeTo, hk]; omega
    · have := hopt f hx; simp [writeTo, hk]; omega
  | listComp i c f m o =>
    simp only [children, List.mem_cons, List.mem_append] at hx
    rcases hx with rfl | hx | hx
    · simp [writeTo, hk]; omega
    · have := hopt f hx; simp [writeTo, hk]; omega
    · have := hopt m hx; simp [writeTo, hk]; omega
  | reduce a i v c m o => simp [children] at hx; rcases hx with rfl | rfl | rfl <;> simp [writeTo, hk] <;> omega
  | aggregate n d a => have := hopt a hx; simp [writeTo, hk]; omega
  | range l lo hi =>
    simp only [children, List.mem_cons, List.mem_append] at hx
    rcases hx with rfl | hx | hx
    · simp [writeTo, hk]; omega
    · have := hbnd 0 lo hx; simp [writeTo, hk]; omega
    · have := hbnd 1 hi hx; simp [writeTo, hk]; omega
  | _ => simp [children] at hx

/-! ## The round trip -/

theorem kinds_num (k : Kind) : kinds[kindNum k]? = some k ∧ kindNum k < 256 := by
  cases k with
  | un o => cases o <;> decide +kernel
  | bin o => cases o <;> decide +kernel
  | logical o => cases o <;> decide +kernel
  | prop o => cases o <;> decide +kernel
  | coll o => cases o <;> decide +kernel
  | text o => cases o <;> decide +kernel
  | _ => decide +kernel

theorem reads_kind (k : Kind) : Reads readKind (putKind k) (kindNum k) := by
  intro rest
  simp only [putKind, List.cons_append, List.nil_append, readKind]
  rw [Wire.ofNat_toNat (kinds_num k).2]

/-- Reading the kind and then the members. -/
theorem reads_decode {f : Nat} {k : Kind} {b : Bytes} {e : Expr} (h : Reads (resetFrom (decodeF f) k) b e) :
    Reads (decodeF (f + 1)) (putKind k ++ b) e := by
  rw [decodeF]
  refine (reads_kind k).bind ?_
  simp only [(kinds_num k).1]
  exact h

theorem decodeF_write {bits : F64 → Nat} (hb : Wire.BitsOk bits) (e : Expr) : Storable e →
    ∀ f, (writeTo bits e).length ≤ f → Reads (decodeF f) (writeTo bits e) (received e) := by
  induction e using children_induction with
  | h e ih =>
    intro he f hf
    have hpos : 0 < (writeTo bits e).length := by
      have := he.here
      cases e with
      | labelAttribute _ _ => exact this.elim
      | versionedVar _ _ => exact this.elim
      | text _ _ => exact this.elim
      | _ => simp [writeTo, putKind]
    cases f with
    | zero => omega
    | succ f =>
    have hk : ∀ x ∈ e.children, Reads (decodeF f) (writeTo bits x) (received x) := fun x hx =>
      ih x hx (he.kids x hx) f (by have := len_child bits e he.here x hx; omega)
    have hh := he.here
    cases e with
    | const v => rw [writeTo, received]; exact reads_decode (reads_val hb hh).map
    | unary o e => rw [writeTo, received]; exact reads_decode (hk e (by simp [children])).map
    | binary o l r =>
      rw [writeTo, received, List.append_assoc]
      exact reads_decode ((hk l (by simp [children])).bind (hk r (by simp [children])).map)
    | labelAttribute _ _ => exact hh.elim
    | column _ => exact hh.elim
    | logical o es =>
      rw [writeTo, received, List.append_assoc, receivedAll_eq, writeAll_eq]
      exact reads_decode ((reads_size (by unfold StorableHere Count32 at hh; omega)).bind (reads_many32 es hh hk).map)
    | cast t e =>
      rw [writeTo, received, List.append_assoc]
      exact reads_decode ((reads_size hh).bind (hk e (by simp [children])).map)
    | call n es =>
      rw [writeTo, received, List.append_assoc, List.append_assoc, receivedAll_eq, writeAll_eq]
      exact reads_decode ((reads_str hh.1).bind ((reads_size hh.2).bind (reads_many es hk).map))
    | prop k r s p =>
      rw [writeTo, received, List.append_assoc, List.append_assoc]
      refine reads_decode ?_
      rw [resetFrom, if_neg (by simp [hh.1, hh.2.1])]
      exact (reads_str hh.2.2.1).bind ((reads_str hh.2.2.2.1).bind (reads_str hh.2.2.2.2).map)
    | vertex => rw [writeTo, received, ← List.append_nil (putKind _)]; exact reads_decode (Reads.pure _)
    | edge => rw [writeTo, received, ← List.append_nil (putKind _)]; exact reads_decode (Reads.pure _)
    | uuid s => rw [writeTo, received]; exact reads_decode (reads_str hh.2).map
    | var n i => rw [writeTo, received]; exact reads_decode (reads_str hh).map
    | versionedVar _ _ => exact hh.elim
    | coll k es =>
      rw [writeTo, received, List.append_assoc, receivedAll_eq, writeAll_eq]
      exact reads_decode ((reads_size (by unfold StorableHere Count32 at hh; omega)).bind (reads_many32 es hh hk).map)
    | map kvs =>
      rw [writeTo, received, List.append_assoc, receivedEntries_eq, writeEntries_eq]
      refine reads_decode ((reads_size (by have := hh.1; unfold Count32 at this; omega)).bind
        (Reads.map (g := map) (reads_many32 kvs hh.1 fun kv hkv => ?_)))
      exact (reads_str (hh.2 kv hkv)).bind (hk kv.2 (List.mem_map_of_mem hkv)).map
    | label n => rw [writeTo, received]; exact reads_decode (reads_str hh).map
    | case g c d cs =>
      rw [writeTo, received, receivedCases_eq, writeCases_eq]
      simp only [List.append_assoc]
      refine reads_decode ((reads_bool hb g).bind ((reads_bool hb _).bind ((reads_bool hb _).bind
        ((reads_size (by unfold StorableHere Count32 at hh; omega)).bind
        ((reads_opt c fun x hx => hk x (by simp only [children, List.mem_append]; exact .inl (.inl hx))).bind
        ((reads_opt d fun x hx => hk x (by simp only [children, List.mem_append]; exact .inl (.inr hx))).bind
        (Reads.map (g := case g _ _) (reads_many32 cs hh fun x hx => ?_))))))))
      exact (hk x.1 (by simp only [children, List.mem_append, List.mem_flatMap]; exact .inr ⟨x, hx, by simp⟩)).bind
        (hk x.2 (by simp only [children, List.mem_append, List.mem_flatMap]; exact .inr ⟨x, hx, by simp⟩)).map
    | predicate n i c fl o =>
      rw [writeTo, received]
      simp only [List.append_assoc]
      exact reads_decode ((reads_bool hb _).bind ((reads_bool hb _).bind ((reads_bool hb _).bind ((reads_str hh.1).bind
        ((reads_optStr hh.2.1).bind ((hk c (by simp [children])).bind
        ((reads_opt fl fun x hx => hk x (by simp only [children, List.mem_cons]; exact .inr hx)).bind
        (reads_optStr hh.2.2).map)))))))
    | listComp i c fl m o =>
      rw [writeTo, received]
      simp only [List.append_assoc]
      exact reads_decode ((reads_bool hb _).bind ((reads_bool hb _).bind ((reads_bool hb _).bind ((reads_str hh.1).bind
        ((hk c (by simp [children])).bind
        ((reads_opt fl fun x hx => hk x (by simp only [children, List.mem_cons, List.mem_append]; exact .inr (.inl hx))).bind
        ((reads_opt m fun x hx => hk x (by simp only [children, List.mem_cons, List.mem_append]; exact .inr (.inr hx))).bind
        (reads_optStr hh.2).map)))))))
    | reduce a i v c m o =>
      rw [writeTo, received]
      simp only [List.append_assoc]
      exact reads_decode ((reads_bool hb _).bind ((reads_str hh.1).bind ((hk i (by simp [children])).bind
        ((reads_str hh.2.1).bind ((hk c (by simp [children])).bind ((hk m (by simp [children])).bind
        (reads_optStr hh.2.2).map))))))
    | text _ _ => exact hh.elim
    | aggregate n d a =>
      cases a with
      | none => exact absurd rfl hh.2
      | some a =>
        rw [writeTo, received, receivedOpt, writeOpt]
        simp only [List.append_assoc]
        exact reads_decode ((reads_str hh.1).bind ((reads_bool hb d).bind (hk a (by simp [children])).map))
    | range l lo hi =>
      rw [writeTo, received]
      simp only [List.append_assoc]
      have hl := hk l (by simp [children])
      have hlo : ∀ x ∈ lo.toList, Reads (decodeF f) (writeTo bits x) (received x) := fun x hx =>
        hk x (by simp only [children, List.mem_cons, List.mem_append]; exact .inr (.inl hx))
      have hhi : ∀ x ∈ hi.toList, Reads (decodeF f) (writeTo bits x) (received x) := fun x hx =>
        hk x (by simp only [children, List.mem_cons, List.mem_append]; exact .inr (.inr hx))
      refine reads_decode (hl.bind ((reads_size (by split <;> omega)).bind ?_))
      cases lo with
      | none =>
        cases hi with
        | none => exact absurd ⟨rfl, rfl⟩ hh
        | some h =>
          exact (reads_size (n := 1) (by omega)).bind (hhi h (by simp)).map
      | some lo =>
        cases hi with
        | none =>
          simp only [writeBound, List.append_nil, receivedOpt, Option.isSome_some, Option.isSome_none, Bool.and_false]
          refine (reads_size (n := 0) (by omega)).bind ?_
          exact Reads.map (g := fun x => range (received l) x none) (hlo lo (by simp)).map
        | some h =>
          simp only [writeBound, receivedOpt, List.append_assoc, Option.isSome_some, Bool.and_true]
          refine (reads_size (n := 0) (by omega)).bind ?_
          exact Reads.bind (hlo lo (by simp)).map ((reads_size (n := 1) (by omega)).bind (hhi h (by simp)).map)

end Expr
end Nebula
