import Verif.Wire.Lemmas
/-! # Skipping fields that are not known -/
namespace Nebula
namespace Wire

theorem readFieldHeader_any {last id ct : Nat} (h3 : 0 < ct) (h4 : ct < 16) (hid : id ≤ 32767)
    (rest : Bytes) : readFieldHeader last (fieldHeader last id ct ++ rest) = some (some ((id : Int), ct), rest) := by
  by_cases h : last < id ∧ id - last ≤ 15
  · exact readFieldHeader_write h.1 h.2 h3 h4 rest
  · rw [fieldHeader, if_neg h, List.cons_append, readFieldHeader, ofNat_toNat (by omega)]
    have e1 : ct % 16 = ct := by omega
    have e2 : ct / 16 = 0 := by omega
    simp only [e1, e2]
    rw [if_neg (by omega), if_pos trivial, readI16_write (by omega)]

theorem fieldHeader_head {last id ct : Nat} (h3 : 0 < ct) (h4 : ct < 16) :
    ∃ b r, fieldHeader last id ct = b :: r ∧ b.toNat ≠ 0 := by
  unfold fieldHeader
  split
  · exact ⟨_, _, rfl, by rw [ofNat_toNat (by omega)]; omega⟩
  · exact ⟨_, _, rfl, by rw [ofNat_toNat (by omega)]; omega⟩

theorem Datum.ct_pos (d : Datum) : 0 < d.ct := by cases d <;> (try cases ‹Bool›) <;> simp [Datum.ct, ctByte, ctTrue, ctFalse, ctI16, ctI32, ctI64, ctDouble, ctBinary, ctList, ctSet, ctMap, ctStruct]
theorem Datum.ct_lt (d : Datum) : d.ct < 16 := by cases d <;> (try cases ‹Bool›) <;> simp [Datum.ct, ctByte, ctTrue, ctFalse, ctI16, ctI32, ctI64, ctDouble, ctBinary, ctList, ctSet, ctMap, ctStruct]

/-- The bytes of an element of a container. -/
def Datum.encE (d : Datum) : Bytes := if d.isBool then [UInt8.ofNat d.ct] else d.enc

theorem encL_eq (l : List Datum) : encL l = l.flatMap Datum.encE := by
  induction l with
  | nil => rfl
  | cons a l ih => simp [encL, ih, Datum.encE]
theorem encM_eq (l : List (Datum × Datum)) : encM l = l.flatMap fun kv => kv.1.encE ++ kv.2.encE := by
  induction l with
  | nil => rfl
  | cons a l ih => simp [encM, ih, Datum.encE]
theorem wfL_iff (et : Nat) (l : List Datum) : wfL et l ↔ ∀ d ∈ l, d.et = et ∧ d.WF := by
  induction l with
  | nil => simp [wfL]
  | cons a l ih => simp [wfL, ih]
theorem wfM_iff (kt vt : Nat) (l : List (Datum × Datum)) :
    wfM kt vt l ↔ ∀ d ∈ l, (d.1.et = kt ∧ d.1.WF) ∧ (d.2.et = vt ∧ d.2.WF) := by
  induction l with
  | nil => simp [wfM]
  | cons a l ih => obtain ⟨k, v⟩ := a; simp [wfM, ih]

/-- `skip` consumes exactly the bytes of the datum. -/
def Skips (d : Datum) : Prop := d.WF → ∀ (f : Nat) (r : Bytes), d.enc.length < f → skip f d.ct (d.enc ++ r) = some r

theorem skip_elem {d : Datum} (hd : Skips d) (hw : d.WF) {f : Nat} (r : Bytes) (hf : d.encE.length < f) :
    skip f (elemCt d.et) (d.encE ++ r) = some r := by
  cases d with
  | bool b =>
    obtain ⟨f, rfl⟩ : ∃ g, f = g + 1 := ⟨f - 1, by omega⟩
    cases b <;> simp [Datum.et, elemCt, Datum.encE, Datum.isBool, skip, ctByte, ctTrue, ctFalse, readByte]
  | _ => exact hd hw f r hf

theorem skip_list {f : Nat} {et : Nat} {l : List Datum} (h : ∀ d ∈ l, Skips d) (he : et < 16) (hs : Small l.length)
    (hw : ∀ d ∈ l, d.et = et ∧ d.WF) (hf : (listHeader l.length et ++ encL l).length ≤ f) (r : Bytes) :
    skipElems (skip f) (listHeader l.length et ++ encL l ++ r) = some r := by
  rw [skipElems, List.append_assoc, readListHeader_write hs he, encL_eq]
  simp only
  rw [readN_write _ Datum.encE (fun _ => ()) l r]
  · rfl
  · intro d hd r
    have hl := len_flatMap_mem (w := Datum.encE) hd
    rw [encL_eq, List.length_append] at hf
    have hh : 1 ≤ (listHeader l.length et).length := by unfold listHeader; split <;> simp
    rw [← (hw d hd).1, skip_elem (h d hd) (hw d hd).2 r (by omega)]
    rfl

theorem skip_map {f : Nat} {kt vt : Nat} {l : List (Datum × Datum)} (h : ∀ d ∈ l, Skips d.1 ∧ Skips d.2)
    (hk : kt < 16) (hv : vt < 16) (hs : Small l.length)
    (hw : ∀ d ∈ l, (d.1.et = kt ∧ d.1.WF) ∧ (d.2.et = vt ∧ d.2.WF))
    (hf : (mapHeader l.length kt vt ++ encM l).length ≤ f) (r : Bytes) :
    skipEntries (skip f) (mapHeader l.length kt vt ++ encM l ++ r) = some r := by
  rw [skipEntries]
  by_cases h0 : l.length = 0
  · have : l = [] := List.length_eq_zero_iff.1 h0
    subst this
    rw [List.append_assoc]
    simp [readMapHeader_zero, readN, encM]
  · rw [List.append_assoc, readMapHeader_write hs h0 hk hv, encM_eq]
    simp only
    rw [readN_write _ (fun kv : Datum × Datum => kv.1.encE ++ kv.2.encE) (fun _ => ()) l r]
    · rfl
    · intro d hd r
      have hl := len_flatMap_mem (w := fun kv : Datum × Datum => kv.1.encE ++ kv.2.encE) hd
      simp only [List.length_append] at hl
      rw [encM_eq, List.length_append] at hf
      have hh : 1 ≤ (mapHeader l.length kt vt).length := by unfold mapHeader; split <;> simp <;> omega
      rw [List.append_assoc, ← (hw d hd).1.1, ← (hw d hd).2.1, skip_elem (h d hd).1 (hw d hd).1.2 _ (by omega)]
      simp only
      rw [skip_elem (h d hd).2 (hw d hd).2.2 r (by omega)]
      rfl

theorem skip_fields {f : Nat} : ∀ {fs : List (Nat × Datum)} (k last : Nat), (∀ d ∈ fs, Skips d.2) → wfF fs →
    (encF last fs).length < f → (encF last fs).length < k → ∀ r : Bytes,
    skip.skipFields f k last (encF last fs ++ (0 :: r)) = some r
  | [], k, last, _, _, _, hk, r => by
    obtain ⟨k, rfl⟩ : ∃ g, k = g + 1 := ⟨k - 1, by omega⟩
    rw [skip.skipFields, encF, List.nil_append, readFieldHeader_stop]
  | (id, d) :: fs, k, last, h, hw, hf, hk, r => by
    obtain ⟨k, rfl⟩ : ∃ g, k = g + 1 := ⟨k - 1, by omega⟩
    rw [wfF] at hw
    obtain ⟨⟨hid, hd⟩, hfs⟩ := hw
    have hh := fieldHeader_len last id d.ct
    simp only [encF, List.length_append] at hf hk
    rw [skip.skipFields, encF, List.append_assoc, List.append_assoc, readFieldHeader_any d.ct_pos d.ct_lt hid]
    simp only
    rw [h (id, d) List.mem_cons_self hd f _ (by simp only; omega)]
    simp only
    exact skip_fields k id (fun d hd => h d (List.mem_cons_of_mem _ hd)) hfs (by omega) (by omega) r

mutual
theorem skips : ∀ d : Datum, Skips d
  | .bool b => fun _ f r hf => by
    obtain ⟨f, rfl⟩ : ∃ g, f = g + 1 := ⟨f - 1, by omega⟩
    cases b <;> simp [Datum.ct, skip, Datum.enc]
  | .byte x => fun h f r hf => by
    obtain ⟨f, rfl⟩ : ∃ g, f = g + 1 := ⟨f - 1, by omega⟩
    simp [Datum.ct, skip, Datum.enc, ctByte, ctTrue, ctFalse, readByte_write (x := x) h]
  | .i16 x => fun h f r hf => by
    obtain ⟨f, rfl⟩ : ∃ g, f = g + 1 := ⟨f - 1, by omega⟩
    simp only [Datum.WF] at h
    have : zigzag x < 2 ^ 32 := by unfold zigzag; split <;> omega
    simp [Datum.ct, skip, Datum.enc, ctByte, ctTrue, ctFalse, ctI16, writeInt, readU32_varint this]
  | .i32 x => fun h f r hf => by
    obtain ⟨f, rfl⟩ : ∃ g, f = g + 1 := ⟨f - 1, by omega⟩
    simp only [Datum.WF] at h
    have : zigzag x < 2 ^ 32 := by unfold zigzag; split <;> omega
    simp [Datum.ct, skip, Datum.enc, ctByte, ctTrue, ctFalse, ctI16, ctI32, writeInt, readU32_varint this]
  | .i64 x => fun h f r hf => by
    obtain ⟨f, rfl⟩ : ∃ g, f = g + 1 := ⟨f - 1, by omega⟩
    simp only [Datum.WF, InI64] at h
    have : zigzag x < 2 ^ 64 := by unfold zigzag; split <;> omega
    simp [Datum.ct, skip, Datum.enc, ctByte, ctTrue, ctFalse, ctI16, ctI32, ctI64, writeInt, readU64_varint this]
  | .double n => fun h f r hf => by
    obtain ⟨f, rfl⟩ : ∃ g, f = g + 1 := ⟨f - 1, by omega⟩
    have := takeN_append (be64 8 n) r
    rw [be64_length] at this
    simp [Datum.ct, skip, Datum.enc, ctByte, ctTrue, ctFalse, ctI16, ctI32, ctI64, ctDouble, writeDouble, this]
  | .binary s => fun h f r hf => by
    obtain ⟨f, rfl⟩ : ∃ g, f = g + 1 := ⟨f - 1, by omega⟩
    simp [Datum.ct, skip, Datum.enc, ctByte, ctTrue, ctFalse, ctI16, ctI32, ctI64, ctDouble, ctBinary,
      readBinary_write (s := s) h]
  | .list et l => fun h f r hf => by
    obtain ⟨f, rfl⟩ : ∃ g, f = g + 1 := ⟨f - 1, by omega⟩
    rw [Datum.WF] at h
    rw [Datum.enc] at hf ⊢
    have := skip_list (skipsL l) h.1 h.2.1 ((wfL_iff _ _).1 h.2.2) (f := f) (by omega) r
    rw [skip]
    simp [Datum.ct, ctByte, ctTrue, ctFalse, ctI16, ctI32, ctI64, ctDouble, ctBinary, ctList]
    simpa using this
  | .set et l => fun h f r hf => by
    obtain ⟨f, rfl⟩ : ∃ g, f = g + 1 := ⟨f - 1, by omega⟩
    rw [Datum.WF] at h
    rw [Datum.enc] at hf ⊢
    have := skip_list (skipsL l) h.1 h.2.1 ((wfL_iff _ _).1 h.2.2) (f := f) (by omega) r
    rw [skip]
    simp [Datum.ct, ctByte, ctTrue, ctFalse, ctI16, ctI32, ctI64, ctDouble, ctBinary, ctList, ctSet]
    simpa using this
  | .map kt vt l => fun h f r hf => by
    obtain ⟨f, rfl⟩ : ∃ g, f = g + 1 := ⟨f - 1, by omega⟩
    rw [Datum.WF] at h
    rw [Datum.enc] at hf ⊢
    have := skip_map (skipsM l) h.1 h.2.1 h.2.2.1 ((wfM_iff _ _ _).1 h.2.2.2) (f := f) (by omega) r
    rw [skip]
    simp [Datum.ct, ctByte, ctTrue, ctFalse, ctI16, ctI32, ctI64, ctDouble, ctBinary, ctList, ctSet, ctMap]
    simpa using this
  | .struct fs => fun h f r hf => by
    obtain ⟨f, rfl⟩ : ∃ g, f = g + 1 := ⟨f - 1, by omega⟩
    rw [Datum.WF] at h
    rw [Datum.enc] at hf ⊢
    simp only [List.length_append, List.length_cons, List.length_nil] at hf
    have := skip_fields (f := f) f 0 (skipsF fs) h (by omega) (by omega) r
    rw [skip]
    simp [Datum.ct, ctByte, ctTrue, ctFalse, ctI16, ctI32, ctI64, ctDouble, ctBinary, ctList, ctSet, ctMap, ctStruct]
    simpa using this
theorem skipsL : ∀ l : List Datum, ∀ d ∈ l, Skips d
  | [], _, h => by simp at h
  | a :: l, d, h => by
    rcases List.mem_cons.mp h with h | h
    · rw [h]; exact skips a
    · exact skipsL l d h
theorem skipsM : ∀ l : List (Datum × Datum), ∀ d ∈ l, Skips d.1 ∧ Skips d.2
  | [], _, h => by simp at h
  | (k, v) :: l, d, h => by
    rcases List.mem_cons.mp h with h | h
    · rw [h]; exact ⟨skips k, skips v⟩
    · exact skipsM l d h
theorem skipsF : ∀ l : List (Nat × Datum), ∀ d ∈ l, Skips d.2
  | [], _, h => by simp at h
  | (_, v) :: l, d, h => by
    rcases List.mem_cons.mp h with h | h
    · rw [h]; exact skips v
    · exact skipsF l d h
end

/-! ## Unknown fields at the end of a structure -/

section unknown
variable {σ : Type} (R : Reader σ)

theorem run_extra_slow {s : σ} {rest : Bytes} : ∀ (fs : List (Nat × Datum)) (f last : Nat),
    (∀ d ∈ fs, R.label d.1 = none) → wfF fs → (encF last fs).length < f →
    R.run f false last s (encF last fs ++ ([0] ++ rest)) = some (s, rest)
  | [], f, last, _, _, hf => by
    obtain ⟨f, rfl⟩ : ∃ g, f = g + 1 := ⟨f - 1, by omega⟩
    rw [Reader.run, encF]
    simp [readFieldHeader_stop]
  | (id, d) :: fs, f, last, hl, hw, hf => by
    obtain ⟨f, rfl⟩ : ∃ g, f = g + 1 := ⟨f - 1, by omega⟩
    rw [wfF] at hw
    have hh := fieldHeader_len last id d.ct
    simp only [encF, List.length_append] at hf
    rw [Reader.run, encF, List.append_assoc, List.append_assoc]
    simp only [Bool.false_eq_true, if_false]
    rw [readFieldHeader_any d.ct_pos d.ct_lt hw.1.1]
    simp only [hl (id, d) List.mem_cons_self]
    rw [skips d hw.1.2 _ _ (by simp; omega)]
    exact run_extra_slow fs f id (fun d hd => hl d (List.mem_cons_of_mem _ hd)) hw.2 (by omega)

theorem run_extra {s : σ} {rest : Bytes} (fs : List (Nat × Datum)) (f last : Nat) (hn : R.next last = none)
    (hl : ∀ d ∈ fs, R.label d.1 = none) (hw : wfF fs) (hf : (encF last fs).length < f) :
    R.run f true last s (encF last fs ++ ([0] ++ rest)) = some (s, rest) := by
  cases fs with
  | nil =>
    obtain ⟨f, rfl⟩ : ∃ g, f = g + 1 := ⟨f - 1, by omega⟩
    exact run_stop R hn
  | cons a fs =>
    obtain ⟨id, d⟩ := a
    have key := run_extra_slow (s := s) (rest := rest) R ((id, d) :: fs) f last hl hw hf
    obtain ⟨f, rfl⟩ : ∃ g, f = g + 1 := ⟨f - 1, by omega⟩
    rw [← key, Reader.run, Reader.run]
    have : R.advance last (encF last ((id, d) :: fs) ++ ([0] ++ rest)) = none := by
      obtain ⟨b, r, hb, hb0⟩ := fieldHeader_head (last := last) (id := id) d.ct_pos d.ct_lt
      rw [encF, hb]
      simp [Reader.advance, hn]
      intro h; exact hb0 (by simp [h])
    simp only [if_true, this, Bool.false_eq_true, if_false]

theorem Parses.extra {s x : σ} {fields : Bytes} {n last : Nat} (h : Parses R s fields n last x)
    (hn : R.next last = none) (hl : ∀ id : Nat, last < id → R.label id = none) (fs : List (Nat × Datum))
    (hfs : ∀ d ∈ fs, last < d.1) (hw : wfF fs) (rest : Bytes) :
    R.read s (fields ++ encF last fs ++ ([0] ++ rest)) = some (x, rest) := by
  rw [List.append_assoc]
  refine read_of_run R (n := (encF last fs).length + 1 + n) (by have := h.1; simp; omega) fun k => ?_
  rw [show k + ((encF last fs).length + 1 + n) = (k + ((encF last fs).length + 1)) + n by omega, h.2,
    run_extra R fs _ last hn (fun d hd => hl d.1 (hfs d hd)) hw (by omega)]
end unknown

end Wire
end Nebula
