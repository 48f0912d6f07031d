import Verif.Wire.Size
import Verif.Wire.Idl
import Verif.Wire.Lemmas
/-!
# Lemmas for C131
-/
namespace Nebula
namespace Wire

/-! ## Lists of data -/

theorem encL_map {α : Type} {w : α → Bytes} {f : α → Datum} : ∀ (l : List α), (∀ x ∈ l, (f x).isBool = false ∧ w x = (f x).enc) →
    encL (l.map f) = l.flatMap w
  | [], _ => rfl
  | a :: l, h => by
    have h1 := h a List.mem_cons_self
    rw [List.map_cons, encL, h1.1, encL_map l fun x hx => h x (List.mem_cons_of_mem _ hx), List.flatMap_cons, h1.2]
    simp

theorem encM_map {K V : Type} {wk : K → Bytes} {wv : V → Bytes} {f : K → Datum} {g : V → Datum} : ∀ (l : List (K × V)),
    (∀ kv ∈ l, ((f kv.1).isBool = false ∧ wk kv.1 = (f kv.1).enc) ∧ (g kv.2).isBool = false ∧ wv kv.2 = (g kv.2).enc) →
    encM (l.map fun kv => (f kv.1, g kv.2)) = l.flatMap fun kv => wk kv.1 ++ wv kv.2
  | [], _ => rfl
  | a :: l, h => by
    obtain ⟨⟨h1, h2⟩, h3, h4⟩ := h a List.mem_cons_self
    rw [List.map_cons, encM, h1, h3, encM_map l fun x hx => h x (List.mem_cons_of_mem _ hx), List.flatMap_cons, h2, h4]
    simp

theorem roomL_map {α : Type} {s : α → Nat} {f : α → Datum} : ∀ (l : List α), (∀ x ∈ l, s x = (f x).room) →
    roomL (l.map f) = (l.map s).sum
  | [], _ => rfl
  | a :: l, h => by
    rw [List.map_cons, roomL, roomL_map l fun x hx => h x (List.mem_cons_of_mem _ hx), List.map_cons, List.sum_cons, h a List.mem_cons_self]

theorem roomM_map {K V : Type} {sk : K → Nat} {sv : V → Nat} {f : K → Datum} {g : V → Datum} : ∀ (l : List (K × V)),
    (∀ kv ∈ l, sk kv.1 = (f kv.1).room ∧ sv kv.2 = (g kv.2).room) →
    roomM (l.map fun kv => (f kv.1, g kv.2)) = (l.map fun kv => sk kv.1 + sv kv.2).sum
  | [], _ => rfl
  | a :: l, h => by
    obtain ⟨h1, h2⟩ := h a List.mem_cons_self
    rw [List.map_cons, roomM, roomM_map l fun x hx => h x (List.mem_cons_of_mem _ hx), List.map_cons, List.sum_cons, h1, h2]

/-! ## The recursive definitions -/

section eqns
variable (bits : F64 → Nat)

theorem idlProps_eq (p : Props Value) : idlProps bits p = p.map fun kv => (Datum.binary kv.1, idl bits kv.2) := by
  induction p with
  | nil => rfl
  | cons a p ih => simp [idlProps, ih]
theorem idlVec_eq (l : List Value) : idlVec bits l = l.map (idl bits) := by
  induction l with
  | nil => rfl
  | cons a p ih => simp [idlVec, ih]
theorem idlRows_eq (l : List (List Value)) :
    idlRows bits l = l.map fun r => Datum.struct [(1, .list ctStruct (r.map (idl bits)))] := by
  induction l with
  | nil => rfl
  | cons a p ih => simp [idlRows, ih, idlVec_eq]
def tagIdl (t : Tag Value) : Datum :=
  .struct [(1, .binary t.name), (2, .map ctBinary ctStruct (t.props.map fun kv => (Datum.binary kv.1, idl bits kv.2)))]
theorem idlTags_eq (l : List (Tag Value)) : idlTags bits l = l.map (tagIdl bits) := by
  induction l with
  | nil => rfl
  | cons a p ih => simp [idlTags, ih, idlProps_eq, tagIdl]
theorem idlVertex_eq (v : Vertex Value) : idlVertex bits v = .struct [(1, idl bits v.vid), (2, .list ctStruct (v.tags.map (tagIdl bits)))] := by
  cases v; simp [idlVertex, idlTags_eq]
def stepIdl (e : Step Value) : Datum :=
  .struct [(1, idlVertex bits e.dst), (2, .i32 (dir e.type)), (3, .binary e.name), (4, .i64 e.ranking),
    (5, .map ctBinary ctStruct (e.props.map fun kv => (Datum.binary kv.1, idl bits kv.2)))]
theorem idlSteps_eq (l : List (Step Value)) : idlSteps bits l = l.map (stepIdl bits) := by
  induction l with
  | nil => rfl
  | cons a p ih => simp [idlSteps, ih, idlProps_eq, stepIdl]

theorem idl_struct (v : Value) : ∃ fs, idl bits v = .struct fs := by
  cases v <;> simp only [idl] <;> exact ⟨_, rfl⟩
theorem idl_notBool (v : Value) : (idl bits v).isBool = false := by
  obtain ⟨fs, h⟩ := idl_struct bits v; rw [h]; rfl
theorem idl_ct (v : Value) : (idl bits v).ct = ctStruct := by
  obtain ⟨fs, h⟩ := idl_struct bits v; rw [h]; rfl
theorem idlVertex_ct (v : Vertex Value) : (idlVertex bits v).ct = ctStruct := by rw [idlVertex_eq]; rfl
theorem idlVertex_notBool (v : Vertex Value) : (idlVertex bits v).isBool = false := by rw [idlVertex_eq]; rfl
end eqns

section sizes
theorem sEntries_eq (p : Props Value) : sEntries p = (p.map fun kv => sizeBinary kv.1 + szValue kv.2 false).sum := by
  induction p with
  | nil => rfl
  | cons a p ih => simp [sEntries, ih]
theorem sVec_eq (l : List Value) : sVec l = (l.map fun v => szValue v false).sum := by
  induction l with
  | nil => rfl
  | cons a p ih => simp [sVec, ih]
theorem sRows_eq (l : List (List Value)) : sRows l = (l.map (szList (fun zc v => szValue v zc) false)).sum := by
  induction l with
  | nil => rfl
  | cons a p ih => simp [sRows, ih, sVec_eq, szList, sizeList]
theorem sTags_eq (l : List (Tag Value)) : sTags l = (l.map (szTag (fun zc v => szValue v zc) false)).sum := by
  induction l with
  | nil => rfl
  | cons a p ih => simp [sTags, ih, sEntries_eq, szTag, szProps, sizeMap]
theorem sVertex_eq (v : Vertex Value) (zc : Bool) : sVertex v zc = szVertex (fun zc v => szValue v zc) zc v := by
  cases v; simp [sVertex, sTags_eq, szVertex, sizeList]
theorem sSteps_eq (l : List (Step Value)) : sSteps l = (l.map (szStep (fun zc v => szValue v zc) false)).sum := by
  induction l with
  | nil => rfl
  | cons a p ih => simp [sSteps, ih, sEntries_eq, sVertex_eq, szStep, szProps, sizeMap]

/-- The recursive sizes are the transcription. -/
theorem szValue_eqn (v : Value) (zc : Bool) : szValue v zc = szUnion (fun zc v => szValue v zc) zc v := by
  cases v with
  | vertex v => simp [szValue, szUnion, sVertex_eq]
  | edge e => simp [szValue, szUnion, szEdge, szProps, sizeMap, sEntries_eq]
  | path p => simp [szValue, szUnion, szPath, sizeList, sVertex_eq, sSteps_eq]
  | list l => simp [szValue, szUnion, szList, sizeList, sVec_eq]
  | map l => simp [szValue, szUnion, szMap, szProps, sizeMap, sEntries_eq]
  | set l => simp [szValue, szUnion, szSet, sizeList, sVec_eq]
  | dataset c r => simp [szValue, szUnion, szDataSet, sizeList, sRows_eq]
  | _ => simp [szValue, szUnion]
end sizes

/-! ## What is written -/

theorem writeDate_idl (d : Date) : writeDate d = (Date.idl d).enc := by
  simp [writeDate, Date.idl, Datum.enc, encF, Datum.ct]
theorem writeTime_idl (d : Time) : writeTime d = (Time.idl d).enc := by
  simp [writeTime, Time.idl, Datum.enc, encF, Datum.ct]
theorem writeDateTime_idl (d : DateTime) : writeDateTime d = (DateTime.idl d).enc := by
  simp [writeDateTime, DateTime.idl, Datum.enc, encF, Datum.ct]

section written
variable {bits : F64 → Nat}

theorem props_enc {m : Props Value} (h : ∀ x ∈ m.map Prod.snd, writeValue bits x = (idl bits x).enc) :
    writeProps (writeValue bits) m = (Datum.map ctBinary ctStruct (m.map fun kv => (Datum.binary kv.1, idl bits kv.2))).enc := by
  rw [writeProps, Datum.enc, encM_map (wk := writeBinary) (wv := writeValue bits) m]
  · simp
  · intro kv hkv
    exact ⟨⟨rfl, rfl⟩, idl_notBool bits _, h _ (List.mem_map_of_mem hkv)⟩

theorem tag_enc {t : Tag Value} (h : ∀ x ∈ t.props.map Prod.snd, writeValue bits x = (idl bits x).enc) :
    writeTag (writeValue bits) t = (tagIdl bits t).enc := by
  rw [writeTag, props_enc h]
  simp [tagIdl, Datum.enc, encF, Datum.ct]

theorem vertex_enc {v : Vertex Value} (h : ∀ x ∈ v.vid :: v.tags.flatMap (fun t => t.props.map Prod.snd), writeValue bits x = (idl bits x).enc) :
    writeVertex (writeValue bits) v = (idlVertex bits v).enc := by
  rw [idlVertex_eq, writeVertex, writeList, h _ List.mem_cons_self]
  rw [Datum.enc, encF, encF, encF, idl_ct, Datum.enc, encL_map (w := writeTag (writeValue bits)) v.tags]
  · simp [Datum.ct]
  · intro t ht
    exact ⟨rfl, tag_enc fun x hx => h x (List.mem_cons_of_mem _ (List.mem_flatMap.2 ⟨t, ht, hx⟩))⟩

theorem step_enc {e : Step Value}
    (h : ∀ x ∈ (e.dst.vid :: e.dst.tags.flatMap fun t => t.props.map Prod.snd) ++ e.props.map Prod.snd, writeValue bits x = (idl bits x).enc) :
    writeStep (writeValue bits) e = (stepIdl bits e).enc := by
  rw [writeStep, vertex_enc fun x hx => h x (List.mem_append_left _ hx), props_enc fun x hx => h x (List.mem_append_right _ hx), stepIdl, sgn_dir]
  simp [Datum.enc, encF, idlVertex_ct]; simp [Datum.ct]

theorem list_enc {l : List Value} (h : ∀ x ∈ l, writeValue bits x = (idl bits x).enc) :
    writeList (writeValue bits) ctStruct l = listHeader l.length ctStruct ++ encL (l.map (idl bits)) := by
  rw [writeList, encL_map (w := writeValue bits) l fun x hx => ⟨idl_notBool bits x, h x hx⟩]

theorem vlist_enc {l : List Value} (h : ∀ x ∈ l, writeValue bits x = (idl bits x).enc) :
    writeVList (writeValue bits) l = (Datum.struct [(1, .list ctStruct (l.map (idl bits)))]).enc := by
  rw [writeVList, list_enc h]
  simp [Datum.enc, encF, Datum.ct]

theorem dataset_enc {c : List Bytes} {r : List (List Value)} (h : ∀ x ∈ r.flatten, writeValue bits x = (idl bits x).enc) :
    writeDataSet (writeValue bits) c r = (dataSetIdl bits c r).enc := by
  have h1 : writeList writeBinary ctBinary c = (Datum.list ctBinary (c.map .binary)).enc := by
    rw [writeList, Datum.enc, encL_map (w := writeBinary) c fun x _ => ⟨rfl, rfl⟩, List.length_map]
  have h2 : writeList (writeVList (writeValue bits)) ctStruct r = (Datum.list ctStruct (idlRows bits r)).enc := by
    rw [writeList, idlRows_eq, Datum.enc, encL_map (w := writeVList (writeValue bits)) r, List.length_map]
    intro row hr
    exact ⟨rfl, vlist_enc fun x hx => h x (List.mem_flatten.2 ⟨row, hr, hx⟩)⟩
  rw [writeDataSet, h1, h2, dataSetIdl]
  simp [Datum.enc, encF, Datum.ct]

theorem nullNum_code (n : NullType) : nullNum n = nullCode n := by cases n <;> rfl

theorem writeValue_idl (v : Value) : writeValue bits v = (idl bits v).enc := by
  induction v using Value.children_induction with
  | h v hk =>
    rw [writeValue_eqn]
    cases v with
    | empty => simp [writeUnion, idl, Datum.enc, encF]
    | null n => simp [writeUnion, idl, Datum.enc, encF, Datum.ct, nullNum_code]
    | bool b => cases b <;> simp [writeUnion, idl, Datum.enc, encF, Datum.ct]
    | int i => simp [writeUnion, idl, Datum.enc, encF, Datum.ct]
    | float f => simp [writeUnion, idl, Datum.enc, encF, Datum.ct]
    | str s => simp [writeUnion, idl, Datum.enc, encF, Datum.ct]
    | date d => simp [writeUnion, idl, Datum.enc, encF, writeDate_idl, Datum.ct, Date.idl]
    | time d => simp [writeUnion, idl, Datum.enc, encF, writeTime_idl, Datum.ct, Time.idl]
    | datetime d => simp [writeUnion, idl, Datum.enc, encF, writeDateTime_idl, Datum.ct, DateTime.idl]
    | vertex v =>
      rw [writeUnion, vertex_enc hk, idl]
      simp [Datum.enc, encF, idlVertex_ct]
    | edge e =>
      obtain ⟨s, d, t, n, r, p⟩ := e
      rw [writeUnion, writeEdge]
      simp only
      rw [hk s (by simp [Value.children]), hk d (by simp [Value.children]),
        props_enc fun x hx => hk x (by simp [Value.children]; right; right; simpa using hx), idl, idlProps_eq, sgn_dir]
      simp [Datum.enc, encF, idl_ct]; simp [Datum.ct]
    | path p =>
      obtain ⟨v, ss⟩ := p
      rw [writeUnion, writePath, writeList]
      simp only
      rw [vertex_enc fun x hx => hk x (List.mem_append_left _ hx), idl, idlSteps_eq]
      have : encL (ss.map (stepIdl bits)) = ss.flatMap (writeStep (writeValue bits)) :=
        encL_map ss fun s hs => ⟨rfl, step_enc fun x hx => hk x (List.mem_append_right _ (List.mem_flatMap.2 ⟨s, hs, hx⟩))⟩
      rw [← this]
      simp [Datum.enc, encF, idlVertex_ct]; simp [Datum.ct]
    | list l => rw [writeUnion, vlist_enc (l := l) hk, idl, idlVec_eq]; simp [Datum.enc, encF, Datum.ct]
    | map m => rw [writeUnion, writeVMap, props_enc (m := m) hk, idl, idlProps_eq]; simp [Datum.enc, encF, Datum.ct]
    | set l => rw [writeUnion, writeVSet, list_enc (l := l) hk, idl, idlVec_eq]; simp [Datum.enc, encF, Datum.ct]
    | dataset c r =>
      rw [writeUnion, dataset_enc (c := c) (r := r) hk, idl, dataSetIdl]
      simp [Datum.enc, encF, Datum.ct]
end written

/-! ## Sizes announced -/

theorem sizeStr_eq (zc : Bool) (s : Bytes) : sizeStr zc s = 5 + s.length := by cases zc <;> rfl
theorem szDate_room (d : Date) : szDate d = (Date.idl d).room := rfl
theorem szTime_room (d : Time) : szTime d = (Time.idl d).room := rfl
theorem szDateTime_room (d : DateTime) : szDateTime d = (DateTime.idl d).room := rfl

section room
variable {bits : F64 → Nat}

theorem props_room {m : Props Value} (h : ∀ x ∈ m.map Prod.snd, ∀ zc, szValue x zc = (idl bits x).room) :
    szProps (fun zc v => szValue v zc) m = (Datum.map ctBinary ctStruct (m.map fun kv => (Datum.binary kv.1, idl bits kv.2))).room := by
  rw [szProps, sizeMap, Datum.room, roomM_map (sk := sizeBinary) (sv := fun v => szValue v false) m]
  · rfl
  · intro kv hkv
    exact ⟨rfl, h _ (List.mem_map_of_mem hkv) false⟩

theorem tag_room {t : Tag Value} (h : ∀ x ∈ t.props.map Prod.snd, ∀ zc, szValue x zc = (idl bits x).room) (zc : Bool) :
    szTag (fun zc v => szValue v zc) zc t = (tagIdl bits t).room := by
  rw [szTag, props_room h, sizeStr_eq]
  simp [tagIdl, Datum.room, roomF, sizeField, sizeI16, sizeByte, sizeStop]; omega

theorem vertex_room {v : Vertex Value} (h : ∀ x ∈ v.vid :: v.tags.flatMap (fun t => t.props.map Prod.snd), ∀ zc, szValue x zc = (idl bits x).room)
    (zc : Bool) : szVertex (fun zc v => szValue v zc) zc v = (idlVertex bits v).room := by
  rw [idlVertex_eq, szVertex, sizeList, h _ List.mem_cons_self zc]
  rw [Datum.room, roomF, roomF, roomF, Datum.room, roomL_map (s := szTag (fun zc v => szValue v zc) false) v.tags]
  · simp [sizeField, sizeI16, sizeByte, sizeI32, sizeStop]; omega
  · intro t ht
    exact tag_room (fun x hx => h x (List.mem_cons_of_mem _ (List.mem_flatMap.2 ⟨t, ht, hx⟩))) false

theorem step_room {e : Step Value}
    (h : ∀ x ∈ (e.dst.vid :: e.dst.tags.flatMap fun t => t.props.map Prod.snd) ++ e.props.map Prod.snd, ∀ zc, szValue x zc = (idl bits x).room)
    (zc : Bool) : szStep (fun zc v => szValue v zc) zc e = (stepIdl bits e).room := by
  rw [szStep, vertex_room (fun x hx => h x (List.mem_append_left _ hx)), props_room fun x hx => h x (List.mem_append_right _ hx), stepIdl, sizeStr_eq]
  simp [Datum.room, roomF, sizeField, sizeI16, sizeByte, sizeI32, sizeI64, sizeStop]; omega

theorem list_room {l : List Value} (h : ∀ x ∈ l, ∀ zc, szValue x zc = (idl bits x).room) :
    (l.map fun v => szValue v false).sum = roomL (l.map (idl bits)) := by
  rw [roomL_map (s := fun v => szValue v false) l fun x hx => h x hx false]

theorem vlist_room {l : List Value} (h : ∀ x ∈ l, ∀ zc, szValue x zc = (idl bits x).room) (zc : Bool) :
    szList (fun zc v => szValue v zc) zc l = (Datum.struct [(1, .list ctStruct (l.map (idl bits)))]).room := by
  rw [szList, sizeList, list_room h]
  simp [Datum.room, roomF, sizeField, sizeI16, sizeByte, sizeI32, sizeStop]

theorem dataset_room {c : List Bytes} {r : List (List Value)} (h : ∀ x ∈ r.flatten, ∀ zc, szValue x zc = (idl bits x).room) (zc : Bool) :
    szDataSet (fun zc v => szValue v zc) zc c r = (dataSetIdl bits c r).room := by
  have h1 : (c.map sizeBinary).sum = roomL (c.map .binary) := by
    rw [roomL_map (s := sizeBinary) c fun x _ => rfl]
  have h2 : (r.map (szList (fun zc v => szValue v zc) false)).sum = roomL (idlRows bits r) := by
    rw [idlRows_eq, roomL_map (s := szList (fun zc v => szValue v zc) false) r]
    intro row hr
    exact vlist_room (fun x hx => h x (List.mem_flatten.2 ⟨row, hr, hx⟩)) false
  rw [szDataSet, sizeList, sizeList, h1, h2, dataSetIdl]
  simp [Datum.room, roomF, sizeField, sizeI16, sizeByte, sizeI32, sizeStop]; omega

theorem szValue_room (v : Value) : ∀ zc, szValue v zc = (idl bits v).room := by
  induction v using Value.children_induction with
  | h v hk =>
    intro zc
    rw [szValue_eqn]
    cases v with
    | date d => rw [szUnion, szDate_room]; simp [idl, Datum.room, roomF, sizeField, sizeI16, sizeByte, sizeStop]
    | time d => rw [szUnion, szTime_room]; simp [idl, Datum.room, roomF, sizeField, sizeI16, sizeByte, sizeStop]
    | datetime d => rw [szUnion, szDateTime_room]; simp [idl, Datum.room, roomF, sizeField, sizeI16, sizeByte, sizeStop]
    | str s => rw [szUnion, sizeStr_eq]; simp [idl, Datum.room, roomF, sizeField, sizeI16, sizeByte, sizeStop]
    | vertex v => rw [szUnion, vertex_room hk]; simp [idl, Datum.room, roomF, sizeField, sizeI16, sizeByte, sizeStop]
    | edge e =>
      obtain ⟨s, d, t, n, r, p⟩ := e
      rw [szUnion, szEdge]
      simp only
      rw [hk s (by simp [Value.children]), hk d (by simp [Value.children]),
        props_room fun x hx => hk x (by simp [Value.children]; right; right; simpa using hx), idl, idlProps_eq, sizeStr_eq]
      simp [Datum.room, roomF, sizeField, sizeI16, sizeByte, sizeI32, sizeI64, sizeStop]; omega
    | path p =>
      obtain ⟨v, ss⟩ := p
      rw [szUnion, szPath, sizeList]
      simp only
      rw [vertex_room (fun x hx => hk x (List.mem_append_left _ hx)), idl, idlSteps_eq]
      have : roomL (ss.map (stepIdl bits)) = (ss.map (szStep (fun zc v => szValue v zc) false)).sum :=
        roomL_map ss fun s hs => step_room (fun x hx => hk x (List.mem_append_right _ (List.mem_flatMap.2 ⟨s, hs, hx⟩))) false
      rw [← this]
      simp [Datum.room, roomF, sizeField, sizeI16, sizeByte, sizeI32, sizeStop]; omega
    | list l => rw [szUnion, vlist_room (l := l) hk, idl, idlVec_eq]; simp [Datum.room, roomF, sizeField, sizeI16, sizeByte, sizeStop]
    | map m => rw [szUnion, szMap, props_room (m := m) hk, idl, idlProps_eq]; simp [Datum.room, roomF, sizeField, sizeI16, sizeByte, sizeStop]
    | set l =>
      rw [szUnion, szSet, sizeList, list_room (l := l) hk, idl, idlVec_eq]
      simp [Datum.room, roomF, sizeField, sizeI16, sizeByte, sizeI32, sizeStop]
    | dataset c r =>
      rw [szUnion, dataset_room (c := c) (r := r) hk, idl, dataSetIdl]
      simp [Datum.room, roomF, sizeField, sizeI16, sizeByte, sizeStop]
    | _ => rfl
end room


/-! ## The bound -/

theorem varintF_len : ∀ (f k n : Nat), n < 128 ^ k → 0 < k → (varintF f n).length ≤ k
  | 0, _, _, _, _ => by simp [varintF]
  | f + 1, k, n, h, hk => by
    rw [varintF]
    split
    · simp; omega
    · rename_i h1
      cases k with
      | zero => omega
      | succ k =>
        have hq : n / 128 < 128 ^ k := by
          rw [Nat.div_lt_iff_lt_mul (by omega)]; rw [Nat.pow_succ] at h; exact h
        have hk0 : 0 < k := by
          cases k with
          | zero => simp at h; omega
          | succ k => omega
        have := varintF_len f k (n / 128) hq hk0
        simp; omega

theorem varintF_len_max : ∀ (f n : Nat), (varintF f n).length ≤ f
  | 0, _ => by simp [varintF]
  | f + 1, n => by
    rw [varintF]
    split
    · simp
    · have := varintF_len_max f (n / 128)
      simp; omega

theorem writeInt_len16 {x : Int} (h : -32768 ≤ x ∧ x ≤ 32767) : (writeInt x).length ≤ 3 := by
  have : zigzag x < 2 ^ 16 := by unfold zigzag; split <;> omega
  exact varintF_len 10 3 _ (Nat.lt_trans this (by decide)) (by decide)
theorem writeInt_len32 {x : Int} (h : -2147483648 ≤ x ∧ x ≤ 2147483647) : (writeInt x).length ≤ 5 := by
  have : zigzag x < 2 ^ 32 := by unfold zigzag; split <;> omega
  exact varintF_len 10 5 _ (Nat.lt_trans this (by decide)) (by decide)
theorem writeInt_len64 (x : Int) : (writeInt x).length ≤ 10 := varintF_len_max 10 _
theorem varint_len31 {n : Nat} (h : Small n) : (varint n).length ≤ 5 :=
  varintF_len 10 5 _ (Nat.lt_trans h (by decide)) (by decide)
theorem fieldHeader_room {last id ct : Nat} (h : id ≤ 32767) : (fieldHeader last id ct).length ≤ 4 := by
  unfold fieldHeader
  split
  · simp
  · have := writeInt_len16 (x := (id : Int)) (by omega)
    simp; omega
theorem listHeader_room {n ct : Nat} (h : Small n) : (listHeader n ct).length ≤ 6 := by
  unfold listHeader
  split
  · simp
  · have := varint_len31 h
    simp; omega
theorem mapHeader_room {n kt vt : Nat} (h : Small n) : (mapHeader n kt vt).length ≤ 6 := by
  unfold mapHeader
  split
  · simp
  · have := varint_len31 h
    simp; omega
theorem elem_room {d : Datum} (h : d.enc.length ≤ d.room) : (if d.isBool then [UInt8.ofNat d.ct] else d.enc).length ≤ d.room := by
  split
  · rename_i hb
    cases d <;> simp_all [Datum.isBool, Datum.room]
  · exact h

mutual
theorem enc_room : ∀ d : Datum, d.WF → d.enc.length ≤ d.room
  | .bool _, _ => by simp [Datum.enc]
  | .byte x, _ => by simp [Datum.enc, Datum.room, writeByte]
  | .i16 x, h => by rw [Datum.WF] at h; rw [Datum.enc, Datum.room]; exact writeInt_len16 h
  | .i32 x, h => by rw [Datum.WF] at h; rw [Datum.enc, Datum.room]; exact writeInt_len32 h
  | .i64 x, _ => by rw [Datum.enc, Datum.room]; exact writeInt_len64 x
  | .double n, _ => by rw [Datum.enc, Datum.room, writeDouble, be64_length]; omega
  | .binary s, h => by
    rw [Datum.WF] at h
    have := varint_len31 h
    rw [Datum.enc, Datum.room, writeBinary, List.length_append]; omega
  | .list et l, h => by
    rw [Datum.WF] at h
    have h1 := listHeader_room (ct := et) h.2.1
    have h2 := encL_room et l h.2.2
    rw [Datum.enc, Datum.room, List.length_append]; omega
  | .set et l, h => by
    rw [Datum.WF] at h
    have h1 := listHeader_room (ct := et) h.2.1
    have h2 := encL_room et l h.2.2
    rw [Datum.enc, Datum.room, List.length_append]; omega
  | .map kt vt l, h => by
    rw [Datum.WF] at h
    have h1 := mapHeader_room (kt := kt) (vt := vt) h.2.2.1
    have h2 := encM_room kt vt l h.2.2.2
    rw [Datum.enc, Datum.room, List.length_append]; omega
  | .struct fs, h => by
    rw [Datum.WF] at h
    have := encF_room 0 fs h
    rw [Datum.enc, Datum.room, List.length_append]; simp; omega
theorem encL_room (et : Nat) : ∀ l : List Datum, wfL et l → (encL l).length ≤ roomL l
  | [], _ => by simp [encL]
  | d :: l, h => by
    rw [wfL] at h
    have h1 := elem_room (enc_room d h.1.2)
    have h2 := encL_room et l h.2
    rw [encL, roomL, List.length_append]; omega
theorem encM_room (kt vt : Nat) : ∀ l : List (Datum × Datum), wfM kt vt l → (encM l).length ≤ roomM l
  | [], _ => by simp [encM]
  | (k, v) :: l, h => by
    rw [wfM] at h
    have h1 := elem_room (enc_room k h.1.1.2)
    have h2 := elem_room (enc_room v h.1.2.2)
    have h3 := encM_room kt vt l h.2
    rw [encM, roomM, List.length_append, List.length_append]; omega
theorem encF_room (last : Nat) : ∀ fs : List (Nat × Datum), wfF fs → (encF last fs).length ≤ roomF fs
  | [], _ => by simp [encF]
  | (id, d) :: fs, h => by
    rw [wfF] at h
    have h1 := fieldHeader_room (last := last) (ct := d.ct) h.1.1
    have h2 := enc_room d h.1.2
    have h3 := encF_room id fs h.2
    rw [encF, roomF, List.length_append, List.length_append]; omega
end

/-! ## Values that fit are well-formed data -/

theorem wfL_map {α : Type} {et : Nat} {f : α → Datum} : ∀ l : List α, (∀ x ∈ l, (f x).et = et ∧ (f x).WF) → wfL et (l.map f)
  | [], _ => by simp [wfL]
  | a :: l, h => by
    rw [List.map_cons, wfL]
    exact ⟨h a List.mem_cons_self, wfL_map l fun x hx => h x (List.mem_cons_of_mem _ hx)⟩
theorem wfM_map {K V : Type} {kt vt : Nat} {f : K → Datum} {g : V → Datum} : ∀ l : List (K × V),
    (∀ kv ∈ l, ((f kv.1).et = kt ∧ (f kv.1).WF) ∧ (g kv.2).et = vt ∧ (g kv.2).WF) → wfM kt vt (l.map fun kv => (f kv.1, g kv.2))
  | [], _ => by simp [wfM]
  | a :: l, h => by
    rw [List.map_cons, wfM]
    exact ⟨h a List.mem_cons_self, wfM_map l fun x hx => h x (List.mem_cons_of_mem _ hx)⟩

theorem nullCode_range (n : NullType) : -2147483648 ≤ nullCode n ∧ nullCode n ≤ 2147483647 := by cases n <;> decide
theorem dir_i32 (t : Int) : -2147483648 ≤ dir t ∧ dir t ≤ 2147483647 := by unfold dir; split <;> (try split) <;> omega
theorem idl_et (bits : F64 → Nat) (v : Value) : (idl bits v).et = ctStruct := by
  obtain ⟨fs, h⟩ := idl_struct bits v; rw [h]; rfl

section wf
variable {bits : F64 → Nat}
theorem props_wf {m : Props Value} (hf : PropsFit m) (h : ∀ x ∈ m.map Prod.snd, (idl bits x).WF) :
    (Datum.map ctBinary ctStruct (m.map fun kv => (Datum.binary kv.1, idl bits kv.2))).WF := by
  rw [Datum.WF]
  refine ⟨by decide, by decide, by rw [List.length_map]; exact hf.1, wfM_map m fun kv hkv => ⟨⟨rfl, ?_⟩, idl_et bits _, h _ (List.mem_map_of_mem hkv)⟩⟩
  rw [Datum.WF]; exact hf.2.1 kv hkv
theorem tag_wf {t : Tag Value} (hf : TagFit t) (h : ∀ x ∈ t.props.map Prod.snd, (idl bits x).WF) : (tagIdl bits t).WF := by
  have := props_wf hf.2 h
  have h1 := hf.1
  simp [tagIdl, Datum.WF, wfF] at this ⊢
  exact ⟨h1, this⟩
theorem vertex_wf {v : Vertex Value} (hf : VertexFit v) (h : ∀ x ∈ v.vid :: v.tags.flatMap (fun t => t.props.map Prod.snd), (idl bits x).WF) :
    (idlVertex bits v).WF := by
  have hv := h _ List.mem_cons_self
  have ht : wfL ctStruct (v.tags.map (tagIdl bits)) :=
    wfL_map _ fun t ht => ⟨rfl, tag_wf (hf.2 t ht) fun x hx => h x (List.mem_cons_of_mem _ (List.mem_flatMap.2 ⟨t, ht, hx⟩))⟩
  rw [idlVertex_eq, Datum.WF, wfF, wfF, wfF, Datum.WF, List.length_map]
  exact ⟨⟨by decide, hv⟩, ⟨by decide, by decide, hf.1, ht⟩, trivial⟩
theorem step_wf {e : Step Value} (hf : StepFit e)
    (h : ∀ x ∈ (e.dst.vid :: e.dst.tags.flatMap fun t => t.props.map Prod.snd) ++ e.props.map Prod.snd, (idl bits x).WF) : (stepIdl bits e).WF := by
  obtain ⟨f1, f2, f3, f4, f5⟩ := hf
  have h1 := vertex_wf f1 fun x hx => h x (List.mem_append_left _ hx)
  have h2 := props_wf f5 fun x hx => h x (List.mem_append_right _ hx)
  rw [stepIdl, Datum.WF]
  simp only [wfF]
  refine ⟨⟨by decide, h1⟩, ⟨by decide, ?_⟩, ⟨by decide, ?_⟩, ⟨by decide, ?_⟩, ⟨by decide, h2⟩, trivial⟩
  · rw [Datum.WF]; exact dir_i32 _
  · rw [Datum.WF]; exact f4
  · rw [Datum.WF]; exact f3
theorem vec_wf {l : List Value} (hf : Small l.length) (h : ∀ x ∈ l, (idl bits x).WF) : (Datum.list ctStruct (l.map (idl bits))).WF := by
  rw [Datum.WF, List.length_map]
  exact ⟨by decide, hf, wfL_map l fun x hx => ⟨idl_et bits x, h x hx⟩⟩
theorem one_wf {id : Nat} {d : Datum} (hi : id ≤ 32767) (h : d.WF) : (Datum.struct [(id, d)]).WF := by
  rw [Datum.WF, wfF, wfF]; exact ⟨⟨hi, h⟩, trivial⟩
theorem dataset_wf {c : List Bytes} {r : List (List Value)} (hf : FitsHere (.dataset c r)) (h : ∀ x ∈ r.flatten, (idl bits x).WF) :
    (dataSetIdl bits c r).WF := by
  obtain ⟨⟨f1, f2⟩, f3, f4⟩ := hf
  have h1 : (Datum.list ctBinary (c.map .binary)).WF := by
    rw [Datum.WF, List.length_map]
    exact ⟨by decide, f1, wfL_map c fun x hx => ⟨rfl, by rw [Datum.WF]; exact f2 x hx⟩⟩
  have h2 : (Datum.list ctStruct (idlRows bits r)).WF := by
    rw [Datum.WF, idlRows_eq, List.length_map]
    exact ⟨by decide, f3, wfL_map r fun row hr => ⟨rfl, one_wf (by decide) (vec_wf (f4 row hr) fun x hx => h x (List.mem_flatten.2 ⟨row, hr, hx⟩))⟩⟩
  rw [dataSetIdl, Datum.WF, wfF, wfF, wfF]
  exact ⟨⟨by decide, h1⟩, ⟨by decide, h2⟩, trivial⟩

theorem idl_wf (hb : BitsOk bits) (v : Value) : Fits v → (idl bits v).WF := by
  induction v using Value.children_induction with
  | h v ih =>
    intro hv
    have hh := hv.here
    have hk : ∀ x ∈ v.children, (idl bits x).WF := fun x hx => ih x hx (hv.kids x hx)
    cases v with
    | empty => simp [idl, Datum.WF, wfF]
    | null n => exact one_wf (by decide) (by rw [Datum.WF]; exact nullCode_range n)
    | bool b => exact one_wf (by decide) (by rw [Datum.WF]; trivial)
    | int i => exact one_wf (by decide) (by rw [Datum.WF]; exact hh)
    | float f => exact one_wf (by decide) (by rw [Datum.WF]; exact (hb f hh).1)
    | str s => exact one_wf (by decide) (by rw [Datum.WF]; exact hh)
    | date d =>
      obtain ⟨a, b, c⟩ := hh
      refine one_wf (by decide) ?_
      rw [Date.idl, Datum.WF]; simp only [wfF, Datum.WF]
      exact ⟨⟨by decide, a⟩, ⟨by decide, b⟩, ⟨by decide, c⟩, trivial⟩
    | time d =>
      obtain ⟨a, b, c, e⟩ := hh
      refine one_wf (by decide) ?_
      rw [Time.idl, Datum.WF]; simp only [wfF, Datum.WF]
      exact ⟨⟨by decide, a⟩, ⟨by decide, b⟩, ⟨by decide, c⟩, ⟨by decide, e⟩, trivial⟩
    | datetime d =>
      obtain ⟨a, b, c, e, f, g, h⟩ := hh
      refine one_wf (by decide) ?_
      rw [DateTime.idl, Datum.WF]; simp only [wfF, Datum.WF]
      exact ⟨⟨by decide, a⟩, ⟨by decide, by omega⟩, ⟨by decide, by omega⟩, ⟨by decide, by omega⟩, ⟨by decide, by omega⟩, ⟨by decide, by omega⟩,
        ⟨by decide, by omega⟩, trivial⟩
    | vertex v => rw [idl]; exact one_wf (by decide) (vertex_wf hh hk)
    | edge e =>
      obtain ⟨s, d, t, n, r, p⟩ := e
      obtain ⟨f2, f3, f4, f5⟩ := hh
      have h2 := props_wf (m := p) f5 fun x hx => hk x (by simp [Value.children]; right; right; simpa using hx)
      rw [idl, idlProps_eq]
      refine one_wf (by decide) ?_
      rw [Datum.WF]; simp only [wfF]
      refine ⟨⟨by decide, hk s (by simp [Value.children])⟩, ⟨by decide, hk d (by simp [Value.children])⟩, ⟨by decide, ?_⟩, ⟨by decide, ?_⟩, ⟨by decide, ?_⟩,
        ⟨by decide, h2⟩, trivial⟩
      · rw [Datum.WF]; exact dir_i32 _
      · rw [Datum.WF]; exact f4
      · rw [Datum.WF]; exact f3
    | path p =>
      obtain ⟨v, ss⟩ := p
      obtain ⟨f1, f2, f3⟩ := hh
      rw [idl, idlSteps_eq]
      refine one_wf (by decide) ?_
      rw [Datum.WF]; simp only [wfF]
      refine ⟨⟨by decide, vertex_wf f1 fun x hx => hk x (List.mem_append_left _ hx)⟩, ⟨by decide, ?_⟩, trivial⟩
      rw [Datum.WF, List.length_map]
      exact ⟨by decide, f2, wfL_map ss fun s hs => ⟨rfl, step_wf (f3 s hs) fun x hx => hk x (List.mem_append_right _ (List.mem_flatMap.2 ⟨s, hs, hx⟩))⟩⟩
    | list l => rw [idl, idlVec_eq]; exact one_wf (by decide) (one_wf (by decide) (vec_wf hh hk))
    | map m => rw [idl, idlProps_eq]; exact one_wf (by decide) (one_wf (by decide) (props_wf hh hk))
    | set l =>
      rw [idl, idlVec_eq]
      have := vec_wf (l := l) hh hk
      rw [Datum.WF] at this
      exact one_wf (by decide) (one_wf (by decide) (by rw [Datum.WF]; exact this))
    | dataset c r =>
      have := dataset_wf (c := c) (r := r) hh hk
      rw [idl]; rw [dataSetIdl] at this
      exact one_wf (by decide) this
end wf

end Wire
end Nebula
