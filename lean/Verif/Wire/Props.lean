import Verif.Wire.Skip
/-! # Properties of the serialisation of data types (C67, C68, C69) -/
namespace Nebula
namespace Wire

/-! ## Helper lemmas -/

section nm
variable {V : Type} {n : V → V}
theorem props_id {m : Props V} (h : ∀ x ∈ m.map Prod.snd, n x = x) : (m.map fun kv => (kv.1, n kv.2)) = m := by
  conv => rhs; rw [← List.map_id m]
  refine List.map_congr_left fun kv hkv => ?_
  rw [h kv.2 (List.mem_map_of_mem hkv)]; rfl
theorem list_id {α : Type} {f : α → α} {l : List α} (h : ∀ x ∈ l, f x = x) : l.map f = l := by
  conv => rhs; rw [← List.map_id l]
  exact List.map_congr_left h
theorem tag_id {t : Tag V} (h : ∀ x ∈ t.props.map Prod.snd, n x = x) : Tag.nm n t = t := by
  rw [Tag.nm, props_id h]
theorem vertex_id {v : Vertex V} (h : ∀ x ∈ v.vid :: v.tags.flatMap (fun t => t.props.map Prod.snd), n x = x) :
    Vertex.nm n v = v := by
  rw [Vertex.nm, h _ List.mem_cons_self,
    list_id fun t ht => tag_id fun x hx => h x (List.mem_cons_of_mem _ (List.mem_flatMap.2 ⟨t, ht, hx⟩))]
end nm

theorem dir_id {t : Int} (h : -1 ≤ t ∧ t ≤ 1) : dir t = t := by unfold dir; split <;> (try split) <;> omega

theorem foldl_setAdd : ∀ (l s : List Value), (∀ x ∈ s, ∀ y ∈ l, Value.beq x y = false) →
    l.Pairwise (fun x y => Value.beq x y = false) → l.foldl (setAdd Value.beq) s = s ++ l
  | [], s, _, _ => by simp
  | a :: l, s, h, hp => by
    have : setAdd Value.beq s a = s ++ [a] := by
      unfold setAdd
      rw [if_neg]
      simp only [List.any_eq_true, not_exists, not_and]
      intro x hx
      rw [h x hx a List.mem_cons_self]; simp
    rw [List.foldl_cons, this, foldl_setAdd l (s ++ [a]) ?_ (List.pairwise_cons.1 hp).2]
    · simp
    · intro x hx y hy
      rcases List.mem_append.1 hx with hx | hx
      · exact h x hx y (List.mem_cons_of_mem _ hy)
      · simp at hx; subst hx; exact (List.pairwise_cons.1 hp).1 y hy

theorem wireImage_plain (v : Value) : Plain v → wireImage v = v := by
  induction v using Value.children_induction with
  | h v ih =>
    intro hv
    have hh := hv.here
    have hk : ∀ x ∈ v.children, wireImage x = x := fun x hx => ih x hx (hv.kids x hx)
    cases v with
    | vertex v => rw [wireImage, imgVertex_eq, vertex_id hk]
    | edge e =>
      obtain ⟨s, d, t, nm, r, p⟩ := e
      rw [wireImage, imgProps_eq, hk s (by simp [Value.children]), hk d (by simp [Value.children]), dir_id hh,
        props_id fun x hx => hk x (by simp [Value.children]; right; right; simpa using hx)]
    | path p =>
      obtain ⟨v, ss⟩ := p
      rw [wireImage, imgVertex_eq, imgSteps_eq, vertex_id fun x hx => hk x (List.mem_append_left _ hx)]
      rw [list_id]
      intro s hs
      have hks : ∀ x ∈ (s.dst.vid :: s.dst.tags.flatMap fun t => t.props.map Prod.snd) ++ s.props.map Prod.snd,
          wireImage x = x := fun x hx => hk x (List.mem_append_right _ (List.mem_flatMap.2 ⟨s, hs, hx⟩))
      rw [Step.nm, vertex_id fun x hx => hks x (List.mem_append_left _ hx), dir_id (hh s hs),
        props_id fun x hx => hks x (List.mem_append_right _ hx)]
    | list l => rw [wireImage, imgVec_eq, list_id (l := l) hk]
    | map m => rw [wireImage, imgProps_eq, props_id hk]
    | set l =>
      rw [wireImage, imgVec_eq, list_id (l := l) hk, once_eq, foldl_setAdd l [] (by simp) hh]; rfl
    | dataset c r =>
      rw [wireImage, imgRows_eq, list_id]
      intro row hrow
      exact list_id fun x hx => hk x (List.mem_flatten.2 ⟨row, hrow, hx⟩)
    | _ => rfl

/-- There is a choice of bit patterns. -/
theorem bitsOk_exists : ∃ bits, BitsOk bits := by
  classical
  refine ⟨fun f => if h : F64.Holds f then Classical.choose h else 0, fun f h => ?_⟩
  simp only [h, dif_pos]
  exact Classical.choose_spec h

/-! ## C67: values survive the wire -/

/-- **C67** (general form).  Serialising any value and deserialising the bytes, whatever follows
them, gives the wire image of the value and consumes exactly the bytes written. -/
theorem C67_image {bits : F64 → Nat} (hb : BitsOk bits) (v : Value) (hv : Fits v) (rest : Bytes) :
    deserialize (serialize bits v ++ rest) = some (wireImage v, rest) :=
  readValue_write hb v hv _ _ rest (by simp [serialize]; omega)

/-- **C67** (partial: edges and steps whose type is -1, 0 or 1).  The value arrives unchanged. -/
theorem C67_round_trip_partial {bits : F64 → Nat} (hb : BitsOk bits) (v : Value) (hv : Fits v) (hp : Plain v)
    (rest : Bytes) : deserialize (serialize bits v ++ rest) = some (v, rest) := by
  rw [C67_image hb v hv, wireImage_plain v hp]

/-- **C67**.  Different values have different serialisations, and none is a prefix of another. -/
theorem C67_prefix_free {bits : F64 → Nat} (hb : BitsOk bits) (u v : Value) (hu : Fits u) (hv : Fits v) (pu : Plain u)
    (pv : Plain v) (r s : Bytes) (h : serialize bits u ++ r = serialize bits v ++ s) : u = v ∧ r = s := by
  have h1 := C67_round_trip_partial hb u hu pu r
  rw [h, C67_round_trip_partial hb v hv pv s] at h1
  injection h1 with h1; injection h1 with a b
  exact ⟨a.symm, b.symm⟩

/-- An edge of type 7 from "a" to "b". -/
def edge7 : Value := .edge ⟨.str [97], .str [98], 7, [101], 0, [([107], .int 5)]⟩
def edge8 : Value := .edge ⟨.str [97], .str [98], 8, [101], 0, [([107], .int 5)]⟩

theorem fits_edge (t : Int) (h : -2147483648 ≤ t ∧ t ≤ 2147483647) :
    Fits (.edge ⟨.str [97], .str [98], t, [101], 0, [([107], .int 5)]⟩) := by
  refine .mk ⟨h, by simp [InI64], by simp [Small], by simp [Small], by simp [Small], by simp⟩ ?_
  intro x hx
  simp [Value.children] at hx
  rcases hx with rfl | rfl | rfl
  · exact .mk (by simp [FitsHere, Small]) (by simp [Value.children])
  · exact .mk (by simp [FitsHere, Small]) (by simp [Value.children])
  · exact .mk (by unfold FitsHere InI64; omega) (by simp [Value.children])

/-- **C67** is violated in general: an edge arrives with another type, and is not `==` the edge sent. -/
theorem C67_violated {bits : F64 → Nat} (hb : BitsOk bits) :
    ∃ v w, Fits v ∧ deserialize (serialize bits v) = some (w, []) ∧ Value.beq v w = false := by
  refine ⟨edge7, wireImage edge7, fits_edge 7 (by omega), ?_, by decide +kernel⟩
  have := C67_image hb edge7 (fits_edge 7 (by omega)) []
  rwa [List.append_nil] at this

/-- **C67** is violated in general: a set of two different edges arrives with one element. -/
theorem C67_set_violated {bits : F64 → Nat} (hb : BitsOk bits) :
    ∃ a b c, Fits (.set [a, b]) ∧ Value.beq a b = false ∧
      deserialize (serialize bits (.set [a, b])) = some (.set [c], []) := by
  have hf : Fits (.set [edge7, edge8]) := by
    refine .mk (by simp [FitsHere, Small]) ?_
    intro x hx
    simp [Value.children] at hx
    rcases hx with rfl | rfl
    · exact fits_edge 7 (by omega)
    · exact fits_edge 8 (by omega)
  refine ⟨edge7, edge8, wireImage edge7, hf, by decide +kernel, ?_⟩
  have := C67_image hb _ hf []
  rw [List.append_nil] at this
  have he : Value.beq (wireImage edge7) (wireImage edge8) = true := by decide +kernel
  rw [this]
  simp [wireImage, imgVec, once, he]

/-- The hypotheses are met by a path with one step, a vertex with a tag and a nested list. -/
example : Fits (.path ⟨⟨.str [97], [⟨[116], [([107], .list [.int 1, .null .badData])]⟩]⟩, [⟨⟨.int 2, []⟩, 1, [101], 3, []⟩]⟩) ∧
    Plain (.path ⟨⟨.str [97], [⟨[116], [([107], .list [.int 1, .null .badData])]⟩]⟩, [⟨⟨.int 2, []⟩, 1, [101], 3, []⟩]⟩) := by
  constructor
  · refine .mk ?_ ?_
    · simp [FitsHere, PathFit, VertexFit, TagFit, StepFit, PropsFit, Small, InI64]
    · simp only [Value.children, List.flatMap_cons, List.map_cons, List.map_nil, List.flatMap_nil, List.append_nil,
        List.cons_append, List.nil_append, List.mem_cons, List.not_mem_nil, or_false]
      rintro x (rfl | rfl | rfl)
      · exact .mk (by simp [FitsHere, Small]) (by simp [Value.children])
      · refine .mk (by simp [FitsHere, Small]) ?_
        simp only [Value.children, List.mem_cons, List.not_mem_nil, or_false]
        rintro x (rfl | rfl)
        · exact .mk (by simp [FitsHere, InI64]) (by simp [Value.children])
        · exact .mk (by simp [FitsHere]) (by simp [Value.children])
      · exact .mk (by simp [FitsHere, InI64]) (by simp [Value.children])
  · refine .mk ?_ ?_
    · simp [PlainHere]
    · simp only [Value.children, List.flatMap_cons, List.map_cons, List.map_nil, List.flatMap_nil, List.append_nil,
        List.cons_append, List.nil_append, List.mem_cons, List.not_mem_nil, or_false]
      rintro x (rfl | rfl | rfl)
      · exact .mk (by simp [PlainHere]) (by simp [Value.children])
      · refine .mk (by simp [PlainHere]) ?_
        simp only [Value.children, List.mem_cons, List.not_mem_nil, or_false]
        rintro x (rfl | rfl)
        · exact .mk (by simp [PlainHere]) (by simp [Value.children])
        · exact .mk (by simp [PlainHere]) (by simp [Value.children])
      · exact .mk (by simp [PlainHere]) (by simp [Value.children])

/-- The numbers 1.5 and -0.1 (rounded) can be held. -/
example : F64.Holds (.fin (3 / 2)) ∧ F64.Holds (.inf true) ∧ F64.Holds .nan :=
  ⟨⟨0x3FF8000000000000, by decide +kernel, by decide +kernel⟩, ⟨0xFFF0000000000000, by decide +kernel, by decide +kernel⟩,
   ⟨0x7FF8000000000000, by decide +kernel, by decide +kernel⟩⟩

/-- The bytes are the documented ones: an integer 5 is field 3 (i64), zigzag 10, stop. -/
example (bits : F64 → Nat) : serialize bits (.int 5) = [0x36, 10, 0] := by
  simp only [serialize, writeValue]; decide +kernel
example (bits : F64 → Nat) : serialize bits (.date ⟨2021, 12, 31⟩) = [0x6C, 0x14, 0xCA, 0x1F, 0x13, 12, 0x13, 31, 0, 0] := by
  simp only [serialize, writeValue]; decide +kernel

/-! ## C68: fields that a newer peer adds are skipped -/

/-- **C68** (partial: every structure except `Time` and `DateTime`).  If a peer appends to the
serialisation of a structure any fields with numbers that are not known here, holding any data of the
protocol, the structure is read as if they were not there. -/
theorem C68_date_partial (d s : Date) (h : FitsHere (.date d)) (fs : List (Nat × Datum)) (hfs : ∀ x ∈ fs, 3 < x.1)
    (hw : wfF fs) (rest : Bytes) :
    dateReader.read s ((writeDate d).dropLast ++ encF 3 fs ++ ([0] ++ rest)) = some (d, rest) :=
  Parses.extra _ (last := 3) (parses_date h s) rfl (by intro id h; simp only [dateReader]; repeat rw [if_neg (by omega)]) fs hfs hw rest

section graph
variable {bits : F64 → Nat} (hb : BitsOk bits)

theorem C68_vertex_partial (hb : BitsOk bits) (v s : Vertex Value) (h : Fits (.vertex v)) (fs : List (Nat × Datum)) (hfs : ∀ x ∈ fs, 2 < x.1)
    (hw : wfF fs) (f : Nat) (hf : (serialize bits (.vertex v)).length ≤ f) (rest : Bytes) :
    (vertexReader (readValue f) .empty).read s ((writeVertex (serialize bits) v).dropLast ++ encF 2 fs ++ ([0] ++ rest)) =
      some (imgVertex v, rest) := by
  rw [imgVertex_eq]
  refine Parses.extra _ (last := 2) (parses_vertex (x := v) h.here (fun x hx o r => ?_) s) rfl
    (by intro id h; simp only [vertexReader]; repeat rw [if_neg (by omega)]) fs hfs hw rest
  exact readValue_write hb x (h.kids x hx) f o r (by have := len_child bits (v := .vertex v) hx; unfold serialize at hf; omega)

theorem C68_edge_partial (hb : BitsOk bits) (v s : Edge Value) (h : Fits (.edge v)) (fs : List (Nat × Datum)) (hfs : ∀ x ∈ fs, 6 < x.1)
    (hw : wfF fs) (f : Nat) (hf : (serialize bits (.edge v)).length ≤ f) (rest : Bytes) :
    ((edgeReader (readValue f) .empty).read s ((writeEdge (serialize bits) v).dropLast ++ encF 6 fs ++ ([0] ++ rest))).map
      (fun x => (Value.edge x.1, x.2)) = some (wireImage (.edge v), rest) := by
  have := Parses.extra _ (last := 6) (parses_edge (v0 := Value.empty) (rv := readValue f) (w := serialize bits) (n := wireImage) (x := v) h.here (fun x hx o r =>
      readValue_write hb x (h.kids x hx) f o r (by have := len_child bits (v := .edge v) hx; unfold serialize at hf; omega)) s) rfl
    (by intro id h; simp only [edgeReader]; repeat rw [if_neg (by omega)]) fs hfs hw rest
  rw [this]
  simp only [Option.map_some, Edge.nm, wireImage, imgProps_eq]

theorem C68_path_partial (hb : BitsOk bits) (v s : Path Value) (h : Fits (.path v)) (fs : List (Nat × Datum)) (hfs : ∀ x ∈ fs, 2 < x.1)
    (hw : wfF fs) (f : Nat) (hf : (serialize bits (.path v)).length ≤ f) (rest : Bytes) :
    ((pathReader (readValue f) .empty).read s ((writePath (serialize bits) v).dropLast ++ encF 2 fs ++ ([0] ++ rest))).map
      (fun x => (Value.path x.1, x.2)) = some (wireImage (.path v), rest) := by
  have := Parses.extra _ (last := 2) (parses_path (v0 := Value.empty) (rv := readValue f) (w := serialize bits) (n := wireImage) (x := v) h.here (fun x hx o r =>
      readValue_write hb x (h.kids x hx) f o r (by have := len_child bits (v := .path v) hx; unfold serialize at hf; omega)) s) rfl
    (by intro id h; simp only [pathReader]; repeat rw [if_neg (by omega)]) fs hfs hw rest
  rw [this]
  simp only [Option.map_some, Path.nm, wireImage, imgVertex_eq, imgSteps_eq]

theorem C68_list_partial (hb : BitsOk bits) (v s : List Value) (h : Fits (.list v)) (fs : List (Nat × Datum)) (hfs : ∀ x ∈ fs, 1 < x.1)
    (hw : wfF fs) (f : Nat) (hf : (serialize bits (.list v)).length ≤ f) (rest : Bytes) :
    ((listReader (readValue f) .empty).read s ((writeVList (serialize bits) v).dropLast ++ encF 1 fs ++ ([0] ++ rest))).map
      (fun x => (Value.list x.1, x.2)) = some (wireImage (.list v), rest) := by
  have := Parses.extra _ (last := 1) (parses_list (v0 := Value.empty) (rv := readValue f) (w := serialize bits) (n := wireImage) (l := v) h.here (fun x hx o r =>
      readValue_write hb x (h.kids x hx) f o r (by have := len_child bits (v := .list v) hx; unfold serialize at hf; omega)) s) rfl
    (by intro id h; simp only [listReader]; repeat rw [if_neg (by omega)]) fs hfs hw rest
  rw [this]
  simp only [Option.map_some, wireImage, imgVec_eq]

theorem C68_map_partial (hb : BitsOk bits) (v s : Props Value) (h : Fits (.map v)) (fs : List (Nat × Datum)) (hfs : ∀ x ∈ fs, 1 < x.1)
    (hw : wfF fs) (f : Nat) (hf : (serialize bits (.map v)).length ≤ f) (rest : Bytes) :
    ((mapReader (readValue f) .empty).read s ((writeVMap (serialize bits) v).dropLast ++ encF 1 fs ++ ([0] ++ rest))).map
      (fun x => (Value.map x.1, x.2)) = some (wireImage (.map v), rest) := by
  have := Parses.extra _ (last := 1) (parses_map (v0 := Value.empty) (rv := readValue f) (w := serialize bits) (n := wireImage) (l := v) h.here (fun x hx o r =>
      readValue_write hb x (h.kids x hx) f o r (by have := len_child bits (v := .map v) hx; unfold serialize at hf; omega)) s) rfl
    (by intro id h; simp only [mapReader]; repeat rw [if_neg (by omega)]) fs hfs hw rest
  rw [this]
  simp only [Option.map_some, wireImage, imgProps_eq]

theorem C68_set_partial (hb : BitsOk bits) (v s : List Value) (h : Fits (.set v)) (fs : List (Nat × Datum)) (hfs : ∀ x ∈ fs, 1 < x.1)
    (hw : wfF fs) (f : Nat) (hf : (serialize bits (.set v)).length ≤ f) (rest : Bytes) :
    ((setReader Value.beq (readValue f) .empty).read s ((writeVSet (serialize bits) v).dropLast ++ encF 1 fs ++ ([0] ++ rest))).map
      (fun x => (Value.set x.1, x.2)) = some (wireImage (.set v), rest) := by
  have := Parses.extra _ (last := 1) (parses_set (eq := Value.beq) (v0 := Value.empty) (rv := readValue f) (w := serialize bits) (n := wireImage) (l := v) h.here (fun x hx o r =>
      readValue_write hb x (h.kids x hx) f o r (by have := len_child bits (v := .set v) hx; unfold serialize at hf; omega)) s) rfl
    (by intro id h; simp only [setReader]; repeat rw [if_neg (by omega)]) fs hfs hw rest
  rw [this]
  simp only [Option.map_some, wireImage, imgVec_eq, once_eq]

theorem C68_dataSet_partial (hb : BitsOk bits) (c : List Bytes) (v : List (List Value)) (s : List Bytes × List (List Value))
    (h : Fits (.dataset c v)) (fs : List (Nat × Datum)) (hfs : ∀ x ∈ fs, 2 < x.1)
    (hw : wfF fs) (f : Nat) (hf : (serialize bits (.dataset c v)).length ≤ f) (rest : Bytes) :
    ((dataSetReader (readValue f) .empty).read s ((writeDataSet (serialize bits) c v).dropLast ++ encF 2 fs ++ ([0] ++ rest))).map
      (fun x => (Value.dataset x.1.1 x.1.2, x.2)) = some (wireImage (.dataset c v), rest) := by
  have hh := h.here
  have := Parses.extra _ (last := 2) (parses_dataSet (v0 := Value.empty) (rv := readValue f) (w := serialize bits) (n := wireImage) (c := c) (l := v) hh.1 hh.2.1 hh.2.2 (fun x hx o r =>
      readValue_write hb x (h.kids x hx) f o r (by have := len_child bits (v := .dataset c v) hx; unfold serialize at hf; omega)) s) rfl
    (by intro id h; simp only [dataSetReader]; repeat rw [if_neg (by omega)]) fs hfs hw rest
  rw [this]
  simp only [Option.map_some, wireImage, imgRows_eq]
end graph

/-- **C68** is violated for `Time`: a peer that adds a 32-bit field 5 (here with value 9) makes the
reader stop in the middle of that field. -/
theorem C68_time_violated : ∃ (t : Time) (fs : List (Nat × Datum)), FitsHere (.time t) ∧ (∀ x ∈ fs, 4 < x.1) ∧ wfF fs ∧
    timeReader.read ⟨0, 0, 0, 0⟩ ((writeTime t).dropLast ++ encF 4 fs ++ [0]) = some (t, [18, 0]) :=
  ⟨⟨12, 30, 0, 5⟩, [(5, .i32 9)], by simp [FitsHere], by simp, by simp [wfF, Datum.WF], by decide +kernel⟩

/-- **C68** is violated for `DateTime` with a 32-bit field 8. -/
theorem C68_dateTime_violated : ∃ (t : DateTime) (fs : List (Nat × Datum)), FitsHere (.datetime t) ∧ (∀ x ∈ fs, 7 < x.1) ∧
    wfF fs ∧ dateTimeReader.read ⟨0, 1, 1, 0, 0, 0, 0⟩ ((writeDateTime t).dropLast ++ encF 7 fs ++ [0]) = some (t, [18, 0]) :=
  ⟨⟨2021, 1, 2, 12, 30, 0, 5⟩, [(8, .i32 9)], by simp [FitsHere], by simp, by simp [wfF, Datum.WF], by decide +kernel⟩

/-- Extra fields of every kind meet the hypotheses. -/
example : wfF [(9, .list ctTrue [.bool true, .bool false]), (200, .map ctBinary ctStruct [(.binary [1], .struct [(3, .i64 (-7))])])] ∧
    dateReader.read Date.default ((writeDate ⟨2021, 1, 2⟩).dropLast ++
      encF 3 [(9, .list ctTrue [.bool true, .bool false]), (200, .map ctBinary ctStruct [(.binary [1], .struct [(3, .i64 (-7))])])] ++ ([0] ++ [77])) =
    some (⟨2021, 1, 2⟩, [77]) := by
  constructor
  · simp [wfF, Datum.WF, wfL, wfM, Datum.et, Datum.ct, ctTrue, ctBinary, ctStruct, Small, InI64]
  · exact C68_date_partial _ _ (by simp [FitsHere]) _ (by simp)
      (by simp [wfF, Datum.WF, wfL, wfM, Datum.et, Datum.ct, ctTrue, ctBinary, ctStruct, Small, InI64]) _

/-! ## C69: key-value pairs and host addresses survive the wire -/

/-- **C69**. -/
theorem C69_keyValue (kv s : Bytes × Bytes) (hk : Small kv.1.length) (hv : Small kv.2.length) (rest : Bytes) :
    keyValueReader.read s (writeKeyValue kv ++ rest) = some (kv, rest) := by
  have : Parses keyValueReader s (writeKeyValue kv).dropLast 2 2 kv := by
    rw [writeKeyValue, List.dropLast_concat]
    refine ⟨by simp [fieldHeader_eq]; omega, fun k tail => ?_⟩
    simp only [List.append_assoc]
    exact (run_field (curr := 0) (nid := 1) _ rfl (by decide) (by decide) (by decide) rfl (block_eq (readBinary_write hk _))).trans <|
      (run_field (curr := 1) (nid := 2) _ rfl (by decide) (by decide) (by decide) rfl (block_eq (readBinary_write hv _)))
  have := Parses.read this rfl rest
  rwa [writeKeyValue, List.dropLast_concat, ← List.append_assoc, ← writeKeyValue] at this

/-- **C69**. -/
theorem C69_hostAddr (h s : HostAddr) (hh : Small h.host.length) (hp : -2147483648 ≤ h.port ∧ h.port ≤ 2147483647)
    (rest : Bytes) : hostAddrReader.read s (writeHostAddr h ++ rest) = some (h, rest) := by
  have : Parses hostAddrReader s (writeHostAddr h).dropLast 2 2 h := by
    rw [writeHostAddr, List.dropLast_concat]
    refine ⟨by simp [fieldHeader_eq]; omega, fun k tail => ?_⟩
    simp only [List.append_assoc]
    exact (run_field (curr := 0) (nid := 1) _ rfl (by decide) (by decide) (by decide) rfl (block_eq (readBinary_write hh _))).trans <|
      (run_field (curr := 1) (nid := 2) _ rfl (by decide) (by decide) (by decide) rfl (block_eq (readI32_write hp _)))
  have := Parses.read this rfl rest
  rwa [writeHostAddr, List.dropLast_concat, ← List.append_assoc, ← writeHostAddr] at this

example : hostAddrReader.read ⟨[], 0⟩ (writeHostAddr ⟨[104], 9669⟩) = some (⟨[104], 9669⟩, []) := by decide +kernel

end Wire
end Nebula
