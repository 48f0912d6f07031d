import Verif.Wire.Named
import Verif.Wire.NamedSpec
import Verif.Wire.Fields
import Verif.Wire.ResponseSpec
/-! # Protocols that identify fields by name: helper lemmas -/
namespace Nebula
namespace Wire
namespace Named

section fields
variable {σ : Type} {R : Reader σ}

theorem block_of {n : Bytes} {id : Int} {t : TType} {g : σ → Doc → Option σ} (h : R.names.lookup n = some (id, t))
    (hl : R.label id = some (t, g)) : R.block n = some g := by
  simp [Reader.block, h, hl]

theorem fields_cons {n : Bytes} {id : Int} {t : TType} {g : σ → Doc → Option σ} {s s' : σ} {d : Doc} (r : List (Bytes × Doc))
    (h : R.names.lookup n = some (id, t)) (hl : R.label id = some (t, g)) (hg : g s d = some s') :
    R.fields s ((n, d) :: r) = R.fields s' r := by
  rw [Reader.fields, block_of h hl]; simp only [hg]

theorem put_eq {α : Type} {rd : Doc → Option α} {set : σ → α → σ} {s : σ} {d : Doc} {a : α} (h : rd d = some a) :
    put rd set s d = some (set s a) := by simp [put, h]
theorem putAt_eq {α : Type} {rd : α → Doc → Option α} {get : σ → α} {set : σ → α → σ} {s : σ} {d : Doc} {a : α}
    (h : ∀ o, rd o d = some a) : putAt rd get set s d = some (set s a) := by simp [putAt, h]
end fields

theorem readNum_ok {lo hi x : Int} (h : lo ≤ x ∧ x ≤ hi) : readNum lo hi (.num x) = some x := by simp [readNum, h]

theorem readAll_ok {α β γ : Type} {rd : β → Option γ} {w : α → β} {n : α → γ} : ∀ {l : List α}, (∀ a ∈ l, rd (w a) = some (n a)) →
    readAll rd (l.map w) = some (l.map n)
  | [], _ => rfl
  | a :: l, h => by
    simp [readAll, h a (by simp), readAll_ok (l := l) fun b hb => h b (by simp [hb])]

theorem readSeq_ok {α γ : Type} {rd : Doc → Option γ} {w : α → Doc} {n : α → γ} {l : List α} (h : ∀ a ∈ l, rd (w a) = some (n a)) :
    readSeq rd (.seq (l.map w)) = some (l.map n) := readAll_ok h

theorem readProps_ok {V : Type} {rv : Doc → Option V} {w : V → Doc} {n : V → V} {m : Props V}
    (hf : (m.map Prod.fst).Nodup) (h : ∀ v ∈ m.map Prod.snd, rv (w v) = some (n v)) :
    readProps rv (writeProps w m) = some (m.map fun kv => (kv.1, n kv.2)) := by
  have := readAll_ok (rd := fun kv : Bytes × Doc => (rv kv.2).map fun v => (kv.1, v)) (w := fun kv : Bytes × V => (kv.1, w kv.2))
    (n := fun kv => (kv.1, n kv.2)) (l := m) (by intro kv hkv; simp [h kv.2 (List.mem_map_of_mem hkv)])
  simp only [readProps, writeProps, this, Option.map_some]
  rw [foldl_mapSet]
  · simp
  · simpa [Function.comp_def] using hf

theorem read_date {d : Date} (h : FitsHere (.date d)) (s : Date) : dateReader.read s (writeDate d) = some d := by
  obtain ⟨h1, h2, h3⟩ := h
  simp only [writeDate, Reader.read]
  refine Eq.trans (fields_cons _ (by exact rfl) (by exact rfl) (put_eq (readNum_ok h1))) ?_
  refine Eq.trans (fields_cons _ (by exact rfl) (by exact rfl) (put_eq (readNum_ok h2))) ?_
  refine Eq.trans (fields_cons _ (by exact rfl) (by exact rfl) (put_eq (readNum_ok h3))) ?_
  rfl

theorem read_time {d : Time} (h : FitsHere (.time d)) (s : Time) : timeReader.read s (writeTime d) = some d := by
  obtain ⟨h1, h2, h3, h4⟩ := h
  simp only [writeTime, Reader.read]
  refine Eq.trans (fields_cons _ (by exact rfl) (by exact rfl) (put_eq (readNum_ok h1))) ?_
  refine Eq.trans (fields_cons _ (by exact rfl) (by exact rfl) (put_eq (readNum_ok h2))) ?_
  refine Eq.trans (fields_cons _ (by exact rfl) (by exact rfl) (put_eq (readNum_ok h3))) ?_
  refine Eq.trans (fields_cons _ (by exact rfl) (by exact rfl) (put_eq (readNum_ok h4))) ?_
  rfl

theorem read_dateTime {d : DateTime} (h : FitsHere (.datetime d)) (s : DateTime) :
    dateTimeReader.read s (writeDateTime d) = some d := by
  obtain ⟨h1, h2, h3, h4, h5, h6, h7⟩ := h
  simp only [writeDateTime, Reader.read]
  refine Eq.trans (fields_cons _ (by exact rfl) (by exact rfl) (put_eq (readNum_ok h1))) ?_
  refine Eq.trans (fields_cons _ (by exact rfl) (by exact rfl) (put_eq (a := d.month) (readNum_ok (by omega)))) ?_
  refine Eq.trans (fields_cons _ (by exact rfl) (by exact rfl) (put_eq (a := d.day) (readNum_ok (by omega)))) ?_
  refine Eq.trans (fields_cons _ (by exact rfl) (by exact rfl) (put_eq (a := d.hour) (readNum_ok (by omega)))) ?_
  refine Eq.trans (fields_cons _ (by exact rfl) (by exact rfl) (put_eq (a := d.minute) (readNum_ok (by omega)))) ?_
  refine Eq.trans (fields_cons _ (by exact rfl) (by exact rfl) (put_eq (a := d.sec) (readNum_ok (by omega)))) ?_
  refine Eq.trans (fields_cons _ (by exact rfl) (by exact rfl) (put_eq (a := d.microsec) (readNum_ok (by omega)))) ?_
  simp only
  rw [wrapU_id h2.1 (by have := h2.2; simpa using this), wrapU_id h3.1 (by have := h3.2; simpa using this),
    wrapU_id h4.1 (by have := h4.2; simpa using this), wrapU_id h5.1 (by have := h5.2; simpa using this),
    wrapU_id h6.1 (by have := h6.2; simpa using this), wrapU_id h7.1 (by have := h7.2; simpa using this)]
  rfl

section poly
variable {V : Type} {w : V → Doc} {n : V → V} {rv : V → Doc → Option V} {v0 : V}

theorem read_tag {t : Tag V} (hf : TagFit t) (h : ∀ v ∈ t.props.map Prod.snd, ∀ o, rv o (w v) = some (n v)) (s : Tag V) :
    (tagReader rv v0).read s (writeTag w t) = some (Tag.nm n t) := by
  simp only [writeTag, Reader.read]
  refine Eq.trans (fields_cons _ (by exact rfl) (by exact rfl) (put_eq (a := t.name) rfl)) ?_
  refine Eq.trans (fields_cons _ (by exact rfl) (by exact rfl) (put_eq (readProps_ok hf.2.2.2 fun v hv => h v hv v0))) ?_
  rfl

theorem read_vertex {x : Vertex V} (hf : VertexFit x)
    (h : ∀ v ∈ x.vid :: x.tags.flatMap (fun t => t.props.map Prod.snd), ∀ o, rv o (w v) = some (n v)) (s : Vertex V) :
    (vertexReader rv v0).read s (writeVertex w x) = some (Vertex.nm n x) := by
  simp only [writeVertex, Reader.read]
  refine Eq.trans (fields_cons _ (by exact rfl) (by exact rfl) (putAt_eq (h x.vid List.mem_cons_self))) ?_
  refine Eq.trans (fields_cons _ (by exact rfl) (by exact rfl) (put_eq (readSeq_ok fun t ht =>
      read_tag (v0 := v0) (hf.2 t ht) (fun v hv => h v (List.mem_cons_of_mem _ (List.mem_flatMap.2 ⟨t, ht, hv⟩))) ⟨[], []⟩))) ?_
  rfl

theorem read_edge {x : Edge V} (hf : EdgeFit x)
    (h : ∀ v ∈ x.src :: x.dst :: x.props.map Prod.snd, ∀ o, rv o (w v) = some (n v)) (s : Edge V) :
    (edgeReader rv v0).read s (writeEdge w x) = some (Edge.nm n x) := by
  obtain ⟨h1, h2, h3, h4⟩ := hf
  rw [writeEdge, sgn_dir]
  simp only [Reader.read]
  refine Eq.trans (fields_cons _ (by exact rfl) (by exact rfl) (putAt_eq (h x.src List.mem_cons_self))) ?_
  refine Eq.trans (fields_cons _ (by exact rfl) (by exact rfl) (putAt_eq (h x.dst (by simp)))) ?_
  refine Eq.trans (fields_cons _ (by exact rfl) (by exact rfl) (put_eq (readNum_ok (dir_range _)))) ?_
  refine Eq.trans (fields_cons _ (by exact rfl) (by exact rfl) (put_eq (a := x.name) rfl)) ?_
  refine Eq.trans (fields_cons _ (by exact rfl) (by exact rfl) (put_eq (readNum_ok h2))) ?_
  refine Eq.trans (fields_cons _ (by exact rfl) (by exact rfl) (put_eq (readProps_ok h4.2.2 fun v hv => h v (by simp [List.mem_cons]; right; right; simpa using hv) v0))) ?_
  rfl

theorem read_step {x : Step V} (hf : StepFit x)
    (h : ∀ v ∈ (x.dst.vid :: x.dst.tags.flatMap fun t => t.props.map Prod.snd) ++ x.props.map Prod.snd, ∀ o, rv o (w v) = some (n v))
    (s : Step V) : (stepReader rv v0).read s (writeStep w x) = some (Step.nm n x) := by
  obtain ⟨h0, h1, h2, h3, h4⟩ := hf
  rw [writeStep, sgn_dir]
  simp only [Reader.read]
  refine Eq.trans (fields_cons _ (by exact rfl) (by exact rfl) (putAt_eq (read_vertex (v0 := v0) h0 fun v hv => h v (List.mem_append_left _ hv)))) ?_
  refine Eq.trans (fields_cons _ (by exact rfl) (by exact rfl) (put_eq (readNum_ok (dir_range _)))) ?_
  refine Eq.trans (fields_cons _ (by exact rfl) (by exact rfl) (put_eq (a := x.name) rfl)) ?_
  refine Eq.trans (fields_cons _ (by exact rfl) (by exact rfl) (put_eq (readNum_ok h2))) ?_
  refine Eq.trans (fields_cons _ (by exact rfl) (by exact rfl) (put_eq (readProps_ok h4.2.2 fun v hv => h v (List.mem_append_right _ hv) v0))) ?_
  rfl

theorem read_path {x : Path V} (hf : PathFit x)
    (h : ∀ v ∈ (x.src.vid :: x.src.tags.flatMap fun t => t.props.map Prod.snd) ++ x.steps.flatMap (fun s =>
        (s.dst.vid :: s.dst.tags.flatMap fun t => t.props.map Prod.snd) ++ s.props.map Prod.snd), ∀ o, rv o (w v) = some (n v))
    (s : Path V) : (pathReader rv v0).read s (writePath w x) = some (Path.nm n x) := by
  obtain ⟨h0, h1, h2⟩ := hf
  simp only [writePath, Reader.read]
  refine Eq.trans (fields_cons _ (by exact rfl) (by exact rfl) (putAt_eq (read_vertex (v0 := v0) h0 fun v hv => h v (List.mem_append_left _ hv)))) ?_
  refine Eq.trans (fields_cons _ (by exact rfl) (by exact rfl) (put_eq (readSeq_ok fun t ht =>
      read_step (v0 := v0) (h2 t ht) (fun v hv => h v (List.mem_append_right _ (List.mem_flatMap.2 ⟨t, ht, hv⟩))) ⟨⟨v0, []⟩, 0, [], 0, []⟩))) ?_
  rfl

theorem read_list {l : List V} (h : ∀ v ∈ l, ∀ o, rv o (w v) = some (n v)) (s : List V) :
    (listReader rv v0).read s (writeVList w l) = some (l.map n) := by
  simp only [writeVList, Reader.read]
  refine Eq.trans (fields_cons _ (by exact rfl) (by exact rfl) (put_eq (readSeq_ok fun v hv => h v hv v0))) ?_
  rfl

theorem read_map {l : Props V} (hf : PropsFit l) (h : ∀ v ∈ l.map Prod.snd, ∀ o, rv o (w v) = some (n v)) (s : Props V) :
    (mapReader rv v0).read s (writeVMap w l) = some (l.map fun kv => (kv.1, n kv.2)) := by
  simp only [writeVMap, Reader.read]
  refine Eq.trans (fields_cons _ (by exact rfl) (by exact rfl) (put_eq (readProps_ok hf.2.2 fun v hv => h v hv v0))) ?_
  rfl

/-- The field of a set is skipped. -/
theorem read_set {eq : V → V → Bool} {l : List V} (s : List V) : (setReader rv v0 eq).read s (writeVSet w l) = some s := by
  have : (setReader rv v0 eq).block (ascii "values") = none := rfl
  simp only [writeVSet, Reader.read, Reader.fields, this]

theorem read_dataSet {c : List Bytes} {l : List (List V)} (h : ∀ v ∈ l.flatten, ∀ o, rv o (w v) = some (n v))
    (s : List Bytes × List (List V)) :
    (dataSetReader rv v0).read s (writeDataSet w c l) = some (c, l.map (List.map n)) := by
  have hc := readSeq_ok (rd := readText) (w := Doc.text) (n := fun x => x) (l := c) fun a _ => rfl
  simp only [List.map_id'] at hc
  simp only [writeDataSet, Reader.read]
  refine Eq.trans (fields_cons _ (by exact rfl) (by exact rfl) (put_eq hc)) ?_
  refine Eq.trans (fields_cons _ (by exact rfl) (by exact rfl) (put_eq (readSeq_ok fun r hr =>
      read_list (v0 := v0) (fun v hv => h v (List.mem_flatten.2 ⟨r, hr, hv⟩)) []))) ?_
  rfl
end poly

/-! ## The image -/

theorem timgProps_eq (p : Props Value) : timgProps p = p.map fun kv => (kv.1, textImage kv.2) := by
  induction p with
  | nil => rfl
  | cons a p ih => simp [timgProps, ih]
theorem timgVec_eq (l : List Value) : timgVec l = l.map textImage := by
  induction l with
  | nil => rfl
  | cons a p ih => simp [timgVec, ih]
theorem timgRows_eq (l : List (List Value)) : timgRows l = l.map (List.map textImage) := by
  induction l with
  | nil => rfl
  | cons a p ih => simp [timgRows, ih, timgVec_eq]
theorem timgTags_eq (l : List (Tag Value)) : timgTags l = l.map (Tag.nm textImage) := by
  induction l with
  | nil => rfl
  | cons a p ih => simp [timgTags, ih, timgProps_eq, Tag.nm]
theorem timgVertex_eq (v : Vertex Value) : timgVertex v = Vertex.nm textImage v := by
  cases v; simp [timgVertex, timgTags_eq, Vertex.nm]
theorem timgSteps_eq (l : List (Step Value)) : timgSteps l = l.map (Step.nm textImage) := by
  induction l with
  | nil => rfl
  | cons a p ih => simp [timgSteps, ih, timgProps_eq, timgVertex_eq, Step.nm]

section congr
variable {V : Type} {f g : V → V}
theorem props_congr {m : Props V} (h : ∀ v ∈ m.map Prod.snd, f v = g v) :
    (m.map fun kv => (kv.1, f kv.2)) = m.map fun kv => (kv.1, g kv.2) :=
  List.map_congr_left fun kv hkv => by rw [h kv.2 (List.mem_map_of_mem hkv)]
theorem tag_congr {t : Tag V} (h : ∀ v ∈ t.props.map Prod.snd, f v = g v) : Tag.nm f t = Tag.nm g t := by
  rw [Tag.nm, props_congr h]; rfl
theorem vertex_congr {x : Vertex V} (h : ∀ v ∈ x.vid :: x.tags.flatMap (fun t => t.props.map Prod.snd), f v = g v) :
    Vertex.nm f x = Vertex.nm g x := by
  rw [Vertex.nm, h x.vid List.mem_cons_self, List.map_congr_left fun t ht =>
    tag_congr (t := t) fun v hv => h v (List.mem_cons_of_mem _ (List.mem_flatMap.2 ⟨t, ht, hv⟩))]; rfl
theorem step_congr {x : Step V}
    (h : ∀ v ∈ (x.dst.vid :: x.dst.tags.flatMap fun t => t.props.map Prod.snd) ++ x.props.map Prod.snd, f v = g v) :
    Step.nm f x = Step.nm g x := by
  rw [Step.nm, vertex_congr fun v hv => h v (List.mem_append_left _ hv), props_congr fun v hv => h v (List.mem_append_right _ hv)]; rfl
end congr

/-- Without sets the image is that of the compact protocol. -/
theorem textImage_setless (v : Value) : Setless v → textImage v = wireImage v := by
  induction v using Value.children_induction with
  | h v ih =>
    intro hv
    have hk : ∀ x ∈ v.children, textImage x = wireImage x := fun x hx => ih x hx (hv.kids x hx)
    have hhere := hv.here
    cases v with
    | vertex x => simp only [textImage, wireImage, timgVertex_eq, imgVertex_eq]; rw [vertex_congr hk]
    | edge x =>
      obtain ⟨s, d, t, nm, r, p⟩ := x
      simp only [textImage, wireImage, timgProps_eq, imgProps_eq]
      rw [hk s (by simp [Value.children]), hk d (by simp [Value.children]), props_congr fun v hv => hk v (by
        simp only [Value.children, List.mem_cons]; right; right; exact hv)]
    | path x =>
      obtain ⟨v, ss⟩ := x
      simp only [textImage, wireImage, timgVertex_eq, imgVertex_eq, timgSteps_eq, imgSteps_eq]
      rw [vertex_congr fun v hv => hk v (List.mem_append_left _ hv), List.map_congr_left fun t ht =>
        step_congr (x := t) fun v hv => hk v (List.mem_append_right _ (List.mem_flatMap.2 ⟨t, ht, hv⟩))]
    | list l => simp only [textImage, wireImage, timgVec_eq, imgVec_eq]; rw [List.map_congr_left (l := l) hk]
    | map m => simp only [textImage, wireImage, timgProps_eq, imgProps_eq]; rw [props_congr hk]
    | set l => rw [show l = [] from hhere]; rfl
    | dataset c r =>
      simp only [textImage, wireImage, timgRows_eq, imgRows_eq]
      rw [List.map_congr_left fun x hx => List.map_congr_left fun v hv => hk v (List.mem_flatten.2 ⟨x, hx, hv⟩)]
    | _ => simp only [textImage, wireImage]

/-! ## Sizes -/

theorem size_memL {d : Doc} : ∀ {l : List Doc}, d ∈ l → d.size ≤ sizeL l
  | e :: l, h => by
    rw [sizeL]
    rcases List.mem_cons.1 h with rfl | h
    · omega
    · have := size_memL h; omega
theorem size_memM {k : Bytes} {d : Doc} : ∀ {l : List (Bytes × Doc)}, (k, d) ∈ l → d.size ≤ sizeM l
  | (k', e) :: l, h => by
    rw [sizeM]
    rcases List.mem_cons.1 h with h | h
    · cases h; omega
    · have := size_memM h; omega
theorem size_seq {d : Doc} {l : List Doc} (h : d ∈ l) : d.size < (Doc.seq l).size := by
  rw [Doc.size]; have := size_memL h; omega
theorem size_obj {k : Bytes} {d : Doc} {l : List (Bytes × Doc)} (h : (k, d) ∈ l) : d.size < (Doc.obj l).size := by
  rw [Doc.size]; have := size_memM h; omega
theorem size_pos (d : Doc) : 0 < d.size := by cases d <;> simp [Doc.size]

section size
variable {V : Type} {w : V → Doc}
theorem size_props {m : Props V} {x : V} (h : x ∈ m.map Prod.snd) : (w x).size < (writeProps w m).size := by
  obtain ⟨kv, hkv, rfl⟩ := List.mem_map.1 h
  exact size_obj (k := kv.1) (List.mem_map.2 ⟨kv, hkv, rfl⟩)
theorem size_tag {t : Tag V} {x : V} (h : x ∈ t.props.map Prod.snd) : (w x).size < (writeTag w t).size :=
  Nat.lt_trans (size_props h) (size_obj (k := ascii "props") (by simp))
theorem size_vertex {v : Vertex V} {x : V} (h : x ∈ v.vid :: v.tags.flatMap (fun t => t.props.map Prod.snd)) :
    (w x).size < (writeVertex w v).size := by
  rcases List.mem_cons.1 h with rfl | h
  · exact size_obj (k := ascii "vid") (by simp)
  · obtain ⟨t, ht, hx⟩ := List.mem_flatMap.1 h
    exact Nat.lt_trans (size_tag hx) (Nat.lt_trans (size_seq (List.mem_map_of_mem ht)) (size_obj (k := ascii "tags") (by simp)))
theorem size_edge {e : Edge V} {x : V} (h : x ∈ e.src :: e.dst :: e.props.map Prod.snd) : (w x).size < (writeEdge w e).size := by
  simp only [List.mem_cons] at h
  rcases h with rfl | rfl | h
  · exact size_obj (k := ascii "src") (by simp)
  · exact size_obj (k := ascii "dst") (by simp)
  · exact Nat.lt_trans (size_props h) (size_obj (k := ascii "props") (by simp))
theorem size_step {e : Step V} {x : V}
    (h : x ∈ (e.dst.vid :: e.dst.tags.flatMap fun t => t.props.map Prod.snd) ++ e.props.map Prod.snd) :
    (w x).size < (writeStep w e).size := by
  rcases List.mem_append.1 h with h | h
  · exact Nat.lt_trans (size_vertex h) (size_obj (k := ascii "dst") (by simp))
  · exact Nat.lt_trans (size_props h) (size_obj (k := ascii "props") (by simp))
theorem size_path {p : Path V} {x : V}
    (h : x ∈ (p.src.vid :: p.src.tags.flatMap fun t => t.props.map Prod.snd) ++ p.steps.flatMap (fun s =>
        (s.dst.vid :: s.dst.tags.flatMap fun t => t.props.map Prod.snd) ++ s.props.map Prod.snd)) :
    (w x).size < (writePath w p).size := by
  rcases List.mem_append.1 h with h | h
  · exact Nat.lt_trans (size_vertex h) (size_obj (k := ascii "src") (by simp))
  · obtain ⟨t, ht, hx⟩ := List.mem_flatMap.1 h
    exact Nat.lt_trans (size_step hx) (Nat.lt_trans (size_seq (List.mem_map_of_mem ht)) (size_obj (k := ascii "steps") (by simp)))
theorem size_vlist {l : List V} {x : V} (h : x ∈ l) : (w x).size < (writeVList w l).size :=
  Nat.lt_trans (size_seq (List.mem_map_of_mem h)) (size_obj (k := ascii "values") (by simp))
theorem size_dataSet {c : List Bytes} {l : List (List V)} {x : V} (h : x ∈ l.flatten) : (w x).size < (writeDataSet w c l).size := by
  obtain ⟨r, hr, hx⟩ := List.mem_flatten.1 h
  exact Nat.lt_trans (size_vlist hx) (Nat.lt_trans (size_seq (List.mem_map_of_mem hr)) (size_obj (k := ascii "rows") (by simp)))
end size

/-- A nested value is written in a smaller document. -/
theorem size_child {v x : Value} (h : x ∈ v.children) : (writeValue x).size < (writeValue v).size := by
  rw [writeValue_eqn v]
  cases v with
  | vertex v => exact Nat.lt_trans (size_vertex h) (size_obj (k := ascii "vVal") (by simp))
  | edge v => exact Nat.lt_trans (size_edge h) (size_obj (k := ascii "eVal") (by simp))
  | path v => exact Nat.lt_trans (size_path h) (size_obj (k := ascii "pVal") (by simp))
  | list l => exact Nat.lt_trans (size_vlist (l := l) h) (size_obj (k := ascii "lVal") (by simp))
  | set l => exact Nat.lt_trans (size_vlist (l := l) h) (size_obj (k := ascii "uVal") (by simp [writeVSet, writeVList]))
  | map l =>
    exact Nat.lt_trans (size_props (m := l) h) (Nat.lt_trans (m := (writeVMap writeValue l).size) (size_obj (k := ascii "kvs") (by simp)) (size_obj (k := ascii "mVal") (by simp)))
  | dataset c l => exact Nat.lt_trans (size_dataSet (c := c) h) (size_obj (k := ascii "gVal") (by simp))
  | _ => simp [Value.children] at h

/-! ## Values -/

theorem readValue_one {f : Nat} {old v : Value} {n : Bytes} {id : Int} {t : TType} {g : Value → Doc → Option Value} {d : Doc}
    (h : (unionReader (readValue f)).names.lookup n = some (id, t)) (hl : (unionReader (readValue f)).label id = some (t, g))
    (hg : g old d = some v) : readValue (f + 1) old (.obj [(n, d)]) = some v := by
  rw [readValue, fields_cons _ h hl hg]; rfl

theorem readValue_write (v : Value) : Fits v → ∀ (f : Nat) (old : Value), (writeValue v).size ≤ f →
    readValue f old (writeValue v) = some (textImage v) := by
  induction v using Value.children_induction with
  | h v ih =>
    intro hv f old hf
    have hhere := hv.here
    have hkids : ∀ x ∈ v.children, ∀ o, readValue (f - 1) o (writeValue x) = some (textImage x) := by
      intro x hx o
      have := size_child hx
      exact ih x hx (hv.kids x hx) (f - 1) o (by omega)
    obtain ⟨f, rfl⟩ : ∃ g, f = g + 1 := ⟨f - 1, by have := size_pos (writeValue v); omega⟩
    simp only [Nat.add_sub_cancel] at hkids
    rw [writeValue_eqn]
    cases v with
    | empty => simp [writeUnion, readValue, textImage]
    | null n =>
      have h : (fun d => (readI32 d).bind nullOf) (.num (nullNum n)) = some n := by
        show (readNum _ _ _).bind nullOf = _
        rw [readNum_ok (nullNum_range n)]; exact nullOf_num n
      exact readValue_one (by exact rfl) (by exact rfl) (put_eq h)
    | bool b => refine readValue_one (by exact rfl) (by exact rfl) (put_eq (a := b) rfl)
    | int i => refine readValue_one (by exact rfl) (by exact rfl) (put_eq (readNum_ok hhere))
    | float x => refine readValue_one (by exact rfl) (by exact rfl) (put_eq (a := x) rfl)
    | str s => refine readValue_one (by exact rfl) (by exact rfl) (put_eq (a := s) rfl)
    | date d => refine readValue_one (by exact rfl) (by exact rfl) (put_eq (read_date hhere _))
    | time d => refine readValue_one (by exact rfl) (by exact rfl) (put_eq (read_time hhere _))
    | datetime d => refine readValue_one (by exact rfl) (by exact rfl) (put_eq (read_dateTime hhere _))
    | vertex x =>
      rw [textImage, timgVertex_eq]
      refine readValue_one (by exact rfl) (by exact rfl) (put_eq (read_vertex hhere hkids _))
    | edge x =>
      rw [textImage, timgProps_eq]
      refine readValue_one (by exact rfl) (by exact rfl) (put_eq (read_edge hhere hkids _))
    | path x =>
      rw [textImage, timgVertex_eq, timgSteps_eq]
      refine readValue_one (by exact rfl) (by exact rfl) (put_eq (read_path hhere hkids _))
    | list x =>
      rw [textImage, timgVec_eq]
      refine readValue_one (by exact rfl) (by exact rfl) (put_eq (read_list hkids _))
    | map x =>
      rw [textImage, timgProps_eq]
      refine readValue_one (by exact rfl) (by exact rfl) (put_eq (read_map hhere hkids _))
    | set x => refine readValue_one (by exact rfl) (by exact rfl) (put_eq (read_set _))
    | dataset c x =>
      rw [textImage, timgRows_eq]
      refine readValue_one (by exact rfl) (by exact rfl) (put_eq (read_dataSet hkids _))

/-! ## The answers of the graph service -/

section answers
variable {σ α β : Type} {R : Reader (σ × List Nat)}

/-- What an optional field does to the object. -/
def upd (i : Nat) (set : σ → β → σ) : Option β → σ × List Nat → σ × List Nat
  | none, s => s
  | some b, s => (set s.1 b, i :: s.2)

theorem fields_opt {n : Bytes} {id : Int} {i : Nat} {t : TType} {rd : Doc → Option β} {w : α → Doc} {m : α → β} {set : σ → β → σ} {o : Option α}
    {s : σ × List Nat} (r : List (Bytes × Option Doc)) (h : R.names.lookup n = some (id, t)) (hl : R.label id = some (t, fld i rd set))
    (hg : ∀ a, o = some a → rd (w a) = some (m a)) :
    R.fields s (present ((n, o.map w) :: r)) = R.fields (upd i set (o.map m) s) (present r) := by
  cases o with
  | none => rfl
  | some a =>
    simp only [Option.map_some, present]
    rw [fields_cons _ h hl (put_eq (hg a rfl))]; rfl

theorem fields_one {n : Bytes} {id : Int} {i : Nat} {t : TType} {rd : Doc → Option β} {d : Doc} {b : β} {set : σ → β → σ}
    {s : σ × List Nat} (r : List (Bytes × Option Doc)) (h : R.names.lookup n = some (id, t)) (hl : R.label id = some (t, fld i rd set))
    (hg : rd d = some b) : R.fields s (present ((n, some d) :: r)) = R.fields (set s.1 b, i :: s.2) (present r) := by
  simp only [present]
  rw [fields_cons _ h hl (put_eq hg)]

theorem readStruct_ok {req : List Nat} {o x : σ} {d : Doc} {s : σ × List Nat} (h : R.read (o, []) d = some s)
    (hs : s.1 = x ∧ ∀ i ∈ req, i ∈ s.2) : readStruct R req o d = some x := by
  obtain ⟨rfl, hr⟩ := hs
  rw [readStruct, h]
  simp only [List.all_eq_true, List.contains_iff_mem]
  rw [if_pos hr]
end answers

theorem read_auth {r : AuthResponse} (h : AuthFit r) : readAuth {} (writeAuth r) = some r := by
  refine readStruct_ok (s := ?s) ?_ ?_
  rotate_left 1
  · simp only [writeAuth, Reader.read]
    refine Eq.trans (fields_one _ (by exact rfl) (by exact rfl) (readNum_ok h.code)) ?_
    refine Eq.trans (fields_opt (m := fun x => x) _ (by exact rfl) (by exact rfl) (fun a _ => rfl)) ?_
    refine Eq.trans (fields_opt (m := fun x => x) _ (by exact rfl) (by exact rfl) (fun a ha => readNum_ok (h.session a ha))) ?_
    refine Eq.trans (fields_opt (m := fun x => x) _ (by exact rfl) (by exact rfl) (fun a ha => readNum_ok (h.offset a ha))) ?_
    refine Eq.trans (fields_opt (m := fun x => x) _ (by exact rfl) (by exact rfl) (fun a _ => rfl)) ?_
    exact rfl
  · obtain ⟨c, s, m, t, z⟩ := r
    cases s <;> cases m <;> cases t <;> cases z <;> exact ⟨rfl, by simp [upd]⟩

theorem read_stats {r : ProfilingStats} (h : StatsFit r) : readStats {} (writeStats r) = some r := by
  refine readStruct_ok (s := ?s) ?_ ?_
  rotate_left 1
  · simp only [writeStats, Reader.read]
    refine Eq.trans (fields_one _ (by exact rfl) (by exact rfl) (readNum_ok h.rows)) ?_
    refine Eq.trans (fields_one _ (by exact rfl) (by exact rfl) (readNum_ok h.exec)) ?_
    refine Eq.trans (fields_one _ (by exact rfl) (by exact rfl) (readNum_ok h.total)) ?_
    refine Eq.trans (fields_opt (m := fun x => x) _ (by exact rfl) (by exact rfl) (fun a ha => (readProps_ok (n := fun x => x) (h.other a ha).2.1 fun _ _ => rfl).trans (by simp))) ?_
    exact rfl
  · obtain ⟨a, b, c, o⟩ := r
    cases o <;> exact ⟨rfl, by simp [upd]⟩

theorem read_branch {b : BranchInfo} (h : InI64 b.conditionNodeId) : readBranch {} (writeBranch b) = some b := by
  refine readStruct_ok (s := ?s) ?_ ?_
  rotate_left 1
  · simp only [writeBranch, Reader.read]
    refine Eq.trans (fields_one (b := b.isDoBranch) _ (by exact rfl) (by exact rfl) rfl) ?_
    refine Eq.trans (fields_one _ (by exact rfl) (by exact rfl) (readNum_ok h)) ?_
    exact rfl
  · exact ⟨rfl, by simp⟩

theorem read_pair (p : Bytes × Bytes) : readPair ([], []) (writePair p) = some p := by
  refine readStruct_ok (s := ?s) ?_ ?_
  rotate_left 1
  · simp only [writePair, Reader.read]
    refine Eq.trans (fields_one (b := p.1) _ (by exact rfl) (by exact rfl) rfl) ?_
    refine Eq.trans (fields_one (b := p.2) _ (by exact rfl) (by exact rfl) rfl) ?_
    exact rfl
  · exact ⟨rfl, by simp⟩

theorem read_node {r : PlanNode} (h : NodeFit r) : readNode {} (writeNode r) = some r := by
  refine readStruct_ok (s := ?s) ?_ ?_
  rotate_left 1
  · simp only [writeNode, Reader.read]
    refine Eq.trans (fields_one (b := r.name) _ (by exact rfl) (by exact rfl) rfl) ?_
    refine Eq.trans (fields_one _ (by exact rfl) (by exact rfl) (readNum_ok h.id)) ?_
    refine Eq.trans (fields_one (b := r.outputVar) _ (by exact rfl) (by exact rfl) rfl) ?_
    refine Eq.trans (fields_opt (m := fun x => x) _ (by exact rfl) (by exact rfl) (fun a ha => (readSeq_ok (n := fun x => x) fun x hx => read_pair x).trans (by simp))) ?_
    refine Eq.trans (fields_opt (m := fun x => x) _ (by exact rfl) (by exact rfl) (fun a ha => (readSeq_ok (n := fun x => x) fun x hx => read_stats ((h.prof a ha).2 x hx)).trans (by simp))) ?_
    refine Eq.trans (fields_opt (m := fun x => x) _ (by exact rfl) (by exact rfl) (fun a ha => read_branch (h.branch a ha))) ?_
    refine Eq.trans (fields_opt (m := fun x => x) _ (by exact rfl) (by exact rfl) (fun a ha => (readSeq_ok (n := fun x => x) fun x hx => readNum_ok ((h.deps a ha).2 x hx)).trans (by simp))) ?_
    exact rfl
  · obtain ⟨n, i, v, d, p, b, e⟩ := r
    cases d <;> cases p <;> cases b <;> cases e <;> exact ⟨rfl, by simp [upd]⟩

theorem readTable_ok {l : List (Int × Int)} (hn : (l.map Prod.fst).Nodup) (h : ∀ kv ∈ l, InI64 kv.1 ∧ InI64 kv.2) :
    readTable (.table l) = some l := by
  have := readAll_ok (rd := fun kv : Int × Int => if InI64 kv.1 ∧ InI64 kv.2 then some kv else none) (w := fun x => x)
    (n := fun x => x) (l := l) (fun a ha => if_pos (h a ha))
  simp only [List.map_id'] at this
  simp only [readTable, this, Option.map_some]
  rw [foldl_setEntry l [] (by simpa using hn)]; rfl

theorem read_plan {r : PlanDesc} (h : PlanFit r) : readPlan {} (writePlan r) = some r := by
  refine readStruct_ok (s := ?s) ?_ ?_
  rotate_left 1
  · simp only [writePlan, Reader.read]
    refine Eq.trans (fields_one (b := r.nodes) _ (by exact rfl) (by exact rfl) ((readSeq_ok (n := fun x => x) fun x hx => read_node (h.nodes.2 x hx)).trans (by simp))) ?_
    refine Eq.trans (fields_one _ (by exact rfl) (by exact rfl) (readTable_ok h.index.2.1 h.index.2.2)) ?_
    refine Eq.trans (fields_one (b := r.format) _ (by exact rfl) (by exact rfl) rfl) ?_
    refine Eq.trans (fields_one _ (by exact rfl) (by exact rfl) (readNum_ok h.time)) ?_
    exact rfl
  · exact ⟨rfl, by simp⟩

theorem read_exec {r : ExecResponse} (h : ExecFit r) :
    readExec {} (writeExec r) = some { r with data := r.data.map fun d => (d.1, d.2.map (List.map textImage)) } := by
  have hd : ∀ a, r.data = some a → ∀ v ∈ a.2.flatten, ∀ o, readValue (writeExec r).size o (writeValue v) = some (textImage v) := by
    intro a ha v hv o
    refine readValue_write v ((h.data a ha).kids v (by simpa [Value.children] using hv)) _ o ?_
    refine Nat.le_of_lt (Nat.lt_trans (size_dataSet (c := a.1) hv) (size_obj (k := ascii "data") ?_))
    simp [present, ha]
  refine readStruct_ok (s := ?s) ?_ ?_
  rotate_left 1
  · rw [writeExec] at hd
    simp only [writeExec, Reader.read]
    refine Eq.trans (fields_one _ (by exact rfl) (by exact rfl) (readNum_ok h.code)) ?_
    refine Eq.trans (fields_one _ (by exact rfl) (by exact rfl) (readNum_ok h.latency)) ?_
    refine Eq.trans (fields_opt (m := fun d => (d.1, d.2.map (List.map textImage))) _ (by exact rfl) (by exact rfl) (fun a ha => read_dataSet (hd a ha) _)) ?_
    refine Eq.trans (fields_opt (m := fun x => x) _ (by exact rfl) (by exact rfl) (fun a _ => rfl)) ?_
    refine Eq.trans (fields_opt (m := fun x => x) _ (by exact rfl) (by exact rfl) (fun a _ => rfl)) ?_
    refine Eq.trans (fields_opt (m := fun x => x) _ (by exact rfl) (by exact rfl) (fun a ha => read_plan (h.plan a ha))) ?_
    refine Eq.trans (fields_opt (m := fun x => x) _ (by exact rfl) (by exact rfl) (fun a _ => rfl)) ?_
    exact rfl
  · obtain ⟨c, l, d, s, m, p, k⟩ := r
    cases d <;> cases s <;> cases m <;> cases p <;> cases k <;> exact ⟨rfl, by simp [upd]⟩

end Named
end Wire
end Nebula
