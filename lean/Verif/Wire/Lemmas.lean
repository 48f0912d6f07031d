import Verif.Wire.Ops
import Verif.Wire.Spec
/-! # Round trips of the serialisers: helper lemmas -/
namespace Nebula
namespace Wire

theorem fieldHeader_eq {last id ct : Nat} (h1 : last < id) (h2 : id - last ≤ 15) :
    fieldHeader last id ct = [UInt8.ofNat ((id - last) * 16 + ct)] := by
  rw [fieldHeader, if_pos ⟨h1, h2⟩]

theorem fieldHeader_len (last id ct : Nat) : 1 ≤ (fieldHeader last id ct).length := by
  unfold fieldHeader; split <;> simp

theorem readFieldHeader_write {last id ct : Nat} (h1 : last < id) (h2 : id - last ≤ 15) (h3 : 0 < ct) (h4 : ct < 16)
    (rest : Bytes) : readFieldHeader last (fieldHeader last id ct ++ rest) = some (some ((id : Int), ct), rest) := by
  rw [fieldHeader_eq h1 h2, List.cons_append, List.nil_append, readFieldHeader, ofNat_toNat (by omega)]
  have e1 : ((id - last) * 16 + ct) % 16 = ct := by omega
  have e2 : ((id - last) * 16 + ct) / 16 = id - last := by omega
  simp only [e1, e2]
  rw [if_neg (by omega), if_neg (by omega)]
  congr 3
  simp; omega

theorem readFieldHeader_stop (last : Int) (rest : Bytes) : readFieldHeader last (0 :: rest) = some (none, rest) := by
  simp [readFieldHeader]

section machine
variable {σ : Type} (R : Reader σ)

/-- An expected field. -/
theorem run_field {f curr nid ct ty : Nat} {g : σ → Bytes → Option (σ × Bytes)} {s s' : σ} {body rest : Bytes}
    (hn : R.next curr = some ((nid : Int), ct)) (h1 : curr < nid) (h2 : nid - curr ≤ 15) (h3 : ct < 16)
    (hl : R.label nid = some (ty, g)) (hg : g s (body ++ rest) = some (s', rest)) :
    R.run (f + 1) true curr s (fieldHeader curr nid ct ++ (body ++ rest)) = R.run f true nid s' rest := by
  rw [fieldHeader_eq h1 h2, List.cons_append, List.nil_append, Reader.run]
  have : R.advance curr (UInt8.ofNat ((nid - curr) * 16 + ct) :: (body ++ rest)) = some (some (nid : Int), body ++ rest) := by
    simp only [Reader.advance, hn]
    rw [if_pos]
    rw [ofNat_toNat (by omega)]; omega
  simp only [if_true, this, hl, hg]

/-- A field that is not the expected one but that the `switch` knows. -/
theorem run_field_slow {f curr nid ct : Nat} {g : σ → Bytes → Option (σ × Bytes)} {s s' : σ} {body rest : Bytes}
    {x : Int × Nat} (hn : R.next curr = some x) (hx : ((nid : Int) - curr) * 16 + ct ≠ (x.1 - curr) * 16 + x.2)
    (h1 : curr < nid) (h2 : nid - curr ≤ 15) (h3 : 0 < ct) (h4 : ct < 16)
    (hl : R.label nid = some (ct, g)) (hg : g s (body ++ rest) = some (s', rest)) :
    R.run (f + 1) true curr s (fieldHeader curr nid ct ++ (body ++ rest)) = R.run f true nid s' rest := by
  rw [Reader.run]
  have : R.advance curr (fieldHeader curr nid ct ++ (body ++ rest)) = none := by
    rw [fieldHeader_eq h1 h2, List.cons_append, List.nil_append]
    obtain ⟨a, b⟩ := x
    simp only [Reader.advance, hn]
    rw [if_neg]
    rw [ofNat_toNat (by omega)]
    simp only at hx
    intro hc; apply hx; rw [← hc]; simp; omega
  simp only [if_true, this, readFieldHeader_write h1 h2 h3 h4, hl, hg]

/-- The stop byte, expected. -/
theorem run_stop {f : Nat} {curr : Int} {s : σ} {rest : Bytes} (hn : R.next curr = none) :
    R.run (f + 1) true curr s ([0] ++ rest) = some (s, rest) := by
  rw [Reader.run]
  have : R.advance curr ([0] ++ rest) = some (none, rest) := by simp [Reader.advance, hn]
  simp only [if_true, this]

/-- The stop byte where a field was expected. -/
theorem run_stop_slow {f : Nat} {curr : Int} {s : σ} {rest : Bytes} {x : Int × Nat} (hn : R.next curr = some x)
    (hx : 0 < (x.1 - curr) * 16 + x.2) :
    R.run (f + 1) true curr s ([0] ++ rest) = some (s, rest) := by
  rw [Reader.run]
  have : R.advance curr ([0] ++ rest) = none := by
    obtain ⟨a, b⟩ := x
    simp only at hx
    simp only [List.cons_append, List.nil_append, Reader.advance, hn]
    rw [if_neg]; simp; omega
  simp only [if_true, this]
  rw [List.cons_append, List.nil_append, readFieldHeader_stop]

theorem block_eq {α : Type} {rd : Bytes → Option (α × Bytes)} {set : σ → α → σ} {s : σ} {bs rest : Bytes} {a : α}
    (h : rd bs = some (a, rest)) : block rd set s bs = some (set s a, rest) := by
  simp [block, h]

theorem blockAt_eq {α : Type} {rd : α → Bytes → Option (α × Bytes)} {get : σ → α} {set : σ → α → σ} {s : σ} {bs rest : Bytes} {a : α}
    (h : ∀ o, rd o bs = some (a, rest)) : blockAt rd get set s bs = some (set s a, rest) := by
  simp [blockAt, h]

/-- Enough fuel. -/
theorem read_of_run {n : Nat} {s : σ} {bs : Bytes} {x : Option (σ × Bytes)} (hlen : n ≤ bs.length + 1)
    (h : ∀ k, R.run (k + n) true 0 s bs = x) : R.read s bs = x := by
  obtain ⟨k, hk⟩ : ∃ k, bs.length + 1 = k + n := ⟨bs.length + 1 - n, by omega⟩
  rw [Reader.read, hk]; exact h k
/-- The bytes `fields` take the machine past the `n` fields up to field `last`, leaving the object `x`. -/
def Parses (s : σ) (fields : Bytes) (n : Nat) (last : Int) (x : σ) : Prop :=
  n ≤ fields.length ∧ ∀ k tail, R.run (k + n) true 0 s (fields ++ tail) = R.run k true last x tail

variable {R}
theorem Parses.read {s x : σ} {fields : Bytes} {n : Nat} {last : Int} (h : Parses R s fields n last x)
    (hn : R.next last = none) (rest : Bytes) : R.read s (fields ++ ([0] ++ rest)) = some (x, rest) := by
  refine read_of_run R (n := n + 1) (by have := h.1; simp; omega) fun k => ?_
  rw [show k + (n + 1) = (k + 1) + n by omega, h.2, run_stop R hn]

theorem Parses.read_slow {s x : σ} {fields : Bytes} {n : Nat} {last : Int} (h : Parses R s fields n last x)
    {y : Int × Nat} (hn : R.next last = some y) (hy : 0 < (y.1 - last) * 16 + y.2) (rest : Bytes) :
    R.read s (fields ++ ([0] ++ rest)) = some (x, rest) := by
  refine read_of_run R (n := n + 1) (by have := h.1; simp; omega) fun k => ?_
  rw [show k + (n + 1) = (k + 1) + n by omega, h.2, run_stop_slow R hn hy]

end machine

theorem parses_date {d : Date} (h : FitsHere (.date d)) (s : Date) :
    Parses dateReader s (writeDate d).dropLast 3 3 (d) := by
  obtain ⟨h1, h2, h3⟩ := h
  rw [writeDate, List.dropLast_concat]
  simp only [List.append_assoc]
  refine ⟨?_, fun k tail => ?_⟩
  · simp [fieldHeader_eq]; omega
  · simp only [List.append_assoc]
    exact (run_field (curr := 0) (nid := 1) _ rfl (by decide) (by decide) (by decide) rfl (block_eq (readI16_write h1 _))).trans <|
      (run_field (curr := 1) (nid := 2) _ rfl (by decide) (by decide) (by decide) rfl (block_eq (readByte_write h2 _))).trans <|
      (run_field (curr := 2) (nid := 3) _ rfl (by decide) (by decide) (by decide) rfl (block_eq (readByte_write h3 _)))

theorem read_date {d : Date} (h : FitsHere (.date d)) (s : Date) (rest : Bytes) :
    dateReader.read s (writeDate d ++ rest) = some (d, rest) := by
  have := (Parses.read (parses_date h s) rfl rest)
  rwa [writeDate, List.dropLast_concat, ← List.append_assoc, ← writeDate] at this

theorem parses_time {d : Time} (h : FitsHere (.time d)) (s : Time) :
    Parses timeReader s (writeTime d).dropLast 4 4 (d) := by
  obtain ⟨h1, h2, h3, h4⟩ := h
  rw [writeTime, List.dropLast_concat]
  simp only [List.append_assoc]
  refine ⟨?_, fun k tail => ?_⟩
  · simp [fieldHeader_eq]; omega
  · simp only [List.append_assoc]
    exact (run_field_slow (curr := 0) (nid := 1) (x := (1, ctI16)) _ rfl (by decide) (by decide) (by decide) (by decide) (by decide) rfl
        (block_eq (readByte_write h1 _))).trans <|
      (run_field (curr := 1) (nid := 2) _ rfl (by decide) (by decide) (by decide) rfl (block_eq (readByte_write h2 _))).trans <|
      (run_field (curr := 2) (nid := 3) _ rfl (by decide) (by decide) (by decide) rfl (block_eq (readByte_write h3 _))).trans <|
      (run_field (curr := 3) (nid := 4) _ rfl (by decide) (by decide) (by decide) rfl (block_eq (readI32_write h4 _)))

theorem read_time {d : Time} (h : FitsHere (.time d)) (s : Time) (rest : Bytes) :
    timeReader.read s (writeTime d ++ rest) = some (d, rest) := by
  have := (Parses.read_slow (parses_time h s) (y := (5, ctI32)) rfl (by decide) rest)
  rwa [writeTime, List.dropLast_concat, ← List.append_assoc, ← writeTime] at this

theorem wrapU_id {n : Nat} {x : Int} (h0 : 0 ≤ x) (h1 : x < 2 ^ n) : wrapU n x = x := by
  unfold wrapU; exact Int.emod_eq_of_lt h0 h1

theorem parses_dateTime {d : DateTime} (h : FitsHere (.datetime d)) (s : DateTime) :
    Parses dateTimeReader s (writeDateTime d).dropLast 7 7 (d) := by
  obtain ⟨h1, h2, h3, h4, h5, h6, h7⟩ := h
  have b2 := readByte_write (x := d.month) (by omega)
  have b3 := readByte_write (x := d.day) (by omega)
  have b4 := readByte_write (x := d.hour) (by omega)
  have b5 := readByte_write (x := d.minute) (by omega)
  have b6 := readByte_write (x := d.sec) (by omega)
  have b7 := readI32_write (x := d.microsec) (by omega)
  rw [writeDateTime, List.dropLast_concat]
  simp only [List.append_assoc]
  refine ⟨?_, fun k tail => ?_⟩
  · simp [fieldHeader_eq]; omega
  · simp only [List.append_assoc]
    refine (run_field (curr := 0) (nid := 1) _ rfl (by decide) (by decide) (by decide) rfl (block_eq (readI16_write h1 _))).trans <|
      (run_field (curr := 1) (nid := 2) _ rfl (by decide) (by decide) (by decide) rfl (block_eq (b2 _))).trans <|
      (run_field (curr := 2) (nid := 3) _ rfl (by decide) (by decide) (by decide) rfl (block_eq (b3 _))).trans <|
      (run_field (curr := 3) (nid := 4) _ rfl (by decide) (by decide) (by decide) rfl (block_eq (b4 _))).trans <|
      (run_field (curr := 4) (nid := 5) _ rfl (by decide) (by decide) (by decide) rfl (block_eq (b5 _))).trans <|
      (run_field (curr := 5) (nid := 6) _ rfl (by decide) (by decide) (by decide) rfl (block_eq (b6 _))).trans <|
      (run_field (curr := 6) (nid := 7) _ rfl (by decide) (by decide) (by decide) rfl (block_eq (b7 _))).trans ?_
    simp only
    rw [wrapU_id h2.1 (by have := h2.2; simpa using this), wrapU_id h3.1 (by have := h3.2; simpa using this),
      wrapU_id h4.1 (by have := h4.2; simpa using this), wrapU_id h5.1 (by have := h5.2; simpa using this),
      wrapU_id h6.1 (by have := h6.2; simpa using this), wrapU_id h7.1 (by have := h7.2; simpa using this)]
    rfl

/-! ## Containers and graph types -/

theorem read_dateTime {d : DateTime} (h : FitsHere (.datetime d)) (s : DateTime) (rest : Bytes) :
    dateTimeReader.read s (writeDateTime d ++ rest) = some (d, rest) := by
  have := (Parses.read_slow (parses_dateTime h s) (y := (8, ctI32)) rfl (by decide) rest)
  rwa [writeDateTime, List.dropLast_concat, ← List.append_assoc, ← writeDateTime] at this

theorem readList_write {α β : Type} {w : α → Bytes} {rd : Bytes → Option (β × Bytes)} {g : α → β} {ct : Nat} {l : List α}
    (hc : ct < 16) (hl : Small l.length) (h : ∀ a ∈ l, ∀ r, rd (w a ++ r) = some (g a, r)) (rest : Bytes) :
    readList rd ct (writeList w ct l ++ rest) = some (l.map g, rest) := by
  rw [readList, writeList, List.append_assoc, readListHeader_write hl hc]
  simp only [if_true]
  exact readN_write rd w g l rest h

section poly
variable {V : Type} {w : V → Bytes} {n : V → V}

theorem mapSet_new {m : Props V} {k : Bytes} {v : V} (h : k ∉ m.map Prod.fst) : mapSet m k v = m ++ [(k, v)] := by
  unfold mapSet
  rw [if_neg]
  simp only [List.any_eq_true, not_exists, not_and]
  intro kv hkv he
  exact h (List.mem_map.2 ⟨kv, hkv, by simpa using he⟩)

theorem foldl_mapSet : ∀ (l m : Props V), ((m ++ l).map Prod.fst).Nodup →
    l.foldl (fun m kv => mapSet m kv.1 kv.2) m = m ++ l
  | [], m, _ => by simp
  | (k, v) :: l, m, h => by
    have hk : k ∉ m.map Prod.fst := by
      intro hc
      rw [List.map_append, List.nodup_append] at h
      exact h.2.2 k hc k (by simp) rfl
    rw [List.foldl_cons, mapSet_new hk, foldl_mapSet l (m ++ [(k, v)]) (by simpa using h)]
    simp

theorem readProps_write {rv : Bytes → Option (V × Bytes)} {m : Props V} (hf : PropsFit m)
    (h : ∀ v ∈ m.map Prod.snd, ∀ r, rv (w v ++ r) = some (n v, r)) (rest : Bytes) :
    readProps rv (writeProps w m ++ rest) = some (m.map fun kv => (kv.1, n kv.2), rest) := by
  obtain ⟨h1, h2, h3⟩ := hf
  rw [readProps, writeProps, List.append_assoc]
  by_cases h0 : m.length = 0
  · have : m = [] := List.length_eq_zero_iff.1 h0
    subst this
    simp [readMapHeader_zero]
  · rw [readMapHeader_write h1 h0 (by decide) (by decide)]
    simp only [h0, if_false, and_self, if_true]
    rw [readN_write _ _ (fun kv => (kv.1, n kv.2)) m rest]
    · simp only
      rw [foldl_mapSet]
      · simp
      · simpa [Function.comp_def] using h3
    · intro kv hkv r
      simp only [List.append_assoc]
      rw [readBinary_write (h2 kv hkv)]
      simp only
      rw [h kv.2 (List.mem_map_of_mem hkv)]

theorem writeProps_len (m : Props V) : 1 ≤ (writeProps w m).length := by
  unfold writeProps mapHeader
  split <;> simp
  omega

def Tag.nm (n : V → V) (t : Tag V) : Tag V := ⟨t.name, t.props.map fun kv => (kv.1, n kv.2)⟩
def Vertex.nm (n : V → V) (v : Vertex V) : Vertex V := ⟨n v.vid, v.tags.map (Tag.nm n)⟩
def Edge.nm (n : V → V) (e : Edge V) : Edge V :=
  ⟨n e.src, n e.dst, dir e.type, e.name, e.ranking, e.props.map fun kv => (kv.1, n kv.2)⟩
def Step.nm (n : V → V) (e : Step V) : Step V :=
  ⟨Vertex.nm n e.dst, dir e.type, e.name, e.ranking, e.props.map fun kv => (kv.1, n kv.2)⟩
def Path.nm (n : V → V) (p : Path V) : Path V := ⟨Vertex.nm n p.src, p.steps.map (Step.nm n)⟩

theorem sgn_dir (t : Int) : sgn t = dir t := by
  unfold sgn dir; split <;> split <;> (try split) <;> omega
theorem dir_range (t : Int) : -2147483648 ≤ dir t ∧ dir t ≤ 2147483647 := by
  unfold dir; split <;> (try split) <;> omega

variable {rv : V → Bytes → Option (V × Bytes)} {v0 : V}

theorem parses_tag {t : Tag V} (hf : TagFit t) (h : ∀ v ∈ t.props.map Prod.snd, ∀ o r, rv o (w v ++ r) = some (n v, r))
    (s : Tag V) :
    Parses (tagReader rv v0) s (writeTag w t).dropLast 2 2 (Tag.nm n t) := by
  obtain ⟨h1, h2⟩ := hf
  rw [writeTag, List.dropLast_concat]
  simp only [List.append_assoc]
  refine ⟨?_, fun k tail => ?_⟩
  · simp [fieldHeader_eq]; omega
  · simp only [List.append_assoc]
    exact (run_field (curr := 0) (nid := 1) _ rfl (by decide) (by decide) (by decide) rfl (block_eq (readBinary_write h1 _))).trans <|
      (run_field (curr := 1) (nid := 2) _ rfl (by decide) (by decide) (by decide) rfl (block_eq (readProps_write h2 (fun v hv r => h v hv v0 r) _)))

theorem read_tag {t : Tag V} (hf : TagFit t) (h : ∀ v ∈ t.props.map Prod.snd, ∀ o r, rv o (w v ++ r) = some (n v, r))
    (s : Tag V) (rest : Bytes) : (tagReader rv v0).read s (writeTag w t ++ rest) = some (Tag.nm n t, rest) := by
  have := (Parses.read (parses_tag (v0 := v0) hf h s) rfl rest)
  rwa [writeTag, List.dropLast_concat, ← List.append_assoc, ← writeTag] at this

theorem parses_vertex {x : Vertex V} (hf : VertexFit x)
    (h : ∀ v ∈ x.vid :: x.tags.flatMap (fun t => t.props.map Prod.snd), ∀ o r, rv o (w v ++ r) = some (n v, r))
    (s : Vertex V) :
    Parses (vertexReader rv v0) s (writeVertex w x).dropLast 2 2 (Vertex.nm n x) := by
  obtain ⟨h1, h2⟩ := hf
  rw [writeVertex, List.dropLast_concat]
  simp only [List.append_assoc]
  have ht := readList_write (rd := (tagReader rv v0).read ⟨[], []⟩) (w := writeTag w) (g := Tag.nm n) (ct := ctStruct) (by decide) h1
    (fun t ht r => read_tag (h2 t ht) (fun v hv => h v (List.mem_cons_of_mem _ (List.mem_flatMap.2 ⟨t, ht, hv⟩))) ⟨[], []⟩ r)
  refine ⟨?_, fun k tail => ?_⟩
  · simp [fieldHeader_eq]; omega
  · simp only [List.append_assoc]
    exact (run_field (curr := 0) (nid := 1) _ rfl (by decide) (by decide) (by decide) rfl (blockAt_eq (fun o => h x.vid List.mem_cons_self o _))).trans <|
      (run_field (curr := 1) (nid := 2) _ rfl (by decide) (by decide) (by decide) rfl (block_eq (ht _)))

theorem read_vertex {x : Vertex V} (hf : VertexFit x)
    (h : ∀ v ∈ x.vid :: x.tags.flatMap (fun t => t.props.map Prod.snd), ∀ o r, rv o (w v ++ r) = some (n v, r))
    (s : Vertex V) (rest : Bytes) : (vertexReader rv v0).read s (writeVertex w x ++ rest) = some (Vertex.nm n x, rest) := by
  have := (Parses.read (parses_vertex (v0 := v0) hf h s) rfl rest)
  rwa [writeVertex, List.dropLast_concat, ← List.append_assoc, ← writeVertex] at this

theorem parses_edge {x : Edge V} (hf : EdgeFit x)
    (h : ∀ v ∈ x.src :: x.dst :: x.props.map Prod.snd, ∀ o r, rv o (w v ++ r) = some (n v, r))
    (s : Edge V) :
    Parses (edgeReader rv v0) s (writeEdge w x).dropLast 6 6 (Edge.nm n x) := by
  obtain ⟨h1, h2, h3, h4⟩ := hf
  rw [writeEdge, List.dropLast_concat]
  simp only [List.append_assoc, sgn_dir]
  have hp := readProps_write (rv := rv v0) h4 (fun v hv r => h v (by simp [List.mem_cons]; right; right; simpa using hv) v0 r)
  refine ⟨?_, fun k tail => ?_⟩
  · simp [fieldHeader_eq]; omega
  · simp only [List.append_assoc]
    exact (run_field (curr := 0) (nid := 1) _ rfl (by decide) (by decide) (by decide) rfl (blockAt_eq (fun o => h x.src List.mem_cons_self o _))).trans <|
      (run_field (curr := 1) (nid := 2) _ rfl (by decide) (by decide) (by decide) rfl (blockAt_eq (fun o => h x.dst (by simp) o _))).trans <|
      (run_field (curr := 2) (nid := 3) _ rfl (by decide) (by decide) (by decide) rfl (block_eq (readI32_write (dir_range _) _))).trans <|
      (run_field (curr := 3) (nid := 4) _ rfl (by decide) (by decide) (by decide) rfl (block_eq (readBinary_write h3 _))).trans <|
      (run_field (curr := 4) (nid := 5) _ rfl (by decide) (by decide) (by decide) rfl (block_eq (readI64_write h2 _))).trans <|
      (run_field (curr := 5) (nid := 6) _ rfl (by decide) (by decide) (by decide) rfl (block_eq (hp _)))

theorem read_edge {x : Edge V} (hf : EdgeFit x)
    (h : ∀ v ∈ x.src :: x.dst :: x.props.map Prod.snd, ∀ o r, rv o (w v ++ r) = some (n v, r))
    (s : Edge V) (rest : Bytes) : (edgeReader rv v0).read s (writeEdge w x ++ rest) = some (Edge.nm n x, rest) := by
  have := (Parses.read (parses_edge (v0 := v0) hf h s) rfl rest)
  rwa [writeEdge, List.dropLast_concat, ← List.append_assoc, ← writeEdge] at this

theorem parses_step {x : Step V} (hf : StepFit x)
    (h : ∀ v ∈ (x.dst.vid :: x.dst.tags.flatMap fun t => t.props.map Prod.snd) ++ x.props.map Prod.snd,
      ∀ o r, rv o (w v ++ r) = some (n v, r))
    (s : Step V) :
    Parses (stepReader rv v0) s (writeStep w x).dropLast 5 5 (Step.nm n x) := by
  obtain ⟨h0, h1, h2, h3, h4⟩ := hf
  rw [writeStep, List.dropLast_concat]
  simp only [List.append_assoc, sgn_dir]
  have hp := readProps_write (rv := rv v0) h4 (fun v hv r => h v (List.mem_append_right _ hv) v0 r)
  have hd := read_vertex (v0 := v0) h0 (fun v hv => h v (List.mem_append_left _ hv))
  refine ⟨?_, fun k tail => ?_⟩
  · simp [fieldHeader_eq]; omega
  · simp only [List.append_assoc]
    exact (run_field (curr := 0) (nid := 1) _ rfl (by decide) (by decide) (by decide) rfl (blockAt_eq (fun o => hd o _))).trans <|
      (run_field (curr := 1) (nid := 2) _ rfl (by decide) (by decide) (by decide) rfl (block_eq (readI32_write (dir_range _) _))).trans <|
      (run_field (curr := 2) (nid := 3) _ rfl (by decide) (by decide) (by decide) rfl (block_eq (readBinary_write h3 _))).trans <|
      (run_field (curr := 3) (nid := 4) _ rfl (by decide) (by decide) (by decide) rfl (block_eq (readI64_write h2 _))).trans <|
      (run_field (curr := 4) (nid := 5) _ rfl (by decide) (by decide) (by decide) rfl (block_eq (hp _)))

theorem read_step {x : Step V} (hf : StepFit x)
    (h : ∀ v ∈ (x.dst.vid :: x.dst.tags.flatMap fun t => t.props.map Prod.snd) ++ x.props.map Prod.snd,
      ∀ o r, rv o (w v ++ r) = some (n v, r))
    (s : Step V) (rest : Bytes) : (stepReader rv v0).read s (writeStep w x ++ rest) = some (Step.nm n x, rest) := by
  have := (Parses.read (parses_step (v0 := v0) hf h s) rfl rest)
  rwa [writeStep, List.dropLast_concat, ← List.append_assoc, ← writeStep] at this

theorem parses_path {x : Path V} (hf : PathFit x)
    (h : ∀ v ∈ (x.src.vid :: x.src.tags.flatMap fun t => t.props.map Prod.snd) ++ x.steps.flatMap (fun s =>
        (s.dst.vid :: s.dst.tags.flatMap fun t => t.props.map Prod.snd) ++ s.props.map Prod.snd),
      ∀ o r, rv o (w v ++ r) = some (n v, r))
    (s : Path V) :
    Parses (pathReader rv v0) s (writePath w x).dropLast 2 2 (Path.nm n x) := by
  obtain ⟨h0, h1, h2⟩ := hf
  rw [writePath, List.dropLast_concat]
  simp only [List.append_assoc]
  have hd := read_vertex (v0 := v0) h0 (fun v hv => h v (List.mem_append_left _ hv))
  have ht := readList_write (rd := (stepReader rv v0).read ⟨⟨v0, []⟩, 0, [], 0, []⟩) (w := writeStep w) (g := Step.nm n) (ct := ctStruct) (by decide) h1
    (fun t ht r => read_step (h2 t ht) (fun v hv => h v (List.mem_append_right _ (List.mem_flatMap.2 ⟨t, ht, hv⟩))) _ r)
  refine ⟨?_, fun k tail => ?_⟩
  · simp [fieldHeader_eq]; omega
  · simp only [List.append_assoc]
    exact (run_field (curr := 0) (nid := 1) _ rfl (by decide) (by decide) (by decide) rfl (blockAt_eq (fun o => hd o _))).trans <|
      (run_field (curr := 1) (nid := 2) _ rfl (by decide) (by decide) (by decide) rfl (block_eq (ht _)))

theorem read_path {x : Path V} (hf : PathFit x)
    (h : ∀ v ∈ (x.src.vid :: x.src.tags.flatMap fun t => t.props.map Prod.snd) ++ x.steps.flatMap (fun s =>
        (s.dst.vid :: s.dst.tags.flatMap fun t => t.props.map Prod.snd) ++ s.props.map Prod.snd),
      ∀ o r, rv o (w v ++ r) = some (n v, r))
    (s : Path V) (rest : Bytes) : (pathReader rv v0).read s (writePath w x ++ rest) = some (Path.nm n x, rest) := by
  have := (Parses.read (parses_path (v0 := v0) hf h s) rfl rest)
  rwa [writePath, List.dropLast_concat, ← List.append_assoc, ← writePath] at this

theorem parses_list {l : List V} (hf : Small l.length) (h : ∀ v ∈ l, ∀ o r, rv o (w v ++ r) = some (n v, r))
    (s : List V) :
    Parses (listReader rv v0) s (writeVList w l).dropLast 1 1 (l.map n) := by
  rw [writeVList, List.dropLast_concat]
  have ht := readList_write (ct := ctStruct) (by decide) hf (fun v hv => h v hv v0)
  refine ⟨?_, fun k tail => ?_⟩
  · simp [fieldHeader_eq]
  · simp only [List.append_assoc]
    exact (run_field (curr := 0) (nid := 1) _ rfl (by decide) (by decide) (by decide) rfl (block_eq (ht _)))

theorem read_list {l : List V} (hf : Small l.length) (h : ∀ v ∈ l, ∀ o r, rv o (w v ++ r) = some (n v, r))
    (s : List V) (rest : Bytes) : (listReader rv v0).read s (writeVList w l ++ rest) = some (l.map n, rest) := by
  have := (Parses.read (parses_list (v0 := v0) hf h s) rfl rest)
  rwa [writeVList, List.dropLast_concat, ← List.append_assoc, ← writeVList] at this

theorem parses_map {l : Props V} (hf : PropsFit l) (h : ∀ v ∈ l.map Prod.snd, ∀ o r, rv o (w v ++ r) = some (n v, r))
    (s : Props V) :
    Parses (mapReader rv v0) s (writeVMap w l).dropLast 1 1 (l.map fun kv => (kv.1, n kv.2)) := by
  rw [writeVMap, List.dropLast_concat]
  have ht := readProps_write (rv := rv v0) hf (fun v hv => h v hv v0)
  refine ⟨?_, fun k tail => ?_⟩
  · simp [fieldHeader_eq]
  · simp only [List.append_assoc]
    exact (run_field (curr := 0) (nid := 1) _ rfl (by decide) (by decide) (by decide) rfl (block_eq (ht _)))

theorem read_map {l : Props V} (hf : PropsFit l) (h : ∀ v ∈ l.map Prod.snd, ∀ o r, rv o (w v ++ r) = some (n v, r))
    (s : Props V) (rest : Bytes) :
    (mapReader rv v0).read s (writeVMap w l ++ rest) = some (l.map fun kv => (kv.1, n kv.2), rest) := by
  have := (Parses.read (parses_map (v0 := v0) hf h s) rfl rest)
  rwa [writeVMap, List.dropLast_concat, ← List.append_assoc, ← writeVMap] at this

theorem parses_set {eq : V → V → Bool} {l : List V} (hf : Small l.length) (h : ∀ v ∈ l, ∀ o r, rv o (w v ++ r) = some (n v, r))
    (s : List V) :
    Parses (setReader eq rv v0) s (writeVSet w l).dropLast 1 1 ((l.map n).foldl (setAdd eq) []) := by
  rw [writeVSet, List.dropLast_concat]
  have ht := readList_write (ct := ctStruct) (by decide) hf (fun v hv => h v hv v0)
  refine ⟨?_, fun k tail => ?_⟩
  · simp [fieldHeader_eq]
  · simp only [List.append_assoc]
    exact (run_field (curr := 0) (nid := 1) _ rfl (by decide) (by decide) (by decide) rfl (block_eq (ht _)))

theorem read_set {eq : V → V → Bool} {l : List V} (hf : Small l.length) (h : ∀ v ∈ l, ∀ o r, rv o (w v ++ r) = some (n v, r))
    (s : List V) (rest : Bytes) :
    (setReader eq rv v0).read s (writeVSet w l ++ rest) = some ((l.map n).foldl (setAdd eq) [], rest) := by
  have := (Parses.read (parses_set (v0 := v0) (eq := eq) hf h s) rfl rest)
  rwa [writeVSet, List.dropLast_concat, ← List.append_assoc, ← writeVSet] at this

theorem parses_dataSet {c : List Bytes} {l : List (List V)} (hc : Small c.length ∧ ∀ s ∈ c, Small s.length)
    (hl : Small l.length) (hr : ∀ x ∈ l, Small x.length)
    (h : ∀ v ∈ l.flatten, ∀ o r, rv o (w v ++ r) = some (n v, r))
    (s : List Bytes × List (List V)) :
    Parses (dataSetReader rv v0) s (writeDataSet w c l).dropLast 2 2 ((c, l.map (List.map n))) := by
  rw [writeDataSet, List.dropLast_concat]
  simp only [List.append_assoc]
  have hc' := readList_write (ct := ctBinary) (g := id) (rd := readBinary) (w := writeBinary) (by decide) hc.1 (fun s hs r => readBinary_write (hc.2 s hs) r)
  have ht := readList_write (ct := ctStruct) (rd := (listReader rv v0).read []) (w := writeVList w) (g := List.map n) (by decide) hl
    (fun x hx => read_list (hr x hx) (fun v hv => h v (List.mem_flatten.2 ⟨x, hx, hv⟩)) [])
  simp only [List.map_id_fun, id_eq] at hc'
  refine ⟨?_, fun k tail => ?_⟩
  · simp [fieldHeader_eq]; omega
  · simp only [List.append_assoc]
    exact (run_field (curr := 0) (nid := 1) _ rfl (by decide) (by decide) (by decide) rfl (block_eq (hc' _))).trans <|
      (run_field (curr := 1) (nid := 2) _ rfl (by decide) (by decide) (by decide) rfl (block_eq (ht _)))
end poly

/-! ## The wire image -/

theorem read_dataSet {c : List Bytes} {l : List (List V)} (hc : Small c.length ∧ ∀ s ∈ c, Small s.length)
    (hl : Small l.length) (hr : ∀ x ∈ l, Small x.length)
    (h : ∀ v ∈ l.flatten, ∀ o r, rv o (w v ++ r) = some (n v, r))
    (s : List Bytes × List (List V)) (rest : Bytes) :
    (dataSetReader rv v0).read s (writeDataSet w c l ++ rest) = some ((c, l.map (List.map n)), rest) := by
  have := (Parses.read (parses_dataSet (v0 := v0) hc hl hr h s) rfl rest)
  rwa [writeDataSet, List.dropLast_concat, ← List.append_assoc, ← writeDataSet] at this

theorem imgProps_eq (p : Props Value) : imgProps p = p.map fun kv => (kv.1, wireImage kv.2) := by
  induction p with
  | nil => rfl
  | cons a p ih => simp [imgProps, ih]
theorem imgVec_eq (l : List Value) : imgVec l = l.map wireImage := by
  induction l with
  | nil => rfl
  | cons a p ih => simp [imgVec, ih]
theorem imgRows_eq (l : List (List Value)) : imgRows l = l.map (List.map wireImage) := by
  induction l with
  | nil => rfl
  | cons a p ih => simp [imgRows, ih, imgVec_eq]
theorem imgTags_eq (l : List (Tag Value)) : imgTags l = l.map (Tag.nm wireImage) := by
  induction l with
  | nil => rfl
  | cons a p ih => simp [imgTags, ih, imgProps_eq, Tag.nm]
theorem imgVertex_eq (v : Vertex Value) : imgVertex v = Vertex.nm wireImage v := by
  cases v; simp [imgVertex, imgTags_eq, Vertex.nm]
theorem imgSteps_eq (l : List (Step Value)) : imgSteps l = l.map (Step.nm wireImage) := by
  induction l with
  | nil => rfl
  | cons a p ih => simp [imgSteps, ih, imgProps_eq, imgVertex_eq, Step.nm]

/-! ## Lengths -/

theorem len_flatMap_mem {α : Type} {w : α → Bytes} {a : α} : ∀ {l : List α}, a ∈ l → (w a).length ≤ (l.flatMap w).length
  | b :: l, h => by
    rw [List.flatMap_cons, List.length_append]
    rcases List.mem_cons.1 h with rfl | h
    · omega
    · have := len_flatMap_mem (w := w) h; omega

section len
variable {V : Type} {w : V → Bytes}

theorem len_props {m : Props V} {x : V} (h : x ∈ m.map Prod.snd) : (w x).length ≤ (writeProps w m).length := by
  obtain ⟨kv, hkv, rfl⟩ := List.mem_map.1 h
  have := len_flatMap_mem (w := fun kv : Bytes × V => writeBinary kv.1 ++ w kv.2) hkv
  simp only [List.length_append] at this
  simp only [writeProps, List.length_append]; omega

theorem len_tag {t : Tag V} {x : V} (h : x ∈ t.props.map Prod.snd) : (w x).length ≤ (writeTag w t).length := by
  have := len_props (w := w) h
  simp only [writeTag, List.length_append]; omega

theorem len_vertex {v : Vertex V} {x : V} (h : x ∈ v.vid :: v.tags.flatMap (fun t => t.props.map Prod.snd)) :
    (w x).length ≤ (writeVertex w v).length := by
  simp only [writeVertex, List.length_append, writeList]
  rcases List.mem_cons.1 h with rfl | h
  · omega
  · obtain ⟨t, ht, hx⟩ := List.mem_flatMap.1 h
    have h1 := len_tag (w := w) hx
    have h2 := len_flatMap_mem (w := writeTag w) ht
    omega

theorem len_edge {e : Edge V} {x : V} (h : x ∈ e.src :: e.dst :: e.props.map Prod.snd) :
    (w x).length ≤ (writeEdge w e).length := by
  simp only [writeEdge, List.length_append]
  simp only [List.mem_cons] at h
  rcases h with rfl | rfl | h
  · omega
  · omega
  · have := len_props (w := w) h; omega

theorem len_step {e : Step V} {x : V}
    (h : x ∈ (e.dst.vid :: e.dst.tags.flatMap fun t => t.props.map Prod.snd) ++ e.props.map Prod.snd) :
    (w x).length ≤ (writeStep w e).length := by
  simp only [writeStep, List.length_append]
  rcases List.mem_append.1 h with h | h
  · have := len_vertex (w := w) h; omega
  · have := len_props (w := w) h; omega

theorem len_path {p : Path V} {x : V}
    (h : x ∈ (p.src.vid :: p.src.tags.flatMap fun t => t.props.map Prod.snd) ++ p.steps.flatMap (fun s =>
        (s.dst.vid :: s.dst.tags.flatMap fun t => t.props.map Prod.snd) ++ s.props.map Prod.snd)) :
    (w x).length ≤ (writePath w p).length := by
  simp only [writePath, List.length_append, writeList]
  rcases List.mem_append.1 h with h | h
  · have := len_vertex (w := w) h; omega
  · obtain ⟨t, ht, hx⟩ := List.mem_flatMap.1 h
    have h1 := len_step (w := w) hx
    have h2 := len_flatMap_mem (w := writeStep w) ht
    omega
end len

theorem writeValue_len_pos (bits : F64 → Nat) (v : Value) : 1 ≤ (writeValue bits v).length := by
  rw [writeValue_eqn]
  cases v <;> simp [writeUnion] <;> omega

/-- A nested value is written in fewer bytes than the value around it. -/
theorem len_child (bits : F64 → Nat) {v x : Value} (h : x ∈ v.children) :
    (writeValue bits x).length < (writeValue bits v).length := by
  rw [writeValue_eqn bits v]
  cases v with
  | vertex v =>
    have := len_vertex (w := writeValue bits) (v := v) h
    simp only [writeUnion, List.length_append, List.length_cons]; omega
  | edge v =>
    have := len_edge (w := writeValue bits) (e := v) h
    simp only [writeUnion, List.length_append, List.length_cons]; omega
  | path v =>
    have := len_path (w := writeValue bits) (p := v) h
    simp only [writeUnion, List.length_append, List.length_cons]; omega
  | list l =>
    have := len_flatMap_mem (w := writeValue bits) (l := l) h
    simp only [writeUnion, writeVList, writeList, List.length_append, List.length_cons]; omega
  | set l =>
    have := len_flatMap_mem (w := writeValue bits) (l := l) h
    simp only [writeUnion, writeVSet, writeList, List.length_append, List.length_cons]; omega
  | map l =>
    have := len_props (w := writeValue bits) (m := l) h
    simp only [writeUnion, writeVMap, List.length_append, List.length_cons]; omega
  | dataset c l =>
    obtain ⟨r, hr, hx⟩ := List.mem_flatten.1 h
    have h1 := len_flatMap_mem (w := writeValue bits) hx
    have h2 := len_flatMap_mem (w := writeVList (writeValue bits)) hr
    simp only [writeVList, writeList, List.length_append] at h2
    simp only [writeUnion, writeDataSet, writeList, List.length_append, List.length_cons]
    omega
  | _ => simp [Value.children] at h

/-! ## Values -/

theorem readValue_field {f : Nat} {old v : Value} {id ct : Nat} {body rest : Bytes} {g : Bytes → Option (Value × Bytes)}
    (h1 : 0 < id) (h2 : id ≤ 15) (h3 : 0 < ct) (h4 : ct < 16) (hu : unionField (readValue f) id ct = some g)
    (hg : g (body ++ ([0] ++ rest)) = some (v, [0] ++ rest)) :
    readValue (f + 1) old (fieldHeader 0 id ct ++ (body ++ ([0] ++ rest))) = some (v, rest) := by
  have := readFieldHeader_write (last := 0) h1 (by omega) h3 h4 (body ++ ([0] ++ rest))
  rw [readValue]
  simp only [Int.natCast_zero] at this
  rw [this]
  simp only [hu, hg]
  rw [List.cons_append, List.nil_append, readFieldHeader_stop]

theorem nullOf_num (n : NullType) : nullOf (nullNum n) = some n := by cases n <;> rfl
theorem nullNum_range (n : NullType) : -2147483648 ≤ nullNum n ∧ nullNum n ≤ 2147483647 := by cases n <;> decide

/-- The bit patterns chosen by the writer are patterns of the numbers written. -/
def BitsOk (bits : F64 → Nat) : Prop := ∀ f, F64.Holds f → bits f < 2 ^ 64 ∧ F64.ofBits (bits f) = f

theorem once_eq (l : List Value) : once l = l.foldl (setAdd Value.beq) [] := rfl

theorem readValue_write {bits : F64 → Nat} (hb : BitsOk bits) (v : Value) : Fits v → ∀ (f : Nat) (old : Value) (rest : Bytes),
    (writeValue bits v).length ≤ f → readValue f old (writeValue bits v ++ rest) = some (wireImage v, rest) := by
  induction v using Value.children_induction with
  | h v ih =>
    intro hv f old rest hf
    have hhere := hv.here
    have hkids : ∀ x ∈ v.children, ∀ o r, readValue (f - 1) o (writeValue bits x ++ r) = some (wireImage x, r) := by
      intro x hx o r
      have := len_child bits hx
      exact ih x hx (hv.kids x hx) (f - 1) o r (by omega)
    obtain ⟨f, rfl⟩ : ∃ g, f = g + 1 := ⟨f - 1, by have := writeValue_len_pos bits v; omega⟩
    simp only [Nat.add_sub_cancel] at hkids
    rw [writeValue_eqn]
    cases v with
    | empty => simp [writeUnion, readValue, readFieldHeader_stop, wireImage]
    | null n =>
      simp only [writeUnion, List.append_assoc, wireImage]
      refine readValue_field (by decide) (by decide) (by decide) (by decide) rfl ?_
      simp only [readI32_write (nullNum_range n), nullOf_num, Option.map_some]
    | bool b =>
      simp only [writeUnion, List.append_assoc, wireImage]
      cases b
      · exact readValue_field (body := []) (by decide) (by decide) (by decide) (by decide) rfl rfl
      · exact readValue_field (body := []) (by decide) (by decide) (by decide) (by decide) rfl rfl
    | int i =>
      simp only [writeUnion, List.append_assoc, wireImage]
      refine readValue_field (by decide) (by decide) (by decide) (by decide) rfl ?_
      simp only [readI64_write hhere, Option.map_some]
    | float x =>
      simp only [writeUnion, List.append_assoc, wireImage]
      refine readValue_field (by decide) (by decide) (by decide) (by decide) rfl ?_
      simp only [readDouble_write (hb x hhere).1, Option.map_some, (hb x hhere).2]
    | str s =>
      simp only [writeUnion, List.append_assoc, wireImage]
      refine readValue_field (by decide) (by decide) (by decide) (by decide) rfl ?_
      simp only [readBinary_write hhere, Option.map_some]
    | date d =>
      simp only [writeUnion, List.append_assoc, wireImage]
      refine readValue_field (by decide) (by decide) (by decide) (by decide) rfl ?_
      simp only [read_date hhere, Option.map_some]
    | time d =>
      simp only [writeUnion, List.append_assoc, wireImage]
      refine readValue_field (by decide) (by decide) (by decide) (by decide) rfl ?_
      simp only [read_time hhere, Option.map_some]
    | datetime d =>
      simp only [writeUnion, List.append_assoc, wireImage]
      refine readValue_field (by decide) (by decide) (by decide) (by decide) rfl ?_
      simp only [read_dateTime hhere, Option.map_some]
    | vertex x =>
      simp only [writeUnion, List.append_assoc, wireImage]
      refine readValue_field (by decide) (by decide) (by decide) (by decide) rfl ?_
      simp only [read_vertex hhere hkids, Option.map_some, imgVertex_eq]
    | edge x =>
      simp only [writeUnion, List.append_assoc]
      refine readValue_field (by decide) (by decide) (by decide) (by decide) rfl ?_
      simp only [read_edge hhere hkids, Option.map_some, wireImage, Edge.nm, imgProps_eq]
    | path x =>
      simp only [writeUnion, List.append_assoc]
      refine readValue_field (by decide) (by decide) (by decide) (by decide) rfl ?_
      simp only [read_path hhere hkids, Option.map_some, wireImage, Path.nm, imgSteps_eq, imgVertex_eq]
    | list x =>
      simp only [writeUnion, List.append_assoc, wireImage]
      refine readValue_field (by decide) (by decide) (by decide) (by decide) rfl ?_
      simp only [read_list hhere hkids, Option.map_some, imgVec_eq]
    | map x =>
      simp only [writeUnion, List.append_assoc, wireImage]
      refine readValue_field (by decide) (by decide) (by decide) (by decide) rfl ?_
      simp only [read_map hhere hkids, Option.map_some, imgProps_eq]
    | set x =>
      simp only [writeUnion, List.append_assoc, wireImage]
      refine readValue_field (by decide) (by decide) (by decide) (by decide) rfl ?_
      simp only [read_set hhere hkids, Option.map_some, imgVec_eq, once_eq]
    | dataset c x =>
      obtain ⟨h1, h2, h3⟩ := hhere
      simp only [writeUnion, List.append_assoc, wireImage]
      refine readValue_field (by decide) (by decide) (by decide) (by decide) rfl ?_
      simp only [read_dataSet h1 h2 h3 hkids, Option.map_some, imgRows_eq]

end Wire
end Nebula
