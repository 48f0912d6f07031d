import Verif.Wire.GatewayProps
/-!
# C161: a value that was received by names can be sent on

As Verif.Wire.ReadFits for the compact protocol: whatever document a value was read from, its components are in the range of their types.
-/
namespace Nebula
namespace Wire
namespace Named

mutual
/-- A document that a 32-bit size can describe: texts, lists and objects of less than 2^31 elements; its doubles are those of 64 bits. -/
def DocFits : Doc → Prop
  | .dbl f => F64.Holds f
  | .text s => Small s.length
  | .seq l => Small l.length ∧ DocsFit l
  | .obj l => Small l.length ∧ EntriesFit l
  | .table l => Small l.length
  | _ => True
def DocsFit : List Doc → Prop
  | [] => True
  | d :: l => DocFits d ∧ DocsFit l
def EntriesFit : List (Bytes × Doc) → Prop
  | [] => True
  | (k, d) :: l => Small k.length ∧ DocFits d ∧ EntriesFit l
end

theorem docs_mem : ∀ {l : List Doc}, DocsFit l → ∀ d ∈ l, DocFits d
  | [], _, _, h => by cases h
  | x :: l, h, d, hd => by
    simp only [DocsFit] at h
    rcases List.mem_cons.1 hd with rfl | hd
    · exact h.1
    · exact docs_mem h.2 d hd

theorem entries_mem : ∀ {l : List (Bytes × Doc)}, EntriesFit l → ∀ x ∈ l, Small x.1.length ∧ DocFits x.2
  | [], _, _, h => by cases h
  | (k, y) :: l, h, d, hd => by
    simp only [EntriesFit] at h
    rcases List.mem_cons.1 hd with rfl | hd
    · exact ⟨h.1, h.2.1⟩
    · exact entries_mem h.2.2 d hd

/-- What a reader gives, from whatever document, satisfies `P`. -/
def Yields {α : Type} (P : α → Prop) (rd : Doc → Option α) : Prop := ∀ d a, DocFits d → rd d = some a → P a

theorem yields_num (lo hi : Int) : Yields (fun x => lo ≤ x ∧ x ≤ hi) (readNum lo hi) := by
  intro d a hd e
  cases d <;> simp only [readNum] at e
  case num i =>
    by_cases h : lo ≤ i ∧ i ≤ hi
    · rw [if_pos h] at e; cases e; exact h
    · rw [if_neg h] at e; cases e
  all_goals cases e
theorem yields_byte : Yields I8 readByte := yields_num _ _
theorem yields_i16 : Yields I16 readI16 := yields_num _ _
theorem yields_i32 : Yields I32 readI32 := yields_num _ _
theorem yields_i64 : Yields InI64 readI64 := fun d a h e => by
  have := yields_num _ _ d a h e
  unfold InI64; omega
theorem yields_double : Yields F64.Holds readDouble := by
  intro d a h e
  cases d <;> simp only [readDouble] at e
  case dbl f => cases e; simpa only [DocFits] using h
  all_goals cases e
theorem yields_text : Yields (fun s : Bytes => Small s.length) readText := by
  intro d a h e
  cases d <;> simp only [readText] at e
  case text s => cases e; simpa only [DocFits] using h
  all_goals cases e

theorem readAll_all {α β : Type} {Q : α → Prop} {P : β → Prop} {rd : α → Option β} (h : ∀ a b, Q a → rd a = some b → P b) :
    ∀ {l : List α} {m : List β}, (∀ a ∈ l, Q a) → readAll rd l = some m → m.length = l.length ∧ ∀ b ∈ m, P b
  | [], m, _, e => by cases e; exact ⟨rfl, by simp⟩
  | a :: l, m, hl, e => by
    rw [readAll] at e
    split at e
    · cases e
    · next b hb =>
      obtain ⟨m', hm, rfl⟩ := Option.map_eq_some_iff.1 e
      obtain ⟨h1, h2⟩ := readAll_all h (fun x hx => hl x (List.mem_cons_of_mem _ hx)) hm
      refine ⟨by simp [h1], fun y hy => ?_⟩
      rcases List.mem_cons.1 hy with rfl | hy
      · exact h _ _ (hl _ List.mem_cons_self) hb
      · exact h2 y hy

theorem yields_seq {α : Type} {P : α → Prop} {rd : Doc → Option α} (h : Yields P rd) : Yields (fun l => Small l.length ∧ ∀ x ∈ l, P x) (readSeq rd) := by
  intro d a hd e
  cases d <;> simp only [readSeq] at e
  case seq l =>
    simp only [DocFits] at hd
    obtain ⟨h1, h2⟩ := readAll_all (fun a b => h a b) (docs_mem hd.2) e
    exact ⟨by rw [h1]; exact hd.1, h2⟩
  all_goals cases e

theorem yields_props {rv : Doc → Option Value} (h : Yields Sane rv) : Yields PropsSane (readProps rv) := by
  intro d a hd e
  cases d <;> simp only [readProps] at e
  case obj l =>
    simp only [DocFits] at hd
    obtain ⟨kvs, hk, rfl⟩ := Option.map_eq_some_iff.1 e
    obtain ⟨h1, h2⟩ := readAll_all (P := fun kv : Bytes × Value => Small kv.1.length ∧ Sane kv.2) (by
      intro x y hx hy
      obtain ⟨v, hv, rfl⟩ := Option.map_eq_some_iff.1 hy
      exact ⟨hx.1, h _ _ hx.2 hv⟩) (entries_mem hd.2) hk
    obtain ⟨a, b, c⟩ := foldl_mapSet_sane kvs [] h2 (by simp) (by simp)
    have h0 := hd.1
    refine ⟨⟨?_, fun kv hkv => (a kv hkv).1, b⟩, fun x hx => ?_⟩
    · unfold Small at *; simp only [List.length_nil] at c; omega
    · obtain ⟨kv, hkv, rfl⟩ := List.mem_map.1 hx
      exact (a kv hkv).2
  all_goals cases e

/-! ## Structures -/

/-- Every field that is read keeps `I`. -/
def Keeps {σ : Type} (R : Reader σ) (I : σ → Prop) : Prop := ∀ id ty g, R.label id = some (ty, g) → ∀ s d s', DocFits d → I s → g s d = some s' → I s'

theorem Keeps.fields {σ : Type} {R : Reader σ} {I : σ → Prop} (h : Keeps R I) : ∀ (l : List (Bytes × Doc)) s s', EntriesFit l → I s → R.fields s l = some s' → I s'
  | [], s, s', _, hs, e => by cases e; exact hs
  | (n, d) :: l, s, s', hl, hs, e => by
    simp only [EntriesFit] at hl
    rw [Reader.fields] at e
    split at e
    · exact h.fields l _ _ hl.2.2 hs e
    · next g hg =>
      split at e
      · cases e
      · next s1 h1 =>
        refine h.fields l _ _ hl.2.2 ?_ e
        unfold Reader.block at hg
        split at hg
        · cases hg
        · split at hg
          · cases hg
          · next hlab =>
            split at hg
            · cases hg; exact h _ _ _ hlab _ _ _ hl.2.1 hs h1
            · cases hg

theorem Keeps.read {σ : Type} {R : Reader σ} {I : σ → Prop} (h : Keeps R I) {s : σ} (hs : I s) : Yields I (R.read s) := by
  intro d a hd e
  cases d <;> simp only [Reader.read] at e
  case obj l => simp only [DocFits] at hd; exact h.fields l _ _ hd.2 hs e
  all_goals cases e

theorem keeps_put {σ α : Type} {P : α → Prop} {I : σ → Prop} {rd : Doc → Option α} {set : σ → α → σ} (h : Yields P rd) (hs : ∀ s a, I s → P a → I (set s a)) :
    ∀ s d s', DocFits d → I s → put rd set s d = some s' → I s' := by
  intro s d s' hd hI e
  obtain ⟨a, ha, rfl⟩ := Option.map_eq_some_iff.1 e
  exact hs _ _ hI (h _ _ hd ha)

theorem keeps_putAt {σ α : Type} {P : α → Prop} {I : σ → Prop} {rd : α → Doc → Option α} {get : σ → α} {set : σ → α → σ} (h : ∀ a, P a → Yields P (rd a))
    (hg : ∀ s, I s → P (get s)) (hs : ∀ s a, I s → P a → I (set s a)) : ∀ s d s', DocFits d → I s → putAt rd get set s d = some s' → I s' := by
  intro s d s' hd hI e
  obtain ⟨a, ha, rfl⟩ := Option.map_eq_some_iff.1 e
  exact hs _ _ hI (h _ (hg _ hI) _ _ hd ha)

theorem keeps_date : Keeps dateReader fun d => FitsHere (.date d) := by
  intro id ty g h
  simp only [dateReader] at h
  split at h
  · cases h; exact keeps_put yields_i16 fun s a hs ha => ⟨ha, hs.2⟩
  split at h
  · cases h; exact keeps_put yields_byte fun s a hs ha => ⟨hs.1, ha, hs.2.2⟩
  split at h
  · cases h; exact keeps_put yields_byte fun s a hs ha => ⟨hs.1, hs.2.1, ha⟩
  cases h

theorem keeps_time : Keeps timeReader fun d => FitsHere (.time d) := by
  intro id ty g h
  simp only [timeReader] at h
  split at h
  · cases h; exact keeps_put yields_byte fun s a hs ha => ⟨ha, hs.2⟩
  split at h
  · cases h; exact keeps_put yields_byte fun s a hs ha => ⟨hs.1, ha, hs.2.2⟩
  split at h
  · cases h; exact keeps_put yields_byte fun s a hs ha => ⟨hs.1, hs.2.1, ha, hs.2.2.2⟩
  split at h
  · cases h; exact keeps_put yields_i32 fun s a hs ha => ⟨hs.1, hs.2.1, hs.2.2.1, ha⟩
  cases h

theorem keeps_dateTime : Keeps dateTimeReader fun d => FitsHere (.datetime d) := by
  intro id ty g h
  simp only [dateTimeReader] at h
  split at h
  · cases h; exact keeps_put yields_i16 fun s a hs ha => ⟨ha, hs.2⟩
  split at h
  · cases h; exact keeps_put yields_byte fun s a hs ha => ⟨hs.1, by unfold wrapU; simp only []; omega, hs.2.2⟩
  split at h
  · cases h; exact keeps_put yields_byte fun s a hs ha => ⟨hs.1, hs.2.1, by unfold wrapU; simp only []; omega, hs.2.2.2⟩
  split at h
  · cases h; exact keeps_put yields_byte fun s a hs ha => ⟨hs.1, hs.2.1, hs.2.2.1, by unfold wrapU; simp only []; omega, hs.2.2.2.2⟩
  split at h
  · cases h; exact keeps_put yields_byte fun s a hs ha => ⟨hs.1, hs.2.1, hs.2.2.1, hs.2.2.2.1, by unfold wrapU; simp only []; omega, hs.2.2.2.2.2⟩
  split at h
  · cases h; exact keeps_put yields_byte fun s a hs ha => ⟨hs.1, hs.2.1, hs.2.2.1, hs.2.2.2.1, hs.2.2.2.2.1, by unfold wrapU; simp only []; omega, hs.2.2.2.2.2.2⟩
  split at h
  · cases h; exact keeps_put yields_i32 fun s a hs ha => ⟨hs.1, hs.2.1, hs.2.2.1, hs.2.2.2.1, hs.2.2.2.2.1, hs.2.2.2.2.2.1, by unfold wrapU; simp only []; omega⟩
  cases h

section
variable {rv : Value → Doc → Option Value} (hrv : ∀ v, Sane v → Yields Sane (rv v))
include hrv

theorem keeps_tag : Keeps (tagReader rv .empty) TagSane := by
  intro id ty g h
  simp only [tagReader] at h
  split at h
  · cases h; exact keeps_put yields_text fun s a hs ha => ⟨ha, hs.2⟩
  split at h
  · cases h; exact keeps_put (yields_props (hrv _ sane_empty)) fun s a hs ha => ⟨hs.1, ha⟩
  cases h

theorem keeps_vertex : Keeps (vertexReader rv .empty) VertexSane := by
  intro id ty g h
  simp only [vertexReader] at h
  split at h
  · cases h; exact keeps_putAt hrv (fun s hs => hs.1) fun s a hs ha => ⟨ha, hs.2⟩
  split at h
  · cases h
    exact keeps_put (yields_seq ((keeps_tag hrv).read ⟨by unfold Small; simp, propsGood_nil⟩)) fun s a hs ha => ⟨hs.1, ha⟩
  cases h

theorem keeps_edge : Keeps (edgeReader rv .empty) EdgeSane := by
  intro id ty g h
  simp only [edgeReader] at h
  split at h
  · cases h; exact keeps_putAt hrv (fun s hs => hs.1) fun s a hs ha => ⟨ha, hs.2⟩
  split at h
  · cases h; exact keeps_putAt hrv (fun s hs => hs.2.1) fun s a hs ha => ⟨hs.1, ha, hs.2.2⟩
  split at h
  · cases h; exact keeps_put yields_i32 fun s a hs ha => ⟨hs.1, hs.2.1, ha, hs.2.2.2⟩
  split at h
  · cases h; exact keeps_put yields_text fun s a hs ha => ⟨hs.1, hs.2.1, hs.2.2.1, ha, hs.2.2.2.2⟩
  split at h
  · cases h; exact keeps_put yields_i64 fun s a hs ha => ⟨hs.1, hs.2.1, hs.2.2.1, hs.2.2.2.1, ha, hs.2.2.2.2.2⟩
  split at h
  · cases h; exact keeps_put (yields_props (hrv _ sane_empty)) fun s a hs ha => ⟨hs.1, hs.2.1, hs.2.2.1, hs.2.2.2.1, hs.2.2.2.2.1, ha⟩
  cases h

theorem keeps_step : Keeps (stepReader rv .empty) StepSane := by
  intro id ty g h
  simp only [stepReader] at h
  split at h
  · cases h; exact keeps_putAt (fun v hv => (keeps_vertex hrv).read hv) (fun s hs => hs.1) fun s a hs ha => ⟨ha, hs.2⟩
  split at h
  · cases h; exact keeps_put yields_i32 fun s a hs ha => ⟨hs.1, ha, hs.2.2⟩
  split at h
  · cases h; exact keeps_put yields_text fun s a hs ha => ⟨hs.1, hs.2.1, ha, hs.2.2.2⟩
  split at h
  · cases h; exact keeps_put yields_i64 fun s a hs ha => ⟨hs.1, hs.2.1, hs.2.2.1, ha, hs.2.2.2.2⟩
  split at h
  · cases h; exact keeps_put (yields_props (hrv _ sane_empty)) fun s a hs ha => ⟨hs.1, hs.2.1, hs.2.2.1, hs.2.2.2.1, ha⟩
  cases h

theorem keeps_path : Keeps (pathReader rv .empty) PathSane := by
  intro id ty g h
  simp only [pathReader] at h
  split at h
  · cases h; exact keeps_putAt (fun v hv => (keeps_vertex hrv).read hv) (fun s hs => hs.1) fun s a hs ha => ⟨ha, hs.2⟩
  split at h
  · cases h
    exact keeps_put (yields_seq ((keeps_step hrv).read ⟨vertexGood_empty, by unfold I32; simp, by unfold Small; simp, by unfold InI64; simp, propsGood_nil⟩))
      fun s a hs ha => ⟨hs.1, ha⟩
  cases h

theorem keeps_list : Keeps (listReader rv .empty) fun l => Small l.length ∧ ∀ x ∈ l, Sane x := by
  intro id ty g h
  simp only [listReader] at h
  split at h
  · cases h; exact keeps_put (yields_seq (hrv _ sane_empty)) fun s a _ ha => ha
  cases h

theorem keeps_map : Keeps (mapReader rv .empty) PropsSane := by
  intro id ty g h
  simp only [mapReader] at h
  split at h
  · cases h; exact keeps_put (yields_props (hrv _ sane_empty)) fun s a _ ha => ha
  cases h

theorem keeps_set : Keeps (setReader rv .empty Value.beq) fun l => Small l.length ∧ (l.Pairwise fun x y => Value.beq x y = false) ∧ ∀ x ∈ l, Sane x := by
  intro id ty g h
  simp only [setReader] at h
  split at h
  · cases h
    refine keeps_put (yields_seq (hrv _ sane_empty)) fun s a _ ha => ?_
    obtain ⟨h1, h2, h3⟩ := foldl_setAdd_sane a [] ha.2 (by simp) (by simp)
    have := ha.1
    exact ⟨by unfold Small at *; simp only [List.length_nil] at h3; omega, h2, h1⟩
  cases h

theorem keeps_dataSet : Keeps (dataSetReader rv .empty) fun x => (Small x.1.length ∧ ∀ s ∈ x.1, Small s.length) ∧ Small x.2.length ∧ ∀ r ∈ x.2, Small r.length ∧ ∀ v ∈ r, Sane v := by
  intro id ty g h
  simp only [dataSetReader] at h
  split at h
  · cases h; exact keeps_put (yields_seq yields_text) fun s a hs ha => ⟨ha, hs.2⟩
  split at h
  · cases h; exact keeps_put (yields_seq ((keeps_list hrv).read ⟨by unfold Small; simp, by simp⟩)) fun s a hs ha => ⟨hs.1, ha⟩
  cases h
end

/-! ## Values -/

/-- The block of a field, if there is one, keeps values sane. -/
def LSane (o : Option (TType × (Value → Doc → Option Value))) : Prop := ∀ ty g, o = some (ty, g) → ∀ s d s', DocFits d → Sane s → g s d = some s' → Sane s'

theorem lsane_ite {p : Prop} [Decidable p] {a b : Option (TType × (Value → Doc → Option Value))} (ha : LSane a) (hb : LSane b) : LSane (if p then a else b) := by
  split <;> assumption
theorem lsane_none : LSane none := by intro ty g e; cases e
theorem lsane_put {α : Type} {P : α → Prop} {ty : TType} {rd : Doc → Option α} {mk : α → Value} (h : Yields P rd) (hm : ∀ x, P x → Sane (mk x)) :
    LSane (some (ty, put rd fun _ x => mk x)) := by
  intro t g e; cases e; exact keeps_put h fun _ a _ ha => hm a ha

theorem keeps_union {rv : Value → Doc → Option Value} (hrv : ∀ v, Sane v → Yields Sane (rv v)) : Keeps (unionReader rv) Sane := by
  intro id
  show LSane ((unionReader rv).label id)
  unfold unionReader
  dsimp only
  refine lsane_ite (lsane_put (P := fun _ => True) (fun _ _ _ _ => trivial) fun _ _ => sane_leaf rfl ⟨trivial, trivial⟩) ?_
  refine lsane_ite (lsane_put (P := fun _ => True) (fun _ _ _ _ => trivial) fun _ _ => sane_leaf rfl ⟨trivial, trivial⟩) ?_
  refine lsane_ite (lsane_put yields_i64 fun _ hx => sane_leaf rfl ⟨hx, trivial⟩) ?_
  refine lsane_ite (lsane_put yields_double fun _ hx => sane_leaf rfl ⟨hx, trivial⟩) ?_
  refine lsane_ite (lsane_put yields_text fun _ hx => sane_leaf rfl ⟨hx, trivial⟩) ?_
  refine lsane_ite (lsane_put (keeps_date.read (by simp [FitsHere, Date.default])) fun _ hx => sane_leaf rfl ⟨hx, trivial⟩) ?_
  refine lsane_ite (lsane_put (keeps_time.read (by simp [FitsHere])) fun _ hx => sane_leaf rfl ⟨hx, trivial⟩) ?_
  refine lsane_ite (lsane_put (keeps_dateTime.read (by simp [FitsHere])) fun _ hx => sane_leaf rfl ⟨hx, trivial⟩) ?_
  refine lsane_ite (lsane_put ((keeps_vertex hrv).read vertexGood_empty) fun _ hx => sane_vertex hx) ?_
  refine lsane_ite (lsane_put ((keeps_edge hrv).read ⟨sane_empty, sane_empty, by unfold I32; simp, small_zero, by unfold InI64; simp, propsGood_nil⟩) fun _ hx => sane_edge hx) ?_
  refine lsane_ite (lsane_put ((keeps_path hrv).read ⟨vertexGood_empty, small_zero, by simp⟩) fun _ hx => sane_path hx) ?_
  refine lsane_ite (lsane_put ((keeps_list hrv).read ⟨small_zero, by simp⟩) fun _ hx => .mk ⟨hx.1, trivial⟩ hx.2) ?_
  refine lsane_ite (lsane_put ((keeps_map hrv).read propsGood_nil) fun _ hx => .mk ⟨hx.1, trivial⟩ hx.2) ?_
  refine lsane_ite (lsane_put ((keeps_set hrv).read ⟨small_zero, by simp, by simp⟩) fun _ hx => .mk ⟨hx.1, hx.2.1⟩ hx.2.2) ?_
  refine lsane_ite (lsane_put ((keeps_dataSet hrv).read ⟨⟨small_zero, by simp⟩, small_zero, by simp⟩) fun x hx =>
    .mk ⟨⟨hx.1, hx.2.1, fun r hr => (hx.2.2 r hr).1⟩, trivial⟩ fun y hy => ?_) lsane_none
  obtain ⟨r, hr, hy⟩ := List.mem_flatten.1 hy
  exact (hx.2.2 r hr).2 y hy

theorem yields_value : ∀ f v, Sane v → Yields Sane (readValue f v)
  | 0, v, _ => by intro d a _ e; cases e
  | f + 1, v, hv => by
    intro d a hd e
    unfold readValue at e
    split at e
    · cases e; exact sane_empty
    · simp only [DocFits] at hd
      exact (keeps_union (yields_value f)).fields _ _ _ hd.2 hv e
    · cases e

theorem deserialize_sane {d : Doc} {v : Value} (hd : DocFits d) (h : deserialize d = some v) : Sane v := yields_value _ _ sane_empty _ _ hd h

/-! ## The theorems -/

/-- **C161 (in range).** Whatever document a value was read from by names, well formed or not, with fields repeated, reordered or unknown: its numbers are in the range of their types, its sizes
can be expressed and the keys of its maps are distinct, and so for all values in it. -/
theorem C161_fits {d : Doc} {v : Value} (hd : DocFits d) (h : deserialize d = some v) : Fits v := sane_fits (deserialize_sane hd h)

/-- **C161 (from names to bytes).** A value that was read by names, from whatever document, can be sent on in the compact protocol, and given out again by names. -/
theorem C161_taken {bits : F64 → Nat} (hb : BitsOk bits) {d : Doc} {v : Value} (hd : DocFits d) (h : deserialize d = some v) (rest : Bytes) :
    Wire.deserialize (serialize bits v ++ rest) = some (wireImage v, rest) ∧ deserialize (writeValue v) = some (textImage v) :=
  ⟨C67_image hb v (C161_fits hd h) rest, C148_arrives v (C161_fits hd h)⟩

/-- A document no writer makes: fields reordered, repeated and unknown, a key twice. -/
example : ∃ d v, DocFits d ∧ deserialize d = some v ∧ v = .edge ⟨.empty, .empty, 5, [98], 0, [([107], .int 2)]⟩ := by
  refine ⟨.obj [(ascii "eVal", .obj [(ascii "name", .text [97]), (ascii "x", .bool true), (ascii "type", .num 5), (ascii "name", .text [98]),
    (ascii "props", .obj [([107], .obj [(ascii "iVal", .num 1)]), ([107], .obj [(ascii "iVal", .num 2)])])])], _, ?_, by exact rfl, rfl⟩
  simp [DocFits, EntriesFit, Small, ascii]

end Named
end Wire
end Nebula
