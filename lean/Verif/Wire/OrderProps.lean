import Verif.Wire.CompareProps
import Verif.Wire.NamedProps
import Verif.Wire.ResponseProps
/-! # C162: the order of values that were received -/
namespace Nebula
namespace Wire

/-- Edges and steps are of one kind, `k`, in either direction. -/
def OneKind (k : Int) (v : Value) : Prop := Value.Hered (KindHere k fun _ => k) v

theorem kind_beq {k : Int} {a b : Value} (ha : OneKind k a) (hb : OneKind k b) : Value.beq (wireImage a) (wireImage b) = Value.beq a b :=
  Bool.eq_iff_iff.2 ⟨image_beq_conv a b ha hb (kind_apart a ha) (kind_apart b hb), image_beq a b (kind_apart a ha) (kind_apart b hb)⟩

theorem dir_eq_iff {k t t' : Int} (hk : 0 < k) (h : t = k ∨ t = -k) (h' : t' = k ∨ t' = -k) : (dir t = dir t' ↔ t = t') ∧ (dir t < dir t' ↔ t < t') := by
  rcases h with rfl | rfl <;> rcases h' with rfl | rfl <;> unfold dir <;> (repeat' split) <;> omega

theorem vecLt_nm {α : Type} {f : α → α} {lt : α → α → Bool} : ∀ l l' : List α, vecLt lt (l.map f) (l'.map f) = vecLt (fun x y => lt (f x) (f y)) l l'
  | _, [] => by cases ‹List α› <;> rfl
  | [], _ :: _ => rfl
  | a :: l, b :: l' => by simp only [List.map_cons, vecLt, vecLt_nm l l']

theorem vecLt_congr {α : Type} {e1 e2 : α → α → Bool} : ∀ {l l' : List α}, (∀ x ∈ l, ∀ y ∈ l', e1 x y = e2 x y ∧ e1 y x = e2 y x) → vecLt e1 l l' = vecLt e2 l l'
  | _, [], _ => by cases ‹List α› <;> rfl
  | [], _ :: _, _ => rfl
  | a :: l, b :: l', h => by
    obtain ⟨h1, h2⟩ := h a List.mem_cons_self b List.mem_cons_self
    simp only [vecLt, h1, h2]
    rw [vecLt_congr fun x hx y hy => h x (List.mem_cons_of_mem _ hx) y (List.mem_cons_of_mem _ hy)]

theorem vertex_beq {k : Int} {v w : Vertex Value} (hv : OneKind k (.vertex v)) (hw : OneKind k (.vertex w)) :
    Vertex.beq Value.beq (Vertex.nm wireImage v) (Vertex.nm wireImage w) = Vertex.beq Value.beq v w := by
  have := kind_beq hv hw
  rw [wireImage, wireImage, imgVertex_eq, imgVertex_eq, Value.beq_eqn, Value.beq_eqn (.vertex v)] at this
  exact this

theorem vertex_lt {k : Int} {v w : Vertex Value} (hv : OneKind k (.vertex v)) (hw : OneKind k (.vertex w)) (h : Value.lt (wireImage v.vid) (wireImage w.vid) = Value.lt v.vid w.vid) :
    Vertex.lt Value.beq Value.lt (Vertex.nm wireImage v) (Vertex.nm wireImage w) = Vertex.lt Value.beq Value.lt v w := by
  have hb := kind_beq (hv.kids v.vid List.mem_cons_self) (hw.kids w.vid List.mem_cons_self)
  simp only [Vertex.lt, Vertex.nm, List.length_map, hb, h]

theorem path_src {k : Int} {p : Path Value} (h : OneKind k (.path p)) : OneKind k (.vertex p.src) :=
  .mk trivial fun x hx => h.kids x (List.mem_append_left _ hx)

theorem path_dst {k : Int} {p : Path Value} (h : OneKind k (.path p)) {s : Step Value} (hs : s ∈ p.steps) : OneKind k (.vertex s.dst) :=
  .mk trivial fun x hx => h.kids x (List.mem_append_right _ (List.mem_flatMap.2 ⟨s, hs, List.mem_append_left _ hx⟩))

theorem steps_beq {k : Int} {p q : Path Value} (hp : OneKind k (.path p)) (hq : OneKind k (.path q)) :
    vecBeq (Step.beq Value.beq) (imgSteps p.steps) (imgSteps q.steps) = vecBeq (Step.beq Value.beq) p.steps q.steps := by
  have aux : ∀ {p : Path Value}, OneKind k (.path p) → OneKind k (.path ⟨⟨.empty, []⟩, p.steps⟩) := fun {p} h => .mk h.here fun x hx => by
    rcases List.mem_append.1 hx with hx | hx
    · simp at hx; subst hx; exact .mk trivial (by simp [Value.children])
    · exact h.kids x (List.mem_append_right _ hx)
  have := kind_beq (aux hp) (aux hq)
  rw [wireImage, wireImage, Value.beq_eqn, Value.beq_eqn (.path _)] at this
  simpa [Path.beq, Vertex.beq, imgVertex, imgTags, wireImage, Value.beq, Value.typeFlag, vecBeq] using this

theorem image_lt_step {k : Int} {a b : Value} (ha : OneKind k a) (hb : OneKind k b)
    (hk : ∀ x ∈ a.children, ∀ y ∈ b.children, Value.lt (wireImage x) (wireImage y) = Value.lt x y ∧ Value.lt (wireImage y) (wireImage x) = Value.lt y x) :
    Value.lt (wireImage a) (wireImage b) = Value.lt a b := by
  have hh := ha.here
  have hh' := hb.here
  cases a with
  | vertex v =>
    cases b with
    | vertex w =>
      rw [wireImage, wireImage, imgVertex_eq, imgVertex_eq, Value.lt_eqn, Value.lt_eqn (.vertex v)]
      exact vertex_lt ha hb (hk _ List.mem_cons_self _ List.mem_cons_self).1
    | edge e => cases e; simp [wireImage, Value.lt_eqn, Value.typeFlag]
    | path e => cases e; simp [wireImage, Value.lt_eqn, Value.typeFlag]
    | _ => simp [wireImage, Value.lt_eqn, Value.typeFlag]
  | edge e =>
    cases e
    cases b with
    | edge f =>
      cases f
      rename_i s d t n r p s' d' t' n' r' p'
      have b1 := kind_beq (ha.kids s (by simp [Value.children])) (hb.kids s' (by simp [Value.children]))
      have b2 := kind_beq (ha.kids d (by simp [Value.children])) (hb.kids d' (by simp [Value.children]))
      have l1 := (hk s (by simp [Value.children]) s' (by simp [Value.children])).1
      have l2 := (hk d (by simp [Value.children]) d' (by simp [Value.children])).1
      obtain ⟨d1, d2⟩ := dir_eq_iff hh.1 hh.2 hh'.2
      dsimp only at d1 d2
      rw [wireImage, wireImage, imgProps_eq, imgProps_eq, Value.lt_eqn, Value.lt_eqn (.edge _)]
      simp only [Edge.lt, List.length_map, b1, b2, l1, l2, d1, d2, ne_eq]
    | path e => cases e; simp [wireImage, Value.lt_eqn, Value.typeFlag]
    | _ => simp [wireImage, Value.lt_eqn, Value.typeFlag]
  | path p =>
    cases b with
    | path q =>
      have h1 := vertex_beq (path_src ha) (path_src hb)
      have h2 := vertex_lt (path_src ha) (path_src hb) (hk _ List.mem_cons_self _ List.mem_cons_self).1
      have h3 := steps_beq ha hb
      have h4 : vecLt (Step.lt Value.beq Value.lt) (imgSteps p.steps) (imgSteps q.steps) = vecLt (Step.lt Value.beq Value.lt) p.steps q.steps := by
        rw [imgSteps_eq, imgSteps_eq, vecLt_nm]
        refine vecLt_congr fun s hs t ht => ?_
        have hv := path_dst ha hs
        have hw := path_dst hb ht
        have k1 := hk s.dst.vid (List.mem_append_right _ (List.mem_flatMap.2 ⟨s, hs, List.mem_cons_self⟩)) t.dst.vid (List.mem_append_right _ (List.mem_flatMap.2 ⟨t, ht, List.mem_cons_self⟩))
        obtain ⟨g1, g2⟩ := hh s hs
        obtain ⟨-, g3⟩ := hh' t ht
        have d2 := (dir_eq_iff g1 g2 g3).2
        have d4 := (dir_eq_iff g1 g3 g2).2
        simp only [Step.lt, Step.nm, vertex_beq hv hw, vertex_beq hw hv, vertex_lt hv hw k1.1, vertex_lt hw hv k1.2, d2, d4, and_self]
      obtain ⟨v, ss⟩ := p
      obtain ⟨w, ss'⟩ := q
      rw [wireImage, wireImage, imgVertex_eq, imgVertex_eq, Value.lt_eqn, Value.lt_eqn (.path _)]
      simp only [Path.lt]
      dsimp only at h1 h2 h3 h4
      rw [h1, h2, h3, h4]
    | edge e => cases e; cases p; simp [wireImage, Value.lt_eqn, Value.typeFlag]
    | _ => cases p; simp [wireImage, Value.lt_eqn, Value.typeFlag]
  | list l =>
    cases b with
    | list m =>
      rw [wireImage, wireImage, imgVec_eq, imgVec_eq, Value.lt_eqn, Value.lt_eqn (.list l)]
      dsimp only
      rw [vecLt_nm]
      exact vecLt_congr hk
    | edge e => cases e; simp [wireImage, Value.lt_eqn, Value.typeFlag]
    | path e => cases e; simp [wireImage, Value.lt_eqn, Value.typeFlag]
    | _ => simp [wireImage, Value.lt_eqn, Value.typeFlag]
  | _ =>
    cases b with
    | edge e => cases e; simp [wireImage, Value.lt_eqn, Value.typeFlag]
    | path e => cases e; simp [wireImage, Value.lt_eqn, Value.typeFlag]
    | _ => simp [wireImage, Value.lt_eqn, Value.typeFlag]

theorem image_lt {k : Int} (a : Value) : ∀ b, OneKind k a → OneKind k b → Value.lt (wireImage a) (wireImage b) = Value.lt a b ∧ Value.lt (wireImage b) (wireImage a) = Value.lt b a := by
  induction a using Value.children_induction with
  | h a ih =>
    intro b ha hb
    exact ⟨image_lt_step ha hb fun x hx y hy => ih x hx y (ha.kids x hx) (hb.kids y hy), image_lt_step hb ha fun y hy x hx => (ih x hx y (ha.kids x hx) (hb.kids y hy)).symm⟩

/-- **C162 (order)** (partial: for edges and steps of one kind).  Two values are ordered where they arrive as they were where they come from. -/
theorem C162_order_partial {bits : F64 → Nat} (hb : BitsOk bits) (k : Int) (a b a' b' : Value) (r s r' s' : Bytes) (fa : Fits a) (fb : Fits b) (ka : OneKind k a) (kb : OneKind k b)
    (ha : deserialize (serialize bits a ++ r) = some (a', r')) (hb' : deserialize (serialize bits b ++ s) = some (b', s')) : Value.lt a' b' = Value.lt a b := by
  rw [C67_image hb a fa] at ha
  rw [C67_image hb b fb] at hb'
  cases ha; cases hb'
  exact (image_lt a b ka kb).1

/-- A list with an edge of type 7 and one of type -7. -/
example : OneKind 7 (.list [.edge ⟨.str [97], .str [98], 7, [102], 0, []⟩, .edge ⟨.str [98], .str [97], -7, [102], 0, []⟩]) := by
  refine .mk trivial fun x hx => ?_
  simp only [Value.children, List.mem_cons, List.not_mem_nil, or_false] at hx
  rcases hx with rfl | rfl
  · refine .mk ⟨by decide, .inl rfl⟩ fun x hx => ?_
    simp only [Value.children, List.map_nil, List.mem_cons, List.not_mem_nil, or_false] at hx
    rcases hx with rfl | rfl <;> exact .mk trivial (by simp [Value.children])
  · refine .mk ⟨by decide, .inr rfl⟩ fun x hx => ?_
    simp only [Value.children, List.map_nil, List.mem_cons, List.not_mem_nil, or_false] at hx
    rcases hx with rfl | rfl <;> exact .mk trivial (by simp [Value.children])

/-- **C162 violated, the order.** Of two edges of different kinds one comes first where they come from; where they arrive neither does. -/
theorem C162_order_violated {bits : F64 → Nat} (hb : BitsOk bits) : ∃ a' b', deserialize (serialize bits follow) = some (a', []) ∧ deserialize (serialize bits serve) = some (b', []) ∧
    Value.lt follow serve = true ∧ Value.lt a' b' = false ∧ Value.lt b' a' = false := by
  obtain ⟨a', b', h1, h2, -, -⟩ := C162_kinds_violated hb
  have fits : ∀ (t : Int) (n : Bytes), (t = 5 ∨ t = 7) → Small n.length → Fits (.edge ⟨.str [97], .str [98], t, n, 0, []⟩) := fun t n ht hn => by
    refine .mk ⟨by dsimp only; omega, by simp [InI64], hn, by simp [Small], by simp, by simp⟩ fun x hx => ?_
    simp only [Value.children, List.map_nil, List.mem_cons, List.not_mem_nil, or_false] at hx
    rcases hx with rfl | rfl <;> exact .mk (by simp [FitsHere, Small]) (by simp [Value.children])
  have g1 := C67_image hb follow (fits 5 _ (.inl rfl) (by simp [Small])) []
  have g2 := C67_image hb serve (fits 7 _ (.inr rfl) (by simp [Small])) []
  rw [List.append_nil] at g1 g2
  rw [g1] at h1
  rw [g2] at h2
  cases h1; cases h2
  exact ⟨_, _, g1, g2, by decide +kernel, by decide +kernel, by decide +kernel⟩

/-- **C162 (by names)** (partial: without elements in sets, for edges and steps of one kind).  One of two values is received in the compact protocol, the other in a protocol with names (JSON), or
both by names: they compare, and are ordered, as they were where they come from. -/
theorem C162_named_partial {bits : F64 → Nat} (hb : BitsOk bits) (k : Int) (a b a' a'' b' : Value) (r r' : Bytes) (fa : Fits a) (fb : Fits b) (ka : OneKind k a) (kb : OneKind k b)
    (sa : Setless a) (sb : Setless b) (ha : deserialize (serialize bits a ++ r) = some (a', r')) (ha' : Named.deserialize (Named.writeValue a) = some a'')
    (hb' : Named.deserialize (Named.writeValue b) = some b') :
    (Value.beq a' b' = Value.beq a b ∧ Value.lt a' b' = Value.lt a b ∧ Value.lt b' a' = Value.lt b a) ∧
    (Value.beq a'' b' = Value.beq a b ∧ Value.lt a'' b' = Value.lt a b ∧ Value.lt b' a'' = Value.lt b a) := by
  rw [C67_image hb a fa] at ha
  rw [Named.C148_values_partial a fa sa] at ha'
  rw [Named.C148_values_partial b fb sb] at hb'
  cases ha; cases ha'; cases hb'
  exact ⟨⟨kind_beq ka kb, (image_lt a b ka kb).1, (image_lt a b ka kb).2⟩, kind_beq ka kb, (image_lt a b ka kb).1, (image_lt a b ka kb).2⟩

/-- **C162 (answers)** (partial: tables with edges of one kind and steps whose type goes with their name).  Two answers to queries compare where they arrive as they did where they come from. -/
theorem C162_answer_partial {bits : F64 → Nat} (hb : BitsOk bits) (k : Int) (num : Bytes → Int) (a b a' b' : ExecResponse) (r s r' s' : Bytes) (fa : ExecFit a) (fb : ExecFit b)
    (ka : ∀ d, a.data = some d → Value.Hered (KindHere k num) (.dataset d.1 d.2)) (kb : ∀ d, b.data = some d → Value.Hered (KindHere k num) (.dataset d.1 d.2))
    (ha : deserializeExec {} (serializeExec bits a ++ r) = some (a', r')) (hb' : deserializeExec {} (serializeExec bits b ++ s) = some (b', s')) :
    ExecResponse.beq a' b' = ExecResponse.beq a b := by
  rw [C92_exec hb a fa] at ha
  rw [C92_exec hb b fb] at hb'
  cases ha; cases hb'
  rw [Bool.eq_iff_iff, C93_exec, C93_exec]
  have h : Both (fun a b => Value.beq (.dataset a.1 a.2) (.dataset b.1 b.2) = true) a.image.data b.image.data ↔
      Both (fun a b => Value.beq (.dataset a.1 a.2) (.dataset b.1 b.2) = true) a.data b.data := by
    simp only [ExecResponse.image]
    cases hd : a.data with
    | none => cases b.data <;> rfl
    | some d =>
      cases hd' : b.data with
      | none => rfl
      | some d' =>
        have k1 := ka d hd
        have k2 := kb d' hd'
        have := Bool.eq_iff_iff.2 ⟨image_beq_conv _ _ k1 k2 (kind_apart _ k1) (kind_apart _ k2), image_beq _ _ (kind_apart _ k1) (kind_apart _ k2)⟩
        rw [wireImage, wireImage, imgRows_eq, imgRows_eq] at this
        simp only [Option.map_some, Both]
        rw [this]
  rw [h]
  rfl

/-- A table with an edge and a number. -/
example : ∀ d, ({ latency := 3, data := some ([[101], [110]], [[.edge ⟨.str [97], .str [98], 7, [102], 0, []⟩, .int 1]]) } : ExecResponse).data = some d →
    Value.Hered (KindHere 7 fun _ => 1) (.dataset d.1 d.2) := by
  intro d hd
  cases hd
  refine .mk trivial fun x hx => ?_
  simp only [Value.children, List.flatten_cons, List.flatten_nil, List.append_nil, List.mem_cons, List.not_mem_nil, or_false] at hx
  rcases hx with rfl | rfl
  · refine .mk ⟨by decide, .inl rfl⟩ fun x hx => ?_
    simp only [Value.children, List.map_nil, List.mem_cons, List.not_mem_nil, or_false] at hx
    rcases hx with rfl | rfl <;> exact .mk trivial (by simp [Value.children])
  · exact .mk trivial (by simp [Value.children])

end Wire
end Nebula
