import Verif.Value.Model
/-! # Helper lemmas about `Value`: unfolding equations and induction -/
namespace Nebula

theorem vecBeq_length {α : Type} {eq : α → α → Bool} : ∀ {a b : List α}, vecBeq eq a b = true →
    a.length = b.length
  | [], [], _ => rfl
  | [], _ :: _, h => by simp [vecBeq] at h
  | _ :: _, [], h => by simp [vecBeq] at h
  | _ :: as, _ :: bs, h => by
    simp only [vecBeq, Bool.and_eq_true] at h
    simp [vecBeq_length h.2]

namespace Value

theorem beqMap_eq (a b : Props Value) : beqMap a b =
    a.all fun kv => (b.lookup kv.1).any fun w => beq kv.2 w := by
  induction a with
  | nil => simp [beqMap]
  | cons x xs ih => obtain ⟨k, v⟩ := x; simp only [beqMap, List.all_cons, ih]

theorem beqSet_eq (a b : List Value) : beqSet a b = a.all fun x => b.any fun y => beq x y := by
  induction a with
  | nil => simp [beqSet]
  | cons x xs ih => simp only [beqSet, List.all_cons, ih]

theorem beqVec_eq (a b : List Value) : beqVec a b = vecBeq beq a b := by
  induction a generalizing b with
  | nil => cases b <;> simp [beqVec, vecBeq]
  | cons x xs ih => cases b <;> simp [beqVec, vecBeq, ih]

theorem beqRows_eq (a b : List (List Value)) : beqRows a b = vecBeq (vecBeq beq) a b := by
  induction a generalizing b with
  | nil => cases b <;> simp [beqRows, vecBeq]
  | cons x xs ih => cases b <;> simp [beqRows, vecBeq, ih, beqVec_eq]

theorem beqTags_eq (a b : List (Tag Value)) : beqTags a b = vecBeq (Tag.beq beq) a b := by
  induction a generalizing b with
  | nil => cases b <;> simp [beqTags, vecBeq]
  | cons x xs ih =>
    obtain ⟨n, p⟩ := x
    cases b <;> simp only [beqTags, vecBeq, ih, Tag.beq, mapBeq, beqMap_eq]

theorem beqVertex_eq (a b : Vertex Value) : beqVertex a b = Vertex.beq beq a b := by
  obtain ⟨v, t⟩ := a
  simp only [beqVertex, Vertex.beq, beqTags_eq]

theorem beqEdge_eq (a b : Edge Value) : beqEdge a b = Edge.beq beq a b := by
  obtain ⟨s, d, t, n, r, p⟩ := a
  simp only [beqEdge, Edge.beq, mapBeq, beqMap_eq]

theorem beqSteps_eq (a b : List (Step Value)) : beqSteps a b = vecBeq (Step.beq beq) a b := by
  induction a generalizing b with
  | nil => cases b <;> simp [beqSteps, vecBeq]
  | cons x xs ih =>
    obtain ⟨v, ty, n, r, p⟩ := x
    cases b <;> simp only [beqSteps, vecBeq, ih, Step.beq, mapBeq, beqMap_eq, beqVertex_eq]

theorem beqPath_eq (a b : Path Value) : beqPath a b = Path.beq beq a b := by
  obtain ⟨v, s⟩ := a
  simp only [beqPath, Path.beq, beqSteps_eq, beqVertex_eq]

/-- `Value.beq` satisfies the transcription of Value.cpp:2535-2617. -/
theorem beq_eqn (a b : Value) : beq a b =
    match a, b with
    | .bool a, .bool b => a == b
    | .int a, .int b => a == b
    | .int a, .float b => F64.lt (F64.abs (F64.sub (F64.ofInt a) b)) F64.eps
    | .float a, .int b => F64.lt (F64.abs (F64.sub a (F64.ofInt b))) F64.eps
    | .float a, .float b => F64.lt (F64.abs (F64.sub a b)) F64.eps
    | .str a, .str b => a == b
    | .date a, .date b => Date.beq a b
    | .time a, .time b => Time.beq a b
    | .datetime a, .datetime b => DateTime.beq a b
    | .vertex a, .vertex b => Vertex.beq beq a b
    | .edge a, .edge b => Edge.beq beq a b
    | .path a, .path b => Path.beq beq a b
    | .list a, .list b => vecBeq beq a b
    | .map a, .map b => mapBeq beq a b
    | .set a, .set b => setBeq beq a b
    | .dataset c a, .dataset d b => c == d && vecBeq (vecBeq beq) a b
    | a, b => a.typeFlag == b.typeFlag := by
  cases a <;> cases b <;>
    simp [beq, beqVertex_eq, beqEdge_eq, beqPath_eq, beqVec_eq, beqMap_eq, beqSet_eq, beqRows_eq,
      mapBeq, setBeq, typeFlag, floatEq]

/-! ## Order -/

def swapB (p : Bool × Bool) : Bool × Bool := (p.2, p.1)

mutual
theorem ltPair_swap : ∀ a b : Value, ltPair b a = swapB (ltPair a b)
  | .vertex a, b => by cases b <;> simp [ltPair, swapB, typeFlag, ltVertex_swap a]
  | .edge a, b => by cases b <;> simp [ltPair, swapB, typeFlag, ltEdge_swap a]
  | .path a, b => by cases b <;> simp [ltPair, swapB, typeFlag, ltPath_swap a]
  | .list a, b => by cases b <;> simp [ltPair, swapB, typeFlag, ltVec_swap a]
  | .empty, b => by cases b <;> simp [ltPair, swapB, typeFlag]
  | .null _, b => by cases b <;> simp [ltPair, swapB, typeFlag]
  | .bool _, b => by cases b <;> simp [ltPair, swapB, typeFlag]
  | .int _, b => by cases b <;> simp [ltPair, swapB, typeFlag]
  | .float _, b => by cases b <;> simp [ltPair, swapB, typeFlag]
  | .str _, b => by cases b <;> simp [ltPair, swapB, typeFlag]
  | .date _, b => by cases b <;> simp [ltPair, swapB, typeFlag]
  | .time _, b => by cases b <;> simp [ltPair, swapB, typeFlag]
  | .datetime _, b => by cases b <;> simp [ltPair, swapB, typeFlag]
  | .map _, b => by cases b <;> simp [ltPair, swapB, typeFlag]
  | .set _, b => by cases b <;> simp [ltPair, swapB, typeFlag]
  | .dataset _ _, b => by cases b <;> simp [ltPair, swapB, typeFlag]
theorem ltVertex_swap : ∀ a b : Vertex Value, ltVertex b a = swapB (ltVertex a b)
  | ⟨v, t⟩, ⟨v', t'⟩ => by
    simp only [ltVertex, ltPair_swap v v', swapB]
theorem ltEdge_swap : ∀ a b : Edge Value, ltEdge b a = swapB (ltEdge a b)
  | ⟨s, d, _, _, _, _⟩, ⟨s', d', _, _, _, _⟩ => by
    simp only [ltEdge, ltPair_swap s s', ltPair_swap d d', swapB]
theorem ltPath_swap : ∀ a b : Path Value, ltPath b a = swapB (ltPath a b)
  | ⟨v, s⟩, ⟨v', s'⟩ => by
    simp only [ltPath, ltVertex_swap v v', ltSteps_swap s s', swapB]
theorem ltSteps_swap : ∀ a b : List (Step Value), ltSteps b a = swapB (ltSteps a b)
  | [], [] => by simp [ltSteps, swapB]
  | [], _ :: _ => by simp [ltSteps, swapB]
  | _ :: _, [] => by simp [ltSteps, swapB]
  | ⟨v, _, _, _, _⟩ :: as, ⟨v', _, _, _, _⟩ :: bs => by
    simp only [ltSteps, ltVertex_swap v v', ltSteps_swap as bs, swapB]
theorem ltVec_swap : ∀ a b : List Value, ltVec b a = swapB (ltVec a b)
  | [], [] => by simp [ltVec, swapB]
  | [], _ :: _ => by simp [ltVec, swapB]
  | _ :: _, [] => by simp [ltVec, swapB]
  | a :: as, b :: bs => by
    simp only [ltVec, ltPair_swap a b, ltVec_swap as bs, swapB]
end

theorem ltPair_snd (a b : Value) : (ltPair a b).2 = lt b a := by
  unfold lt; rw [ltPair_swap a b]; rfl

theorem ltVertex_fst (a b : Vertex Value) : (ltVertex a b).1 = Vertex.lt beq lt a b := by
  obtain ⟨v, t⟩ := a
  simp only [ltVertex, Vertex.lt, lt]
theorem ltVertex_snd (a b : Vertex Value) : (ltVertex a b).2 = Vertex.lt beq lt b a := by
  rw [← ltVertex_fst, ltVertex_swap a b]; rfl
theorem ltEdge_fst (a b : Edge Value) : (ltEdge a b).1 = Edge.lt beq lt a b := by
  obtain ⟨s, d, t, n, r, p⟩ := a
  simp only [ltEdge, Edge.lt, lt]
theorem ltVec_fst (a b : List Value) : (ltVec a b).1 = vecLt lt a b := by
  induction a generalizing b with
  | nil => cases b <;> simp [ltVec, vecLt]
  | cons x xs ih =>
    cases b with
    | nil => simp [ltVec, vecLt]
    | cons y ys =>
      simp only [ltVec, vecLt, ih, ltPair_snd]; rfl
theorem ltSteps_fst (a b : List (Step Value)) : (ltSteps a b).1 = vecLt (Step.lt beq lt) a b := by
  induction a generalizing b with
  | nil => cases b <;> simp [ltSteps, vecLt]
  | cons x xs ih =>
    cases b with
    | nil => simp [ltSteps, vecLt]
    | cons y ys =>
      obtain ⟨v, ty, n, r, p⟩ := x
      simp only [ltSteps, vecLt, ih, ltVertex_fst, ltVertex_snd, beqVertex_eq, Step.lt]
theorem ltPath_fst (a b : Path Value) : (ltPath a b).1 = Path.lt beq lt a b := by
  obtain ⟨v, s⟩ := a
  simp only [ltPath, Path.lt, ltVertex_fst, ltSteps_fst, beqVertex_eq, beqSteps_eq]

/-- `Value.lt` satisfies the transcription of Value.cpp:2456-2533. -/
theorem lt_eqn (a b : Value) : lt a b =
    match a, b with
    | .bool a, .bool b => !a && b
    | .int a, .int b => decide (a < b)
    | .int a, .float b => F64.lt (F64.ofInt a) b
    | .float a, .int b => F64.lt a (F64.ofInt b)
    | .float a, .float b => F64.lt a b
    | .str a, .str b => bytesLt a b
    | .vertex a, .vertex b => Vertex.lt beq lt a b
    | .edge a, .edge b => Edge.lt beq lt a b
    | .path a, .path b => Path.lt beq lt a b
    | .time a, .time b => Time.lt a b
    | .date a, .date b => Date.lt a b
    | .datetime a, .datetime b => DateTime.lt a b
    | .list a, .list b => vecLt lt a b
    | .map _, .map _ => false
    | .set _, .set _ => false
    | .dataset _ _, .dataset _ _ => false
    | a, b => decide (a.typeFlag < b.typeFlag) := by
  unfold lt
  cases a <;> cases b <;>
    simp [ltPair, ltVertex_fst, ltEdge_fst, ltPath_fst, ltVec_fst, typeFlag]
  all_goals rfl

/-! ## Hereditary predicates and induction -/

/-- `P` holds of the value and of every value nested inside it. -/
inductive Hered (P : Value → Prop) : Value → Prop
  | mk {v : Value} : P v → (∀ x ∈ v.children, Hered P x) → Hered P v

theorem Hered.here {P : Value → Prop} {v : Value} (h : Hered P v) : P v := by cases h; assumption
theorem Hered.kids {P : Value → Prop} {v : Value} (h : Hered P v) : ∀ x ∈ v.children, Hered P x := by
  cases h; assumption
theorem hered_iff {P : Value → Prop} {v : Value} : Hered P v ↔ P v ∧ ∀ x ∈ v.children, Hered P x :=
  ⟨fun h => ⟨h.here, h.kids⟩, fun h => .mk h.1 h.2⟩
theorem Hered.imp {P Q : Value → Prop} (h : ∀ v, P v → Q v) {v : Value} (hv : Hered P v) : Hered Q v := by
  induction hv with
  | mk hp _ ih => exact .mk (h _ hp) ih

mutual
theorem heredTrue : ∀ v : Value, Hered (fun _ => True) v
  | .vertex ⟨vid, tags⟩ => .mk trivial (by
      intro x hx
      simp only [children, List.mem_cons] at hx
      rcases hx with h | h
      · rw [h]; exact heredTrue vid
      · exact heredTags tags x h)
  | .edge ⟨s, d, _, _, _, p⟩ => .mk trivial (by
      intro x hx
      simp only [children, List.mem_cons] at hx
      rcases hx with h | h | h
      · rw [h]; exact heredTrue s
      · rw [h]; exact heredTrue d
      · exact heredProps p x h)
  | .path ⟨⟨vid, tags⟩, steps⟩ => .mk trivial (by
      intro x hx
      simp only [children, List.mem_append, List.mem_cons] at hx
      rcases hx with (h | h) | h
      · rw [h]; exact heredTrue vid
      · exact heredTags tags x h
      · exact heredSteps steps x h)
  | .list vs => .mk trivial (fun x hx => heredVec vs x hx)
  | .map kvs => .mk trivial (fun x hx => heredProps kvs x hx)
  | .set vs => .mk trivial (fun x hx => heredVec vs x hx)
  | .dataset _ rows => .mk trivial (fun x hx => heredRows rows x hx)
  | .empty => .mk trivial (by simp [children])
  | .null _ => .mk trivial (by simp [children])
  | .bool _ => .mk trivial (by simp [children])
  | .int _ => .mk trivial (by simp [children])
  | .float _ => .mk trivial (by simp [children])
  | .str _ => .mk trivial (by simp [children])
  | .date _ => .mk trivial (by simp [children])
  | .time _ => .mk trivial (by simp [children])
  | .datetime _ => .mk trivial (by simp [children])
theorem heredVec : ∀ vs : List Value, ∀ x ∈ vs, Hered (fun _ => True) x
  | [], x, h => by simp at h
  | v :: vs, x, h => by
    rcases List.mem_cons.mp h with h | h
    · rw [h]; exact heredTrue v
    · exact heredVec vs x h
theorem heredRows : ∀ rows : List (List Value), ∀ x ∈ rows.flatten, Hered (fun _ => True) x
  | [], x, h => by simp at h
  | r :: rows, x, h => by
    simp only [List.flatten_cons, List.mem_append] at h
    rcases h with h | h
    · exact heredVec r x h
    · exact heredRows rows x h
theorem heredProps : ∀ p : List (Bytes × Value), ∀ x ∈ p.map Prod.snd, Hered (fun _ => True) x
  | [], x, h => by simp at h
  | (_, v) :: p, x, h => by
    simp only [List.map_cons, List.mem_cons] at h
    rcases h with h | h
    · rw [h]; exact heredTrue v
    · exact heredProps p x h
theorem heredTags : ∀ ts : List (Tag Value), ∀ x ∈ ts.flatMap (fun t => t.props.map Prod.snd),
    Hered (fun _ => True) x
  | [], x, h => by simp at h
  | ⟨_, p⟩ :: ts, x, h => by
    simp only [List.flatMap_cons, List.mem_append] at h
    rcases h with h | h
    · exact heredProps p x h
    · exact heredTags ts x h
theorem heredSteps : ∀ ss : List (Step Value), ∀ x ∈ ss.flatMap (fun s =>
    (s.dst.vid :: s.dst.tags.flatMap fun t => t.props.map Prod.snd) ++ s.props.map Prod.snd),
    Hered (fun _ => True) x
  | [], x, h => by simp at h
  | ⟨⟨vid, tags⟩, _, _, _, p⟩ :: ss, x, h => by
    simp only [List.flatMap_cons, List.mem_append, List.mem_cons] at h
    rcases h with ((h | h) | h) | h
    · rw [h]; exact heredTrue vid
    · exact heredTags tags x h
    · exact heredProps p x h
    · exact heredSteps ss x h
end

/-- Induction over the nesting of values. -/
theorem children_induction {P : Value → Prop} (h : ∀ v, (∀ x ∈ v.children, P x) → P v) (v : Value) :
    P v := by
  induction heredTrue v with
  | mk _ _ ih => exact h _ ih

end Value
end Nebula
