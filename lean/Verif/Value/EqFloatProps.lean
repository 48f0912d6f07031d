import Verif.Value.EqProps
/-!
# C11: equality of values that contain floats

Transitivity fails for floats (`C11_float_violated`); reflexivity and symmetry do not.
-/
namespace Nebula
open Spec
namespace Value

/-- `eq a a` for every `a` in `S`. -/
def ReflOn {α : Type} (eq : α → α → Bool) (S : α → Prop) : Prop := ∀ a, S a → eq a a = true
/-- `eq a b` and `eq b a` say the same for all `a`, `b` in `S`. -/
def SymOn {α : Type} (eq : α → α → Bool) (S : α → Prop) : Prop := ∀ a b, S a → S b → eq a b = true → eq b a = true

theorem refl_vec {α : Type} {eq : α → α → Bool} {S : α → Prop} (h : ReflOn eq S) :
    ReflOn (vecBeq eq) (fun l => ∀ x ∈ l, S x) := by
  intro a
  induction a with
  | nil => intro _; rfl
  | cons x xs ih => intro ha; simp [vecBeq, h x (ha x (by simp)), ih (fun y hy => ha y (by simp [hy]))]

theorem sym_vec {α : Type} {eq : α → α → Bool} {S : α → Prop} (h : SymOn eq S) :
    SymOn (vecBeq eq) (fun l => ∀ x ∈ l, S x) := by
  intro a
  induction a with
  | nil => intro b _ _ hab; cases b <;> simp_all [vecBeq]
  | cons x xs ih =>
    intro b ha hb hab
    cases b with
    | nil => simp [vecBeq] at hab
    | cons y ys =>
      simp only [vecBeq, Bool.and_eq_true] at hab ⊢
      exact ⟨h x y (ha x (by simp)) (hb y (by simp)) hab.1,
        ih ys (fun z hz => ha z (by simp [hz])) (fun z hz => hb z (by simp [hz])) hab.2⟩

theorem refl_map {eq : Value → Value → Bool} {S : Value → Prop} (h : ReflOn eq S) : ReflOn (mapBeq eq) (MapIn S) := by
  intro a ha
  rw [mapBeq_iff ha.1 ha.1]
  intro k
  cases h1 : a.lookup k with
  | none => trivial
  | some v => exact h v (ha.2 _ (mem_of_lookup h1))

theorem sym_map {eq : Value → Value → Bool} {S : Value → Prop} (h : SymOn eq S) : SymOn (mapBeq eq) (MapIn S) := by
  intro a b ha hb
  rw [mapBeq_iff ha.1 hb.1, mapBeq_iff hb.1 ha.1]
  intro hab k
  have := hab k
  cases h1 : a.lookup k <;> cases h2 : b.lookup k <;> simp_all
  exact h _ _ (ha.2 _ (mem_of_lookup h1)) (hb.2 _ (mem_of_lookup h2)) this

theorem refl_set {eq : Value → Value → Bool} {S : Value → Prop} (h : ReflOn eq S) :
    ReflOn (setBeq eq) (fun l => ∀ x ∈ l, S x) := by
  intro a ha
  simp only [setBeq, beq_self_eq_true, Bool.true_and, List.all_eq_true, List.any_eq_true]
  exact fun x hx => ⟨x, hx, h x (ha x hx)⟩

theorem refl_vertex {eq : Value → Value → Bool} {S : Value → Prop} (h : ReflOn eq S) :
    ReflOn (Vertex.beq eq) (VertexIn S) := by
  intro a ha
  have : ReflOn (Tag.beq eq) (TagIn S) := fun t ht => by simp [Tag.beq, refl_map h _ ht]
  simp [Vertex.beq, h _ ha.1, refl_vec this _ ha.2]

theorem sym_vertex {eq : Value → Value → Bool} {S : Value → Prop} (h : SymOn eq S) :
    SymOn (Vertex.beq eq) (VertexIn S) := by
  intro a b ha hb
  have ht : SymOn (Tag.beq eq) (TagIn S) := fun s t hs ht => by
    simp only [Tag.beq, Bool.and_eq_true, beq_iff_eq]
    exact fun e => ⟨e.1.symm, sym_map h _ _ hs ht e.2⟩
  simp only [Vertex.beq, Bool.and_eq_true]
  exact fun e => ⟨h _ _ ha.1 hb.1 e.1, sym_vec ht _ _ ha.2 hb.2 e.2⟩

theorem refl_edge {eq : Value → Value → Bool} {S : Value → Prop} (h : ReflOn eq S) : ReflOn (Edge.beq eq) (EdgeIn S) := by
  intro a ha
  rw [edge_beq_iff]
  exact ⟨⟨rfl, refl_map h _ ha.2.2⟩, .inl ⟨rfl, h _ ha.1, h _ ha.2.1⟩⟩

theorem sym_edge {eq : Value → Value → Bool} {S : Value → Prop} (h : SymOn eq S) : SymOn (Edge.beq eq) (EdgeIn S) := by
  intro a b ha hb
  rw [edge_beq_iff, edge_beq_iff]
  rintro ⟨⟨h1, h2⟩, h3⟩
  refine ⟨⟨h1.symm, sym_map h _ _ ha.2.2 hb.2.2 h2⟩, ?_⟩
  rcases h3 with ⟨t, s, d⟩ | ⟨n, t, s, d⟩
  · exact .inl ⟨t.symm, h _ _ ha.1 hb.1 s, h _ _ ha.2.1 hb.2.1 d⟩
  · exact .inr ⟨Ne.symm n, by omega, h _ _ ha.2.1 hb.1 d, h _ _ ha.1 hb.2.1 s⟩

theorem refl_path {eq : Value → Value → Bool} {S : Value → Prop} (h : ReflOn eq S) : ReflOn (Path.beq eq) (PathIn S) := by
  intro a ha
  have : ReflOn (Step.beq eq) (StepIn S) := fun s hs => by
    simp [Step.beq, refl_vertex h _ hs.1, refl_map h _ hs.2]
  simp [Path.beq, refl_vertex h _ ha.1, refl_vec this _ ha.2]

theorem sym_path {eq : Value → Value → Bool} {S : Value → Prop} (h : SymOn eq S) : SymOn (Path.beq eq) (PathIn S) := by
  intro a b ha hb
  have ht : SymOn (Step.beq eq) (StepIn S) := fun s t hs ht => by
    simp only [Step.beq, Bool.and_eq_true, beq_iff_eq]
    exact fun e => ⟨⟨⟨⟨sym_vertex h _ _ hs.1 ht.1 e.1.1.1.1, e.1.1.1.2.symm⟩, e.1.1.2.symm⟩, e.1.2.symm⟩, sym_map h _ _ hs.2 ht.2 e.2⟩
  simp only [Path.beq, Bool.and_eq_true]
  exact fun e => ⟨sym_vertex h _ _ ha.1 hb.1 e.1, sym_vec ht _ _ ha.2 hb.2 e.2⟩

/-- Condition on one value for `Finite`: a float is a finite number; the keys of a map are distinct. -/
def FiniteHere : Value → Prop
  | .float x => ∃ q, x = .fin q
  | .set _ => True
  | v => PlainHere v

/-- Values whose floats, at any depth, are finite. -/
def Finite : Value → Prop := HeredBy children FiniteHere

/-- Condition on one value for `Setless`: it is no set; the keys of a map are distinct. -/
def SetlessHere : Value → Prop
  | .float _ => True
  | .set _ => False
  | v => PlainHere v

/-- Values without sets at any depth, with any floats. -/
def Setless : Value → Prop := HeredBy children SetlessHere

/-- C11: a value equals itself, if the floats it contains are finite. -/
theorem C11_reflexive (a : Value) (h : Finite a) : beq a a = true := by
  induction h with
  | @mk a ha _ ih =>
    have hb : ReflOn beq (fun x => beq x x = true) := fun _ h => h
    cases a <;> simp only [FiniteHere, PlainHere] at ha <;> simp only [beq_eqn, beq_self_eq_true]
    case float =>
      obtain ⟨q, rfl⟩ := ha
      simp only [F64.sub, F64.neg, F64.add]
      rw [show q + -q = 0 by ring]
      decide +kernel
    case date => exact (C03_date_order.1.eq_sound _ _).mpr rfl
    case time => exact (C03_time_order.1.eq_sound _ _).mpr rfl
    case datetime => exact (C03_datetime_order.1.eq_sound _ _).mpr rfl
    case vertex => exact refl_vertex hb _ (vertexIn_of ha ih)
    case edge => exact refl_edge hb _ (edgeIn_of ha.1 ih)
    case path => exact refl_path hb _ (pathIn_of ha ih)
    case list => exact refl_vec hb _ ih
    case map => exact refl_map hb _ (mapIn_of ha ih)
    case set => exact refl_set hb _ ih
    case dataset => simpa using refl_vec (refl_vec hb) _ (rowsIn_of ih)

theorem SymOn.hered {eq : Value → Value → Bool} {k : Value → List Value} {P : Value → Prop}
    (step : ∀ S, SymOn eq S → SymOn eq (fun v => P v ∧ ∀ x ∈ k v, S x)) : SymOn eq (HeredBy k P) := by
  have hn : ∀ n, SymOn eq (HeredN k P n) := by
    intro n
    induction n with
    | zero => exact fun _ _ h => h.elim
    | succ n ih => exact step _ ih
  intro a b ha hb
  obtain ⟨n, h1⟩ := ha.bounded
  obtain ⟨m, h2⟩ := hb.bounded
  exact hn (max n m) a b (h1.mono (by omega)) (h2.mono (by omega))

theorem setless_sym : SymOn beq Setless := by
  apply SymOn.hered
  intro S h a b
  rintro ⟨ha, ka⟩ ⟨hb, kb⟩
  have hrow := sym_vec (sym_vec h)
  cases a <;> simp only [SetlessHere, PlainHere] at ha <;> cases b <;> simp only [SetlessHere, PlainHere] at hb <;>
    simp only [beq_eqn]
  case float.float => rw [sub_comm_abs]; exact id
  case float.int => rw [sub_comm_abs]; exact id
  case int.float => rw [sub_comm_abs]; exact id
  case date.date => simp only [C03_date_order.1.eq_sound]; exact Eq.symm
  case time.time => simp only [C03_time_order.1.eq_sound]; exact Eq.symm
  case datetime.datetime => simp only [C03_datetime_order.1.eq_sound]; exact Eq.symm
  case vertex.vertex => exact sym_vertex h _ _ (vertexIn_of ha ka) (vertexIn_of hb kb)
  case edge.edge => exact sym_edge h _ _ (edgeIn_of ha.1 ka) (edgeIn_of hb.1 kb)
  case path.path => exact sym_path h _ _ (pathIn_of ha ka) (pathIn_of hb kb)
  case list.list => exact sym_vec h _ _ ka kb
  case map.map => exact sym_map h _ _ (mapIn_of ha ka) (mapIn_of hb kb)
  case dataset.dataset =>
    simp only [Bool.and_eq_true, beq_iff_eq]
    exact fun e => ⟨e.1.symm, hrow _ _ (rowsIn_of ka) (rowsIn_of kb) e.2⟩
  all_goals (simp [typeFlag]; try exact Eq.symm)

/-- C11: equality does not depend on the order of its operands, for values with any floats but without sets. -/
theorem C11_symmetric_partial (a b : Value) (ha : Setless a) (hb : Setless b) : beq a b = beq b a := by
  have h1 := setless_sym a b ha hb
  have h2 := setless_sym b a hb ha
  cases h : beq a b <;> cases h' : beq b a <;> simp_all

/-- A list of an integer, a float and an infinity meets the conditions; it equals itself without the infinity. -/
example : Setless (.list [.int 1, .float (.fin (1/2)), .float (.inf true)]) ∧ Finite (.set [.int 1, .float (.fin (1/2))]) := by
  constructor
  · refine .mk trivial fun x hx => ?_
    simp only [children, List.mem_cons, List.not_mem_nil, or_false] at hx
    rcases hx with rfl | rfl | rfl <;> exact .mk trivial (by simp [children])
  · refine .mk trivial fun x hx => ?_
    simp only [children, List.mem_cons, List.not_mem_nil, or_false] at hx
    rcases hx with rfl | rfl
    · exact .mk trivial (by simp [children])
    · exact .mk ⟨_, rfl⟩ (by simp [children])

end Value
end Nebula
