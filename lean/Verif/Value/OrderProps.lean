import Verif.Value.OrderLemmas
import Verif.Value.Dec
import Verif.Text
/-!
# C10: the sorting order on values
-/
namespace Nebula
open Spec
namespace Value

/-- The position of a value's type in the sort order: EMPTY, BOOL, INT and FLOAT, STRING, DATE, TIME,
DATETIME, VERTEX, EDGE, PATH, LIST, MAP, SET, DATASET, NULL. -/
def specRank : Value → Nat
  | .empty => 0
  | .bool _ => 1
  | .int _ => 2
  | .float _ => 2
  | .str _ => 3
  | .date _ => 4
  | .time _ => 5
  | .datetime _ => 6
  | .vertex _ => 7
  | .edge _ => 8
  | .path _ => 9
  | .list _ => 10
  | .map _ => 11
  | .set _ => 12
  | .dataset _ _ => 13
  | .null _ => 14

/-- Scalars other than floats: the values used as vertex ids. -/
def IsKey : Value → Prop
  | .empty | .null _ | .bool _ | .int _ | .str _ | .date _ | .time _ | .datetime _ => True
  | _ => False

/-- The elements of a list value. -/
def elems : Value → List Value
  | .list vs => vs
  | _ => []

/-- Condition on one value for `Sortable`. -/
def SortableHere (fl : Bool) (G : Value → List (Tag Value)) : Value → Prop
  | .int i => fl = true → -9007199254740992 ≤ i ∧ i ≤ 9007199254740992
  | .float f => fl = true ∧ f ≠ .nan
  | .vertex v => IsKey v.vid
  | .edge e => IsKey e.src ∧ IsKey e.dst
  | .path p => (IsKey p.src.vid ∧ p.src.tags = G p.src.vid) ∧
      ∀ s ∈ p.steps, IsKey s.dst.vid ∧ s.dst.tags = G s.dst.vid
  | _ => True

/-- Values that can be sorted together: vertex and edge endpoints are scalars; the vertices of paths
carry the tags `G` gives to their id (as when all paths are read from one snapshot, or have no
tags); floats (allowed if `fl`) are not NaN and integers then have at most 53 bits; and the same for
the elements of lists, to any depth. -/
def Sortable (fl : Bool) (G : Value → List (Tag Value)) : Value → Prop := HeredBy elems (SortableHere fl G)

/-- A snapshot gives equal ids equal tags. -/
def Consistent (G : Value → List (Tag Value)) : Prop :=
  ∀ x y, IsKey x → IsKey y → beq x y = true → vecBeq (Tag.beq beq) (G x) (G y) = true

theorem beq_key_iff {x y : Value} (hx : IsKey x) (hy : IsKey y) :
    beq x y = true ↔ lt x y = false ∧ lt y x = false := by
  have bt : ∀ a b : Bytes, a = b ↔ bytesLt a b = false ∧ bytesLt b a = false := by
    intro a b
    constructor
    · rintro rfl; exact ⟨bytesLt_irrefl a, bytesLt_irrefl a⟩
    · rintro ⟨h1, h2⟩
      rcases bytesLt_total a b with h | h | h
      · simp [h] at h1
      · exact h
      · simp [h] at h2
  cases x <;> cases y <;> simp only [IsKey] at hx hy <;>
    simp only [beq_eqn, lt_eqn, typeFlag] <;>
    first
    | exact (C03_date_order.1.eq_iff _ _)
    | exact (C03_time_order.1.eq_iff _ _)
    | exact (C03_datetime_order.1.eq_iff _ _)
    | (rw [beq_iff_eq]; exact bt _ _)
    | (simp; done)
    | (simp; omega)
    | (rename_i a b; cases a <;> cases b <;> simp)

theorem lt_rank {a b : Value} (h : specRank a ≠ specRank b) : lt a b = decide (specRank a < specRank b) := by
  cases a <;> cases b <;> first | exact absurd rfl h | simp [lt_eqn, typeFlag, specRank]

/-- The number a numeric value denotes. -/
def num : Value → F64
  | .int i => F64.ofInt i
  | .float f => f
  | _ => .nan

theorem lt_vertex_key {G : Value → List (Tag Value)} (hG : Consistent G) (a b : Vertex Value)
    (ha : IsKey a.vid ∧ a.tags = G a.vid) (hb : IsKey b.vid ∧ b.tags = G b.vid) :
    Vertex.lt beq lt a b = lt a.vid b.vid ∧ Vertex.beq beq a b = beq a.vid b.vid := by
  unfold Vertex.lt Vertex.beq
  cases h : beq a.vid b.vid with
  | false => simp
  | true =>
    have h1 := hG _ _ ha.1 hb.1 h
    rw [← ha.2, ← hb.2] at h1
    have h2 := vecBeq_length h1
    have h3 := ((beq_key_iff ha.1 hb.1).mp h).1
    simp [h1, h2, h3]

theorem vecBeq_vecLt {α : Type} {eq lt : α → α → Bool} {S : α → Prop}
    (h : ∀ a b, S a → S b → eq a b = true → lt a b = false ∧ lt b a = false) :
    ∀ a b : List α, (∀ x ∈ a, S x) → (∀ x ∈ b, S x) → vecBeq eq a b = true → vecLt lt a b = false
  | [], [], _, _, _ => rfl
  | [], _ :: _, _, _, h => by simp [vecBeq] at h
  | _ :: _, [], _, _, h => by simp [vecBeq] at h
  | x :: xs, y :: ys, ha, hb, he => by
    simp only [vecBeq, Bool.and_eq_true] at he
    have := h x y (ha x (by simp)) (hb y (by simp)) he.1
    simp only [vecLt, this.1, this.2]
    exact vecBeq_vecLt h xs ys (fun z hz => ha z (by simp [hz])) (fun z hz => hb z (by simp [hz])) he.2

theorem swo_keys : Swo lt IsKey := by
  apply Swo.byRank specRank
  · intro a b _ _; exact lt_rank
  · intro n
    have hbool : Swo (fun a b : Bool => !a && b) (fun _ => True) :=
      ⟨fun a b _ _ => by cases a <;> cases b <;> simp, fun a b c _ _ _ => by cases a <;> cases b <;> cases c <;> simp⟩
    constructor
    · intro a b ha hb
      obtain ⟨ha, hn⟩ := ha
      obtain ⟨hb, hm⟩ := hb
      have : specRank a = specRank b := by omega
      cases a <;> cases b <;> simp only [IsKey] at ha hb <;> simp [specRank] at this <;> simp only [lt_eqn, typeFlag]
      · simp
      · simp
      · exact hbool.asym _ _ trivial trivial
      · exact (Swo.int (fun _ => True)).asym _ _ trivial trivial
      · exact (Swo.bytes (fun _ => True)).asym _ _ trivial trivial
      · exact (Swo.ofTotal C03_date_order.1 (fun _ => True)).asym _ _ trivial trivial
      · exact (Swo.ofTotal C03_time_order.1 (fun _ => True)).asym _ _ trivial trivial
      · exact (Swo.ofTotal C03_datetime_order.1 (fun _ => True)).asym _ _ trivial trivial
    · intro a b c ha hb hc
      obtain ⟨ha, hn⟩ := ha
      obtain ⟨hb, hm⟩ := hb
      obtain ⟨hc, hk⟩ := hc
      have e1 : specRank a = specRank b := by omega
      have e2 : specRank a = specRank c := by omega
      cases a <;> cases b <;> simp only [IsKey] at ha hb <;> simp [specRank] at e1 <;>
        cases c <;> simp only [IsKey] at hc <;> simp [specRank] at e2 <;> simp only [lt_eqn, typeFlag]
      · simp
      · simp
      · exact hbool.nt _ _ _ trivial trivial trivial
      · exact (Swo.int (fun _ => True)).nt _ _ _ trivial trivial trivial
      · exact (Swo.bytes (fun _ => True)).nt _ _ _ trivial trivial trivial
      · exact (Swo.ofTotal C03_date_order.1 (fun _ => True)).nt _ _ _ trivial trivial trivial
      · exact (Swo.ofTotal C03_time_order.1 (fun _ => True)).nt _ _ _ trivial trivial trivial
      · exact (Swo.ofTotal C03_datetime_order.1 (fun _ => True)).nt _ _ _ trivial trivial trivial

theorem swo_vertex : Swo (Vertex.lt beq lt) (fun v => IsKey v.vid) := by
  have h := Swo.lex (S := fun v : Vertex Value => IsKey v.vid) (eq1 := fun a b => beq a.vid b.vid)
    (lt1 := fun a b => lt a.vid b.vid) (lt2 := fun a b => decide (a.tags.length < b.tags.length))
    (swo_keys.comap (fun v : Vertex Value => v.vid) (fun _ h => h))
    ((Swo.nat (fun _ => True)).comap (fun v : Vertex Value => v.tags.length) (fun _ _ => trivial))
    (fun a b ha hb => beq_key_iff ha hb)
  refine h.congr fun a b _ _ => ?_
  unfold Vertex.lt
  split
  · rfl
  · split
    · rfl
    · rename_i h; simp at h; simp [h]

theorem swo_edge : Swo (Edge.lt beq lt) (fun e => IsKey e.src ∧ IsKey e.dst) := by
  let S : Edge Value → Prop := fun e => IsKey e.src ∧ IsKey e.dst
  have h1 : Swo (fun a b : Edge Value => decide (a.props.length < b.props.length)) S :=
    (Swo.nat (fun _ => True)).comap (fun v : Edge Value => v.props.length) (fun _ _ => trivial)
  have h2 := Swo.lex (S := S) (eq1 := fun a b => decide (a.ranking = b.ranking))
    (lt1 := fun a b => decide (a.ranking < b.ranking))
    ((Swo.int (fun _ => True)).comap (fun v : Edge Value => v.ranking) (fun _ _ => trivial)) h1
    (fun a b _ _ => by simp; omega)
  have h3 := Swo.lex (S := S) (eq1 := fun a b => decide (a.type = b.type))
    (lt1 := fun a b => decide (a.type < b.type))
    ((Swo.int (fun _ => True)).comap (fun v : Edge Value => v.type) (fun _ _ => trivial)) h2
    (fun a b _ _ => by simp; omega)
  have h4 := Swo.lex (S := S) (eq1 := fun a b => beq a.dst b.dst)
    (lt1 := fun a b => lt a.dst b.dst)
    (swo_keys.comap (fun v : Edge Value => v.dst) (fun _ h => h.2)) h3
    (fun a b ha hb => beq_key_iff ha.2 hb.2)
  have h5 := Swo.lex (S := S) (eq1 := fun a b => beq a.src b.src)
    (lt1 := fun a b => lt a.src b.src)
    (swo_keys.comap (fun v : Edge Value => v.src) (fun _ h => h.1)) h4
    (fun a b ha hb => beq_key_iff ha.1 hb.1)
  refine h5.congr fun a b _ _ => ?_
  unfold Edge.lt
  by_cases e1 : beq a.src b.src = true <;> by_cases e2 : beq a.dst b.dst = true <;>
    by_cases e3 : a.type = b.type <;> by_cases e4 : a.ranking = b.ranking <;>
    by_cases e5 : a.props.length = b.props.length <;> simp_all

theorem swo_path {G : Value → List (Tag Value)} (hG : Consistent G) :
    Swo (Path.lt beq lt) (fun p => (IsKey p.src.vid ∧ p.src.tags = G p.src.vid) ∧
      ∀ s ∈ p.steps, IsKey s.dst.vid ∧ s.dst.tags = G s.dst.vid) := by
  let V : Vertex Value → Prop := fun v => IsKey v.vid ∧ v.tags = G v.vid
  have hv : Swo (Vertex.lt beq lt) V :=
    (swo_keys.comap (fun v : Vertex Value => v.vid) (fun _ h => h.1)).congr
      (fun a b ha hb => (lt_vertex_key hG a b ha hb).1)
  have hve : ∀ a b, V a → V b →
      (Vertex.beq beq a b = true ↔ Vertex.lt beq lt a b = false ∧ Vertex.lt beq lt b a = false) := by
    intro a b ha hb
    rw [(lt_vertex_key hG a b ha hb).1, (lt_vertex_key hG b a hb ha).1, (lt_vertex_key hG a b ha hb).2]
    exact beq_key_iff ha.1 hb.1
  have hs : Swo (Step.lt beq lt) (fun s => V s.dst) :=
    Swo.lex (S := fun s : Step Value => V s.dst) (eq1 := fun a b => Vertex.beq beq a.dst b.dst)
      (lt1 := fun a b => Vertex.lt beq lt a.dst b.dst) (lt2 := fun a b => decide (a.type < b.type))
      (hv.comap (fun s : Step Value => s.dst) (fun _ h => h))
      ((Swo.int (fun _ => True)).comap (fun s : Step Value => s.type) (fun _ _ => trivial))
      (fun a b ha hb => hve _ _ ha hb)
  have hl := Swo.lex (S := fun p : Path Value => V p.src ∧ ∀ s ∈ p.steps, V s.dst)
    (eq1 := fun a b => Vertex.beq beq a.src b.src)
    (lt1 := fun a b => Vertex.lt beq lt a.src b.src) (lt2 := fun a b => vecLt (Step.lt beq lt) a.steps b.steps)
    (hv.comap (fun s : Path Value => s.src) (fun _ h => h.1))
    (hs.vec.comap (fun p : Path Value => p.steps) (fun _ h => h.2))
    (fun a b ha hb => hve _ _ ha.1 hb.1)
  refine hl.congr fun a b ha hb => ?_
  unfold Path.lt
  split
  · rfl
  · split
    · rfl
    · rename_i h
      simp only [Bool.not_eq_true, Bool.not_eq_false'] at h
      symm
      refine vecBeq_vecLt (S := fun s : Step Value => V s.dst) ?_ _ _ ha.2 hb.2 h
      intro x y hx hy he
      simp only [Step.beq, Bool.and_eq_true, beq_iff_eq] at he
      have := he.1.1.1.1
      have t := he.1.1.1.2
      have this' := (hve _ _ hx hy).mp this
      have sy := (hve _ _ hy hx).mpr ⟨this'.2, this'.1⟩
      simp [Step.lt, this, sy, t]

/-- C10: sorting is well defined, for values of any nesting. -/
theorem C10_strict_weak_order_partial (fl : Bool) (G : Value → List (Tag Value)) (hG : Consistent G) :
    StrictWeakOrder lt (Sortable fl G) := by
  apply Swo.strictWeak
  apply Swo.hered
  intro S hS
  apply Swo.byRank specRank
  · intro a b _ _; exact lt_rank
  · intro n
    have hnum : fl = true → ∀ a b, (SortableHere fl G a ∧ specRank a = 2) → (SortableHere fl G b ∧ specRank b = 2) →
        lt a b = F64.lt (num a) (num b) := by
      intro hfl a b ha hb
      cases a <;> simp only [specRank] at ha <;> try omega
      all_goals (cases b <;> simp only [specRank] at hb <;> try omega)
      · rename_i i j
        simp only [SortableHere] at ha hb
        have h1 := ha.1 hfl
        have h2 := hb.1 hfl
        simp only [lt_eqn, num, F64.ofInt_small _ h1.1 h1.2, F64.ofInt_small _ h2.1 h2.2, F64.lt]
        congr 1
        simp
      all_goals simp [lt_eqn, num]
    have hnn : fl = true → ∀ a, (SortableHere fl G a ∧ specRank a = 2) → num a ≠ .nan := by
      intro hfl a ha
      cases a <;> simp only [specRank] at ha <;> try omega
      · simp only [SortableHere] at ha
        have h1 := ha.1 hfl
        simp [num, F64.ofInt_small _ h1.1 h1.2]
      · exact ha.1.2
    by_cases hr2 : n = 2
    · subst hr2
      cases hfl : fl with
      | true =>
        have := (Swo.f64.comap (S := fun a => SortableHere fl G a ∧ specRank a = 2) num (hnn hfl)).congr (hnum hfl)
        subst hfl
        exact this.mono fun a h => ⟨h.1.1, h.2⟩
      | false =>
        subst hfl
        refine swo_keys.mono fun a h => ?_
        obtain ⟨⟨h1, _⟩, h2⟩ := h
        cases a <;> simp [specRank] at h2
        · trivial
        · simp [SortableHere] at h1
    · constructor
      · intro a b ha hb
        obtain ⟨⟨ha, ka⟩, hn⟩ := ha
        obtain ⟨⟨hb, kb⟩, hm⟩ := hb
        have e1 : specRank a = specRank b := by omega
        cases a <;> simp [specRank] at hn <;> cases b <;> simp [specRank] at e1 <;> try omega
        case vertex => simp only [lt_eqn]; exact swo_vertex.asym _ _ ha hb
        case edge => simp only [lt_eqn]; exact swo_edge.asym _ _ ha hb
        case path => simp only [lt_eqn]; exact (swo_path hG).asym _ _ ha hb
        case list => simp only [lt_eqn]; exact hS.vec.asym _ _ ka kb
        case map => simp [lt_eqn]
        case set => simp [lt_eqn]
        case dataset => simp [lt_eqn]
        all_goals exact swo_keys.asym _ _ trivial trivial
      · intro a b c ha hb hc
        obtain ⟨⟨ha, ka⟩, hn⟩ := ha
        obtain ⟨⟨hb, kb⟩, hm⟩ := hb
        obtain ⟨⟨hc, kc⟩, hk⟩ := hc
        have e1 : specRank a = specRank b := by omega
        have e2 : specRank a = specRank c := by omega
        cases a <;> simp [specRank] at hn <;> cases b <;> simp [specRank] at e1 <;> try omega
        all_goals (cases c <;> simp [specRank] at e2 <;> try omega)
        case vertex => simp only [lt_eqn]; exact swo_vertex.nt _ _ _ ha hb hc
        case edge => simp only [lt_eqn]; exact swo_edge.nt _ _ _ ha hb hc
        case path => simp only [lt_eqn]; exact (swo_path hG).nt _ _ _ ha hb hc
        case list => simp only [lt_eqn]; exact hS.vec.nt _ _ _ ka kb kc
        case map => simp [lt_eqn]
        case set => simp [lt_eqn]
        case dataset => simp [lt_eqn]
        all_goals exact swo_keys.nt _ _ _ trivial trivial trivial

/-- C10: values of different types are ordered by type, EMPTY first, NULL last, whatever their
contents (all values). -/
theorem C10_types (a b : Value) (h : specRank a ≠ specRank b) :
    lt a b = true ↔ specRank a < specRank b := by
  rw [lt_rank h]; simp

theorem C10_extremes (v : Value) :
    (v ≠ .empty → lt .empty v = true ∧ lt v .empty = false) ∧
    ((∀ n, v ≠ .null n) → ∀ n, lt v (.null n) = true ∧ lt (.null n) v = false) := by
  constructor
  · intro h; cases v <;> first | exact absurd rfl h | simp [lt_eqn, typeFlag]
  · intro h n; cases v <;> first | exact absurd rfl (h _) | simp [lt_eqn, typeFlag]

/-- C10: on scalars other than floats the order is total: exactly one of `a < b`, `a == b`, `b < a`. -/
theorem C10_scalars_total (a b : Value) (ha : IsKey a) (hb : IsKey b) :
    (lt a b = true ∧ beq a b = false ∧ lt b a = false) ∨
    (lt a b = false ∧ beq a b = true ∧ lt b a = false) ∨
    (lt a b = false ∧ beq a b = false ∧ lt b a = true) := by
  have h1 := beq_key_iff ha hb
  have h2 := swo_keys.asym a b ha hb
  cases e1 : lt a b <;> cases e2 : lt b a <;> cases e3 : beq a b <;> simp_all

/-- C10: on two integers, two strings and two booleans it is the usual order. -/
theorem C10_scalar_meaning :
    (∀ x y : Int, lt (.int x) (.int y) = true ↔ x < y) ∧
    (∀ x y : Bool, lt (.bool x) (.bool y) = true ↔ x = false ∧ y = true) ∧
    (∀ p q : Rat, lt (.float (.fin p)) (.float (.fin q)) = true ↔ p < q) ∧
    (∀ (p s t : Bytes) (c d : UInt8), c < d → lt (.str (p ++ c :: s)) (.str (p ++ d :: t)) = true) ∧
    (∀ (p s : Bytes), s ≠ [] → lt (.str p) (.str (p ++ s)) = true) := by
  refine ⟨?_, ?_, ?_, ?_, ?_⟩
  · intro x y; simp [lt_eqn]
  · intro x y; cases x <;> cases y <;> simp [lt_eqn]
  · intro p q; simp [lt_eqn, F64.lt]
  · intro p s t c d h
    simp only [lt_eqn]
    induction p with
    | nil =>
      have : c ≠ d := by rintro rfl; exact absurd h (by simp)
      simp [bytesLt, this, h]
    | cons x xs ih => simpa [bytesLt] using ih
  · intro p s h
    simp only [lt_eqn]
    induction p with
    | nil => cases s with
      | nil => exact absurd rfl h
      | cons c cs => rfl
    | cons x xs ih => simpa [bytesLt] using ih

/-- C10: lists are compared at the first position where an element is before the other. -/
theorem C10_lists (a b : List Value) :
    lt (.list a) (.list b) = true ↔
    ∃ p p' s t, a = p ++ s ∧ b = p' ++ t ∧ p.length = p'.length ∧
      (∀ xy ∈ p.zip p', lt xy.1 xy.2 = false ∧ lt xy.2 xy.1 = false) ∧
      ((s = [] ∧ t ≠ []) ∨ ∃ x s' y t', s = x :: s' ∧ t = y :: t' ∧ lt x y = true) := by
  rw [show lt (.list a) (.list b) = vecLt lt a b from by simp only [lt_eqn]]
  induction a generalizing b with
  | nil =>
    constructor
    · intro h
      cases b with
      | nil => simp [vecLt] at h
      | cons y ys => exact ⟨[], [], [], y :: ys, rfl, rfl, rfl, by simp, .inl ⟨rfl, by simp⟩⟩
    · rintro ⟨p, p', s, t, h1, h2, h3, _, h5⟩
      have hp : p = [] ∧ s = [] := by simpa using h1.symm
      obtain ⟨rfl, rfl⟩ := hp
      have : p' = [] := by simpa using h3.symm
      subst this
      rcases h5 with h5 | ⟨x, s', y, t', h5, _⟩
      · cases b with
        | nil => exact absurd (by simpa using h2.symm) h5.2
        | cons _ _ => rfl
      · simp at h5
  | cons x xs ih =>
    cases b with
    | nil =>
      constructor
      · intro h; simp [vecLt] at h
      · rintro ⟨p, p', s, t, h1, h2, h3, _, h5⟩
        have hp : p' = [] ∧ t = [] := by simpa using h2.symm
        obtain ⟨rfl, rfl⟩ := hp
        rcases h5 with h5 | ⟨x, s', y, t', _, h5, _⟩
        · exact absurd rfl h5.2
        · simp at h5
    | cons y ys =>
      simp only [vecLt]
      constructor
      · intro h
        split at h
        · rename_i e
          exact ⟨[], [], x :: xs, y :: ys, rfl, rfl, rfl, by simp, .inr ⟨x, xs, y, ys, rfl, rfl, e⟩⟩
        · rename_i e
          split at h
          · simp at h
          · rename_i e2
            obtain ⟨p, p', s, t, h1, h2, h3, h4, h5⟩ := (ih ys).mp h
            refine ⟨x :: p, y :: p', s, t, by simp [h1], by simp [h2], by simp [h3], ?_, h5⟩
            intro xy hxy
            rcases List.mem_cons.mp hxy with rfl | hxy
            · exact ⟨by simpa using e, by simpa using e2⟩
            · exact h4 xy hxy
      · rintro ⟨p, p', s, t, h1, h2, h3, h4, h5⟩
        cases p with
        | nil =>
          have : p' = [] := by simpa using h3.symm
          subst this
          simp only [List.nil_append] at h1 h2
          rcases h5 with h5 | ⟨x', s', y', t', h5, h6, h7⟩
          · rw [h5.1] at h1; simp at h1
          · rw [h5] at h1; rw [h6] at h2
            simp only [List.cons.injEq] at h1 h2
            rw [if_pos (by rw [h1.1, h2.1]; exact h7)]
        | cons x' p =>
          cases p' with
          | nil => simp at h3
          | cons y' p' =>
            simp only [List.cons_append, List.cons.injEq] at h1 h2
            have := h4 (x', y') (by simp)
            simp only at this
            rw [← h1.1, ← h2.1] at this
            rw [this.1, this.2]
            exact (ih ys).mpr ⟨p, p', s, t, h1.2, h2.2, by simpa using h3, fun xy hxy => h4 xy (by simp [hxy]), h5⟩

/-- C10 fails on mixed integers and floats beyond 53 bits: two integers can be ordered although both
tie with one float. -/
theorem C10_float_violated :
    ¬ StrictWeakOrder lt (fun v => (∃ i, InI64 i ∧ v = .int i) ∨ ∃ q, F64.Representable q ∧ v = .float (.fin q)) := by
  intro h
  have := h.incomp_trans (.int 9007199254740992) (.float (.fin 9007199254740992)) (.int 9007199254740993)
    (.inl ⟨_, by decide, rfl⟩) (.inr ⟨9007199254740992, by decide +kernel, rfl⟩) (.inl ⟨_, by decide, rfl⟩)
    (by decide +kernel) (by decide +kernel) (by decide +kernel) (by decide +kernel)
  exact absurd this.1 (by decide +kernel)

/-- C10 fails when NaN is present: it ties with every number. -/
theorem C10_nan_violated : ¬ StrictWeakOrder lt (fun v => ∃ f, v = .float f) := by
  intro h
  have := h.incomp_trans (.float (.fin 1)) (.float .nan) (.float (.fin 2)) ⟨_, rfl⟩ ⟨_, rfl⟩ ⟨_, rfl⟩
    (by decide +kernel) (by decide +kernel) (by decide +kernel) (by decide +kernel)
  exact absurd this.1 (by decide +kernel)

/-- C10 fails on paths whose vertices have equal ids but different tags: such paths tie at the
start vertex, while paths with identical start vertices are ordered by their steps. -/
theorem C10_path_violated : ¬ StrictWeakOrder lt (fun v => ∃ p, v = .path p) := by
  intro h
  let t1 : Tag Value := ⟨ascii "a", []⟩
  let t2 : Tag Value := ⟨ascii "b", []⟩
  let s (i : Int) : Step Value := ⟨⟨.int i, []⟩, 1, ascii "e", 0, []⟩
  have := h.incomp_trans (.path ⟨⟨.int 0, [t1]⟩, [s 1]⟩) (.path ⟨⟨.int 0, [t2]⟩, [s 1]⟩)
    (.path ⟨⟨.int 0, [t1]⟩, [s 2]⟩) ⟨_, rfl⟩ ⟨_, rfl⟩ ⟨_, rfl⟩
    (by decide +kernel) (by decide +kernel) (by decide +kernel) (by decide +kernel)
  exact absurd this.1 (by decide +kernel)

/-- Witness for the hypotheses of `C10_strict_weak_order_partial`: an empty snapshot is consistent, and nested
lists with floats, vertices and paths are sortable. -/
example : Consistent (fun _ => []) := fun _ _ _ _ _ => rfl
example : Sortable true (fun _ => [])
    (.list [.list [.float (.fin (1/2)), .int 7], .vertex ⟨.int 1, []⟩,
      .path ⟨⟨.str [65], []⟩, [⟨⟨.str [66], []⟩, 1, [], 0, []⟩]⟩]) := by
  refine .mk trivial ?_
  intro x hx
  simp only [elems, List.mem_cons, List.not_mem_nil, or_false] at hx
  rcases hx with rfl | rfl | rfl
  · refine .mk trivial ?_
    intro y hy
    simp only [elems, List.mem_cons, List.not_mem_nil, or_false] at hy
    rcases hy with rfl | rfl
    · exact .mk ⟨rfl, by simp⟩ (by simp [elems])
    · exact .mk (fun _ => by decide) (by simp [elems])
  · exact .mk trivial (by simp [elems])
  · refine .mk ⟨⟨trivial, rfl⟩, ?_⟩ (by simp [elems])
    intro s hs
    simp only [List.mem_singleton] at hs
    subst hs; exact ⟨trivial, rfl⟩

end Value
end Nebula
