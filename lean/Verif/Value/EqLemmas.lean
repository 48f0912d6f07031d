import Verif.Value.OrderLemmas
import Mathlib.Data.List.Perm.Subperm
/-!
# Lemmas for C11: equality of vectors, maps, sets and graph types is an equivalence
-/
namespace Nebula
open Spec
namespace Value

theorem eqv_vec {α : Type} {eq : α → α → Bool} {S : α → Prop} (h : EquivalenceOn eq S) :
    EquivalenceOn (vecBeq eq) (fun l => ∀ x ∈ l, S x) := by
  constructor
  · intro a
    induction a with
    | nil => intro _; rfl
    | cons x xs ih => intro ha; simp [vecBeq, h.refl x (ha x (by simp)), ih (fun y hy => ha y (by simp [hy]))]
  · intro a
    induction a with
    | nil => intro b _ _ hab; cases b <;> simp_all [vecBeq]
    | cons x xs ih =>
      intro b ha hb hab
      cases b with
      | nil => simp [vecBeq] at hab
      | cons y ys =>
        simp only [vecBeq, Bool.and_eq_true] at hab ⊢
        exact ⟨h.symm x y (ha x (by simp)) (hb y (by simp)) hab.1,
          ih ys (fun z hz => ha z (by simp [hz])) (fun z hz => hb z (by simp [hz])) hab.2⟩
  · intro a
    induction a with
    | nil => intro b c _ _ _ hab hbc; cases b <;> simp_all [vecBeq]
    | cons x xs ih =>
      intro b c ha hb hc hab hbc
      cases b with
      | nil => simp [vecBeq] at hab
      | cons y ys =>
        cases c with
        | nil => simp [vecBeq] at hbc
        | cons z zs =>
          simp only [vecBeq, Bool.and_eq_true] at hab hbc ⊢
          exact ⟨h.trans x y z (ha x (by simp)) (hb y (by simp)) (hc z (by simp)) hab.1 hbc.1,
            ih ys zs (fun z hz => ha z (by simp [hz])) (fun z hz => hb z (by simp [hz]))
              (fun z hz => hc z (by simp [hz])) hab.2 hbc.2⟩

/-! ### maps -/

def keys {V : Type} (m : Props V) : List Bytes := m.map Prod.fst

theorem lookup_isSome_iff {V : Type} (m : Props V) (k : Bytes) : (m.lookup k).isSome = true ↔ k ∈ keys m := by
  induction m with
  | nil => simp [keys]
  | cons x xs ih =>
    obtain ⟨k', v⟩ := x
    simp only [List.lookup, keys, List.map_cons, List.mem_cons]
    split
    · rename_i h; simp at h; simp [h]
    · rename_i h
      simp at h
      rw [ih]; simp [keys, h]

theorem lookup_of_mem {V : Type} {m : Props V} (hn : (keys m).Nodup) {k : Bytes} {v : V} (h : (k, v) ∈ m) :
    m.lookup k = some v := by
  induction m with
  | nil => simp at h
  | cons x xs ih =>
    obtain ⟨k', v'⟩ := x
    simp only [keys, List.map_cons, List.nodup_cons] at hn
    rcases List.mem_cons.mp h with h | h
    · cases h; simp [List.lookup]
    · have : k ≠ k' := by
        rintro rfl
        exact hn.1 (List.mem_map_of_mem (f := Prod.fst) (l := xs) (by assumption))
      simp only [List.lookup]
      have hb : (k == k') = false := by simpa using this
      rw [hb]
      exact ih hn.2 h

theorem mem_of_lookup {V : Type} {m : Props V} {k : Bytes} {v : V} (h : m.lookup k = some v) : (k, v) ∈ m := by
  induction m with
  | nil => simp at h
  | cons x xs ih =>
    obtain ⟨k', v'⟩ := x
    simp only [List.lookup] at h
    split at h
    · rename_i e; simp at e; subst e; cases h; simp
    · exact List.mem_cons_of_mem _ (ih h)

/-- Same keys, equal values. -/
def SameMap {V : Type} (eq : V → V → Bool) (a b : Props V) : Prop :=
  ∀ k, match a.lookup k, b.lookup k with
    | none, none => True
    | some v, some w => eq v w = true
    | _, _ => False

theorem mapBeq_iff {V : Type} {eq : V → V → Bool} {a b : Props V} (ha : (keys a).Nodup) (hb : (keys b).Nodup) :
    mapBeq eq a b = true ↔ SameMap eq a b := by
  unfold mapBeq SameMap
  simp only [Bool.and_eq_true, beq_iff_eq, List.all_eq_true]
  constructor
  · rintro ⟨hlen, hall⟩ k
    have hsub : keys a ⊆ keys b := by
      intro k hk
      obtain ⟨kv, hkv, rfl⟩ := List.mem_map.mp hk
      have := hall kv hkv
      rw [← lookup_isSome_iff]
      cases h : b.lookup kv.1 with
      | none => simp [h] at this
      | some w => rfl
    have hperm : (keys a).Perm (keys b) :=
      (List.subperm_of_subset ha hsub).perm_of_length_le (by simp [keys, hlen])
    cases h1 : a.lookup k with
    | none =>
      cases h2 : b.lookup k with
      | none => trivial
      | some w =>
        have : k ∈ keys b := (lookup_isSome_iff b k).mp (by simp [h2])
        have := (lookup_isSome_iff a k).mpr (hperm.mem_iff.mpr this)
        simp [h1] at this
    | some v =>
      have := hall (k, v) (mem_of_lookup h1)
      cases h2 : b.lookup k with
      | none => simp [h2] at this
      | some w => simpa [h2] using this
  · intro h
    have hkeys : ∀ k, k ∈ keys a ↔ k ∈ keys b := by
      intro k
      rw [← lookup_isSome_iff, ← lookup_isSome_iff]
      have := h k
      cases h1 : a.lookup k <;> cases h2 : b.lookup k <;> simp_all
    have hperm : (keys a).Perm (keys b) := (List.perm_ext_iff_of_nodup ha hb).mpr hkeys
    constructor
    · have := hperm.length_eq; simpa [keys] using this
    · rintro ⟨k, v⟩ hkv
      have h1 := lookup_of_mem ha hkv
      have := h k
      rw [h1] at this
      cases h2 : b.lookup k with
      | none => simp [h2] at this
      | some w => simpa [h2] using this

/-- Condition on a property map: distinct keys, values in `S`. -/
def MapIn (S : Value → Prop) (m : Props Value) : Prop := (keys m).Nodup ∧ ∀ kv ∈ m, S kv.2

theorem eqv_map {eq : Value → Value → Bool} {S : Value → Prop} (h : EquivalenceOn eq S) :
    EquivalenceOn (mapBeq eq) (MapIn S) := by
  have hin : ∀ {m : Props Value} {k v}, MapIn S m → m.lookup k = some v → S v :=
    fun hm hl => hm.2 _ (mem_of_lookup hl)
  constructor
  · intro a ha
    rw [mapBeq_iff ha.1 ha.1]
    intro k
    cases h1 : a.lookup k with
    | none => trivial
    | some v => exact h.refl v (hin ha h1)
  · intro a b ha hb
    rw [mapBeq_iff ha.1 hb.1, mapBeq_iff hb.1 ha.1]
    intro hab k
    have := hab k
    cases h1 : a.lookup k <;> cases h2 : b.lookup k <;> simp_all
    exact h.symm _ _ (hin ha h1) (hin hb h2) this
  · intro a b c ha hb hc
    rw [mapBeq_iff ha.1 hb.1, mapBeq_iff hb.1 hc.1, mapBeq_iff ha.1 hc.1]
    intro hab hbc k
    have t1 := hab k
    have t2 := hbc k
    cases h1 : a.lookup k <;> cases h2 : b.lookup k <;> cases h3 : c.lookup k <;> simp_all
    exact h.trans _ _ _ (hin ha h1) (hin hb h2) (hin hc h3) t1 t2

/-! ### sets -/

theorem matched {eq : Value → Value → Bool} {S : Value → Prop} (h : EquivalenceOn eq S) :
    ∀ (a b : List Value), (∀ x ∈ a, S x) → (∀ x ∈ b, S x) → a.Pairwise (fun x y => eq x y = false) →
      (∀ x ∈ a, ∃ y ∈ b, eq x y = true) →
      a.length ≤ b.length ∧ (b.length ≤ a.length → ∀ y ∈ b, ∃ x ∈ a, eq x y = true)
  | [], b, _, _, _, _ => ⟨by simp, fun hl y hy => by
      have : b = [] := by simpa using hl
      subst this; simp at hy⟩
  | x :: xs, b, ha, hb, hp, hm => by
    obtain ⟨y, hy, hxy⟩ := hm x (by simp)
    obtain ⟨l, r, rfl⟩ := List.append_of_mem hy
    have hsub : ∀ z ∈ l ++ r, z ∈ l ++ y :: r := by
      intro z hz
      simp only [List.mem_append, List.mem_cons] at hz ⊢
      rcases hz with hz | hz <;> simp [hz]
    have hpx := List.pairwise_cons.mp hp
    have hrec := matched h xs (l ++ r) (fun z hz => ha z (by simp [hz])) (fun z hz => hb z (hsub z hz)) hpx.2 (by
      intro x' hx'
      obtain ⟨y', hy', hxy'⟩ := hm x' (by simp [hx'])
      simp only [List.mem_append, List.mem_cons] at hy'
      rcases hy' with hy' | rfl | hy'
      · exact ⟨y', by simp [hy'], hxy'⟩
      · have hs := hb y' (by simp)
        have hxs := ha x (by simp)
        have hxs' := ha x' (by simp [hx'])
        have := h.trans x y' x' hxs hs hxs' hxy (h.symm _ _ hxs' hs hxy')
        rw [hpx.1 x' hx'] at this
        simp at this
      · exact ⟨y', by simp [hy'], hxy'⟩)
    constructor
    · have := hrec.1; simp only [List.length_append, List.length_cons] at this ⊢; omega
    · intro hl z hz
      have hl' : (l ++ r).length ≤ xs.length := by
        simp only [List.length_append, List.length_cons] at hl ⊢; omega
      simp only [List.mem_append, List.mem_cons] at hz
      rcases hz with hz | rfl | hz
      · obtain ⟨w, hw, e⟩ := hrec.2 hl' z (by simp [hz]); exact ⟨w, by simp [hw], e⟩
      · exact ⟨x, by simp, hxy⟩
      · obtain ⟨w, hw, e⟩ := hrec.2 hl' z (by simp [hz]); exact ⟨w, by simp [hw], e⟩

/-- Condition on a set: pairwise different elements in `S`. -/
def SetIn (eq : Value → Value → Bool) (S : Value → Prop) (a : List Value) : Prop :=
  a.Pairwise (fun x y => eq x y = false) ∧ ∀ x ∈ a, S x

theorem setBeq_iff {eq : Value → Value → Bool} {S : Value → Prop} (h : EquivalenceOn eq S) {a b : List Value}
    (ha : SetIn eq S a) (hb : SetIn eq S b) :
    setBeq eq a b = true ↔ (∀ x ∈ a, ∃ y ∈ b, eq x y = true) ∧ (∀ y ∈ b, ∃ x ∈ a, eq y x = true) := by
  unfold setBeq
  simp only [Bool.and_eq_true, beq_iff_eq, List.all_eq_true, List.any_eq_true]
  constructor
  · rintro ⟨hl, hm⟩
    refine ⟨hm, fun y hy => ?_⟩
    obtain ⟨x, hx, e⟩ := (matched h a b ha.2 hb.2 ha.1 hm).2 (by omega) y hy
    exact ⟨x, hx, h.symm x y (ha.2 x hx) (hb.2 y hy) e⟩
  · rintro ⟨h1, h2⟩
    have l1 := (matched h a b ha.2 hb.2 ha.1 h1).1
    have l2 := (matched h b a hb.2 ha.2 hb.1 h2).1
    exact ⟨by omega, h1⟩

theorem eqv_set {eq : Value → Value → Bool} {S : Value → Prop} (h : EquivalenceOn eq S) :
    EquivalenceOn (setBeq eq) (SetIn eq S) := by
  constructor
  · intro a ha
    rw [setBeq_iff h ha ha]
    exact ⟨fun x hx => ⟨x, hx, h.refl x (ha.2 x hx)⟩, fun x hx => ⟨x, hx, h.refl x (ha.2 x hx)⟩⟩
  · intro a b ha hb
    rw [setBeq_iff h ha hb, setBeq_iff h hb ha]
    exact fun h => ⟨h.2, h.1⟩
  · intro a b c ha hb hc
    rw [setBeq_iff h ha hb, setBeq_iff h hb hc, setBeq_iff h ha hc]
    rintro ⟨p1, p2⟩ ⟨q1, q2⟩
    constructor
    · intro x hx
      obtain ⟨y, hy, e1⟩ := p1 x hx
      obtain ⟨z, hz, e2⟩ := q1 y hy
      exact ⟨z, hz, h.trans x y z (ha.2 x hx) (hb.2 y hy) (hc.2 z hz) e1 e2⟩
    · intro z hz
      obtain ⟨y, hy, e1⟩ := q2 z hz
      obtain ⟨x, hx, e2⟩ := p2 y hy
      exact ⟨x, hx, h.trans z y x (hc.2 z hz) (hb.2 y hy) (ha.2 x hx) e1 e2⟩

/-! ### graph types -/

theorem eqv_comap {α β : Type} {eq : β → β → Bool} {S : α → Prop} {T : β → Prop} (h : EquivalenceOn eq T)
    (f : α → β) (hf : ∀ a, S a → T (f a)) : EquivalenceOn (fun a b => eq (f a) (f b)) S :=
  ⟨fun a ha => h.refl _ (hf a ha), fun a b ha hb => h.symm _ _ (hf a ha) (hf b hb),
   fun a b c ha hb hc => h.trans _ _ _ (hf a ha) (hf b hb) (hf c hc)⟩

theorem eqv_and {α : Type} {e1 e2 : α → α → Bool} {S : α → Prop} (h1 : EquivalenceOn e1 S) (h2 : EquivalenceOn e2 S) :
    EquivalenceOn (fun a b => e1 a b && e2 a b) S := by
  constructor
  · intro a ha; simp [h1.refl a ha, h2.refl a ha]
  · intro a b ha hb; simp only [Bool.and_eq_true]
    exact fun h => ⟨h1.symm a b ha hb h.1, h2.symm a b ha hb h.2⟩
  · intro a b c ha hb hc; simp only [Bool.and_eq_true]
    exact fun h h' => ⟨h1.trans a b c ha hb hc h.1 h'.1, h2.trans a b c ha hb hc h.2 h'.2⟩

theorem eqv_beq {α : Type} [BEq α] [LawfulBEq α] (S : α → Prop) : EquivalenceOn (fun a b : α => a == b) S :=
  ⟨fun a _ => by simp, fun a b _ _ h => by simp at *; exact h.symm, fun a b c _ _ _ h h' => by simp at *; exact h.trans h'⟩

def TagIn (S : Value → Prop) (t : Tag Value) : Prop := MapIn S t.props
def VertexIn (S : Value → Prop) (v : Vertex Value) : Prop := S v.vid ∧ ∀ t ∈ v.tags, TagIn S t
def EdgeIn (S : Value → Prop) (e : Edge Value) : Prop := S e.src ∧ S e.dst ∧ MapIn S e.props
def StepIn (S : Value → Prop) (s : Step Value) : Prop := VertexIn S s.dst ∧ MapIn S s.props
def PathIn (S : Value → Prop) (p : Path Value) : Prop := VertexIn S p.src ∧ ∀ s ∈ p.steps, StepIn S s

theorem eqv_tag {eq : Value → Value → Bool} {S : Value → Prop} (h : EquivalenceOn eq S) :
    EquivalenceOn (Tag.beq eq) (TagIn S) :=
  eqv_and (eqv_comap (eqv_beq (fun _ => True)) (fun t : Tag Value => t.name) (fun _ _ => trivial))
    (eqv_comap (eqv_map h) (fun t : Tag Value => t.props) (fun _ h => h))

theorem eqv_vertex {eq : Value → Value → Bool} {S : Value → Prop} (h : EquivalenceOn eq S) :
    EquivalenceOn (Vertex.beq eq) (VertexIn S) :=
  eqv_and (eqv_comap h (fun t : Vertex Value => t.vid) (fun _ h => h.1))
    (eqv_comap (eqv_vec (eqv_tag h)) (fun t : Vertex Value => t.tags) (fun _ h => h.2))

theorem eqv_step {eq : Value → Value → Bool} {S : Value → Prop} (h : EquivalenceOn eq S) :
    EquivalenceOn (Step.beq eq) (StepIn S) :=
  eqv_and (eqv_and (eqv_and (eqv_and
    (eqv_comap (eqv_vertex h) (fun t : Step Value => t.dst) (fun _ h => h.1))
    (eqv_comap (eqv_beq (fun _ => True)) (fun t : Step Value => t.type) (fun _ _ => trivial)))
    (eqv_comap (eqv_beq (fun _ => True)) (fun t : Step Value => t.name) (fun _ _ => trivial)))
    (eqv_comap (eqv_beq (fun _ => True)) (fun t : Step Value => t.ranking) (fun _ _ => trivial)))
    (eqv_comap (eqv_map h) (fun t : Step Value => t.props) (fun _ h => h.2))

theorem eqv_path {eq : Value → Value → Bool} {S : Value → Prop} (h : EquivalenceOn eq S) :
    EquivalenceOn (Path.beq eq) (PathIn S) :=
  eqv_and (eqv_comap (eqv_vertex h) (fun t : Path Value => t.src) (fun _ h => h.1))
    (eqv_comap (eqv_vec (eqv_step h)) (fun t : Path Value => t.steps) (fun _ h => h.2))

/-- `Edge.beq` spelled out. -/
theorem edge_beq_iff {V : Type} (eq : V → V → Bool) (a b : Edge V) : Edge.beq eq a b = true ↔
    (a.ranking = b.ranking ∧ mapBeq eq a.props b.props = true) ∧
    ((a.type = b.type ∧ eq a.src b.src = true ∧ eq a.dst b.dst = true) ∨
     (a.type ≠ b.type ∧ a.type = -b.type ∧ eq a.src b.dst = true ∧ eq a.dst b.src = true)) := by
  unfold Edge.beq
  by_cases h1 : a.type = b.type
  · simp [h1]; tauto
  · by_cases h2 : a.type = -b.type
    · have : ¬ (-b.type = b.type) := fun h => h1 (h2.trans h)
      simp [h2, this]; tauto
    · simp [h1, h2]

theorem eqv_edge {eq : Value → Value → Bool} {S : Value → Prop} (h : EquivalenceOn eq S) :
    EquivalenceOn (Edge.beq eq) (EdgeIn S) := by
  constructor
  · intro a ha
    rw [edge_beq_iff]
    exact ⟨⟨rfl, (eqv_map h).refl _ ha.2.2⟩, .inl ⟨rfl, h.refl _ ha.1, h.refl _ ha.2.1⟩⟩
  · intro a b ha hb
    rw [edge_beq_iff, edge_beq_iff]
    rintro ⟨⟨h1, h2⟩, h3⟩
    refine ⟨⟨h1.symm, (eqv_map h).symm _ _ ha.2.2 hb.2.2 h2⟩, ?_⟩
    rcases h3 with ⟨t, s, d⟩ | ⟨n, t, s, d⟩
    · exact .inl ⟨t.symm, h.symm _ _ ha.1 hb.1 s, h.symm _ _ ha.2.1 hb.2.1 d⟩
    · exact .inr ⟨Ne.symm n, by omega, h.symm _ _ ha.2.1 hb.1 d, h.symm _ _ ha.1 hb.2.1 s⟩
  · intro a b c ha hb hc
    rw [edge_beq_iff, edge_beq_iff, edge_beq_iff]
    rintro ⟨⟨h1, h2⟩, h3⟩ ⟨⟨g1, g2⟩, g3⟩
    refine ⟨⟨h1.trans g1, (eqv_map h).trans _ _ _ ha.2.2 hb.2.2 hc.2.2 h2 g2⟩, ?_⟩
    rcases h3 with ⟨t, s, d⟩ | ⟨n, t, s, d⟩ <;> rcases g3 with ⟨t', s', d'⟩ | ⟨n', t', s', d'⟩
    · exact .inl ⟨t.trans t', h.trans _ _ _ ha.1 hb.1 hc.1 s s', h.trans _ _ _ ha.2.1 hb.2.1 hc.2.1 d d'⟩
    · exact .inr ⟨by omega, by omega, h.trans _ _ _ ha.1 hb.1 hc.2.1 s s', h.trans _ _ _ ha.2.1 hb.2.1 hc.1 d d'⟩
    · exact .inr ⟨by omega, by omega, h.trans _ _ _ ha.1 hb.2.1 hc.2.1 s d', h.trans _ _ _ ha.2.1 hb.1 hc.1 d s'⟩
    · exact .inl ⟨by omega, h.trans _ _ _ ha.1 hb.2.1 hc.1 s d', h.trans _ _ _ ha.2.1 hb.1 hc.2.1 d s'⟩

end Value
end Nebula
