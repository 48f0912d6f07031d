import Verif.Value.EqLemmas
import Verif.Value.OrderProps
import Verif.Value.Graph
/-!
# C11 (equality, hash, order), C12 (three-valued comparison), C17 (edges)
-/
namespace Nebula
open Spec
namespace Value

/-- Condition on one value for `Plain`: no float; map keys are distinct and set elements pairwise
different, as in every `std::unordered_map` and `std::unordered_set`; edge types can be negated in
`int32_t`. -/
def PlainHere : Value → Prop
  | .float _ => False
  | .vertex v => ∀ t ∈ v.tags, (keys t.props).Nodup
  | .edge e => (keys e.props).Nodup ∧ -2147483647 ≤ e.type ∧ e.type ≤ 2147483647
  | .path p => (∀ t ∈ p.src.tags, (keys t.props).Nodup) ∧
      ∀ s ∈ p.steps, (∀ t ∈ s.dst.tags, (keys t.props).Nodup) ∧ (keys s.props).Nodup
  | .map kvs => (keys kvs).Nodup
  | .set vs => vs.Pairwise (fun x y => beq x y = false)
  | _ => True

/-- Values without floats at any depth. -/
def Plain : Value → Prop := HeredBy children PlainHere

theorem mapIn_of {S : Value → Prop} {m : Props Value} (hn : (keys m).Nodup) (h : ∀ x ∈ m.map Prod.snd, S x) :
    MapIn S m := ⟨hn, fun kv hkv => h kv.2 (List.mem_map.mpr ⟨kv, hkv, rfl⟩)⟩

theorem vertexIn_of {S : Value → Prop} {v : Vertex Value} (hn : ∀ t ∈ v.tags, (keys t.props).Nodup)
    (h : ∀ x ∈ v.vid :: v.tags.flatMap (fun t => t.props.map Prod.snd), S x) : VertexIn S v :=
  ⟨h _ (by simp), fun t ht => mapIn_of (hn t ht) fun x hx =>
    h x (List.mem_cons_of_mem _ (List.mem_flatMap.mpr ⟨t, ht, hx⟩))⟩

theorem pathIn_of {S : Value → Prop} {p : Path Value} (hn : PlainHere (.path p))
    (h : ∀ x ∈ (Value.path p).children, S x) : PathIn S p := by
  simp only [children, List.mem_append, List.mem_flatMap] at h
  refine ⟨vertexIn_of hn.1 fun x hx => h x (.inl hx), fun s hs => ?_⟩
  exact ⟨vertexIn_of (hn.2 s hs).1 fun x hx => h x (.inr ⟨s, hs, .inl hx⟩),
    mapIn_of (hn.2 s hs).2 fun x hx => h x (.inr ⟨s, hs, .inr hx⟩)⟩

theorem edgeIn_of {S : Value → Prop} {e : Edge Value} (hn : (keys e.props).Nodup)
    (h : ∀ x ∈ (Value.edge e).children, S x) : EdgeIn S e := by
  simp only [children] at h
  exact ⟨h _ (by simp), h _ (by simp), mapIn_of hn fun x hx => h x (by simp only [List.mem_cons]; exact .inr (.inr hx))⟩

theorem rowsIn_of {S : Value → Prop} {rows : List (List Value)} (h : ∀ x ∈ rows.flatten, S x) :
    ∀ r ∈ rows, ∀ x ∈ r, S x := fun r hr x hx => h x (List.mem_flatten.mpr ⟨r, hr, hx⟩)

/-- C11: equality is an equivalence relation on values of any nesting that contain no float. -/
theorem C11_equivalence_partial : EquivalenceOn beq Plain := by
  apply EquivalenceOn.hered
  intro S h
  have hrow := eqv_vec (eqv_vec h)
  constructor
  · rintro a ⟨ha, ka⟩
    cases a <;> simp only [PlainHere] at ha <;> simp only [beq_eqn, beq_self_eq_true]
    case date => exact (C03_date_order.1.eq_sound _ _).mpr rfl
    case time => exact (C03_time_order.1.eq_sound _ _).mpr rfl
    case datetime => exact (C03_datetime_order.1.eq_sound _ _).mpr rfl
    case vertex => exact (eqv_vertex h).refl _ (vertexIn_of ha ka)
    case edge => exact (eqv_edge h).refl _ (edgeIn_of ha.1 ka)
    case path => exact (eqv_path h).refl _ (pathIn_of ha ka)
    case list => exact (eqv_vec h).refl _ ka
    case map => exact (eqv_map h).refl _ (mapIn_of ha ka)
    case set => exact (eqv_set h).refl _ ⟨ha, ka⟩
    case dataset => simpa using hrow.refl _ (rowsIn_of ka)
  · rintro a b ⟨ha, ka⟩ ⟨hb, kb⟩
    cases a <;> simp only [PlainHere] at ha <;> cases b <;> simp only [PlainHere] at hb <;>
      simp only [beq_eqn]
    case date.date =>
      simp only [C03_date_order.1.eq_sound]; exact Eq.symm
    case time.time =>
      simp only [C03_time_order.1.eq_sound]; exact Eq.symm
    case datetime.datetime =>
      simp only [C03_datetime_order.1.eq_sound]; exact Eq.symm
    case vertex.vertex => exact (eqv_vertex h).symm _ _ (vertexIn_of ha ka) (vertexIn_of hb kb)
    case edge.edge => exact (eqv_edge h).symm _ _ (edgeIn_of ha.1 ka) (edgeIn_of hb.1 kb)
    case path.path => exact (eqv_path h).symm _ _ (pathIn_of ha ka) (pathIn_of hb kb)
    case list.list => exact (eqv_vec h).symm _ _ ka kb
    case map.map => exact (eqv_map h).symm _ _ (mapIn_of ha ka) (mapIn_of hb kb)
    case set.set => exact (eqv_set h).symm _ _ ⟨ha, ka⟩ ⟨hb, kb⟩
    case dataset.dataset =>
      simp only [Bool.and_eq_true, beq_iff_eq]
      exact fun e => ⟨e.1.symm, hrow.symm _ _ (rowsIn_of ka) (rowsIn_of kb) e.2⟩
    all_goals (simp [typeFlag]; try exact Eq.symm)
  · rintro a b c ⟨ha, ka⟩ ⟨hb, kb⟩ ⟨hc, kc⟩ hab hbc
    have t1 : typeFlag a = typeFlag b := by
      cases a <;> simp only [PlainHere] at ha <;> cases b <;> simp only [PlainHere] at hb <;>
        first | rfl | simp [beq_eqn, typeFlag] at hab
    have t2 : typeFlag b = typeFlag c := by
      cases b <;> simp only [PlainHere] at hb <;> cases c <;> simp only [PlainHere] at hc <;>
        first | rfl | simp [beq_eqn, typeFlag] at hbc
    cases a <;> simp only [PlainHere] at ha <;> cases b <;> simp [typeFlag] at t1 <;>
      cases c <;> simp [typeFlag] at t2 <;> simp only [PlainHere] at hb hc <;>
      simp only [beq_eqn] at hab hbc ⊢
    case date =>
      simp only [C03_date_order.1.eq_sound] at hab hbc ⊢; exact hab.trans hbc
    case time =>
      simp only [C03_time_order.1.eq_sound] at hab hbc ⊢; exact hab.trans hbc
    case datetime =>
      simp only [C03_datetime_order.1.eq_sound] at hab hbc ⊢; exact hab.trans hbc
    case vertex =>
      exact (eqv_vertex h).trans _ _ _ (vertexIn_of ha ka) (vertexIn_of hb kb) (vertexIn_of hc kc) hab hbc
    case edge => exact (eqv_edge h).trans _ _ _ (edgeIn_of ha.1 ka) (edgeIn_of hb.1 kb) (edgeIn_of hc.1 kc) hab hbc
    case path => exact (eqv_path h).trans _ _ _ (pathIn_of ha ka) (pathIn_of hb kb) (pathIn_of hc kc) hab hbc
    case list => exact (eqv_vec h).trans _ _ _ ka kb kc hab hbc
    case map => exact (eqv_map h).trans _ _ _ (mapIn_of ha ka) (mapIn_of hb kb) (mapIn_of hc kc) hab hbc
    case set => exact (eqv_set h).trans _ _ _ ⟨ha, ka⟩ ⟨hb, kb⟩ ⟨hc, kc⟩ hab hbc
    case dataset =>
      simp only [Bool.and_eq_true, beq_iff_eq] at hab hbc ⊢
      exact ⟨hab.1.trans hbc.1, hrow.trans _ _ _ (rowsIn_of ka) (rowsIn_of kb) (rowsIn_of kc) hab.2 hbc.2⟩
    all_goals first | rfl | (simp only [beq_iff_eq] at *; exact hab.trans hbc) | trivial | simp_all [typeFlag]

/-- C11: what equality means on the scalars and collections without floats. -/
theorem C11_meaning :
    (∀ a b, beq (.bool a) (.bool b) = true ↔ a = b) ∧ (∀ a b, beq (.int a) (.int b) = true ↔ a = b) ∧
    (∀ a b, beq (.str a) (.str b) = true ↔ a = b) ∧ (∀ a b, beq (.date a) (.date b) = true ↔ a = b) ∧
    (∀ a b, beq (.time a) (.time b) = true ↔ a = b) ∧ (∀ a b, beq (.datetime a) (.datetime b) = true ↔ a = b) ∧
    (∀ m n, beq (.null m) (.null n) = true) ∧
    (∀ a b, beq (.list a) (.list b) = true ↔ List.Forall₂ (fun x y => beq x y = true) a b) ∧
    (∀ a b, (keys a).Nodup → (keys b).Nodup → (beq (.map a) (.map b) = true ↔
      ∀ k, (∀ v, (k, v) ∈ a → ∃ w, (k, w) ∈ b ∧ beq v w = true) ∧ (k ∈ keys b → k ∈ keys a))) ∧
    (∀ a b, typeFlag a ≠ typeFlag b → ¬ (isNumeric a = true ∧ isNumeric b = true) → beq a b = false) := by
  refine ⟨?_, ?_, ?_, ?_, ?_, ?_, ?_, ?_, ?_, ?_⟩
  · intro a b; simp [beq_eqn]
  · intro a b; simp [beq_eqn]
  · intro a b; simp [beq_eqn]
  · intro a b; simp only [beq_eqn]; exact C03_date_order.1.eq_sound a b
  · intro a b; simp only [beq_eqn]; exact C03_time_order.1.eq_sound a b
  · intro a b; simp only [beq_eqn]; exact C03_datetime_order.1.eq_sound a b
  · intro m n; simp [beq_eqn, typeFlag]
  · intro a b
    rw [show beq (.list a) (.list b) = vecBeq beq a b from by simp only [beq_eqn]]
    induction a generalizing b with
    | nil => cases b <;> simp [vecBeq]
    | cons x xs ih => cases b <;> simp [vecBeq, ih]
  · intro a b ha hb
    rw [show beq (.map a) (.map b) = mapBeq beq a b from by simp only [beq_eqn], mapBeq_iff ha hb]
    constructor
    · intro h k
      have hk := h k
      constructor
      · intro v hv
        rw [lookup_of_mem ha hv] at hk
        cases h2 : b.lookup k with
        | none => simp [h2] at hk
        | some w => rw [h2] at hk; exact ⟨w, mem_of_lookup h2, hk⟩
      · intro hkb
        rw [← lookup_isSome_iff] at hkb ⊢
        cases h1 : a.lookup k <;> cases h2 : b.lookup k <;> simp_all
    · intro h k
      obtain ⟨h1, h2⟩ := h k
      cases e1 : a.lookup k with
      | none =>
        cases e2 : b.lookup k with
        | none => trivial
        | some w =>
          have := h2 ((lookup_isSome_iff b k).mp (by simp [e2]))
          rw [← lookup_isSome_iff, e1] at this; simp at this
      | some v =>
        obtain ⟨w, hw, e⟩ := h1 v (mem_of_lookup e1)
        rw [lookup_of_mem hb hw]; exact e
  · intro a b h1 h2
    cases a <;> cases b <;> first | exact absurd rfl h1 | exact absurd ⟨rfl, rfl⟩ h2 | simp [beq_eqn, typeFlag]

/-! ### hash -/

/-- Ids whose text is determined by equality: scalars other than floats and NULL. -/
def IsId : Value → Prop
  | .empty | .bool _ | .int _ | .str _ | .date _ | .time _ | .datetime _ => True
  | _ => False

/-- Condition for hashing: ids of vertices, edges and path vertices are scalars. -/
def HashableHere : Value → Prop
  | .float _ => False
  | .vertex v => IsId v.vid
  | .edge e => IsId e.src ∧ IsId e.dst ∧ e.type ≠ -2147483648
  | .path p => IsId p.src.vid ∧ ∀ s ∈ p.steps, IsId s.dst.vid
  | _ => True

def Hashable : Value → Prop := HeredBy elems HashableHere

theorem isId_eq {x y : Value} (hx : IsId x) (hy : IsId y) (h : beq x y = true) : x = y := by
  cases x <;> simp only [IsId] at hx <;> cases y <;> simp only [IsId] at hy <;>
    simp only [beq_eqn, typeFlag] at h
  case date.date => rw [(C03_date_order.1.eq_sound _ _).mp h]
  case time.time => rw [(C03_time_order.1.eq_sound _ _).mp h]
  case datetime.datetime => rw [(C03_datetime_order.1.eq_sound _ _).mp h]
  all_goals simp_all

theorem vertex_hash_eq (H : HashFns) {a b : Vertex Value} (ha : IsId a.vid) (hb : IsId b.vid)
    (h : Vertex.beq beq a b = true) : a.hash H = b.hash H := by
  simp only [Vertex.beq, Bool.and_eq_true] at h
  have hv := isId_eq ha hb h.1
  unfold Vertex.hash
  rw [hv]
  have : ∀ (s t : List (Tag Value)) (x : UInt64), vecBeq (Tag.beq beq) s t = true →
      s.foldl (fun hv t => mix hv ^^^ H.fnv t.name H.fnvStart) x =
      t.foldl (fun hv t => mix hv ^^^ H.fnv t.name H.fnvStart) x := by
    intro s
    induction s with
    | nil => intro t x h; cases t <;> simp_all [vecBeq]
    | cons y ys ih =>
      intro t x h
      cases t with
      | nil => simp [vecBeq] at h
      | cons z zs =>
        simp only [vecBeq, Bool.and_eq_true, Tag.beq, beq_iff_eq] at h
        simp only [List.foldl_cons, h.1.1]
        exact ih zs _ h.2
  exact this _ _ _ h.2

theorem edge_hash_eq (H : HashFns) {a b : Edge Value} (ha : IsId a.src ∧ IsId a.dst) (hb : IsId b.src ∧ IsId b.dst)
    (h : Edge.beq beq a b = true) : a.hash H = b.hash H := by
  rw [edge_beq_iff] at h
  obtain ⟨⟨h1, _⟩, h3⟩ := h
  unfold Edge.hash
  rcases h3 with ⟨t, s, d⟩ | ⟨n, t, s, d⟩
  · rw [isId_eq ha.1 hb.1 s, isId_eq ha.2 hb.2 d, t, h1]
  · rw [isId_eq ha.1 hb.2 s, isId_eq ha.2 hb.1 d, h1]
    by_cases hp : a.type > 0
    · have : ¬ b.type > 0 := by omega
      have ht : a.type = -b.type := t
      simp only [hp, this, if_true, if_false]
      rw [ht]
    · have : b.type > 0 := by omega
      have ht : -a.type = b.type := by omega
      simp only [hp, this, if_true, if_false, ht]

/-- C11: equal values have equal hashes, whatever the library hash functions (values without
floats, with scalar ids). -/
theorem C11_hash_partial (H : HashFns) (a b : Value) (ha : Hashable a) (hb : Hashable b)
    (h : beq a b = true) : hash H a = hash H b := by
  induction ha generalizing b with
  | @mk a hp _ ih =>
    cases hb with
    | mk hq kb =>
    cases a <;> simp only [HashableHere] at hp <;> cases b <;> simp only [HashableHere] at hq <;>
      simp only [beq_eqn] at h <;> try (simp [typeFlag] at h; done)
    case date.date => rw [(C03_date_order.1.eq_sound _ _).mp h]
    case time.time => rw [(C03_time_order.1.eq_sound _ _).mp h]
    case datetime.datetime => rw [(C03_datetime_order.1.eq_sound _ _).mp h]
    case vertex.vertex => simp only [hash, vertex_hash_eq H hp hq h]
    case edge.edge => simp only [hash, edge_hash_eq H ⟨hp.1, hp.2.1⟩ ⟨hq.1, hq.2.1⟩ h]
    case path.path p q =>
      simp only [Path.beq, Bool.and_eq_true] at h
      simp only [hash, Path.hash, vertex_hash_eq H hp.1 hq.1 h.1, Option.some.injEq]
      have : ∀ (s t : List (Step Value)) (x : UInt64), (∀ y ∈ s, IsId y.dst.vid) → (∀ y ∈ t, IsId y.dst.vid) →
          vecBeq (Step.beq beq) s t = true →
          s.foldl (fun hv s => mix hv ^^^ s.hash H) x = t.foldl (fun hv s => mix hv ^^^ s.hash H) x := by
        intro s
        induction s with
        | nil => intro t x _ _ h; cases t <;> simp_all [vecBeq]
        | cons y ys ihs =>
          intro t x hs ht h
          cases t with
          | nil => simp [vecBeq] at h
          | cons z zs =>
            simp only [vecBeq, Bool.and_eq_true, Step.beq, beq_iff_eq] at h
            have e : y.hash H = z.hash H := by
              unfold Step.hash
              rw [vertex_hash_eq H (hs y (by simp)) (ht z (by simp)) h.1.1.1.1.1, h.1.1.1.1.2, h.1.1.2]
            simp only [List.foldl_cons, e]
            exact ihs zs _ (fun w hw => hs w (by simp [hw])) (fun w hw => ht w (by simp [hw])) h.2
      exact this _ _ _ hp.2 hq.2 h.2
    case list.list as bs =>
      simp only [elems] at ih kb
      simp only [hash]
      have : ∀ (s t : List Value) (x : UInt64), (∀ y ∈ s, ∀ z, Hashable z → beq y z = true → hash H y = hash H z) →
          (∀ z ∈ t, Hashable z) → vecBeq beq s t = true → hashList H x s = hashList H x t := by
        intro s
        induction s with
        | nil => intro t x _ _ h; cases t <;> simp_all [vecBeq]
        | cons y ys ihs =>
          intro t x hs ht h
          cases t with
          | nil => simp [vecBeq] at h
          | cons z zs =>
            simp only [vecBeq, Bool.and_eq_true] at h
            simp only [hashList, hs y (by simp) z (ht z (by simp)) h.1]
            split
            · rfl
            · exact ihs zs _ (fun w hw => hs w (by simp [hw])) (fun w hw => ht w (by simp [hw])) h.2
      exact this _ _ _ (fun y hy z hz e => ih y hy z hz e) kb h
    all_goals simp_all [hash]

/-- `folly::hash::fnv64` (the library function the code calls). -/
def follyFnv64 (s : Bytes) (h : UInt64) : UInt64 :=
  s.foldl (fun h c => mix h ^^^ (if c < 128 then c.toUInt64 else c.toUInt64 ||| 0xFFFFFFFFFFFFFF00)) h

/-- C11 fails for vertices whose ids are different kinds of NULL: they are equal and their hashes
differ. -/
theorem C11_null_id_violated (H : HashFns) (h1 : H.fnv = follyFnv64) (h2 : H.fnvStart = 14695981039346656037) :
    ∃ a b, beq a b = true ∧ hash H a ≠ hash H b := by
  refine ⟨.vertex ⟨.null .null, []⟩, .vertex ⟨.null .badType, []⟩, by decide +kernel, ?_⟩
  have e : follyFnv64 (nullText .null) 14695981039346656037 ≠ follyFnv64 (nullText .badType) 14695981039346656037 := by
    decide +kernel
  simpa [hash, Vertex.hash, toText, h1, h2] using e

theorem float_chain {α : Type} (h : Value → α) (hc : ∀ a b, beq a b = true → h a = h b) (n : Nat) :
    h (.float (.fin ((n : Rat) / 134217728))) = h (.int 0) := by
  induction n with
  | zero => exact (hc _ _ (by decide +kernel))
  | succ n ih =>
    rw [← ih]
    apply hc
    simp only [beq_eqn, F64.sub, F64.neg, F64.add]
    have : (((n + 1 : Nat) : Rat) / 134217728 + -((n : Rat) / 134217728)) = 1 / 134217728 := by
      push_cast; ring
    rw [this]
    decide +kernel

/-- C11 fails with floats, and no choice of hash function could repair it: a hash compatible with
the tolerant equality gives all integers the same hash. -/
theorem C11_float_hash_violated (H : HashFns) (hne : H.hInt 0 ≠ H.hInt 1) :
    ¬ ∀ a b, beq a b = true → hash H a = hash H b := by
  intro hc
  have h1 := float_chain (hash H) hc 134217728
  have h2 := hc (.float (.fin (((134217728 : Nat) : Rat) / 134217728))) (.int 1) (by decide +kernel)
  rw [h1] at h2
  simp [hash] at h2
  exact hne h2

/-- C11 fails with floats: equality is not transitive, and an infinity is not equal to itself. -/
theorem C11_float_violated :
    (∃ a b c : Value, beq a b = true ∧ beq b c = true ∧ beq a c = false) ∧
    beq (.float (.inf false)) (.float (.inf false)) = false :=
  ⟨⟨.float (.fin 0), .float (.fin (1 / 134217728)), .float (.fin (1 / 67108864)),
    by decide +kernel, by decide +kernel, by decide +kernel⟩, by decide +kernel⟩

/-! ### equality and order -/

/-- No float and no edge among the value and the elements of its (nested) lists. -/
def NoFloatEdge : Value → Prop := HeredBy elems fun v =>
  match v with
  | .float _ => False
  | .edge _ => False
  | _ => True

/-- C11: equal values are not ordered before each other (values without floats and edges). -/
theorem C11_order_partial (a b : Value) (ha : NoFloatEdge a) (hb : NoFloatEdge b) (h : beq a b = true)
    (h' : beq b a = true) : lt a b = false ∧ lt b a = false := by
  induction ha generalizing b with
  | @mk a hp _ ih =>
    cases hb with
    | mk hq kb =>
    by_cases ka : IsKey a ∧ IsKey b
    · exact (beq_key_iff ka.1 ka.2).mp h
    cases a <;> simp only at hp <;> cases b <;> simp only at hq <;> simp only [IsKey, and_self, not_true] at ka <;>
      try (simp [beq_eqn, typeFlag] at h; done)
    case vertex.vertex v w =>
      simp only [beq_eqn] at h h'
      simp only [Vertex.beq, Bool.and_eq_true] at h h'
      have l1 := vecBeq_length h.2
      simp only [lt_eqn]
      unfold Vertex.lt
      rw [h.1, h'.1]; simp [l1]
    case path.path v w =>
      simp only [beq_eqn] at h h'
      simp only [Path.beq, Bool.and_eq_true] at h h'
      simp only [lt_eqn]
      unfold Path.lt
      rw [h.1, h'.1, h.2, h'.2]; simp
    case list.list as bs =>
      simp only [beq_eqn] at h h'
      simp only [elems] at ih kb
      simp only [lt_eqn]
      have : ∀ (s t : List Value), (∀ y ∈ s, ∀ z, NoFloatEdge z → beq y z = true → beq z y = true →
            lt y z = false ∧ lt z y = false) →
          (∀ z ∈ t, NoFloatEdge z) → vecBeq beq s t = true → vecBeq beq t s = true →
          vecLt lt s t = false ∧ vecLt lt t s = false := by
        intro s
        induction s with
        | nil => intro t _ _ h _; cases t <;> simp_all [vecBeq, vecLt]
        | cons y ys ihs =>
          intro t hs ht h h'
          cases t with
          | nil => simp [vecBeq] at h
          | cons z zs =>
            simp only [vecBeq, Bool.and_eq_true] at h h'
            have e := hs y (by simp) z (ht z (by simp)) h.1 h'.1
            have r := ihs zs (fun w hw => hs w (by simp [hw])) (fun w hw => ht w (by simp [hw])) h.2 h'.2
            simp [vecLt, e.1, e.2, r.1, r.2]
      exact this _ _ (fun y hy z hz e e' => ih y hy z hz e e') kb h h'
    all_goals simp [lt_eqn]

/-- C11 fails for edges: an edge equals its reversal and yet one is ordered before the other; and
for floats. -/
theorem C11_order_violated :
    (∃ a b, Plain a ∧ Plain b ∧ beq a b = true ∧ lt a b = true) ∧
    (∃ x y : Rat, F64.Representable x ∧ F64.Representable y ∧
      beq (.float (.fin x)) (.float (.fin y)) = true ∧ lt (.float (.fin x)) (.float (.fin y)) = true) := by
  have pl : ∀ s d t, -2147483647 ≤ t ∧ t ≤ 2147483647 → Plain (.edge ⟨.int s, .int d, t, [], 0, []⟩) := by
    intro s d t ht
    refine .mk ⟨by simp [keys], ht⟩ ?_
    intro x hx
    simp only [children, List.map_nil, List.mem_cons, List.not_mem_nil, or_false] at hx
    rcases hx with rfl | rfl <;> exact .mk trivial (by simp [children])
  exact ⟨⟨.edge ⟨.int 1, .int 2, 1, [], 0, []⟩, .edge ⟨.int 2, .int 1, -1, [], 0, []⟩, pl _ _ _ (by decide),
    pl _ _ _ (by decide), by decide +kernel, by decide +kernel⟩,
    ⟨0, 1 / 134217728, by decide +kernel, by decide +kernel, by decide +kernel, by decide +kernel⟩⟩

/-- Witness: a nested value meets the hypotheses of C11. -/
example : Plain (.list [.map [([97], .int 1), ([98], .str [99])], .set [.int 1, .int 2], .null .nan]) := by
  refine .mk trivial ?_
  intro x hx
  simp only [children, List.mem_cons, List.not_mem_nil, or_false] at hx
  rcases hx with rfl | rfl | rfl
  · refine .mk (by simp [PlainHere, keys]) ?_
    intro y hy
    simp only [children, List.map_cons, List.map_nil, List.mem_cons, List.not_mem_nil, or_false] at hy
    rcases hy with rfl | rfl <;> exact .mk trivial (by simp [children])
  · refine .mk (by simp [PlainHere]; decide +kernel) ?_
    intro y hy
    simp only [children, List.mem_cons, List.not_mem_nil, or_false] at hy
    rcases hy with rfl | rfl <;> exact .mk trivial (by simp [children])
  · exact .mk trivial (by simp [children])
example : Hashable (.list [.vertex ⟨.str [65], [⟨[66], [([67], .float .nan)]⟩]⟩, .int 1]) := by
  refine .mk trivial ?_
  intro x hx
  simp only [elems, List.mem_cons, List.not_mem_nil, or_false] at hx
  rcases hx with rfl | rfl <;> exact .mk trivial (by simp [elems])

/-! ## C12 -/

theorem round_neg (q : Rat) : F64.round (-q) = F64.neg (F64.round q) := by
  unfold F64.round
  by_cases h0 : q = 0
  · subst h0; simp [F64.neg]
  · rw [if_neg h0, if_neg (by simpa using h0)]
    rcases lt_or_gt_of_ne h0 with h | h
    · have h1 : ¬ (-q < 0) := by linarith
      simp only [h, h1, if_true, if_false]
      split <;> simp [F64.neg]
    · have h1 : ¬ (q < 0) := by linarith
      have h2 : -q < 0 := by linarith
      simp only [h1, h2, if_true, if_false, neg_neg]
      split <;> simp [F64.neg]

theorem abs_neg (f : F64) : F64.abs (F64.neg f) = F64.abs f := by
  cases f with
  | nan => rfl
  | inf s => rfl
  | fin q =>
    simp only [F64.neg, F64.abs, F64.fin.injEq, neg_neg]
    split <;> split <;> linarith

theorem sub_comm_abs (a b : F64) : F64.abs (F64.sub a b) = F64.abs (F64.sub b a) := by
  cases a <;> cases b <;> simp only [F64.sub, F64.neg, F64.add]
  · rename_i s t; cases s <;> cases t <;> simp [F64.abs]
  · rfl
  · rfl
  · rename_i p q
    rw [show p + -q = -(q + -p) by ring, round_neg, abs_neg]

/-- C12: the outcome table of `equal`: NULL exactly with a NULL operand, and otherwise the boolean
of `==` (which is false for different types other than int/float, and between EMPTY and anything
else). -/
theorem C12_equal (a b : Value) :
    ((a.isNull = true ∨ b.isNull = true) → equal a b = .null .null) ∧
    (a.isNull = false → b.isNull = false → equal a b = .bool (beq a b)) := by
  constructor
  · rintro (h | h)
    · cases a <;> simp [isNull] at h; cases b <;> simp [equal, isNull, isEmpty, kNull]
    · cases b <;> simp [isNull] at h; cases a <;> simp [equal, isNull, isEmpty, kNull]
  · intro ha hb
    cases a <;> simp [isNull] at ha <;> cases b <;> simp [isNull] at hb <;>
      simp [equal, isNull, isEmpty, typeFlag, isNumeric, beq_eqn]

/-- C12: the outcome table of `lessThan`. -/
theorem C12_lessThan (a b : Value) :
    ((a.isNull = true ∨ b.isNull = true) → lessThan a b = .null .null) ∧
    (a.isNull = false → b.isNull = false → (a.isEmpty = true ∨ b.isEmpty = true) → lessThan a b = .empty) ∧
    (a.isNull = false → b.isNull = false → a.isEmpty = false → b.isEmpty = false →
      specRank a ≠ specRank b → lessThan a b = .null .null) ∧
    (a.isNull = false → b.isNull = false → a.isEmpty = false → b.isEmpty = false →
      specRank a = specRank b → ∃ r, lessThan a b = .bool r ∧
        (isNumeric a = false → r = lt a b) ∧
        (∀ x y, num a = .fin x → num b = .fin y → isNumeric a = true →
          (typeFlag a ≠ 4 ∨ typeFlag b ≠ 4) →
          (r = true ↔ x < y ∧ F64.le F64.eps (F64.abs (F64.sub (.fin x) (.fin y))) = true)) ∧
        (∀ x y, a = .int x → b = .int y → (r = true ↔ x < y))) := by
  refine ⟨?_, ?_, ?_, ?_⟩
  · rintro (h | h)
    · cases a <;> simp [isNull] at h; cases b <;> simp [lessThan, isNull, isEmpty, kNull]
    · cases b <;> simp [isNull] at h; cases a <;> simp [lessThan, isNull, isEmpty, kNull]
  · intro ha hb h
    simp only [lessThan, ha, hb]
    rcases h with h | h <;> simp [h]
  · intro ha hb ea eb h
    cases a <;> simp [isNull, isEmpty] at ha ea <;> cases b <;> simp [isNull, isEmpty] at hb eb <;>
      first | exact absurd rfl h | simp [lessThan, isNull, isEmpty, typeFlag, isNumeric, kNull]
  · intro ha hb ea eb h
    cases a <;> simp [isNull, isEmpty] at ha ea <;> cases b <;> simp [isNull, isEmpty] at hb eb <;>
      simp [specRank] at h
    case int.int => exact ⟨_, rfl, by simp [isNumeric], by simp [typeFlag], by
      intro x y hx hy; cases hx; cases hy; simp [lt_eqn]⟩
    case int.float => exact ⟨_, rfl, by simp [isNumeric], by
      intro x y hx hy _ _
      simp only [num] at hx hy
      rw [hx, hy]; simp [F64.lt, and_comm], by simp⟩
    case float.int => exact ⟨_, rfl, by simp [isNumeric], by
      intro x y hx hy _ _
      simp only [num] at hx hy
      rw [hx, hy]; simp [F64.lt, and_comm], by simp⟩
    case float.float => exact ⟨_, rfl, by simp [isNumeric], by
      intro x y hx hy _ _
      simp only [num] at hx hy
      rw [hx, hy]; simp [F64.lt, and_comm], by simp⟩
    all_goals exact ⟨_, rfl, fun _ => rfl, by simp [isNumeric], by simp⟩

/-- C12: `equal` is symmetric, on values without floats inside and on top-level floats. -/
theorem C12_equal_symmetric (a b : Value)
    (h : (Plain a ∧ Plain b) ∨ (isNumeric a = true ∧ isNumeric b = true)) : equal a b = equal b a := by
  have hs : beq a b = beq b a := by
    rcases h with ⟨h1, h2⟩ | ⟨h1, h2⟩
    · have s1 := C11_equivalence_partial.symm a b h1 h2
      have s2 := C11_equivalence_partial.symm b a h2 h1
      cases e1 : beq a b <;> cases e2 : beq b a <;> simp_all
    · cases a <;> simp [isNumeric] at h1 <;> cases b <;> simp [isNumeric] at h2 <;> simp only [beq_eqn]
      · exact Bool.beq_comm
      · rw [sub_comm_abs]
      · rw [sub_comm_abs]
      · rw [sub_comm_abs]
  cases ha : a.isNull with
  | true => rw [(C12_equal a b).1 (.inl ha), (C12_equal b a).1 (.inr ha)]
  | false =>
    cases hb : b.isNull with
    | true => rw [(C12_equal a b).1 (.inr hb), (C12_equal b a).1 (.inl hb)]
    | false => rw [(C12_equal a b).2 ha hb, (C12_equal b a).2 hb ha, hs]

/-- C12: `lessThan` true excludes `equal` true (numbers, including floats; and values without floats
and edges inside). -/
theorem C12_exclusive_partial (a b : Value)
    (h : (isNumeric a = true ∧ isNumeric b = true) ∨ (NoFloatEdge a ∧ NoFloatEdge b ∧ Plain a ∧ Plain b))
    (hl : lessThan a b = .bool true) : equal a b = .bool false := by
  rcases h with ⟨h1, h2⟩ | ⟨h1, h2, p1, p2⟩
  · have key : ∀ x y : F64, (F64.le F64.eps (F64.abs (F64.sub x y)) && F64.lt x y) = true →
        F64.lt (F64.abs (F64.sub x y)) F64.eps = false := by
      intro x y h
      simp only [Bool.and_eq_true] at h
      have he : ∃ e, F64.eps = .fin e := ⟨3022314549036573 / 302231454903657293676544, by decide +kernel⟩
      obtain ⟨e, he⟩ := he
      rw [he] at h ⊢
      have := h.1
      revert this
      cases F64.abs (F64.sub x y) with
      | nan => simp [F64.le]
      | inf s => cases s <;> simp [F64.le, F64.lt]
      | fin q => simp [F64.le, F64.lt]
    cases a <;> simp [isNumeric] at h1 <;> cases b <;> simp [isNumeric] at h2
    · simp [lessThan, isNull, isEmpty, typeFlag, lt_eqn] at hl
      simp [equal, isNull, isEmpty, typeFlag, beq_eqn]; omega
    all_goals
      simp only [lessThan, isNull, isEmpty, typeFlag, isNumeric, Bool.false_eq_true, if_false, Bool.or_self,
        Bool.and_self, Bool.not_true, Bool.and_false, bool.injEq] at hl
      simp only [equal, isNull, isEmpty, typeFlag, isNumeric, Bool.false_eq_true, if_false, Bool.or_self,
        Bool.and_self, Bool.not_true, Bool.and_false, bool.injEq, beq_eqn]
      exact key _ _ hl
  · have hna : a.isNull = false := by cases a <;> first | rfl | (cases b <;> simp [lessThan, isNull, isEmpty, kNull] at hl)
    have hnb : b.isNull = false := by cases b <;> first | rfl | (cases a <;> simp [lessThan, isNull, isEmpty, kNull] at hl)
    rw [(C12_equal a b).2 hna hnb]
    have hlt : lt a b = true := by
      cases h1 with | mk q1 _ => cases h2 with | mk q2 _ =>
      cases a <;> simp only at q1 <;> cases b <;> simp only at q2 <;>
        simp [lessThan, isNull, isEmpty, typeFlag, isNumeric, kNull] at hl <;> simp [hl]
    cases e : beq a b with
    | false => rfl
    | true =>
      have := (C11_order_partial a b h1 h2 e (C11_equivalence_partial.symm a b p1 p2 e)).1
      rw [hlt] at this; simp at this

/-- C12: `lessThan` is never true in both directions on sortable values. -/
theorem C12_asymmetric_partial (fl : Bool) (G : Value → List (Tag Value)) (hG : Consistent G) (a b : Value)
    (ha : Sortable fl G a) (hb : Sortable fl G b) (h : lessThan a b = .bool true) :
    lessThan b a ≠ .bool true := by
  have key : ∀ a b : Value, lessThan a b = .bool true → lt a b = true := by
    intro a b h
    cases a <;> cases b <;>
      simp [lessThan, isNull, isEmpty, typeFlag, isNumeric, kNull] at h <;> first | exact h | (simp [lt_eqn]; simp_all)
  intro h'
  have := (C10_strict_weak_order_partial fl G hG).asymm a b ha hb (key a b h)
  rw [key b a h'] at this; simp at this

/-- C12 fails for an edge and its reversal, and for floats inside lists: `lessThan` and `equal` are
both true. -/
theorem C12_exclusive_violated :
    (∃ a b, lessThan a b = .bool true ∧ equal a b = .bool true ∧ ∃ e f, a = .edge e ∧ b = .edge f) ∧
    (∃ a b, lessThan a b = .bool true ∧ equal a b = .bool true ∧ ∃ e f, a = .list e ∧ b = .list f) :=
  ⟨⟨.edge ⟨.int 1, .int 2, 1, [], 0, []⟩, .edge ⟨.int 2, .int 1, -1, [], 0, []⟩,
      by decide +kernel, by decide +kernel, _, _, rfl, rfl⟩,
    ⟨.list [.float (.fin 0)], .list [.float (.fin (1 / 134217728))],
      by decide +kernel, by decide +kernel, _, _, rfl, rfl⟩⟩

example : lessThan (.int 1) (.float (.fin (3/2))) = .bool true ∧ equal (.int 1) (.float (.fin (3/2))) = .bool false := by
  decide +kernel

/-! ## C17: edges -/

/-- C17: an edge (with a type that is not 0) equals its reversal and has the same hash, and
reversing twice gives the edge back. -/
theorem C17_reverse (H : HashFns) (e : Edge Value) (hp : Plain (.edge e)) (ht : e.type ≠ 0) :
    beq (.edge e) (.edge e.reverse) = true ∧ hash H (.edge e) = hash H (.edge e.reverse) ∧
    e.reverse.reverse = e ∧ Plain (.edge e.reverse) := by
  cases hp with
  | mk h1 h2 =>
  have hi := edgeIn_of (S := Plain) h1.1 h2
  refine ⟨?_, ?_, ?_, ?_⟩
  · simp only [beq_eqn]
    rw [edge_beq_iff]
    refine ⟨⟨rfl, (eqv_map C11_equivalence_partial).refl _ hi.2.2⟩, .inr ⟨?_, ?_, ?_, ?_⟩⟩
    · simp only [Edge.reverse]; omega
    · simp only [Edge.reverse]; omega
    · exact C11_equivalence_partial.refl _ hi.1
    · exact C11_equivalence_partial.refl _ hi.2.1
  · simp only [hash, Edge.hash, Edge.reverse]
    by_cases hp : e.type > 0
    · have : ¬ -e.type > 0 := by omega
      simp only [hp, this, if_true, if_false, Int.neg_neg]
    · have : -e.type > 0 := by omega
      simp only [hp, this, if_true, if_false]
  · simp [Edge.reverse]
  · refine .mk ⟨h1.1, ?_⟩ ?_
    · obtain ⟨_, g1, g2⟩ := h1; simp only [Edge.reverse]; omega
    · intro x hx
      apply h2 x
      simp only [children, Edge.reverse, List.mem_cons] at hx ⊢
      tauto

/-- C17: exactly which edges are equal: same ranking and properties, and either the same type and
endpoints or the opposite type (not 0) and swapped endpoints. -/
theorem C17_exact (a b : Edge Value) (ha : (keys a.props).Nodup) (hb : (keys b.props).Nodup) :
    beq (.edge a) (.edge b) = true ↔
      a.ranking = b.ranking ∧ SameMap beq a.props b.props ∧
      ((a.type = b.type ∧ beq a.src b.src = true ∧ beq a.dst b.dst = true) ∨
       (a.type ≠ b.type ∧ a.type = -b.type ∧ beq a.src b.dst = true ∧ beq a.dst b.src = true)) := by
  rw [show beq (.edge a) (.edge b) = Edge.beq beq a b from by simp only [beq_eqn], edge_beq_iff,
    mapBeq_iff ha hb, and_assoc]

/-- C17: equality of edges is an equivalence and equal edges with scalar ids have equal hashes. -/
theorem C17_equivalence (H : HashFns) :
    EquivalenceOn (fun a b => beq (.edge a) (.edge b)) (fun e => Plain (.edge e)) ∧
    ∀ a b : Edge Value, Hashable (.edge a) → Hashable (.edge b) → beq (.edge a) (.edge b) = true →
      hash H (.edge a) = hash H (.edge b) :=
  ⟨eqv_comap C11_equivalence_partial (fun e => Value.edge e) (fun _ h => h),
   fun a b ha hb h => C11_hash_partial H _ _ ha hb h⟩

/-- C17: bringing an edge to its forward form gives an equal edge with a non-negative type. -/
theorem C17_format (e : Edge Value) (hp : Plain (.edge e)) :
    beq (.edge e) (.edge e.format) = true ∧ 0 ≤ e.format.type := by
  unfold Edge.format
  split
  · exact ⟨(C17_reverse ⟨fun _ => 0, fun _ => 0, fun _ => 0, fun _ => 0, fun _ _ => 0, 0, fun _ _ => 0, fun _ _ => 0,
      fun _ => 0, fun _ => 0, fun _ => 0, fun _ => []⟩ e hp (by omega)).1, by simp only [Edge.reverse]; omega⟩
  · exact ⟨C11_equivalence_partial.refl _ hp, by omega⟩

/-- C17 fails in two details: the edge name is not compared, and an edge of type 0 does not equal its
reversal. -/
theorem C17_details_violated :
    (∃ a b : Edge Value, a.name ≠ b.name ∧ beq (.edge a) (.edge b) = true) ∧
    (∃ e : Edge Value, beq (.edge e) (.edge e.reverse) = false) :=
  ⟨⟨⟨.int 1, .int 2, 1, [65], 0, []⟩, ⟨.int 1, .int 2, 1, [66], 0, []⟩, by decide, by decide +kernel⟩,
   ⟨⟨.int 1, .int 2, 0, [], 0, []⟩, by decide +kernel⟩⟩

example : Plain (.edge ⟨.str [65], .str [66], -3, [67], 5, [([68], .int 1)]⟩) := by
  refine .mk ⟨by simp [keys], by decide⟩ ?_
  intro x hx
  simp only [children, List.map_cons, List.map_nil, List.mem_cons, List.not_mem_nil, or_false] at hx
  rcases hx with rfl | rfl | rfl <;> exact .mk trivial (by simp [children])

end Value
end Nebula
