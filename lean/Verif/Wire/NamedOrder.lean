import Mathlib.Tactic.SplitIfs
import Verif.Wire.NamedLemmas
/-! # Protocols that identify fields by name: the order of the fields -/
namespace Nebula
namespace Wire
namespace Named

section
variable {σ : Type}

/-- Two blocks can be run in either order. -/
def Commute (g h : σ → Doc → Option σ) : Prop := ∀ s d e, ((g s d).bind fun s => h s e) = (h s e).bind fun s => g s d

/-- The blocks of different fields can be run in either order, and different names stand for different fields. -/
structure Orderless (R : Reader σ) : Prop where
  blocks : ∀ i j t u g h, R.label i = some (t, g) → R.label j = some (u, h) → i ≠ j → Commute g h
  inj : (R.names.map fun x => x.2.1).Nodup

theorem lookup_mem {n : Bytes} {x : Int × TType} : ∀ {l : List (Bytes × Int × TType)}, l.lookup n = some x → (n, x) ∈ l
  | (m, y) :: l, h => by
    rw [List.lookup_cons] at h
    by_cases hb : (n == m) = true
    · rw [hb] at h
      cases h
      have := eq_of_beq hb
      subst this
      exact List.mem_cons_self
    · simp only [Bool.not_eq_true] at hb
      rw [hb] at h
      exact List.mem_cons_of_mem _ (lookup_mem h)

theorem inj_of_nodup {α β : Type} {f : α → β} {l : List α} (h : (l.map f).Nodup) {a b : α} (ha : a ∈ l) (hb : b ∈ l)
    (he : f a = f b) : a = b := by
  induction l with
  | nil => cases ha
  | cons c l ih =>
    rw [List.map_cons, List.nodup_cons] at h
    rcases List.mem_cons.1 ha with h1 | h1 <;> rcases List.mem_cons.1 hb with h2 | h2
    · rw [h1, h2]
    · subst h1; exact absurd (List.mem_map.2 ⟨b, h2, he.symm⟩) h.1
    · subst h2; exact absurd (List.mem_map.2 ⟨a, h1, he⟩) h.1
    · exact ih h.2 h1 h2

theorem block_inv {R : Reader σ} {n : Bytes} {g : σ → Doc → Option σ} (h : R.block n = some g) :
    ∃ i t, R.names.lookup n = some (i, t) ∧ R.label i = some (t, g) := by
  unfold Reader.block at h
  split at h
  · cases h
  · rename_i i t hn
    split at h
    · cases h
    · rename_i u k hl
      split at h
      · cases h; rename_i he; subst he; exact ⟨i, u, hn, hl⟩
      · cases h

theorem fields_perm {R : Reader σ} (hR : Orderless R) {l r : List (Bytes × Doc)} (hp : l.Perm r) :
    (l.map Prod.fst).Nodup → ∀ s, R.fields s l = R.fields s r := by
  induction hp with
  | nil => intros; rfl
  | cons x _ ih =>
    intro hn s
    obtain ⟨n, d⟩ := x
    have := ih (List.nodup_cons.1 hn).2
    simp only [Reader.fields]
    cases R.block n with
    | none => exact this s
    | some g =>
      simp only
      cases g s d with
      | none => rfl
      | some s' => exact this s'
  | swap x y l =>
    intro hn s
    obtain ⟨n, d⟩ := x
    obtain ⟨m, e⟩ := y
    have hne : m ≠ n := by
      intro he; subst he
      simp at hn
    simp only [Reader.fields]
    cases hg : R.block n with
    | none => rfl
    | some g =>
      cases hh : R.block m with
      | none => rfl
      | some h =>
        obtain ⟨i, t, h1, h2⟩ := block_inv hg
        obtain ⟨j, u, h3, h4⟩ := block_inv hh
        have hij : i ≠ j := by
          intro he; subst he
          have := inj_of_nodup hR.inj (lookup_mem h1) (lookup_mem h3) rfl
          cases this
          exact hne rfl
        have := hR.blocks i j t u g h h2 h4 hij s d e
        simp only
        cases h5 : g s d <;> cases h6 : h s e <;> simp only [h5, h6, Option.bind_none, Option.bind_some] at this ⊢
        · rw [← this]
        · rw [this]
        · rw [this]
  | trans h1 _ ih1 ih2 =>
    intro hn s
    rw [ih1 hn s, ih2 (((h1.map Prod.fst).nodup_iff).1 hn) s]

theorem commute_put {α β : Type} {rd : Doc → Option α} {rd' : Doc → Option β} {set : σ → α → σ} {set' : σ → β → σ}
    (h : ∀ s a b, set' (set s a) b = set (set' s b) a) : Commute (put rd set) (put rd' set') := by
  intro s d e
  cases h1 : rd d <;> cases h2 : rd' e <;> simp [put, h1, h2, h]
theorem commute_put_at {α β : Type} {rd : Doc → Option α} {rd' : β → Doc → Option β} {set : σ → α → σ} {set' : σ → β → σ} {get' : σ → β}
    (h : ∀ s a b, set' (set s a) b = set (set' s b) a) (h' : ∀ s a, get' (set s a) = get' s) :
    Commute (put rd set) (putAt rd' get' set') := by
  intro s d e
  cases h1 : rd d <;> cases h2 : rd' (get' s) e <;> simp [put, putAt, h1, h2, h, h']
theorem commute_symm {g h : σ → Doc → Option σ} (hc : Commute g h) : Commute h g := fun s d e => (hc s e d).symm
theorem commute_at_at {α β : Type} {rd : α → Doc → Option α} {rd' : β → Doc → Option β} {set : σ → α → σ} {set' : σ → β → σ}
    {get : σ → α} {get' : σ → β} (h : ∀ s a b, set' (set s a) b = set (set' s b) a) (h' : ∀ s a, get' (set s a) = get' s)
    (h'' : ∀ s b, get (set' s b) = get s) : Commute (putAt rd get set) (putAt rd' get' set') := by
  intro s d e
  cases h1 : rd (get s) d <;> cases h2 : rd' (get' s) e <;> simp [putAt, h1, h2, h, h', h'']
end

macro "orderless" : tactic => `(tactic| (
  refine ⟨?_, by simp [dateReader, timeReader, dateTimeReader, tagReader, vertexReader, edgeReader, stepReader, pathReader, dataSetReader, keyValueReader, hostAddrReader]⟩
  intro i j t u g h hg hh hne
  simp only [dateReader, timeReader, dateTimeReader, tagReader, vertexReader, edgeReader, stepReader, pathReader, dataSetReader,
    keyValueReader, hostAddrReader] at hg hh
  split_ifs at hg hh <;> first
    | (exfalso; omega)
    | (cases hg; cases hh; first
        | exact commute_put fun _ _ _ => rfl
        | exact commute_put_at (fun _ _ _ => rfl) fun _ _ => rfl
        | exact commute_symm (commute_put_at (fun _ _ _ => rfl) fun _ _ => rfl)
        | exact commute_at_at (fun _ _ _ => rfl) (fun _ _ => rfl) fun _ _ => rfl)))

theorem order_date : Orderless dateReader := by orderless
theorem order_time : Orderless timeReader := by orderless
set_option maxHeartbeats 2000000 in
theorem order_dateTime : Orderless dateTimeReader := by orderless
theorem order_keyValue : Orderless keyValueReader := by orderless
theorem order_hostAddr : Orderless hostAddrReader := by orderless
section
variable {V : Type} (rv : V → Doc → Option V) (v0 : V)
theorem order_tag : Orderless (tagReader rv v0) := by orderless
theorem order_vertex : Orderless (vertexReader rv v0) := by orderless
set_option maxHeartbeats 1000000 in
theorem order_edge : Orderless (edgeReader rv v0) := by orderless
theorem order_step : Orderless (stepReader rv v0) := by orderless
theorem order_path : Orderless (pathReader rv v0) := by orderless
theorem order_dataSet : Orderless (dataSetReader rv v0) := by orderless
end

end Named
end Wire
end Nebula
