import Verif.Wire.TruncProps
/-!
# C159: a value that was received can be sent on

Whatever bytes a value was deserialised from, its components are in the range of their types, its sizes can be expressed and no set holds a value twice.
So the statements about serialisation (C67) hold for every value that was received.
-/
namespace Nebula
namespace Wire

/-! ## What holds of every value that was received -/

/-- A set holds no two values that are `==`. -/
def SetHere : Value → Prop
  | .set l => l.Pairwise fun x y => Value.beq x y = false
  | _ => True

/-- The value fits, and so do the values in it; sets hold each value once. -/
def Sane (v : Value) : Prop := Value.Hered (fun x => FitsHere x ∧ SetHere x) v

/-- What a reader gives satisfies `P`. -/
def Yields {α : Type} (P : α → Prop) (d : Bytes → Option (α × Bytes)) : Prop := ∀ bs a r, d bs = some (a, r) → P a

theorem Yields.map {α β : Type} {P : α → Prop} {Q : β → Prop} {d : Bytes → Option (α × Bytes)} {f : α → β} (h : Yields P d) (hf : ∀ a, P a → Q (f a)) :
    Yields Q fun bs => (d bs).map fun x => (f x.1, x.2) := by
  intro bs b r e
  dsimp only at e
  cases hd : d bs with
  | none => rw [hd] at e; cases e
  | some x => rw [hd] at e; cases e; exact hf _ (h bs x.1 x.2 hd)

/-! ## Numbers and texts -/

theorem yields_u32 : Yields (fun n => n < 2 ^ 32) readU32 := by
  intro bs a r e
  unfold readU32 at e
  split at e
  · cases e
  · cases e; exact Nat.mod_lt _ (by decide)

theorem yields_u64 : Yields (fun n => n < 2 ^ 64) readU64 := by
  intro bs a r e
  unfold readU64 at e
  split at e
  · cases e
  · cases e; exact Nat.mod_lt _ (by decide)

def I16 (x : Int) : Prop := -32768 ≤ x ∧ x ≤ 32767
def I8 (x : Int) : Prop := -128 ≤ x ∧ x ≤ 127
def I32 (x : Int) : Prop := -2147483648 ≤ x ∧ x ≤ 2147483647

theorem yields_i16 : Yields I16 readI16 := by
  intro bs a r e
  unfold readI16 at e
  split at e
  · cases e
  · cases e; unfold I16 wrapI16; omega

theorem yields_i32 : Yields I32 readI32 := by
  intro bs a r e
  unfold readI32 at e
  split at e
  · cases e
  · next n _ h => cases e; have := yields_u32 _ _ _ h; unfold I32 unzigzag; split <;> omega

theorem yields_i64 : Yields InI64 readI64 := by
  intro bs a r e
  unfold readI64 at e
  split at e
  · cases e
  · next n _ h => cases e; have := yields_u64 _ _ _ h; unfold InI64 unzigzag; split <;> omega

theorem yields_byte : Yields I8 readByte := by
  intro bs a r e
  unfold readByte at e
  split at e
  · cases e
  · cases e; unfold I8 wrapI8; omega

theorem yields_size : Yields Small readSize := by
  intro bs a r e
  unfold readSize at e
  split at e
  · cases e
  · split at e
    · cases e; assumption
    · cases e

theorem yields_binary : Yields (fun s : Bytes => Small s.length) readBinary := by
  intro bs a r e
  unfold readBinary at e
  split at e
  · cases e
  · next n _ h =>
    have hn := yields_size _ _ _ h
    unfold takeN at e
    split at e
    · cases e; show Small _; rw [List.length_take, Nat.min_eq_left (by assumption)]; exact hn
    · cases e

theorem beVal_lt : ∀ (d : Bytes) (a k : Nat), a < 256 ^ k → beVal a d < 256 ^ (k + d.length)
  | [], a, k, h => h
  | b :: d, a, k, h => by
    have hb := b.toNat_lt
    have h1 : a * 256 + b.toNat < 256 ^ (k + 1) := by rw [Nat.pow_succ]; omega
    have := beVal_lt d _ (k + 1) h1
    rw [List.length_cons, show k + (d.length + 1) = k + 1 + d.length by omega]
    exact this

theorem yields_double : Yields F64.Holds readDouble := by
  intro bs a r e
  unfold readDouble at e
  split at e
  · cases e
  · next d _ h =>
    cases e
    unfold takeN at h
    split at h
    · cases h
      refine ⟨_, ?_, rfl⟩
      have := beVal_lt (bs.take 8) 0 0 (by decide)
      rw [List.length_take, Nat.min_eq_left (by assumption)] at this
      exact this
    · cases h

/-! ## Containers -/

theorem readN_all {α : Type} {P : α → Prop} {d : Bytes → Option (α × Bytes)} (h : Yields P d) : ∀ n, Yields (fun l => l.length = n ∧ ∀ x ∈ l, P x) (readN d n)
  | 0 => by intro bs a r e; cases e; exact ⟨rfl, by simp⟩
  | n + 1 => by
    intro bs a r e
    rw [readN] at e
    split at e
    · cases e
    · next x r1 hx =>
      split at e
      · cases e
      · next l _ hl =>
        cases e
        obtain ⟨h1, h2⟩ := readN_all h n _ _ _ hl
        refine ⟨by simp [h1], fun y hy => ?_⟩
        rcases List.mem_cons.1 hy with rfl | hy
        · exact h _ _ _ hx
        · exact h2 y hy

theorem listHeader_small {bs r : Bytes} {et n : Nat} (e : readListHeader bs = some (et, n, r)) : Small n := by
  cases bs with
  | nil => cases e
  | cons b bs =>
    simp only [readListHeader] at e
    split at e
    · split at e
      · cases e
      · next h => cases e; exact yields_size _ _ _ h
    · cases e
      have := b.toNat_lt
      unfold Small; omega

theorem yields_list {α : Type} {P : α → Prop} {d : Bytes → Option (α × Bytes)} (h : Yields P d) (ct : Nat) : Yields (fun l => Small l.length ∧ ∀ x ∈ l, P x) (readList d ct) := by
  intro bs a r e
  unfold readList at e
  split at e
  · cases e
  · next et n r1 hh =>
    split at e
    · obtain ⟨h1, h2⟩ := readN_all h n _ _ _ e
      exact ⟨by show Small _; rw [h1]; exact listHeader_small hh, h2⟩
    · split at e
      · cases e
      · cases e; exact ⟨by unfold Small; simp, by simp⟩

/-- A property map whose values are good. -/
def PropsSane (m : Props Value) : Prop := PropsFit m ∧ ∀ x ∈ m.map Prod.snd, Sane x

theorem mapSet_keys {V : Type} (m : Props V) (k : Bytes) (v : V) :
    (mapSet m k v).map Prod.fst = if m.any (fun kv => kv.1 == k) then m.map Prod.fst else m.map Prod.fst ++ [k] := by
  unfold mapSet
  split
  · rw [List.map_map]
    refine List.map_congr_left fun kv _ => ?_
    by_cases h : kv.1 == k
    · have := eq_of_beq h; simp [this]
    · show (if (kv.1 == k) = true then (k, v) else kv).1 = kv.1
      rw [if_neg h]
  · simp

theorem mapSet_length {V : Type} (m : Props V) (k : Bytes) (v : V) : (mapSet m k v).length ≤ m.length + 1 := by
  unfold mapSet; split <;> simp

theorem mapSet_mem {V : Type} {m : Props V} {k : Bytes} {v : V} {x : Bytes × V} (h : x ∈ mapSet m k v) : x = (k, v) ∨ x ∈ m := by
  unfold mapSet at h
  split at h
  · obtain ⟨y, hy, rfl⟩ := List.mem_map.1 h
    by_cases hk : y.1 == k
    · left; simp [hk]
    · right; simpa [hk] using hy
  · rcases List.mem_append.1 h with h | h
    · exact .inr h
    · left; simpa using h

theorem foldl_mapSet_sane {V : Type} {Q : Bytes × V → Prop} : ∀ (l m : Props V), (∀ x ∈ l, Q x) → (∀ x ∈ m, Q x) → (m.map Prod.fst).Nodup →
    (∀ x ∈ l.foldl (fun m kv => mapSet m kv.1 kv.2) m, Q x) ∧ ((l.foldl (fun m kv => mapSet m kv.1 kv.2) m).map Prod.fst).Nodup ∧
      (l.foldl (fun m kv => mapSet m kv.1 kv.2) m).length ≤ m.length + l.length
  | [], m, _, h, hn => ⟨h, hn, by simp⟩
  | kv :: l, m, hl, h, hn => by
    have h1 : ∀ x ∈ mapSet m kv.1 kv.2, Q x := fun x hx => by
      rcases mapSet_mem hx with rfl | hx
      · exact hl _ List.mem_cons_self
      · exact h x hx
    have h2 : ((mapSet m kv.1 kv.2).map Prod.fst).Nodup := by
      rw [mapSet_keys]
      split
      · exact hn
      · next hk =>
        refine List.nodup_append.2 ⟨hn, by simp, fun a ha b hb => ?_⟩
        simp only [List.mem_singleton] at hb
        subst hb
        rintro rfl
        obtain ⟨x, hx, hxk⟩ := List.mem_map.1 ha
        exact hk (List.any_eq_true.2 ⟨x, hx, by simp [hxk]⟩)
    obtain ⟨a, b, c⟩ := foldl_mapSet_sane l _ (fun x hx => hl x (List.mem_cons_of_mem _ hx)) h1 h2
    have := mapSet_length m kv.1 kv.2
    refine ⟨a, b, ?_⟩
    simp only [List.foldl_cons, List.length_cons]
    omega

theorem propsGood_nil : PropsSane [] := ⟨⟨by unfold Small; simp, by simp, by simp⟩, by simp⟩

theorem yields_props {rv : Bytes → Option (Value × Bytes)} (h : Yields Sane rv) : Yields PropsSane (readProps rv) := by
  intro bs a r e
  unfold readProps at e
  split at e
  · cases e
  · next kt vt n r1 hh =>
    have hn : Small n := by
      unfold readMapHeader at hh
      split at hh
      · cases hh
      · next hs =>
        split at hh
        · cases hh; unfold Small; simp
        · split at hh
          · cases hh
          · cases hh; exact yields_size _ _ _ hs
    split at e
    · cases e; exact propsGood_nil
    · split at e
      · split at e
        · cases e
        · next kvs r2 hr =>
          cases e
          obtain ⟨h1, h2⟩ := readN_all (P := fun kv : Bytes × Value => Small kv.1.length ∧ Sane kv.2) (by
            intro bs a r e
            dsimp only at e
            split at e
            · cases e
            · next hk =>
              split at e
              · cases e
              · next hv => cases e; exact ⟨yields_binary _ _ _ hk, h _ _ _ hv⟩) n _ _ _ hr
          obtain ⟨a, b, c⟩ := foldl_mapSet_sane kvs [] h2 (by simp) (by simp)
          refine ⟨⟨?_, fun kv hkv => (a kv hkv).1, b⟩, fun x hx => ?_⟩
          · unfold Small at *; simp only [List.length_nil] at c; omega
          · obtain ⟨kv, hkv, rfl⟩ := List.mem_map.1 hx
            exact (a kv hkv).2
      · split at e
        · cases e
        · cases e; exact propsGood_nil

theorem foldl_setAdd_sane {Q : Value → Prop} : ∀ (l s : List Value), (∀ x ∈ l, Q x) → (∀ x ∈ s, Q x) → s.Pairwise (fun x y => Value.beq x y = false) →
    (∀ x ∈ l.foldl (setAdd Value.beq) s, Q x) ∧ (l.foldl (setAdd Value.beq) s).Pairwise (fun x y => Value.beq x y = false) ∧
      (l.foldl (setAdd Value.beq) s).length ≤ s.length + l.length
  | [], s, _, h, hp => ⟨h, hp, by simp⟩
  | v :: l, s, hl, h, hp => by
    have hall : ∀ x ∈ l, Q x := fun x hx => hl x (List.mem_cons_of_mem _ hx)
    rw [List.foldl_cons]
    unfold setAdd
    split
    · obtain ⟨a, b, c⟩ := foldl_setAdd_sane l s hall h hp
      exact ⟨a, b, by simp only [List.length_cons]; unfold setAdd at c; omega⟩
    · next hk =>
      obtain ⟨a, b, c⟩ := foldl_setAdd_sane l (s ++ [v]) hall (fun x hx => by
          rcases List.mem_append.1 hx with hx | hx
          · exact h x hx
          · simp only [List.mem_singleton] at hx; subst hx; exact hl _ List.mem_cons_self)
        (List.pairwise_append.2 ⟨hp, by simp, fun x hx y hy => by
          simp only [List.mem_singleton] at hy
          subst hy
          cases hb : Value.beq x y with
          | false => rfl
          | true => exact absurd (List.any_eq_true.2 ⟨x, hx, hb⟩) hk⟩)
      exact ⟨a, b, by simp only [List.length_cons]; simp only [List.length_append, List.length_cons, List.length_nil] at c; unfold setAdd at c; omega⟩

/-! ## Structures -/

/-- Every field that is read keeps `I`. -/
def Keeps {σ : Type} (R : Reader σ) (I : σ → Prop) : Prop := ∀ id ty g, R.label id = some (ty, g) → ∀ s bs s' r, I s → g s bs = some (s', r) → I s'

theorem Keeps.run {σ : Type} {R : Reader σ} {I : σ → Prop} (h : Keeps R I) : ∀ f adv curr s bs s' r, I s → R.run f adv curr s bs = some (s', r) → I s' := by
  intro f
  induction f with
  | zero => intro _ _ _ _ _ _ _ e; cases e
  | succ f ih =>
    intro adv curr s bs s' r hs e
    rw [Reader.run] at e
    split at e
    · cases e; exact hs
    · split at e
      · cases e; exact hs
      · next hl =>
        split at e
        · cases e
        · next hg => exact ih _ _ _ _ _ _ (h _ _ _ hl _ _ _ _ hs hg) e
    · split at e
      · cases e
      · cases e; exact hs
      · split at e
        · split at e
          · cases e
          · exact ih _ _ _ _ _ _ hs e
        · next hl =>
          split at e
          · split at e
            · cases e
            · next hg => exact ih _ _ _ _ _ _ (h _ _ _ hl _ _ _ _ hs hg) e
          · split at e
            · cases e
            · exact ih _ _ _ _ _ _ hs e

theorem Keeps.read {σ : Type} {R : Reader σ} {I : σ → Prop} (h : Keeps R I) {s : σ} (hs : I s) : Yields I (R.read s) := fun _ _ _ e => h.run _ _ _ _ _ _ _ hs e

theorem keeps_block {σ α : Type} {P : α → Prop} {I : σ → Prop} {rd : Bytes → Option (α × Bytes)} {set : σ → α → σ} (h : Yields P rd) (hs : ∀ s a, I s → P a → I (set s a)) :
    ∀ s bs s' r, I s → block rd set s bs = some (s', r) → I s' := by
  intro s bs s' r hI e
  unfold block at e
  split at e
  · cases e
  · next ha => cases e; exact hs _ _ hI (h _ _ _ ha)

theorem keeps_blockAt {σ α : Type} {P : α → Prop} {I : σ → Prop} {rd : α → Bytes → Option (α × Bytes)} {get : σ → α} {set : σ → α → σ} (h : ∀ a, P a → Yields P (rd a))
    (hg : ∀ s, I s → P (get s)) (hs : ∀ s a, I s → P a → I (set s a)) : ∀ s bs s' r, I s → blockAt rd get set s bs = some (s', r) → I s' := by
  intro s bs s' r hI e
  unfold blockAt at e
  split at e
  · cases e
  · next ha => cases e; exact hs _ _ hI (h _ (hg _ hI) _ _ _ ha)

theorem keeps_date : Keeps dateReader fun d => FitsHere (.date d) := by
  intro id ty g h
  simp only [dateReader] at h
  split at h
  · cases h; exact keeps_block yields_i16 fun s a hs ha => ⟨ha, hs.2⟩
  split at h
  · cases h; exact keeps_block yields_byte fun s a hs ha => ⟨hs.1, ha, hs.2.2⟩
  split at h
  · cases h; exact keeps_block yields_byte fun s a hs ha => ⟨hs.1, hs.2.1, ha⟩
  cases h

theorem keeps_time : Keeps timeReader fun d => FitsHere (.time d) := by
  intro id ty g h
  simp only [timeReader] at h
  split at h
  · cases h; exact keeps_block yields_byte fun s a hs ha => ⟨ha, hs.2⟩
  split at h
  · cases h; exact keeps_block yields_byte fun s a hs ha => ⟨hs.1, ha, hs.2.2⟩
  split at h
  · cases h; exact keeps_block yields_byte fun s a hs ha => ⟨hs.1, hs.2.1, ha, hs.2.2.2⟩
  split at h
  · cases h; exact keeps_block yields_i32 fun s a hs ha => ⟨hs.1, hs.2.1, hs.2.2.1, ha⟩
  cases h

theorem keeps_dateTime : Keeps dateTimeReader fun d => FitsHere (.datetime d) := by
  intro id ty g h
  simp only [dateTimeReader] at h
  split at h
  · cases h; exact keeps_block yields_i16 fun s a hs ha => ⟨ha, hs.2⟩
  split at h
  · cases h; exact keeps_block yields_byte fun s a hs ha => ⟨hs.1, by unfold wrapU; simp only []; omega, hs.2.2⟩
  split at h
  · cases h; exact keeps_block yields_byte fun s a hs ha => ⟨hs.1, hs.2.1, by unfold wrapU; simp only []; omega, hs.2.2.2⟩
  split at h
  · cases h; exact keeps_block yields_byte fun s a hs ha => ⟨hs.1, hs.2.1, hs.2.2.1, by unfold wrapU; simp only []; omega, hs.2.2.2.2⟩
  split at h
  · cases h; exact keeps_block yields_byte fun s a hs ha => ⟨hs.1, hs.2.1, hs.2.2.1, hs.2.2.2.1, by unfold wrapU; simp only []; omega, hs.2.2.2.2.2⟩
  split at h
  · cases h; exact keeps_block yields_byte fun s a hs ha => ⟨hs.1, hs.2.1, hs.2.2.1, hs.2.2.2.1, hs.2.2.2.2.1, by unfold wrapU; simp only []; omega, hs.2.2.2.2.2.2⟩
  split at h
  · cases h; exact keeps_block yields_i32 fun s a hs ha => ⟨hs.1, hs.2.1, hs.2.2.1, hs.2.2.2.1, hs.2.2.2.2.1, hs.2.2.2.2.2.1, by unfold wrapU; simp only []; omega⟩
  cases h

def TagSane (t : Tag Value) : Prop := Small t.name.length ∧ PropsSane t.props
def VertexSane (v : Vertex Value) : Prop := Sane v.vid ∧ Small v.tags.length ∧ ∀ t ∈ v.tags, TagSane t
def EdgeSane (e : Edge Value) : Prop := Sane e.src ∧ Sane e.dst ∧ I32 e.type ∧ Small e.name.length ∧ InI64 e.ranking ∧ PropsSane e.props
def StepSane (e : Step Value) : Prop := VertexSane e.dst ∧ I32 e.type ∧ Small e.name.length ∧ InI64 e.ranking ∧ PropsSane e.props
def PathSane (p : Path Value) : Prop := VertexSane p.src ∧ Small p.steps.length ∧ ∀ s ∈ p.steps, StepSane s

theorem sane_empty : Sane .empty := .mk ⟨trivial, trivial⟩ (by simp [Value.children])

section
variable {rv : Value → Bytes → Option (Value × Bytes)} (hrv : ∀ v, Sane v → Yields Sane (rv v))
include hrv

theorem keeps_tag : Keeps (tagReader rv .empty) TagSane := by
  intro id ty g h
  simp only [tagReader] at h
  split at h
  · cases h; exact keeps_block yields_binary fun s a hs ha => ⟨ha, hs.2⟩
  split at h
  · cases h; exact keeps_block (yields_props (hrv _ sane_empty)) fun s a hs ha => ⟨hs.1, ha⟩
  cases h

theorem keeps_vertex : Keeps (vertexReader rv .empty) VertexSane := by
  intro id ty g h
  simp only [vertexReader] at h
  split at h
  · cases h; exact keeps_blockAt hrv (fun s hs => hs.1) fun s a hs ha => ⟨ha, hs.2⟩
  split at h
  · cases h
    exact keeps_block (yields_list ((keeps_tag hrv).read ⟨by unfold Small; simp, propsGood_nil⟩) _) fun s a hs ha => ⟨hs.1, ha⟩
  cases h

theorem keeps_edge : Keeps (edgeReader rv .empty) EdgeSane := by
  intro id ty g h
  simp only [edgeReader] at h
  split at h
  · cases h; exact keeps_blockAt hrv (fun s hs => hs.1) fun s a hs ha => ⟨ha, hs.2⟩
  split at h
  · cases h; exact keeps_blockAt hrv (fun s hs => hs.2.1) fun s a hs ha => ⟨hs.1, ha, hs.2.2⟩
  split at h
  · cases h; exact keeps_block yields_i32 fun s a hs ha => ⟨hs.1, hs.2.1, ha, hs.2.2.2⟩
  split at h
  · cases h; exact keeps_block yields_binary fun s a hs ha => ⟨hs.1, hs.2.1, hs.2.2.1, ha, hs.2.2.2.2⟩
  split at h
  · cases h; exact keeps_block yields_i64 fun s a hs ha => ⟨hs.1, hs.2.1, hs.2.2.1, hs.2.2.2.1, ha, hs.2.2.2.2.2⟩
  split at h
  · cases h; exact keeps_block (yields_props (hrv _ sane_empty)) fun s a hs ha => ⟨hs.1, hs.2.1, hs.2.2.1, hs.2.2.2.1, hs.2.2.2.2.1, ha⟩
  cases h

theorem keeps_step : Keeps (stepReader rv .empty) StepSane := by
  intro id ty g h
  simp only [stepReader] at h
  split at h
  · cases h; exact keeps_blockAt (fun v hv => (keeps_vertex hrv).read hv) (fun s hs => hs.1) fun s a hs ha => ⟨ha, hs.2⟩
  split at h
  · cases h; exact keeps_block yields_i32 fun s a hs ha => ⟨hs.1, ha, hs.2.2⟩
  split at h
  · cases h; exact keeps_block yields_binary fun s a hs ha => ⟨hs.1, hs.2.1, ha, hs.2.2.2⟩
  split at h
  · cases h; exact keeps_block yields_i64 fun s a hs ha => ⟨hs.1, hs.2.1, hs.2.2.1, ha, hs.2.2.2.2⟩
  split at h
  · cases h; exact keeps_block (yields_props (hrv _ sane_empty)) fun s a hs ha => ⟨hs.1, hs.2.1, hs.2.2.1, hs.2.2.2.1, ha⟩
  cases h

omit hrv in
theorem vertexGood_empty : VertexSane ⟨.empty, []⟩ := ⟨sane_empty, by unfold Small; simp, by simp⟩

theorem keeps_path : Keeps (pathReader rv .empty) PathSane := by
  intro id ty g h
  simp only [pathReader] at h
  split at h
  · cases h; exact keeps_blockAt (fun v hv => (keeps_vertex hrv).read hv) (fun s hs => hs.1) fun s a hs ha => ⟨ha, hs.2⟩
  split at h
  · cases h
    exact keeps_block (yields_list ((keeps_step hrv).read ⟨vertexGood_empty, by unfold I32; simp, by unfold Small; simp, by unfold InI64; simp, propsGood_nil⟩) _)
      fun s a hs ha => ⟨hs.1, ha⟩
  cases h

theorem keeps_list : Keeps (listReader rv .empty) fun l => Small l.length ∧ ∀ x ∈ l, Sane x := by
  intro id ty g h
  simp only [listReader] at h
  split at h
  · cases h; exact keeps_block (yields_list (hrv _ sane_empty) _) fun s a _ ha => ha
  cases h

theorem keeps_map : Keeps (mapReader rv .empty) PropsSane := by
  intro id ty g h
  simp only [mapReader] at h
  split at h
  · cases h; exact keeps_block (yields_props (hrv _ sane_empty)) fun s a _ ha => ha
  cases h

theorem keeps_set : Keeps (setReader Value.beq rv .empty) fun l => Small l.length ∧ (l.Pairwise fun x y => Value.beq x y = false) ∧ ∀ x ∈ l, Sane x := by
  intro id ty g h
  simp only [setReader] at h
  split at h
  · cases h
    refine keeps_block (yields_list (hrv _ sane_empty) _) fun s a _ ha => ?_
    obtain ⟨h1, h2, h3⟩ := foldl_setAdd_sane a [] ha.2 (by simp) (by simp)
    have := ha.1
    exact ⟨by unfold Small at *; simp only [List.length_nil] at h3; omega, h2, h1⟩
  cases h

theorem keeps_dataSet : Keeps (dataSetReader rv .empty) fun x => (Small x.1.length ∧ ∀ s ∈ x.1, Small s.length) ∧ Small x.2.length ∧ ∀ r ∈ x.2, Small r.length ∧ ∀ v ∈ r, Sane v := by
  intro id ty g h
  simp only [dataSetReader] at h
  split at h
  · cases h; exact keeps_block (yields_list yields_binary _) fun s a hs ha => ⟨ha, hs.2⟩
  split at h
  · cases h; exact keeps_block (yields_list ((keeps_list hrv).read ⟨by unfold Small; simp, by simp⟩) _) fun s a hs ha => ⟨hs.1, ha⟩
  cases h
end

/-! ## Values -/

theorem VertexSane.fit {v : Vertex Value} (h : VertexSane v) : VertexFit v := ⟨h.2.1, fun t ht => ⟨(h.2.2 t ht).1, (h.2.2 t ht).2.1⟩⟩
theorem VertexSane.kids {v : Vertex Value} (h : VertexSane v) : ∀ x ∈ v.vid :: v.tags.flatMap (fun t => t.props.map Prod.snd), Sane x := by
  intro x hx
  rcases List.mem_cons.1 hx with rfl | hx
  · exact h.1
  · obtain ⟨t, ht, hx⟩ := List.mem_flatMap.1 hx
    exact (h.2.2 t ht).2.2 x hx

theorem sane_leaf {v : Value} (hc : v.children = []) (h : FitsHere v ∧ SetHere v) : Sane v := .mk h (by simp [hc])

theorem sane_vertex {v : Vertex Value} (h : VertexSane v) : Sane (.vertex v) := .mk ⟨h.fit, trivial⟩ h.kids

theorem sane_edge {e : Edge Value} (h : EdgeSane e) : Sane (.edge e) := by
  obtain ⟨h1, h2, h3, h4, h5, h6⟩ := h
  refine .mk ⟨⟨h3, h5, h4, h6.1⟩, trivial⟩ fun x hx => ?_
  simp only [Value.children] at hx
  rcases List.mem_cons.1 hx with rfl | hx
  · exact h1
  rcases List.mem_cons.1 hx with rfl | hx
  · exact h2
  · exact h6.2 x hx

theorem sane_path {p : Path Value} (h : PathSane p) : Sane (.path p) := by
  refine .mk ⟨⟨h.1.fit, h.2.1, fun s hs => ?_⟩, trivial⟩ fun x hx => ?_
  · obtain ⟨a, b, c, d, e⟩ := h.2.2 s hs
    exact ⟨a.fit, b, d, c, e.1⟩
  · simp only [Value.children] at hx
    rcases List.mem_append.1 hx with hx | hx
    · exact h.1.kids x hx
    · obtain ⟨s, hs, hx⟩ := List.mem_flatMap.1 hx
      obtain ⟨a, b, c, d, e⟩ := h.2.2 s hs
      rcases List.mem_append.1 hx with hx | hx
      · exact a.kids x hx
      · exact e.2 x hx

theorem small_zero : Small 0 := by unfold Small; simp

/-- If there is a reader for the field, it gives good values. -/
def USane (o : Option (Bytes → Option (Value × Bytes))) : Prop := ∀ g, o = some g → Yields Sane g

theorem usane_ite {p : Prop} [Decidable p] {a b : Option (Bytes → Option (Value × Bytes))} (ha : USane a) (hb : USane b) : USane (if p then a else b) := by
  split <;> assumption
theorem usane_some {g : Bytes → Option (Value × Bytes)} (h : Yields Sane g) : USane (some g) := by intro g' e; cases e; exact h
theorem usane_none : USane none := by intro g e; cases e
theorem usane_st {α : Type} {R : Reader α} {I : α → Prop} {a : α} {mk : α → Value} {ct : Nat} (h : Keeps R I) (ha : I a) (hm : ∀ x, I x → Sane (mk x)) :
    USane (if ct = ctStruct then some fun bs => (R.read a bs).map fun x => (mk x.1, x.2) else none) :=
  usane_ite (usane_some ((h.read ha).map hm)) usane_none

theorem yields_null : Yields Sane fun bs => match readI32 bs with
    | none => none
    | some (i, r) => (nullOf i).map fun n => (.null n, r) := by
  intro bs a r e
  dsimp only at e
  split at e
  · cases e
  · next i r' _ =>
    cases hn : nullOf i with
    | none => rw [hn] at e; cases e
    | some n => rw [hn] at e; cases e; exact sane_leaf rfl ⟨trivial, trivial⟩

theorem yields_bool (b : Bool) : Yields Sane fun bs => some (.bool b, bs) := by
  intro bs a r e; cases e; exact sane_leaf rfl ⟨trivial, trivial⟩

theorem yields_union {rv : Value → Bytes → Option (Value × Bytes)} (hrv : ∀ v, Sane v → Yields Sane (rv v)) (id : Int) (ct : Nat) : USane (unionField rv id ct) := by
  unfold unionField
  refine usane_ite (usane_ite (usane_some yields_null) usane_none) ?_
  refine usane_ite (usane_ite (usane_some (yields_bool _)) (usane_ite (usane_some (yields_bool _)) usane_none)) ?_
  refine usane_ite (usane_ite (usane_some (yields_i64.map fun x hx => sane_leaf rfl ⟨hx, trivial⟩)) usane_none) ?_
  refine usane_ite (usane_ite (usane_some (yields_double.map fun x hx => sane_leaf rfl ⟨hx, trivial⟩)) usane_none) ?_
  refine usane_ite (usane_ite (usane_some (yields_binary.map fun x hx => sane_leaf rfl ⟨hx, trivial⟩)) usane_none) ?_
  refine usane_ite (usane_st keeps_date (by simp [FitsHere, Date.default]) fun x hx => sane_leaf rfl ⟨hx, trivial⟩) ?_
  refine usane_ite (usane_st keeps_time (by simp [FitsHere]) fun x hx => sane_leaf rfl ⟨hx, trivial⟩) ?_
  refine usane_ite (usane_st keeps_dateTime (by simp [FitsHere]) fun x hx => sane_leaf rfl ⟨hx, trivial⟩) ?_
  refine usane_ite (usane_st (keeps_vertex hrv) vertexGood_empty fun x hx => sane_vertex hx) ?_
  refine usane_ite (usane_st (keeps_edge hrv) ⟨sane_empty, sane_empty, by unfold I32; simp, small_zero, by unfold InI64; simp, propsGood_nil⟩ fun x hx => sane_edge hx) ?_
  refine usane_ite (usane_st (keeps_path hrv) ⟨vertexGood_empty, small_zero, by simp⟩ fun x hx => sane_path hx) ?_
  refine usane_ite (usane_st (keeps_list hrv) ⟨small_zero, by simp⟩ fun x hx => .mk ⟨hx.1, trivial⟩ hx.2) ?_
  refine usane_ite (usane_st (keeps_map hrv) propsGood_nil fun x hx => .mk ⟨hx.1, trivial⟩ hx.2) ?_
  refine usane_ite (usane_st (keeps_set hrv) ⟨small_zero, by simp, by simp⟩ fun x hx => .mk ⟨hx.1, hx.2.1⟩ hx.2.2) ?_
  refine usane_ite (usane_st (a := ([], [])) (mk := fun x => .dataset x.1 x.2) (keeps_dataSet hrv) ⟨⟨small_zero, by simp⟩, small_zero, by simp⟩
    fun x hx => .mk ⟨⟨hx.1, hx.2.1, fun r hr => (hx.2.2 r hr).1⟩, trivial⟩ fun y hy => ?_) usane_none
  obtain ⟨r, hr, hy⟩ := List.mem_flatten.1 hy
  exact (hx.2.2 r hr).2 y hy

theorem yields_value : ∀ f v, Sane v → Yields Sane (readValue f v)
  | 0, v, _ => by intro bs a r e; cases e
  | f + 1, v, hv => by
    intro bs a r e
    rw [readValue] at e
    split at e
    · cases e
    · cases e; exact sane_empty
    · next id ct r1 _ =>
      dsimp only at e
      split at e
      · cases e
      · next v' r2 hx =>
        have hg : Sane v' := by
          split at hx
          · next g hu => exact yields_union (yields_value f) id ct g hu _ _ _ hx
          · cases hs : skip (r1.length + 1) ct r1 with
            | none => rw [hs] at hx; cases hx
            | some y => rw [hs] at hx; cases hx; exact hv
        split at e
        · cases e; exact hg
        · cases e

theorem deserialize_sane {bs r : Bytes} {v : Value} (h : deserialize bs = some (v, r)) : Sane v := yields_value _ _ sane_empty _ _ _ h

end Wire
end Nebula
