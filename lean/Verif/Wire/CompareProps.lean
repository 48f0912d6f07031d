import Verif.Wire.ForwardProps
import Verif.Wire.NamedSpec
import Verif.Value.EqLemmas
/-! # C162: comparing values that were received -/
namespace Nebula
namespace Wire

/-! ## Comparing what was mapped -/

section
variable {V : Type} {n : V → V} {eq e1 e2 : V → V → Bool}

theorem lookup_nm (m : Props V) (k : Bytes) : (m.map fun kv => (kv.1, n kv.2)).lookup k = (m.lookup k).map n := by
  induction m with
  | nil => rfl
  | cons x m ih =>
    obtain ⟨k', v⟩ := x
    simp only [List.map_cons, List.lookup_cons]
    cases k == k' <;> simp [ih]

theorem lookup_snd {m : Props V} {k : Bytes} {v : V} (h : m.lookup k = some v) : v ∈ m.map Prod.snd := by
  induction m with
  | nil => cases h
  | cons x m ih =>
    obtain ⟨k', v'⟩ := x
    simp only [List.lookup_cons] at h
    cases hk : k == k' with
    | true => rw [hk] at h; cases h; simp
    | false => rw [hk] at h; simp only [List.map_cons]; exact List.mem_cons_of_mem _ (ih h)

theorem mapBeq_nm (m m' : Props V) : mapBeq eq (m.map fun kv => (kv.1, n kv.2)) (m'.map fun kv => (kv.1, n kv.2)) = mapBeq (fun x y => eq (n x) (n y)) m m' := by
  simp only [mapBeq, List.length_map, List.all_map, lookup_nm, Option.any_map, Function.comp_def]

theorem vecBeq_nm {α : Type} {f : α → α} {eq : α → α → Bool} : ∀ l l' : List α, vecBeq eq (l.map f) (l'.map f) = vecBeq (fun x y => eq (f x) (f y)) l l'
  | [], [] => rfl
  | [], _ :: _ => rfl
  | _ :: _, [] => rfl
  | a :: l, b :: l' => by simp only [List.map_cons, vecBeq, vecBeq_nm l l']

theorem vertexBeq_nm (v w : Vertex V) : Vertex.beq eq (Vertex.nm n v) (Vertex.nm n w) = Vertex.beq (fun x y => eq (n x) (n y)) v w := by
  simp only [Vertex.beq, Vertex.nm, vecBeq_nm, Tag.beq, Tag.nm, mapBeq_nm]; rfl

theorem mapBeq_mono {m m' : Props V} (h : ∀ x ∈ m.map Prod.snd, ∀ y ∈ m'.map Prod.snd, e1 x y = true → e2 x y = true) : mapBeq e1 m m' = true → mapBeq e2 m m' = true := by
  simp only [mapBeq, Bool.and_eq_true, List.all_eq_true]
  refine fun ⟨h1, h2⟩ => ⟨h1, fun kv hkv => ?_⟩
  have := h2 kv hkv
  cases hl : m'.lookup kv.1 with
  | none => rw [hl] at this; cases this
  | some w => rw [hl] at this; exact h kv.2 (List.mem_map_of_mem hkv) w (lookup_snd hl) this

theorem vecBeq_mono {α : Type} {e1 e2 : α → α → Bool} : ∀ {l l' : List α}, (∀ x ∈ l, ∀ y ∈ l', e1 x y = true → e2 x y = true) → vecBeq e1 l l' = true → vecBeq e2 l l' = true
  | [], [], _, _ => rfl
  | [], _ :: _, _, h => by cases h
  | _ :: _, [], _, h => by cases h
  | a :: l, b :: l', h, hv => by
    simp only [vecBeq, Bool.and_eq_true] at hv ⊢
    exact ⟨h a List.mem_cons_self b List.mem_cons_self hv.1, vecBeq_mono (fun x hx y hy => h x (List.mem_cons_of_mem _ hx) y (List.mem_cons_of_mem _ hy)) hv.2⟩

theorem setBeq_nm (l l' : List V) : setBeq eq (l.map n) (l'.map n) = setBeq (fun x y => eq (n x) (n y)) l l' := by
  simp only [setBeq, List.length_map, List.all_map, List.any_map, Function.comp_def]

theorem setBeq_mono {l l' : List V} (h : ∀ x ∈ l, ∀ y ∈ l', e1 x y = true → e2 x y = true) : setBeq e1 l l' = true → setBeq e2 l l' = true := by
  simp only [setBeq, Bool.and_eq_true, List.all_eq_true, List.any_eq_true]
  exact fun ⟨h1, h2⟩ => ⟨h1, fun x hx => (h2 x hx).imp fun y hy => ⟨hy.1, h x hx y hy.1 hy.2⟩⟩

theorem vertexBeq_mono {v w : Vertex V} (h : ∀ x ∈ v.vid :: v.tags.flatMap (fun t => t.props.map Prod.snd), ∀ y ∈ w.vid :: w.tags.flatMap (fun t => t.props.map Prod.snd), e1 x y = true → e2 x y = true) :
    Vertex.beq e1 v w = true → Vertex.beq e2 v w = true := by
  simp only [Vertex.beq, Bool.and_eq_true]
  refine fun ⟨h1, h2⟩ => ⟨h _ List.mem_cons_self _ List.mem_cons_self h1, vecBeq_mono (fun t ht u hu => ?_) h2⟩
  simp only [Tag.beq, Bool.and_eq_true]
  exact fun ⟨h3, h4⟩ => ⟨h3, mapBeq_mono (fun x hx y hy => h x (List.mem_cons_of_mem _ (List.mem_flatMap.2 ⟨t, ht, hx⟩)) y (List.mem_cons_of_mem _ (List.mem_flatMap.2 ⟨u, hu, hy⟩))) h4⟩
end

/-! ## Equality is kept -/

theorem dir_neg (t : Int) : dir (-t) = -dir t := by unfold dir; split <;> split <;> (try split) <;> (try split) <;> omega

/-- What arrives of the elements of a set is pairwise different. -/
def ApartHere : Value → Prop
  | .set l => (l.map wireImage).Pairwise fun x y => Value.beq x y = false
  | _ => True

theorem set_image {l : List Value} (h : ApartHere (.set l)) : wireImage (.set l) = .set (l.map wireImage) := by
  rw [wireImage, imgVec_eq, once_eq, foldl_setAdd _ [] (by simp) h]; rfl

theorem setless_apart {v : Value} (h : Setless v) : Value.Hered ApartHere v :=
  h.imp fun x hx => by cases x <;> first | trivial | (rw [show _ = [] from hx]; exact .nil)

theorem image_beq (a : Value) : ∀ b, Value.Hered ApartHere a → Value.Hered ApartHere b → Value.beq a b = true → Value.beq (wireImage a) (wireImage b) = true := by
  induction a using Value.children_induction with
  | h a ih =>
    intro b ha hb h
    have hk : ∀ x ∈ a.children, ∀ y ∈ b.children, Value.beq x y = true → (fun x y => Value.beq (wireImage x) (wireImage y)) x y = true :=
      fun x hx y hy => ih x hx y (ha.kids x hx) (hb.kids y hy)
    have hhere := ha.here
    have hhere' := hb.here
    have h0 := h
    rw [Value.beq_eqn] at h
    cases a with
    | vertex x =>
      cases b with
      | vertex y => rw [wireImage, wireImage, imgVertex_eq, imgVertex_eq, Value.beq_eqn]; dsimp only; rw [vertexBeq_nm]; exact vertexBeq_mono hk h
      | _ => simp [Value.typeFlag] at h
    | edge x =>
      cases b with
      | edge y =>
        obtain ⟨s, d, t, nm, r, p⟩ := x
        obtain ⟨s', d', t', nm', r', p'⟩ := y
        simp only [Value.children] at hk
        have hp : ∀ x ∈ p.map Prod.snd, ∀ y ∈ p'.map Prod.snd, Value.beq x y = true → (fun x y => Value.beq (wireImage x) (wireImage y)) x y = true := fun x hx y hy =>
          hk x (List.mem_cons_of_mem _ (List.mem_cons_of_mem _ hx)) y (List.mem_cons_of_mem _ (List.mem_cons_of_mem _ hy))
        rw [wireImage, wireImage, imgProps_eq, imgProps_eq, Value.beq_eqn]
        obtain ⟨⟨h1, h2⟩, h3⟩ := (Value.edge_beq_iff _ _ _).1 h
        refine (Value.edge_beq_iff _ _ _).2 ⟨⟨h1, by dsimp only; rw [mapBeq_nm]; exact mapBeq_mono hp h2⟩, ?_⟩
        dsimp only at h3 ⊢
        rcases h3 with ⟨h3, h4, h5⟩ | ⟨h3, h6, h4, h5⟩
        · exact .inl ⟨by rw [h3], hk _ (by simp) _ (by simp) h4, hk _ (by simp) _ (by simp) h5⟩
        · refine .inr ⟨?_, by rw [h6, dir_neg], hk _ (by simp) _ (by simp) h4, hk _ (by simp) _ (by simp) h5⟩
          rw [h6, dir_neg]
          have : t' ≠ 0 := by rintro rfl; exact h3 (by simpa using h6)
          unfold dir; split <;> (try split) <;> omega
      | _ => simp [Value.typeFlag] at h
    | path x =>
      cases b with
      | path y =>
        obtain ⟨v, ss⟩ := x
        obtain ⟨v', ss'⟩ := y
        simp only [Value.children] at hk
        rw [wireImage, wireImage, imgVertex_eq, imgVertex_eq, imgSteps_eq, imgSteps_eq, Value.beq_eqn]
        simp only [Path.beq, Bool.and_eq_true] at h ⊢
        rw [vertexBeq_nm, vecBeq_nm]
        refine ⟨vertexBeq_mono (fun x hx y hy => hk x (List.mem_append_left _ hx) y (List.mem_append_left _ hy)) h.1, vecBeq_mono (fun s hs t ht hst => ?_) h.2⟩
        have hk' : ∀ x ∈ (s.dst.vid :: s.dst.tags.flatMap fun t => t.props.map Prod.snd) ++ s.props.map Prod.snd,
            ∀ y ∈ (t.dst.vid :: t.dst.tags.flatMap fun t => t.props.map Prod.snd) ++ t.props.map Prod.snd, Value.beq x y = true →
              (fun x y => Value.beq (wireImage x) (wireImage y)) x y = true := fun x hx y hy =>
          hk x (List.mem_append_right _ (List.mem_flatMap.2 ⟨s, hs, hx⟩)) y (List.mem_append_right _ (List.mem_flatMap.2 ⟨t, ht, hy⟩))
        simp only [Step.beq, Step.nm, Bool.and_eq_true, beq_iff_eq, vertexBeq_nm, mapBeq_nm] at hst ⊢
        obtain ⟨⟨⟨⟨h1, h2⟩, h3⟩, h4⟩, h5⟩ := hst
        exact ⟨⟨⟨⟨vertexBeq_mono (fun x hx y hy => hk' x (List.mem_append_left _ hx) y (List.mem_append_left _ hy)) h1, by rw [h2]⟩, h3⟩, h4⟩,
          mapBeq_mono (fun x hx y hy => hk' x (List.mem_append_right _ hx) y (List.mem_append_right _ hy)) h5⟩
      | _ => simp [Value.typeFlag] at h
    | list l =>
      cases b with
      | list m => rw [wireImage, wireImage, imgVec_eq, imgVec_eq, Value.beq_eqn]; dsimp only; rw [vecBeq_nm]; exact vecBeq_mono hk h
      | _ => simp [Value.typeFlag] at h
    | map l =>
      cases b with
      | map m => rw [wireImage, wireImage, imgProps_eq, imgProps_eq, Value.beq_eqn]; dsimp only; rw [mapBeq_nm]; exact mapBeq_mono hk h
      | _ => simp [Value.typeFlag] at h
    | set l =>
      cases b with
      | set m => rw [set_image hhere, set_image hhere', Value.beq_eqn]; dsimp only; rw [setBeq_nm]; exact setBeq_mono hk h
      | _ => simp [Value.typeFlag] at h
    | dataset c r =>
      cases b with
      | dataset c' r' =>
        rw [wireImage, wireImage, imgRows_eq, imgRows_eq, Value.beq_eqn]
        simp only [Bool.and_eq_true] at h ⊢
        refine ⟨h.1, ?_⟩
        rw [vecBeq_nm]
        refine vecBeq_mono (fun x hx y hy hxy => ?_) h.2
        rw [vecBeq_nm]
        exact vecBeq_mono (fun u hu w hw => hk u (List.mem_flatten.2 ⟨x, hx, hu⟩) w (List.mem_flatten.2 ⟨y, hy, hw⟩)) hxy
      | _ => simp [Value.typeFlag] at h
    | _ =>
      clear h hk ih
      cases b <;> first | (simp [Value.beq] at h0; done) | (simp only [wireImage]; exact h0)

/-! ## Equality of what arrived tells equality, for edges of one kind -/

/-- Edges are of the one kind with the number `k`, in either direction; steps have the number of their name, in either direction; the elements of a set are different. -/
def KindHere (k : Int) (num : Bytes → Int) : Value → Prop
  | .edge e => 0 < k ∧ (e.type = k ∨ e.type = -k)
  | .path p => ∀ s ∈ p.steps, 0 < num s.name ∧ (s.type = num s.name ∨ s.type = -num s.name)
  | .set l => l.Pairwise fun x y => Value.beq x y = false
  | _ => True

theorem dir_kind {k t : Int} (hk : 0 < k) (h : t = k ∨ t = -k) : t = dir t * k := by
  rcases h with rfl | rfl
  · unfold dir; rw [if_pos hk]; omega
  · unfold dir; rw [if_neg (by omega), if_pos (by omega)]; omega

theorem image_beq_conv {k : Int} {num : Bytes → Int} (a : Value) : ∀ b, Value.Hered (KindHere k num) a → Value.Hered (KindHere k num) b → Value.Hered ApartHere a → Value.Hered ApartHere b →
    Value.beq (wireImage a) (wireImage b) = true → Value.beq a b = true := by
  induction a using Value.children_induction with
  | h a ih =>
    intro b ha hb pa pb h
    have hk : ∀ x ∈ a.children, ∀ y ∈ b.children, (fun x y => Value.beq (wireImage x) (wireImage y)) x y = true → Value.beq x y = true :=
      fun x hx y hy => ih x hx y (ha.kids x hx) (hb.kids y hy) (pa.kids x hx) (pb.kids y hy)
    have hhere := ha.here
    have hhere' := hb.here
    cases a with
    | vertex x =>
      cases b with
      | vertex y =>
        rw [wireImage, wireImage, imgVertex_eq, imgVertex_eq, Value.beq_eqn] at h
        dsimp only at h
        rw [vertexBeq_nm] at h
        rw [Value.beq_eqn]
        exact vertexBeq_mono hk h
      | _ => simp [wireImage, Value.beq] at h
    | edge x =>
      cases b with
      | edge y =>
        obtain ⟨s, d, t, nm, r, p⟩ := x
        obtain ⟨s', d', t', nm', r', p'⟩ := y
        simp only [Value.children] at hk
        have hp : ∀ x ∈ p.map Prod.snd, ∀ y ∈ p'.map Prod.snd, (fun x y => Value.beq (wireImage x) (wireImage y)) x y = true → Value.beq x y = true := fun x hx y hy =>
          hk x (List.mem_cons_of_mem _ (List.mem_cons_of_mem _ hx)) y (List.mem_cons_of_mem _ (List.mem_cons_of_mem _ hy))
        rw [wireImage, wireImage, imgProps_eq, imgProps_eq, Value.beq_eqn] at h
        obtain ⟨⟨h1, h2⟩, h3⟩ := (Value.edge_beq_iff _ _ _).1 h
        dsimp only at h2
        rw [mapBeq_nm] at h2
        rw [Value.beq_eqn]
        refine (Value.edge_beq_iff _ _ _).2 ⟨⟨h1, mapBeq_mono hp h2⟩, ?_⟩
        dsimp only at h3 ⊢
        have e1 := dir_kind hhere.1 hhere.2
        have e2 := dir_kind hhere'.1 hhere'.2
        dsimp only at e1 e2
        rcases h3 with ⟨h3, h4, h5⟩ | ⟨h3, h6, h4, h5⟩
        · exact .inl ⟨by rw [e1, e2, h3], hk _ (by simp) _ (by simp) h4, hk _ (by simp) _ (by simp) h5⟩
        · exact .inr ⟨fun e => h3 (by rw [e]), by rw [e1, h6, Int.neg_mul, ← e2], hk _ (by simp) _ (by simp) h4, hk _ (by simp) _ (by simp) h5⟩
      | _ => simp [wireImage, Value.beq] at h
    | path x =>
      cases b with
      | path y =>
        obtain ⟨v, ss⟩ := x
        obtain ⟨v', ss'⟩ := y
        simp only [Value.children] at hk
        rw [wireImage, wireImage, imgVertex_eq, imgVertex_eq, imgSteps_eq, imgSteps_eq, Value.beq_eqn] at h
        rw [Value.beq_eqn]
        simp only [Path.beq, Bool.and_eq_true] at h ⊢
        rw [vertexBeq_nm, vecBeq_nm] at h
        refine ⟨vertexBeq_mono (fun x hx y hy => hk x (List.mem_append_left _ hx) y (List.mem_append_left _ hy)) h.1, vecBeq_mono (fun s hs t ht hst => ?_) h.2⟩
        have hk' : ∀ x ∈ (s.dst.vid :: s.dst.tags.flatMap fun t => t.props.map Prod.snd) ++ s.props.map Prod.snd,
            ∀ y ∈ (t.dst.vid :: t.dst.tags.flatMap fun t => t.props.map Prod.snd) ++ t.props.map Prod.snd,
              (fun x y => Value.beq (wireImage x) (wireImage y)) x y = true → Value.beq x y = true := fun x hx y hy =>
          hk x (List.mem_append_right _ (List.mem_flatMap.2 ⟨s, hs, hx⟩)) y (List.mem_append_right _ (List.mem_flatMap.2 ⟨t, ht, hy⟩))
        simp only [Step.beq, Step.nm, Bool.and_eq_true, beq_iff_eq, vertexBeq_nm, mapBeq_nm] at hst ⊢
        obtain ⟨⟨⟨⟨h1, h2⟩, h3⟩, h4⟩, h5⟩ := hst
        have e1 := dir_kind (hhere s hs).1 (hhere s hs).2
        have e2 := dir_kind (hhere' t ht).1 (hhere' t ht).2
        exact ⟨⟨⟨⟨vertexBeq_mono (fun x hx y hy => hk' x (List.mem_append_left _ hx) y (List.mem_append_left _ hy)) h1, by rw [e1, e2, h2, h3]⟩, h3⟩, h4⟩,
          mapBeq_mono (fun x hx y hy => hk' x (List.mem_append_right _ hx) y (List.mem_append_right _ hy)) h5⟩
      | _ => simp [wireImage, Value.beq] at h
    | list l =>
      cases b with
      | list m =>
        rw [wireImage, wireImage, imgVec_eq, imgVec_eq, Value.beq_eqn] at h
        dsimp only at h
        rw [vecBeq_nm] at h
        rw [Value.beq_eqn]
        exact vecBeq_mono hk h
      | _ => simp [wireImage, Value.beq] at h
    | map l =>
      cases b with
      | map m =>
        rw [wireImage, wireImage, imgProps_eq, imgProps_eq, Value.beq_eqn] at h
        dsimp only at h
        rw [mapBeq_nm] at h
        rw [Value.beq_eqn]
        exact mapBeq_mono hk h
      | _ => simp [wireImage, Value.beq] at h
    | set l =>
      cases b with
      | set m =>
        rw [set_image pa.here, set_image pb.here, Value.beq_eqn] at h
        dsimp only at h
        rw [setBeq_nm] at h
        rw [Value.beq_eqn]
        exact setBeq_mono hk h
      | _ => simp [wireImage, Value.beq] at h
    | dataset c r =>
      cases b with
      | dataset c' r' =>
        rw [wireImage, wireImage, imgRows_eq, imgRows_eq, Value.beq_eqn] at h
        rw [Value.beq_eqn]
        simp only [Bool.and_eq_true] at h ⊢
        refine ⟨h.1, ?_⟩
        have h2 := h.2
        rw [vecBeq_nm] at h2
        refine vecBeq_mono (fun x hx y hy hxy => ?_) h2
        rw [vecBeq_nm] at hxy
        exact vecBeq_mono (fun u hu w hw => hk u (List.mem_flatten.2 ⟨x, hx, hu⟩) w (List.mem_flatten.2 ⟨y, hy, hw⟩)) hxy
      | _ => simp [wireImage, Value.beq] at h
    | _ =>
      clear hk ih
      cases b <;> first | (simp [wireImage, Value.beq] at h; done) | (simp only [wireImage] at h; exact h)

theorem kind_apart {k : Int} {num : Bytes → Int} (v : Value) : Value.Hered (KindHere k num) v → Value.Hered ApartHere v := by
  induction v using Value.children_induction with
  | h v ih =>
    intro hv
    refine .mk ?_ fun x hx => ih x hx (hv.kids x hx)
    cases v with
    | set l =>
      refine List.pairwise_map.2 (List.Pairwise.imp_of_mem (fun {x y} hx hy hxy => ?_) (show l.Pairwise _ from hv.here))
      cases h : Value.beq (wireImage x) (wireImage y) with
      | false => rfl
      | true => rw [image_beq_conv x y (hv.kids x hx) (hv.kids y hy) (ih x hx (hv.kids x hx)) (ih y hy (hv.kids y hy)) h] at hxy; cases hxy
    | _ => trivial

/-! ## The theorems -/

/-- **C162 (equal stays equal)** (partial: without elements in sets).  Two values that are equal where they come from are equal where they arrive. -/
theorem C162_equal_partial {bits : F64 → Nat} (hb : BitsOk bits) (a b a' b' : Value) (r s r' s' : Bytes) (fa : Fits a) (fb : Fits b) (sa : Setless a) (sb : Setless b)
    (ha : deserialize (serialize bits a ++ r) = some (a', r')) (hb' : deserialize (serialize bits b ++ s) = some (b', s')) (h : Value.beq a b = true) : Value.beq a' b' = true := by
  rw [C67_image hb a fa] at ha
  rw [C67_image hb b fb] at hb'
  cases ha; cases hb'
  exact image_beq a b (setless_apart sa) (setless_apart sb) h

/-- **C162 (as before)** (partial: for edges of one kind and steps whose type goes with their name).  Two values, sets and all, compare where they arrive as they did where they come from. -/
theorem C162_compare_partial {bits : F64 → Nat} (hb : BitsOk bits) (k : Int) (num : Bytes → Int) (a b a' b' : Value) (r s r' s' : Bytes) (fa : Fits a) (fb : Fits b)
    (ka : Value.Hered (KindHere k num) a) (kb : Value.Hered (KindHere k num) b)
    (ha : deserialize (serialize bits a ++ r) = some (a', r')) (hb' : deserialize (serialize bits b ++ s) = some (b', s')) : Value.beq a' b' = Value.beq a b := by
  rw [C67_image hb a fa] at ha
  rw [C67_image hb b fb] at hb'
  cases ha; cases hb'
  exact Bool.eq_iff_iff.2 ⟨image_beq_conv a b ka kb (kind_apart a ka) (kind_apart b kb), image_beq a b (kind_apart a ka) (kind_apart b kb)⟩

/-- Two edges of the same kind between the same vertices, one in each direction. -/
example : Value.Hered (KindHere 7 fun _ => 1) (.edge ⟨.str [97], .str [98], 7, [102], 0, []⟩) ∧ Value.Hered (KindHere 7 fun _ => 1) (.edge ⟨.str [98], .str [97], -7, [102], 0, []⟩) := by
  refine ⟨.mk ⟨by decide, .inl rfl⟩ fun x hx => ?_, .mk ⟨by decide, .inr rfl⟩ fun x hx => ?_⟩ <;>
  · simp only [Value.children, List.map_nil, List.mem_cons, List.not_mem_nil, or_false] at hx
    rcases hx with rfl | rfl <;> exact .mk trivial (by simp [Value.children])

/-- **C162 (sets)** (partial: for edges of one kind and steps whose type goes with their name).  A set of different values keeps them all: it arrives with what arrives of each, in its order. -/
theorem C162_set_partial {bits : F64 → Nat} (hb : BitsOk bits) (k : Int) (num : Bytes → Int) (l : List Value) (rest : Bytes) (fl : Fits (.set l)) (kl : Value.Hered (KindHere k num) (.set l)) :
    ∃ l', deserialize (serialize bits (.set l) ++ rest) = some (.set l', rest) ∧ l'.length = l.length ∧
      ∀ i (h : i < l.length) (h' : i < l'.length), deserialize (serialize bits l[i] ++ rest) = some (l'[i], rest) := by
  refine ⟨l.map wireImage, ?_, by simp, fun i h h' => ?_⟩
  · rw [C67_image hb _ fl, set_image (kind_apart _ kl).here]
  · rw [C67_image hb _ (fl.kids _ (List.getElem_mem h)), List.getElem_map]

/-- A set of a number, a text and an edge. -/
example : Value.Hered (KindHere 7 fun _ => 1) (.set [.int 1, .str [49], .edge ⟨.str [97], .str [98], 7, [102], 0, []⟩]) := by
  refine .mk ?_ fun x hx => ?_
  · simp [KindHere, Value.beq, Value.typeFlag]
  · simp only [Value.children, List.mem_cons, List.not_mem_nil, or_false] at hx
    rcases hx with rfl | rfl | rfl
    · exact .mk trivial (by simp [Value.children])
    · exact .mk trivial (by simp [Value.children])
    · refine .mk ⟨by decide, .inl rfl⟩ fun x hx => ?_
      simp only [Value.children, List.map_nil, List.mem_cons, List.not_mem_nil, or_false] at hx
      rcases hx with rfl | rfl <;> exact .mk trivial (by simp [Value.children])

/-- The edges `a -follow-> b` and `a -serve-> b`, with different types. -/
def follow : Value := .edge ⟨.str [97], .str [98], 5, [102, 111, 108, 108, 111, 119], 0, []⟩
def serve : Value := .edge ⟨.str [97], .str [98], 7, [115, 101, 114, 118, 101], 0, []⟩

/-- **C162 violated.** Two edges of different kinds between the same vertices are different where they come from and equal where they arrive: the type is reduced to its direction and the name is
not compared. -/
theorem C162_kinds_violated {bits : F64 → Nat} (hb : BitsOk bits) : ∃ a' b', deserialize (serialize bits follow) = some (a', []) ∧ deserialize (serialize bits serve) = some (b', []) ∧
    Value.beq follow serve = false ∧ Value.beq a' b' = true := by
  have fits : ∀ (t : Int) (n : Bytes), (t = 5 ∨ t = 7) → Small n.length → Fits (.edge ⟨.str [97], .str [98], t, n, 0, []⟩) := fun t n ht hn => by
    refine .mk ⟨by dsimp only; omega, by simp [InI64], hn, by simp [Small], by simp, by simp⟩ fun x hx => ?_
    simp only [Value.children, List.map_nil, List.mem_cons, List.not_mem_nil, or_false] at hx
    rcases hx with rfl | rfl <;> exact .mk (by simp [FitsHere, Small]) (by simp [Value.children])
  have h1 := C67_image hb follow (fits 5 _ (.inl rfl) (by simp [Small])) []
  have h2 := C67_image hb serve (fits 7 _ (.inr rfl) (by simp [Small])) []
  rw [List.append_nil] at h1 h2
  exact ⟨_, _, h1, h2, by decide +kernel, by decide +kernel⟩

/-- **C162 violated, as data.** A set of these two edges arrives with one of them. -/
theorem C162_set_violated {bits : F64 → Nat} (hb : BitsOk bits) : ∃ e, deserialize (serialize bits (.set [follow, serve])) = some (.set [e], []) ∧ Value.beq follow serve = false := by
  have fits : ∀ (t : Int) (n : Bytes), (t = 5 ∨ t = 7) → Small n.length → Fits (.edge ⟨.str [97], .str [98], t, n, 0, []⟩) := fun t n ht hn => by
    refine .mk ⟨by dsimp only; omega, by simp [InI64], hn, by simp [Small], by simp, by simp⟩ fun x hx => ?_
    simp only [Value.children, List.map_nil, List.mem_cons, List.not_mem_nil, or_false] at hx
    rcases hx with rfl | rfl <;> exact .mk (by simp [FitsHere, Small]) (by simp [Value.children])
  have h := C67_image hb (.set [follow, serve]) (.mk (by simp [FitsHere, Small]) fun x hx => by
    simp only [Value.children, List.mem_cons, List.not_mem_nil, or_false] at hx
    rcases hx with rfl | rfl
    · exact fits 5 _ (.inl rfl) (by simp [Small])
    · exact fits 7 _ (.inr rfl) (by simp [Small])) []
  rw [List.append_nil] at h
  refine ⟨wireImage follow, ?_, by decide +kernel⟩
  rw [h]
  have : Value.beq (wireImage follow) (wireImage serve) = true := by decide +kernel
  have e : ∀ l, wireImage (.set l) = .set (once (imgVec l)) := fun l => by rw [wireImage]
  rw [e]
  simp only [imgVec, once, List.foldl_cons, List.foldl_nil, List.any_nil, Bool.false_eq_true, if_false, List.nil_append, List.any_cons, this, Bool.or_false, if_true]

end Wire
end Nebula
