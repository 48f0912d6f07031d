import Verif.Wire.ReadFits
/-! # C159: a value that was received can be sent on -/
namespace Nebula
namespace Wire

/-- Edge and step types are directions: -1, 0 or 1. -/
def DirHere : Value → Prop
  | .edge e => -1 ≤ e.type ∧ e.type ≤ 1
  | .path p => ∀ s ∈ p.steps, -1 ≤ s.type ∧ s.type ≤ 1
  | _ => True

theorem sane_fits {v : Value} (h : Sane v) : Fits v := h.imp fun _ hx => hx.1

theorem sane_plain {v : Value} (h : Sane v) : Value.Hered DirHere v → Plain v := by
  induction v using Value.children_induction with
  | h v ih =>
    intro hd
    refine .mk ?_ fun x hx => ih x hx (h.kids x hx) (hd.kids x hx)
    have h1 := h.here.2
    have h2 := hd.here
    cases v <;> first | exact h1 | exact h2

theorem dir_unit (t : Int) : -1 ≤ dir t ∧ dir t ≤ 1 := by unfold dir; split <;> (try split) <;> omega

theorem mem_once {l : List Value} {x : Value} (h : x ∈ once l) : x ∈ l := by
  have := (foldl_setAdd_sane (Q := fun x => x ∈ l) l [] (fun _ h => h) (by simp) (by simp)).1 x
  rw [once_eq] at h
  exact this h

theorem vertex_nm_kids {n : Value → Value} {v : Vertex Value} {x : Value}
    (h : x ∈ (Vertex.nm n v).vid :: (Vertex.nm n v).tags.flatMap (fun t => t.props.map Prod.snd)) :
    ∃ y ∈ v.vid :: v.tags.flatMap (fun t => t.props.map Prod.snd), x = n y := by
  rcases List.mem_cons.1 h with rfl | h
  · exact ⟨_, List.mem_cons_self, rfl⟩
  · obtain ⟨t, ht, hx⟩ := List.mem_flatMap.1 h
    obtain ⟨t', ht', rfl⟩ := List.mem_map.1 ht
    obtain ⟨kv, hkv, rfl⟩ := List.mem_map.1 hx
    obtain ⟨kv', hkv', rfl⟩ := List.mem_map.1 hkv
    exact ⟨kv'.2, List.mem_cons_of_mem _ (List.mem_flatMap.2 ⟨t', ht', List.mem_map_of_mem hkv'⟩), rfl⟩

theorem props_nm_kids {n : Value → Value} {m : Props Value} {x : Value} (h : x ∈ (m.map fun kv => (kv.1, n kv.2)).map Prod.snd) : ∃ y ∈ m.map Prod.snd, x = n y := by
  obtain ⟨kv, hkv, rfl⟩ := List.mem_map.1 h
  obtain ⟨kv', hkv', rfl⟩ := List.mem_map.1 hkv
  exact ⟨kv'.2, List.mem_map_of_mem hkv', rfl⟩

theorem image_kids (v x : Value) (h : x ∈ (wireImage v).children) : ∃ y ∈ v.children, x = wireImage y := by
  cases v with
  | vertex v => rw [wireImage, imgVertex_eq] at h; exact vertex_nm_kids h
  | edge e =>
    obtain ⟨s, d, t, n, r, p⟩ := e
    rw [wireImage, imgProps_eq] at h
    simp only [Value.children] at h ⊢
    rcases List.mem_cons.1 h with rfl | h
    · exact ⟨s, by simp, rfl⟩
    rcases List.mem_cons.1 h with rfl | h
    · exact ⟨d, by simp, rfl⟩
    · obtain ⟨y, hy, rfl⟩ := props_nm_kids h
      exact ⟨y, List.mem_cons_of_mem _ (List.mem_cons_of_mem _ hy), rfl⟩
  | path p =>
    obtain ⟨v, ss⟩ := p
    rw [wireImage, imgVertex_eq, imgSteps_eq] at h
    simp only [Value.children] at h ⊢
    rcases List.mem_append.1 h with h | h
    · obtain ⟨y, hy, rfl⟩ := vertex_nm_kids h
      exact ⟨y, List.mem_append_left _ hy, rfl⟩
    · obtain ⟨s, hs, hx⟩ := List.mem_flatMap.1 h
      obtain ⟨s', hs', rfl⟩ := List.mem_map.1 hs
      rcases List.mem_append.1 hx with hx | hx
      · obtain ⟨y, hy, rfl⟩ := vertex_nm_kids hx
        exact ⟨y, List.mem_append_right _ (List.mem_flatMap.2 ⟨s', hs', List.mem_append_left _ hy⟩), rfl⟩
      · obtain ⟨y, hy, rfl⟩ := props_nm_kids hx
        exact ⟨y, List.mem_append_right _ (List.mem_flatMap.2 ⟨s', hs', List.mem_append_right _ hy⟩), rfl⟩
  | list l =>
    rw [wireImage, imgVec_eq] at h
    obtain ⟨y, hy, rfl⟩ := List.mem_map.1 h
    exact ⟨y, hy, rfl⟩
  | map m => rw [wireImage, imgProps_eq] at h; exact props_nm_kids h
  | set l =>
    rw [wireImage, imgVec_eq] at h
    obtain ⟨y, hy, rfl⟩ := List.mem_map.1 (mem_once h)
    exact ⟨y, hy, rfl⟩
  | dataset c r =>
    rw [wireImage, imgRows_eq] at h
    obtain ⟨row, hrow, hx⟩ := List.mem_flatten.1 h
    obtain ⟨row', hrow', rfl⟩ := List.mem_map.1 hrow
    obtain ⟨y, hy, rfl⟩ := List.mem_map.1 hx
    exact ⟨y, List.mem_flatten.2 ⟨row', hrow', hy⟩, rfl⟩
  | _ => simp [wireImage, Value.children] at h

/-- What the serialiser sends has directions for types. -/
theorem image_dir (v : Value) : Value.Hered DirHere (wireImage v) := by
  induction v using Value.children_induction with
  | h v ih =>
    refine .mk ?_ fun x hx => ?_
    · cases v with
      | edge e => exact dir_unit _
      | path p =>
        obtain ⟨v, ss⟩ := p
        rw [wireImage, imgSteps_eq]
        intro s hs
        obtain ⟨s', _, rfl⟩ := List.mem_map.1 hs
        exact dir_unit _
      | _ => simp only [wireImage]; trivial
    · obtain ⟨y, hy, rfl⟩ := image_kids v x hx
      exact ih y hy

/-! ## The theorems -/

/-- **C159 (in range).** Whatever bytes a value was deserialised from, well formed or not, by whatever version written: its numbers are in the range of their types, its sizes can be
expressed, the keys of its maps are distinct, and so for all values in it. -/
theorem C159_fits {bs r : Bytes} {v : Value} (h : deserialize bs = some (v, r)) : Fits v := sane_fits (deserialize_sane h)

/-- **C159 (sets).** No set in a value that was received holds two equal values. -/
theorem C159_sets {bs r : Bytes} {v : Value} (h : deserialize bs = some (v, r)) :
    Value.Hered (fun x => ∀ l, x = .set l → l.Pairwise fun a b => Value.beq a b = false) v :=
  (deserialize_sane h).imp fun _ hx l e => by subst e; exact hx.2

/-- **C159.** A value that was received can be sent on: the next host receives it with the types of edges and steps replaced by their directions, and finds the end of it. -/
theorem C159_forward {bits : F64 → Nat} (hb : BitsOk bits) {bs r : Bytes} {v : Value} (h : deserialize bs = some (v, r)) (rest : Bytes) :
    deserialize (serialize bits v ++ rest) = some (wireImage v, rest) := C67_image hb v (C159_fits h) rest

/-- **C159** (partial: edge and step types that are directions).  The next host receives the very value. -/
theorem C159_same_partial {bits : F64 → Nat} (hb : BitsOk bits) {bs r : Bytes} {v : Value} (h : deserialize bs = some (v, r)) (hd : Value.Hered DirHere v) (rest : Bytes) :
    deserialize (serialize bits v ++ rest) = some (v, rest) := C67_round_trip_partial hb v (C159_fits h) (sane_plain (deserialize_sane h) hd) rest

/-- **C159 (from the second host on).** Whatever the first host received and sent on: every later host receives what the second did. -/
theorem C159_stable {bits : F64 → Nat} (hb : BitsOk bits) {bs r : Bytes} {v : Value} (h : deserialize bs = some (v, r)) (rest : Bytes) :
    deserialize (serialize bits (wireImage v) ++ rest) = some (wireImage v, rest) :=
  C159_same_partial hb (C159_forward hb h []) (image_dir v) rest

/-- **C159 (any value of this program).** The same for every value of the program that is sent: after the first hop nothing changes. -/
theorem C159_hops {bits : F64 → Nat} (hb : BitsOk bits) (v : Value) (hv : Fits v) (rest : Bytes) :
    deserialize (serialize bits (wireImage v) ++ rest) = some (wireImage v, rest) :=
  C159_same_partial hb (C67_image hb v hv []) (image_dir v) rest

/-- Bytes in which the elements of a list come twice, first none and then one, as this program would not write them: the value is received, and its types are directions. -/
example (bits : F64 → Nat) : ∃ bs, deserialize bs = some (.list [.bool true], []) ∧ bs ≠ serialize bits (.list [.bool true]) ∧ Value.Hered DirHere (.list [.bool true]) := by
  refine ⟨[204, 25, 12, 9, 2, 28, 33, 0, 0, 0], by rfl, fun h => ?_, ?_⟩
  · have e : serialize bits (.list [.bool true]) = [204, 25, 28, 33, 0, 0, 0] := by rfl
    rw [e] at h
    exact absurd h (by decide)
  · exact .mk trivial (by simp only [Value.children]; intro x hx; simp only [List.mem_singleton] at hx; subst hx; exact .mk trivial (by simp [Value.children]))

/-- **C159, violated.** Bytes with an edge of type 5, which another program may send: this one receives 5 and sends 1 on. -/
theorem C159_type_violated {bits : F64 → Nat} (hb : BitsOk bits) : ∃ bs, deserialize bs = some (.edge ⟨.empty, .empty, 5, [], 0, []⟩, []) ∧
    deserialize (serialize bits (.edge ⟨.empty, .empty, 5, [], 0, []⟩)) = some (.edge ⟨.empty, .empty, 1, [], 0, []⟩, []) := by
  have h : deserialize [172, 53, 10, 0, 0] = some (.edge ⟨.empty, .empty, 5, [], 0, []⟩, []) := by rfl
  refine ⟨_, h, ?_⟩
  have := C159_forward hb h []
  rw [List.append_nil] at this
  rw [this]; rfl

end Wire
end Nebula
