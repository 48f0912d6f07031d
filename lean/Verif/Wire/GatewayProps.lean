import Verif.Wire.AnswerForward
import Verif.Wire.NamedProps
/-! # C161: between the protocols -/
namespace Nebula
namespace Wire

theorem dir_dir (t : Int) : dir (dir t) = dir t := by unfold dir; split <;> (try split) <;> simp_all <;> omega

mutual
theorem text_wire : ∀ v : Value, textImage (wireImage v) = textImage v
  | .vertex v => by simp only [wireImage, textImage, text_wireVertex v]
  | .edge ⟨s, d, t, n, r, p⟩ => by simp only [wireImage, textImage, text_wire s, text_wire d, dir_dir, text_wireProps p]
  | .path ⟨v, ss⟩ => by simp only [wireImage, textImage, text_wireVertex v, text_wireSteps ss]
  | .list l => by simp only [wireImage, textImage, text_wireVec l]
  | .map m => by simp only [wireImage, textImage, text_wireProps m]
  | .set _ => by simp only [wireImage, textImage]
  | .dataset c r => by simp only [wireImage, textImage, text_wireRows r]
  | .empty => by simp only [wireImage]
  | .null n => by simp only [wireImage]
  | .bool b => by simp only [wireImage]
  | .int i => by simp only [wireImage]
  | .float f => by simp only [wireImage]
  | .str s => by simp only [wireImage]
  | .date d => by simp only [wireImage]
  | .time t => by simp only [wireImage]
  | .datetime d => by simp only [wireImage]
theorem text_wireVertex : ∀ v : Vertex Value, timgVertex (imgVertex v) = timgVertex v
  | ⟨v, ts⟩ => by simp only [imgVertex, timgVertex, text_wire v, text_wireTags ts]
theorem text_wireTags : ∀ l : List (Tag Value), timgTags (imgTags l) = timgTags l
  | [] => rfl
  | ⟨n, p⟩ :: ts => by simp only [imgTags, timgTags, text_wireProps p, text_wireTags ts]
theorem text_wireSteps : ∀ l : List (Step Value), timgSteps (imgSteps l) = timgSteps l
  | [] => rfl
  | ⟨v, t, n, r, p⟩ :: ss => by simp only [imgSteps, timgSteps, text_wireVertex v, dir_dir, text_wireProps p, text_wireSteps ss]
theorem text_wireProps : ∀ l : List (Bytes × Value), timgProps (imgProps l) = timgProps l
  | [] => rfl
  | (k, v) :: ps => by simp only [imgProps, timgProps, text_wire v, text_wireProps ps]
theorem text_wireVec : ∀ l : List Value, timgVec (imgVec l) = timgVec l
  | [] => rfl
  | v :: vs => by simp only [imgVec, timgVec, text_wire v, text_wireVec vs]
theorem text_wireRows : ∀ l : List (List Value), timgRows (imgRows l) = timgRows l
  | [] => rfl
  | r :: rs => by simp only [imgRows, timgRows, text_wireVec r, text_wireRows rs]
end

mutual
theorem wire_text : ∀ v : Value, wireImage (textImage v) = textImage v
  | .vertex v => by simp only [wireImage, textImage, wire_textVertex v]
  | .edge ⟨s, d, t, n, r, p⟩ => by simp only [wireImage, textImage, wire_text s, wire_text d, dir_dir, wire_textProps p]
  | .path ⟨v, ss⟩ => by simp only [wireImage, textImage, wire_textVertex v, wire_textSteps ss]
  | .list l => by simp only [wireImage, textImage, wire_textVec l]
  | .map m => by simp only [wireImage, textImage, wire_textProps m]
  | .set _ => rfl
  | .dataset c r => by simp only [wireImage, textImage, wire_textRows r]
  | .empty => by simp only [wireImage, textImage]
  | .null n => by simp only [wireImage, textImage]
  | .bool b => by simp only [wireImage, textImage]
  | .int i => by simp only [wireImage, textImage]
  | .float f => by simp only [wireImage, textImage]
  | .str s => by simp only [wireImage, textImage]
  | .date d => by simp only [wireImage, textImage]
  | .time t => by simp only [wireImage, textImage]
  | .datetime d => by simp only [wireImage, textImage]
theorem wire_textVertex : ∀ v : Vertex Value, imgVertex (timgVertex v) = timgVertex v
  | ⟨v, ts⟩ => by simp only [imgVertex, timgVertex, wire_text v, wire_textTags ts]
theorem wire_textTags : ∀ l : List (Tag Value), imgTags (timgTags l) = timgTags l
  | [] => rfl
  | ⟨n, p⟩ :: ts => by simp only [imgTags, timgTags, wire_textProps p, wire_textTags ts]
theorem wire_textSteps : ∀ l : List (Step Value), imgSteps (timgSteps l) = timgSteps l
  | [] => rfl
  | ⟨v, t, n, r, p⟩ :: ss => by simp only [imgSteps, timgSteps, wire_textVertex v, dir_dir, wire_textProps p, wire_textSteps ss]
theorem wire_textProps : ∀ l : List (Bytes × Value), imgProps (timgProps l) = timgProps l
  | [] => rfl
  | (k, v) :: ps => by simp only [imgProps, timgProps, wire_text v, wire_textProps ps]
theorem wire_textVec : ∀ l : List Value, imgVec (timgVec l) = timgVec l
  | [] => rfl
  | v :: vs => by simp only [imgVec, timgVec, wire_text v, wire_textVec vs]
theorem wire_textRows : ∀ l : List (List Value), imgRows (timgRows l) = timgRows l
  | [] => rfl
  | r :: rs => by simp only [imgRows, timgRows, wire_textVec r, wire_textRows rs]
end

/-! ## What arrives by name fits -/

theorem props_nm_fit {n : Value → Value} {m : Props Value} (h : PropsFit m) : PropsFit (m.map fun kv => (kv.1, n kv.2)) := by
  refine ⟨by rw [List.length_map]; exact h.1, fun kv hkv => ?_, ?_⟩
  · obtain ⟨x, hx, rfl⟩ := List.mem_map.1 hkv; exact h.2.1 x hx
  · rw [List.map_map]; exact h.2.2

theorem vertex_nm_fit {n : Value → Value} {v : Vertex Value} (h : VertexFit v) : VertexFit (Vertex.nm n v) := by
  refine ⟨by simp only [Vertex.nm, List.length_map]; exact h.1, fun t ht => ?_⟩
  obtain ⟨x, hx, rfl⟩ := List.mem_map.1 ht
  exact ⟨(h.2 x hx).1, props_nm_fit (h.2 x hx).2⟩

theorem dir_int32 (t : Int) : -2147483648 ≤ dir t ∧ dir t ≤ 2147483647 := by have := dir_unit t; omega

theorem step_nm_fit {n : Value → Value} {s : Step Value} (h : StepFit s) : StepFit (Step.nm n s) :=
  ⟨vertex_nm_fit h.1, dir_int32 _, h.2.2.1, h.2.2.2.1, props_nm_fit h.2.2.2.2⟩

theorem text_kids (v x : Value) (h : x ∈ (textImage v).children) : ∃ y ∈ v.children, x = textImage y := by
  cases v with
  | vertex v => rw [textImage, Named.timgVertex_eq] at h; exact vertex_nm_kids h
  | edge e =>
    obtain ⟨s, d, t, n, r, p⟩ := e
    rw [textImage, Named.timgProps_eq] at h
    simp only [Value.children] at h ⊢
    rcases List.mem_cons.1 h with rfl | h
    · exact ⟨s, by simp, rfl⟩
    rcases List.mem_cons.1 h with rfl | h
    · exact ⟨d, by simp, rfl⟩
    · obtain ⟨y, hy, rfl⟩ := props_nm_kids h
      exact ⟨y, List.mem_cons_of_mem _ (List.mem_cons_of_mem _ hy), rfl⟩
  | path p =>
    obtain ⟨v, ss⟩ := p
    rw [textImage, Named.timgVertex_eq, Named.timgSteps_eq] at h
    simp only [Value.children] at h ⊢
    rcases List.mem_append.1 h with h | h
    · obtain ⟨y, hy, rfl⟩ := vertex_nm_kids h
      exact ⟨y, List.mem_append_left _ hy, rfl⟩
    · obtain ⟨s, hs, hx⟩ := List.mem_flatMap.1 h
      obtain ⟨s', hs', rfl⟩ := List.mem_map.1 hs
      rcases List.mem_append.1 hx with hx | hx
      · obtain ⟨y, hy, rfl⟩ := vertex_nm_kids hx
        exact ⟨y, List.mem_append_right _ (List.mem_flatMap.2 ⟨s', hs', List.mem_append_left _ hy⟩), rfl⟩
      · obtain ⟨y, hy, rfl⟩ := props_nm_kids hx
        exact ⟨y, List.mem_append_right _ (List.mem_flatMap.2 ⟨s', hs', List.mem_append_right _ hy⟩), rfl⟩
  | list l =>
    rw [textImage, Named.timgVec_eq] at h
    obtain ⟨y, hy, rfl⟩ := List.mem_map.1 h
    exact ⟨y, hy, rfl⟩
  | map m => rw [textImage, Named.timgProps_eq] at h; exact props_nm_kids h
  | dataset c r =>
    rw [textImage, Named.timgRows_eq] at h
    obtain ⟨row, hrow, hx⟩ := List.mem_flatten.1 h
    obtain ⟨row', hrow', rfl⟩ := List.mem_map.1 hrow
    obtain ⟨y, hy, rfl⟩ := List.mem_map.1 hx
    exact ⟨y, List.mem_flatten.2 ⟨row', hrow', hy⟩, rfl⟩
  | _ => simp [textImage, Value.children] at h

theorem text_fits (v : Value) : Fits v → Fits (textImage v) := by
  induction v using Value.children_induction with
  | h v ih =>
    intro hv
    refine .mk ?_ fun x hx => ?_
    · have h := hv.here
      cases v with
      | vertex v => rw [textImage, Named.timgVertex_eq]; exact vertex_nm_fit h
      | edge e =>
        obtain ⟨s, d, t, n, r, p⟩ := e
        rw [textImage, Named.timgProps_eq]
        exact ⟨dir_int32 _, h.2.1, h.2.2.1, props_nm_fit h.2.2.2⟩
      | path p =>
        obtain ⟨v, ss⟩ := p
        rw [textImage, Named.timgVertex_eq, Named.timgSteps_eq]
        refine ⟨vertex_nm_fit h.1, by simp only [List.length_map]; exact h.2.1, fun s hs => ?_⟩
        obtain ⟨s', hs', rfl⟩ := List.mem_map.1 hs
        exact step_nm_fit (h.2.2 s' hs')
      | list l => rw [textImage, Named.timgVec_eq]; simp only [FitsHere, List.length_map]; exact h
      | map m => rw [textImage, Named.timgProps_eq]; exact props_nm_fit h
      | set l => simp [textImage, FitsHere, Small]
      | dataset c r =>
        rw [textImage, Named.timgRows_eq]
        refine ⟨h.1, by rw [List.length_map]; exact h.2.1, fun x hx => ?_⟩
        obtain ⟨y, hy, rfl⟩ := List.mem_map.1 hx
        rw [List.length_map]; exact h.2.2 y hy
      | _ => simp only [textImage]; exact h
    · obtain ⟨y, hy, rfl⟩ := text_kids v x hx
      exact ih y hy (hv.kids y hy)

/-! ## The theorems -/

/-- **C161 (from bytes to names).** A value that was received in the compact protocol, from whatever bytes, can be given out in a protocol with names (JSON): what the client reads is the value,
edge and step types as directions, sets emptied (C148). -/
theorem C161_given {bs r : Bytes} {v : Value} (h : deserialize bs = some (v, r)) : Named.deserialize (Named.writeValue v) = some (textImage v) :=
  Named.C148_arrives v (C159_fits h)

/-- **C161 (a host in between).** A value goes from a server to a host in the compact protocol and from there to a client in a protocol with names: the client reads what it would have read
had the server written to it directly. -/
theorem C161_relay {bits : F64 → Nat} (hb : BitsOk bits) (v : Value) (hv : Fits v) (rest : Bytes) :
    ∃ w, deserialize (serialize bits v ++ rest) = some (w, rest) ∧ Named.deserialize (Named.writeValue w) = Named.deserialize (Named.writeValue v) := by
  have h := C67_image hb v hv rest
  exact ⟨wireImage v, h, by rw [C161_given h, Named.C148_arrives v hv, text_wire]⟩

/-- **C161 (the other way).** What a host received from a client by names reaches the server in the compact protocol unchanged. -/
theorem C161_back {bits : F64 → Nat} (hb : BitsOk bits) (v : Value) (hv : Fits v) (rest : Bytes) :
    ∃ w, Named.deserialize (Named.writeValue v) = some w ∧ deserialize (serialize bits w ++ rest) = some (w, rest) :=
  ⟨textImage v, Named.C148_arrives v hv, by rw [C67_image hb _ (text_fits v hv), wire_text]⟩

/-- **C161 (answers).** An answer to a query goes from a server to a host in the compact protocol and from there to a client in a protocol with names: the client reads what it would have read
had the server written to it directly, the plan, the messages and the names of columns included. -/
theorem C161_answer {bits : F64 → Nat} (hb : BitsOk bits) (r : ExecResponse) (hr : ExecFit r) (rest : Bytes) :
    ∃ w, deserializeExec {} (serializeExec bits r ++ rest) = some (w, rest) ∧ Named.readExec {} (Named.writeExec w) = Named.readExec {} (Named.writeExec r) := by
  have h := C92_exec hb r hr rest
  refine ⟨r.image, h, ?_⟩
  rw [(Named.C148_answers {} ⟨by unfold InI32; simp, none_inj, none_inj, none_inj, none_inj⟩ {} plan_zero _ (received_exec h).fit).2.2,
    (Named.C148_answers {} ⟨by unfold InI32; simp, none_inj, none_inj, none_inj, none_inj⟩ {} plan_zero _ hr).2.2]
  cases hd : r.data with
  | none => simp [ExecResponse.image, hd]
  | some d => simp [ExecResponse.image, hd, Function.comp_def, text_wire]

example : Fits (.list [.edge ⟨.str [97], .str [98], 7, [102], 0, [([107], .int 1)]⟩, .set [.int 2, .int 2]]) := by
  refine .mk (by simp [FitsHere, Small]) fun x hx => ?_
  simp only [Value.children, List.mem_cons, List.not_mem_nil, or_false] at hx
  rcases hx with rfl | rfl
  · refine .mk (by simp [FitsHere, EdgeFit, PropsFit, Small, InI64]) fun y hy => ?_
    simp only [Value.children, List.map_cons, List.map_nil, List.mem_cons, List.not_mem_nil, or_false] at hy
    rcases hy with rfl | rfl | rfl <;> exact .mk (by simp [FitsHere, Small, InI64]) (by simp [Value.children])
  · refine .mk (by simp [FitsHere, Small]) fun y hy => ?_
    simp only [Value.children, List.mem_cons, List.not_mem_nil, or_false] at hy
    rcases hy with rfl | rfl <;> exact .mk (by simp [FitsHere, InI64]) (by simp [Value.children])

end Wire
end Nebula
