import Verif.Wire.OrderProps
import Verif.Func.Model
/-! # C165: functions on values that were sent -/
namespace Nebula.Func
open Nebula Wire

/-! ## Specification -/

/-- The outcome `r'` is what arrives of the outcome `r`: the same error, or the value that is received if the value of `r`, if it fits, is sent. -/
def ArrivesAs (bits : F64 → Nat) : Res → Res → Prop
  | .val x, .val x' => Fits x → ∀ rest, deserialize (serialize bits x ++ rest) = some (x', rest)
  | .noArg, .noArg | .undef, .undef | .loops, .loops => True
  | _, _ => False

/-! ## Lemmas -/

def Res.image : Res → Res
  | .val x => .val (wireImage x)
  | r => r

theorem image_null (n : NullType) : wireImage (.null n) = .null n := by rw [wireImage]
theorem image_str (s : Bytes) : wireImage (.str s) = .str s := by rw [wireImage]
theorem image_int (i : Int) : wireImage (.int i) = .int i := by rw [wireImage]
theorem image_empty : wireImage .empty = .empty := by rw [wireImage]
theorem image_list (l : List Value) : wireImage (.list l) = .list (l.map wireImage) := by rw [wireImage, imgVec_eq]
theorem image_map (m : Props Value) : wireImage (.map m) = .map (m.map fun kv => (kv.1, wireImage kv.2)) := by rw [wireImage, imgProps_eq]
theorem image_vertex (v : Vertex Value) : wireImage (.vertex v) = .vertex (Vertex.nm wireImage v) := by rw [wireImage, imgVertex_eq]
theorem image_edge (e : Edge Value) : wireImage (.edge e) = .edge (Edge.nm wireImage e) := by rw [wireImage, imgProps_eq]; rfl
theorem image_path (p : Path Value) : wireImage (.path p) = .path (Path.nm wireImage p) := by rw [wireImage, imgVertex_eq, imgSteps_eq]; rfl

theorem dir_pos (t : Int) : (dir t > 0) = (t > 0) := by unfold dir; apply propext; split <;> (try split) <;> omega

theorem image_isNullValue (v : Value) : Value.beq (wireImage v) Value.kNull = Value.beq v Value.kNull := by
  cases v <;> rw [wireImage] <;> rw [Value.beq_eqn, Value.beq_eqn] <;> rfl

theorem coalesce_image : ∀ l : List Value, coalesceLoop (l.map wireImage) = wireImage (coalesceLoop l)
  | [] => by simp only [List.map_nil, coalesceLoop, Value.kNull, image_null]
  | v :: l => by
    simp only [List.map_cons, coalesceLoop, image_isNullValue, coalesce_image l]
    split <;> rfl

theorem insertNew_image (m : Props Value) (kv : Bytes × Value) : insertNew (m.map fun kv => (kv.1, wireImage kv.2)) (kv.1, wireImage kv.2) = (insertNew m kv).map fun kv => (kv.1, wireImage kv.2) := by
  simp only [insertNew, lookup_nm, Option.isSome_map]
  split <;> simp

theorem inserts_image : ∀ (l m : Props Value), (l.map fun kv => (kv.1, wireImage kv.2)).foldl insertNew (m.map fun kv => (kv.1, wireImage kv.2)) = (l.foldl insertNew m).map fun kv => (kv.1, wireImage kv.2)
  | [], _ => rfl
  | kv :: l, m => by simp only [List.map_cons, List.foldl_cons, insertNew_image, inserts_image l]

theorem rel_image : ∀ (l : List (Step Value)) (s : Value), relLoop (wireImage s) (l.map (Step.nm wireImage)) = (relLoop s l).map wireImage
  | [], _ => rfl
  | s :: l, x => by
    simp only [List.map_cons, relLoop, image_edge]
    rw [show (Step.nm wireImage s).dst.vid = wireImage s.dst.vid from rfl, rel_image l]; rfl

theorem reverseLoop_image : ∀ (l : List (Step Value)) (c : Vertex Value), Path.reverseLoop (Vertex.nm wireImage c) (l.map (Step.nm wireImage)) = (Path.reverseLoop c l).map (Step.nm wireImage)
  | [], _ => rfl
  | [s], c => by simp only [List.map_cons, List.map_nil, Path.reverseLoop, Step.nm, dir_neg]
  | s :: t :: l, c => by
    have ih := reverseLoop_image (t :: l) c
    simp only [List.map_cons] at ih
    simp only [List.map_cons, Path.reverseLoop, ih]
    simp only [Step.nm, dir_neg]

theorem reverse_image (p : Path Value) : (Path.nm wireImage p).reverse = Path.nm wireImage p.reverse := by
  obtain ⟨c, l⟩ := p
  simp only [Path.reverse, Path.nm, ← List.map_reverse]
  cases hr : l.reverse with
  | nil => simp
  | cons s r =>
    have := reverseLoop_image (s :: r) c
    simp only [List.map_cons] at this
    simp only [List.map_cons, this]; rfl

/-- The functions that take values apart. -/
def parts : List Fn := [.id, .tags, .labels, .properties, .type, .src, .dst, .rank, .startnode, .endnode, .head, .last, .coalesce, .keys, .nodes, .tail, .relationships, .length, .reverse, .reversepath]

theorem body_image (L : FLib) (w : World) {f : Fn} (hf : f ∈ parts) (v : Value) : body L w f [wireImage v] = Res.image (body L w f [v]) := by
  simp only [parts, List.mem_cons, List.not_mem_nil, or_false] at hf
  rcases hf with rfl | rfl | rfl | rfl | rfl | rfl | rfl | rfl | rfl | rfl | rfl | rfl | rfl | rfl | rfl | rfl | rfl | rfl | rfl | rfl <;>
  cases v <;>
  simp only [image_null, image_str, image_int, image_empty, image_list, image_map, image_vertex, image_edge, image_path, body, arg, List.getElem?_cons_zero, nullRes, badType, Res.image, Value.kNull, Value.kNullBadType]
  all_goals try rfl
  · simp [Vertex.nm, Tag.nm, image_str, Function.comp_def]
  · simp [Vertex.nm, Tag.nm, image_str, Function.comp_def]
  · rename_i v
    have := inserts_image (v.tags.flatMap fun t => t.props) []
    simp only [List.map_nil] at this
    simp only [propertiesFn, image_map, ← this]
    simp [Vertex.nm, Tag.nm, List.flatMap_map, List.map_flatMap]
  · simp only [propertiesFn, image_map, Edge.nm]
  · simp only [propertiesFn, image_map]
  · simp only [Edge.nm, dir_pos]; split <;> rfl
  · simp only [Edge.nm, dir_pos]; split <;> rfl
  · rename_i p
    simp only [Path.nm, List.getLast?_map]
    cases p.steps.getLast? <;> simp [image_vertex, Step.nm]
  · rename_i l; simp only [List.head?_map]; cases l.head? <;> rfl
  · rename_i l; simp only [List.getLast?_map]; cases l.getLast? <;> rfl
  · rw [coalesce_image]
  · simp [keysFn, keysFn.names, image_list, image_str, Vertex.nm, Tag.nm, List.flatMap_map, Function.comp_def]
  · simp [keysFn, keysFn.names, image_list, image_str, Edge.nm, Function.comp_def]
  · simp [keysFn, keysFn.names, image_list, image_str, Function.comp_def]
  · simp [Path.nm, Step.nm, image_vertex, Function.comp_def]
  · simp
  · rw [show (Path.nm wireImage _).src.vid = wireImage _ from rfl, show (Path.nm wireImage _).steps = List.map _ _ from rfl, rel_image]
  · simp [Path.nm]
  · simp
  · rw [reverse_image]

/-! ## The theorems -/

/-- **C165 (taking values apart).** These functions give of a value that arrives what arrives of what they give of the value sent, for all values: of an edge its ends, name, rank and properties,
of a vertex its id, tags, keys and properties, of a path its vertices, edges, ends and length and the path in reverse, of a list its parts. -/
theorem C165_parts {bits : F64 → Nat} (hb : BitsOk bits) (L : FLib) (w : World) (f : Fn)
    (hf : f ∈ [Fn.id, .tags, .labels, .properties, .type, .src, .dst, .rank, .startnode, .endnode, .head, .last, .coalesce, .keys, .nodes, .tail, .relationships, .length, .reverse, .reversepath])
    (v v' : Value) (r r' : Bytes) (fv : Fits v) (h : deserialize (serialize bits v ++ r) = some (v', r')) : ArrivesAs bits (body L w f [v]) (body L w f [v']) := by
  rw [C67_image hb v fv] at h
  cases h
  rw [body_image L w hf]
  cases body L w f [v] with
  | val x => exact fun hx rest => C67_image hb x hx rest
  | _ => trivial

/-- `size` likewise, of anything but a set (for sets see C162). -/
theorem C165_size {bits : F64 → Nat} (hb : BitsOk bits) (L : FLib) (w : World) (v v' : Value) (r r' : Bytes) (fv : Fits v) (hs : ∀ l, v ≠ .set l)
    (h : deserialize (serialize bits v ++ r) = some (v', r')) : body L w .size [v'] = body L w .size [v] := by
  rw [C67_image hb v fv] at h
  cases h
  cases v with
  | set l => exact absurd rfl (hs l)
  | list l => rw [image_list]; simp [body, arg, sizeFn]
  | map m => rw [image_map]; simp [body, arg, sizeFn]
  | dataset c l => rw [wireImage, imgRows_eq]; simp [body, arg, sizeFn]
  | _ => rw [wireImage] <;> rfl

theorem rowCol_image (cols : List Bytes) (rows : List (List Value)) (r c : Int) : rowCol cols (rows.map (List.map wireImage)) r c = Res.image (rowCol cols rows r c) := by
  have bad : Res.image badData = badData := by simp only [badData, Res.image, kNullBadData, image_null]
  simp only [rowCol, List.length_map, List.getElem?_map]
  split
  · exact bad.symm
  · split
    · exact bad.symm
    · split
      · exact bad.symm
      · cases rows[r.toNat]? with
        | none => rfl
        | some row =>
          simp only [Option.map_some, List.getElem?_map]
          cases row[c.toNat]? <;> rfl

/-- A cell of a table that arrives is what arrives of the cell of the table sent. -/
theorem C165_cell {bits : F64 → Nat} (hb : BitsOk bits) (L : FLib) (w : World) (v v' c : Value) (i : Int) (r r' : Bytes) (fv : Fits v) (hc : (∃ j, c = .int j) ∨ ∃ n, c = .str n)
    (h : deserialize (serialize bits v ++ r) = some (v', r')) : ArrivesAs bits (body L w .datasetrowcol [v, .int i, c]) (body L w .datasetrowcol [v', .int i, c]) := by
  rw [C67_image hb v fv] at h
  cases h
  have : body L w .datasetrowcol [wireImage v, .int i, c] = Res.image (body L w .datasetrowcol [v, .int i, c]) := by
    cases v with
    | dataset cols rows =>
      rw [wireImage, imgRows_eq]
      rcases hc with ⟨j, rfl⟩ | ⟨n, rfl⟩ <;> simp only [body, arg, List.getElem?_cons_zero, List.getElem?_cons_succ, rowCol_image]
    | _ => simp only [wireImage]; rcases hc with ⟨j, rfl⟩ | ⟨n, rfl⟩ <;> simp [body, arg, badType, Res.image, Value.kNullBadType, image_null]
  rw [this]
  cases body L w .datasetrowcol [v, .int i, c] with
  | val x => exact fun hx rest => C67_image hb x hx rest
  | _ => trivial

/-- A key of an edge of kind `k` between vertices that can be told apart. -/
def KeyKind (k : Int) (a : Path.EdgeKey) : Prop := OneKind k a.1 ∧ OneKind k a.2.1 ∧ a.2.2.1 = k
def keyImage (a : Path.EdgeKey) : Path.EdgeKey := (wireImage a.1, wireImage a.2.1, 1, a.2.2.2)

theorem key_beq {k : Int} {a b : Path.EdgeKey} (ha : KeyKind k a) (hb : KeyKind k b) : Path.EdgeKey.beq (keyImage a) (keyImage b) = Path.EdgeKey.beq a b := by
  simp only [Path.EdgeKey.beq, keyImage, kind_beq ha.1 hb.1, kind_beq ha.2.1 hb.2.1, ha.2.2, hb.2.2]
  simp

theorem key_image {k : Int} {src : Value} {s : Step Value} (hk : 0 < k) (ht : s.type = k ∨ s.type = -k) (h1 : OneKind k src) (h2 : OneKind k s.dst.vid) :
    Path.edgeKey (wireImage src) (Step.nm wireImage s) = keyImage (Path.edgeKey src s) ∧ KeyKind k (Path.edgeKey src s) := by
  have e1 : (Step.nm wireImage s).type = dir s.type := rfl
  have e2 : (Step.nm wireImage s).dst.vid = wireImage s.dst.vid := rfl
  have e3 : (Step.nm wireImage s).ranking = s.ranking := rfl
  simp only [Path.edgeKey, e1, e2, e3, dir_pos]
  rcases ht with h | h
  · rw [if_pos (by omega), if_pos (by omega), show dir s.type = 1 by unfold dir; rw [if_pos (by omega)]]
    exact ⟨rfl, h1, h2, h⟩
  · rw [if_neg (by omega), if_neg (by omega), show dir s.type = -1 by unfold dir; rw [if_neg (by omega), if_pos (by omega)]]
    exact ⟨rfl, h2, h1, by simp only; omega⟩

theorem dupEdge_image {k : Int} (hk : 0 < k) : ∀ (l : List (Step Value)) (seen : List Path.EdgeKey) (src : Value), (∀ s ∈ l, (s.type = k ∨ s.type = -k) ∧ OneKind k s.dst.vid) →
    (∀ a ∈ seen, KeyKind k a) → OneKind k src → Path.dupEdgeLoop (seen.map keyImage) (wireImage src) (l.map (Step.nm wireImage)) = Path.dupEdgeLoop seen src l
  | [], _, _, _, _, _ => rfl
  | s :: l, seen, src, hl, hs, h1 => by
    obtain ⟨ht, h2⟩ := hl s List.mem_cons_self
    obtain ⟨g1, g2⟩ := key_image hk ht h1 h2
    have hany : (seen.map keyImage).any (Path.EdgeKey.beq (keyImage (Path.edgeKey src s))) = seen.any (Path.EdgeKey.beq (Path.edgeKey src s)) := by
      rw [List.any_map, Bool.eq_iff_iff]
      simp only [List.any_eq_true, Function.comp_def]
      exact exists_congr fun x => and_congr_right fun hx => by rw [key_beq g2 (hs x hx)]
    have ih := dupEdge_image hk l (Path.edgeKey src s :: seen) s.dst.vid (fun x hx => hl x (List.mem_cons_of_mem _ hx))
      (fun a ha => by rcases List.mem_cons.1 ha with rfl | ha; exacts [g2, hs a ha]) h2
    simp only [List.map_cons, Path.dupEdgeLoop, Path.emplace, g1, hany]
    cases seen.any (Path.EdgeKey.beq (Path.edgeKey src s)) with
    | true => rfl
    | false => exact ih

theorem dupVertex_image {k : Int} : ∀ (l : List (Step Value)) (seen : List Value), (∀ s ∈ l, OneKind k s.dst.vid) → (∀ a ∈ seen, OneKind k a) →
    Path.dupVertexLoop (seen.map wireImage) (l.map (Step.nm wireImage)) = Path.dupVertexLoop seen l
  | [], _, _, _ => rfl
  | s :: l, seen, hl, hs => by
    have h2 := hl s List.mem_cons_self
    have hany : (seen.map wireImage).any (Value.beq (wireImage s.dst.vid)) = seen.any (Value.beq s.dst.vid) := by
      rw [List.any_map, Bool.eq_iff_iff]
      simp only [List.any_eq_true, Function.comp_def]
      exact exists_congr fun x => and_congr_right fun hx => by rw [kind_beq h2 (hs x hx)]
    have ih := dupVertex_image l (s.dst.vid :: seen) (fun x hx => hl x (List.mem_cons_of_mem _ hx)) (fun a ha => by rcases List.mem_cons.1 ha with rfl | ha; exacts [h2, hs a ha])
    simp only [List.map_cons, Path.dupVertexLoop, Path.emplace, show (Step.nm wireImage s).dst.vid = wireImage s.dst.vid from rfl, hany]
    cases seen.any (Value.beq s.dst.vid) with
    | true => rfl
    | false => exact ih

/-- **C165 (repeated vertices and edges)** (partial: for steps of one kind).  A path that arrives repeats a vertex, or an edge, if and only if the path sent does. -/
theorem C165_trail_partial {bits : F64 → Nat} (hb : BitsOk bits) (L : FLib) (w : World) (f : Fn) (hf : f ∈ [Fn.hassameedgeinpath, .hassamevertexinpath]) (k : Int) (v v' : Value)
    (r r' : Bytes) (fv : Fits v) (kv : OneKind k v) (h : deserialize (serialize bits v ++ r) = some (v', r')) : body L w f [v'] = body L w f [v] := by
  rw [C67_image hb v fv] at h
  cases h
  simp only [List.mem_cons, List.not_mem_nil, or_false] at hf
  cases v with
  | path p =>
    have hv : ∀ s ∈ p.steps, OneKind k s.dst.vid := fun s hs => (path_dst kv hs).kids _ List.mem_cons_self
    have hsrc : OneKind k p.src.vid := (path_src kv).kids _ List.mem_cons_self
    rw [image_path]
    rcases hf with rfl | rfl
    · simp only [body, arg, List.getElem?_cons_zero, Path.hasDuplicateEdges, Path.nm, List.length_map]
      split
      · rfl
      · rename_i hl
        have hk : 0 < k := by
          cases hp : p.steps with
          | nil => simp [hp] at hl
          | cons s l => exact (kv.here s (by rw [hp]; exact List.mem_cons_self)).1
        have := dupEdge_image hk p.steps [] p.src.vid (fun s hs => ⟨(kv.here s hs).2, hv s hs⟩) (by simp) hsrc
        rw [List.map_nil] at this
        rw [← this]; rfl
    · simp only [body, arg, List.getElem?_cons_zero, Path.hasDuplicateVertices, Path.nm, List.map_eq_nil_iff]
      split
      · rfl
      · have := dupVertex_image (k := k) p.steps [p.src.vid] hv (by simpa using hsrc)
        rw [← this]; rfl
  | _ => rcases hf with rfl | rfl <;> simp only [wireImage, body, arg, List.getElem?_cons_zero]

/-- A path over an edge of kind 5 and back over an edge of kind 7 between the same vertices. -/
def thereAndBack : Value := .path ⟨⟨.str [97], []⟩, [⟨⟨.str [98], []⟩, 5, [102], 0, []⟩, ⟨⟨.str [97], []⟩, -7, [115], 0, []⟩]⟩

/-- **C165 violated.** `hasSameEdgeInPath` is false of a path over two different edges between the same vertices, and true of the path that arrives: their kinds are no longer told apart. -/
theorem C165_trail_violated {bits : F64 → Nat} (hb : BitsOk bits) (L : FLib) (w : World) : Fits thereAndBack ∧ ∃ v', deserialize (serialize bits thereAndBack) = some (v', []) ∧
    body L w .hassameedgeinpath [thereAndBack] = .val (.bool false) ∧ body L w .hassameedgeinpath [v'] = .val (.bool true) := by
  have fit : Fits thereAndBack := by
    refine .mk ?_ fun x hx => ?_
    · simp [thereAndBack, FitsHere, PathFit, StepFit, VertexFit, PropsFit, Small, InI64]
    · simp [thereAndBack, Value.children] at hx
      rcases hx with rfl | rfl | rfl <;> exact .mk (by simp [FitsHere, Small]) (by simp [Value.children])
  refine ⟨fit, _, by simpa using C67_image hb thereAndBack fit [], ?_, ?_⟩
  · simp [body, arg, thereAndBack, Path.hasDuplicateEdges, Path.dupEdgeLoop, Path.emplace, Path.edgeKey, Path.EdgeKey.beq]
  · simp [body, arg, thereAndBack, image_path, Path.nm, Step.nm, Vertex.nm, image_str, dir, Path.hasDuplicateEdges, Path.dupEdgeLoop, Path.emplace, Path.edgeKey, Path.EdgeKey.beq, Value.beq]

/-- Such a path has parts: its relationships are two edges, in the direction in which each was passed. -/
example (L : FLib) (w : World) : body L w .relationships [thereAndBack] = .val (.list [.edge ⟨.str [97], .str [98], 5, [102], 0, []⟩, .edge ⟨.str [98], .str [97], -7, [115], 0, []⟩]) := rfl

/-- A path over an edge and back over it meets the hypotheses of `C165_trail_partial`, and repeats an edge and a vertex. -/
example (L : FLib) (w : World) : ∃ v : Value, v = .path ⟨⟨.str [97], []⟩, [⟨⟨.str [98], []⟩, 5, [102], 0, []⟩, ⟨⟨.str [97], []⟩, -5, [102], 0, []⟩]⟩ ∧ Fits v ∧ OneKind 5 v ∧
    body L w .hassameedgeinpath [v] = .val (.bool true) ∧ body L w .hassamevertexinpath [v] = .val (.bool true) := by
  refine ⟨_, rfl, .mk ?_ fun x hx => ?_, .mk ?_ fun x hx => ?_, ?_, ?_⟩
  · simp [FitsHere, PathFit, StepFit, VertexFit, PropsFit, Small, InI64]
  · simp [Value.children] at hx
    rcases hx with rfl | rfl | rfl <;> exact .mk (by simp [FitsHere, Small]) (by simp [Value.children])
  · simp [KindHere]
  · simp [Value.children] at hx
    rcases hx with rfl | rfl | rfl <;> exact .mk trivial (by simp [Value.children])
  · simp [body, arg, Path.hasDuplicateEdges, Path.dupEdgeLoop, Path.emplace, Path.edgeKey, Path.EdgeKey.beq, Value.beq]
  · simp [body, arg, Path.hasDuplicateVertices, Path.dupVertexLoop, Path.emplace, Value.beq]
end Nebula.Func
