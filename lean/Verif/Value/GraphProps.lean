import Verif.Value.EqProps
import Verif.Value.GraphSpec
import Verif.Value.DataSet
/-!
# C18-C21, C66: paths and data sets
-/
namespace Nebula
open Spec

/-! ## C18 -/
namespace Path

theorem reverseLoop_length : ∀ (c : Vertex Value) (ss : List (Step Value)), (reverseLoop c ss).length = ss.length
  | _, [] => rfl
  | _, [_] => rfl
  | c, s :: t :: rest => by simp only [reverseLoop, List.length_cons, reverseLoop_length c (t :: rest)]

theorem reverseLoop_dst : ∀ (c : Vertex Value) (s : Step Value) (ss : List (Step Value)),
    (reverseLoop c (s :: ss)).map (·.dst) = ss.map (·.dst) ++ [c]
  | _, _, [] => rfl
  | c, s, t :: rest => by
    simp only [reverseLoop, List.map_cons, reverseLoop_dst c t rest, List.cons_append]

theorem hopsFrom_append : ∀ (v : Vertex Value) (ss : List (Step Value)) (s : Step Value),
    hopsFrom v (ss ++ [s]) = hopsFrom v ss ++
      [⟨(ss.getLast?.map (·.dst)).getD v, s.dst, s.type, s.name, s.ranking, s.props⟩]
  | _, [], _ => rfl
  | v, t :: ss, s => by
    simp only [List.cons_append, hopsFrom, hopsFrom_append t.dst ss s]
    congr 2
    cases ss with
    | nil => rfl
    | cons u us => simp [List.getLast?_cons]

theorem reverse_hops_aux : ∀ (v : Vertex Value) (ss : List (Step Value)) (s : Step Value) (r : List (Step Value)),
    ss.reverse = s :: r → hopsFrom s.dst (reverseLoop v (s :: r)) = ((hopsFrom v ss).map Hop.opposite).reverse := by
  intro v ss
  induction hn : ss.length generalizing ss with
  | zero => intro s r h; have : ss = [] := by simpa using hn
            subst this; simp at h
  | succ n ih =>
    intro s r h
    have hss : ss = r.reverse ++ [s] := by
      have := congrArg List.reverse h; simpa using this
    subst hss
    rw [hopsFrom_append]
    cases r with
    | nil => simp [reverseLoop, hopsFrom, Hop.opposite]
    | cons t r' =>
      have hlen : (t :: r').reverse.length = n := by simp at hn ⊢; omega
      have := ih (t :: r').reverse hlen t r' (by simp)
      simp only [reverseLoop, hopsFrom, this]
      simp [Hop.opposite]

end Path

/-- C18: the reversed path visits the same vertices in the opposite order. -/
theorem C18_vertices (p : Path Value) : vertices p.reverse = (vertices p).reverse := by
  unfold Path.reverse
  split
  · rename_i h
    have : p.steps = [] := by simpa using h
    simp [vertices, this]
  · rename_i s rest h
    have hss : p.steps = rest.reverse ++ [s] := by
      have := congrArg List.reverse h; simpa using this
    simp only [vertices, Path.reverseLoop_dst, hss]
    simp

/-- C18: the reversed path traverses the opposite of every edge, in the opposite order. -/
theorem C18_edges (p : Path Value) : hops p.reverse = ((hops p).map Hop.opposite).reverse := by
  unfold Path.reverse
  split
  · rename_i h
    have : p.steps = [] := by simpa using h
    simp [hops, this, hopsFrom]
  · rename_i s rest h
    exact Path.reverse_hops_aux p.src p.steps s rest h

/-- A path is determined by its first vertex and its hops. -/
theorem path_ext {p q : Path Value} (h1 : p.src = q.src) (h2 : hops p = hops q) : p = q := by
  obtain ⟨v, ss⟩ := p
  obtain ⟨w, ts⟩ := q
  simp only at h1; subst h1
  have : ∀ (ss ts : List (Step Value)) (v : Vertex Value), hopsFrom v ss = hopsFrom v ts → ss = ts := by
    intro ss
    induction ss with
    | nil => intro ts v h; cases ts <;> simp_all [hopsFrom]
    | cons s ss ih =>
      intro ts v h
      cases ts with
      | nil => simp [hopsFrom] at h
      | cons t ts =>
        simp only [hopsFrom, List.cons.injEq, Hop.mk.injEq, true_and] at h
        obtain ⟨⟨d, ty, n, r, pr⟩, hr⟩ := h
        cases s; cases t
        simp only at d ty n r pr hr
        subst d ty n r pr
        rw [ih ts _ hr]
  simp only [hops] at h2
  rw [this ss ts v h2]

/-- C18: reversing twice gives the original path, and the length does not change. -/
theorem C18_involution (p : Path Value) : p.reverse.reverse = p ∧ p.reverse.steps.length = p.steps.length := by
  constructor
  · apply path_ext
    · have h := C18_vertices p.reverse
      rw [C18_vertices p, List.reverse_reverse] at h
      simp only [vertices, List.cons.injEq] at h
      exact h.1
    · rw [C18_edges, C18_edges, List.map_reverse, List.reverse_reverse, List.map_map]
      have : Hop.opposite ∘ Hop.opposite = id := by funext h; cases h; simp [Hop.opposite]
      simp [this]
  · have := congrArg List.length (C18_vertices p)
    simpa [vertices] using this

example : (Path.reverse ⟨⟨.int 1, []⟩, [⟨⟨.int 2, []⟩, 5, [65], 0, []⟩, ⟨⟨.int 3, []⟩, -6, [66], 1, []⟩]⟩) =
    ⟨⟨.int 3, []⟩, [⟨⟨.int 2, []⟩, 6, [66], 1, []⟩, ⟨⟨.int 1, []⟩, -5, [65], 0, []⟩]⟩ := rfl

/-! ## C19 -/
namespace Path

/-- The common shape of both duplicate loops. -/
def dupLoop {α : Type} (eq : α → α → Bool) (seen : List α) : List α → Bool
  | [] => false
  | x :: xs => match emplace eq seen x with
    | (_, false) => true
    | (seen, true) => dupLoop eq seen xs

theorem dupVertexLoop_eq (seen : List Value) (ss : List (Step Value)) :
    dupVertexLoop seen ss = dupLoop Value.beq seen (ss.map (·.dst.vid)) := by
  induction ss generalizing seen with
  | nil => rfl
  | cons s ss ih => 
    simp only [dupVertexLoop, dupLoop, List.map_cons, ih]
    cases h : emplace Value.beq seen s.dst.vid with
    | mk a b => cases b <;> rfl

/-- The keys of the steps of a path that starts at `v`. -/
def edgeKeys (v : Value) : List (Step Value) → List EdgeKey
  | [] => []
  | s :: ss => edgeKey v s :: edgeKeys s.dst.vid ss

theorem dupEdgeLoop_eq (seen : List EdgeKey) (v : Value) (ss : List (Step Value)) :
    dupEdgeLoop seen v ss = dupLoop EdgeKey.beq seen (edgeKeys v ss) := by
  induction ss generalizing seen v with
  | nil => rfl
  | cons s ss ih => 
    simp only [dupEdgeLoop, dupLoop, edgeKeys, ih]
    cases h : emplace EdgeKey.beq seen (edgeKey v s) with
    | mk a b => cases b <;> rfl

theorem dupLoop_iff {α : Type} (eq : α → α → Bool) (xs seen : List α) :
    dupLoop eq seen xs = false ↔
      (∀ x ∈ xs, ∀ s ∈ seen, eq x s = false) ∧ xs.Pairwise (fun u v => eq v u = false) := by
  induction xs generalizing seen with
  | nil => simp [dupLoop]
  | cons x xs ih =>
    simp only [dupLoop, emplace]
    by_cases h : seen.any (eq x) = true
    · simp only [h, if_true]
      constructor
      · intro h; simp at h
      · rintro ⟨h1, _⟩
        obtain ⟨s, hs, e⟩ := List.any_eq_true.mp h
        rw [h1 x (by simp) s hs] at e; simp at e
    · simp only [h]
      simp only [Bool.not_eq_true, List.any_eq_false] at h
      simp only [Bool.false_eq_true, if_false, ih, List.pairwise_cons, List.mem_cons, forall_eq_or_imp]
      constructor
      · rintro ⟨h1, h2⟩
        exact ⟨⟨fun s hs => by simpa using h s hs, fun y hy s hs => (h1 y hy).2 s hs⟩, fun y hy => (h1 y hy).1, h2⟩
      · rintro ⟨⟨h1, h2⟩, h3, h4⟩
        exact ⟨fun y hy => ⟨h3 y hy, h2 y hy⟩, h4⟩

theorem edgeKey_sameEdge (a b : Hop) (sa sb : Step Value) (ha : sa.dst = a.head ∧ sa.type = a.type ∧ sa.ranking = a.ranking)
    (hb : sb.dst = b.head ∧ sb.type = b.type ∧ sb.ranking = b.ranking) :
    EdgeKey.beq (edgeKey a.tail.vid sa) (edgeKey b.tail.vid sb) = true ↔ a.sameEdge Value.beq b := by
  obtain ⟨ha1, ha2, ha3⟩ := ha
  obtain ⟨hb1, hb2, hb3⟩ := hb
  unfold edgeKey EdgeKey.beq Hop.sameEdge
  rw [ha1, ha2, ha3, hb1, hb2, hb3]
  by_cases p1 : a.type > 0 <;> by_cases p2 : b.type > 0
  · simp only [p1, p2, if_true, Bool.and_eq_true, beq_iff_eq]
    have : ¬ (a.type = -b.type) := by omega
    tauto
  · simp only [p1, p2, if_true, if_false, Bool.and_eq_true, beq_iff_eq]
    have h1 : a.type ≠ 0 := by omega
    have h2 : a.type ≠ b.type := by omega
    tauto
  · simp only [p1, p2, if_true, if_false, Bool.and_eq_true, beq_iff_eq]
    have h2 : a.type ≠ b.type := by omega
    have h3 : (-a.type = b.type) ↔ (a.type ≠ 0 ∧ a.type = -b.type) := by omega
    tauto
  · simp only [p1, p2, if_false, Bool.and_eq_true, beq_iff_eq]
    have h2 : (-a.type = -b.type) ↔ a.type = b.type := by omega
    have h3 : ¬ (a.type ≠ 0 ∧ a.type = -b.type) := by omega
    tauto

theorem pairwise_edgeKeys (v : Vertex Value) (ss : List (Step Value)) :
    (edgeKeys v.vid ss).Pairwise (fun u w => EdgeKey.beq w u = false) ↔
      (hopsFrom v ss).Pairwise (fun g h => ¬ h.sameEdge Value.beq g) := by
  have key : ∀ (ss : List (Step Value)) (v w : Vertex Value) (s : Step Value),
      (∀ k ∈ edgeKeys v.vid ss, EdgeKey.beq k (edgeKey w.vid s) = false) ↔
      (∀ h ∈ hopsFrom v ss, ¬ h.sameEdge Value.beq ⟨w, s.dst, s.type, s.name, s.ranking, s.props⟩) := by
    intro ss
    induction ss with
    | nil => intro v w s; simp [edgeKeys, hopsFrom]
    | cons t ts ih =>
      intro v w s
      simp only [edgeKeys, hopsFrom, List.mem_cons, forall_eq_or_imp, ih]
      rw [← edgeKey_sameEdge ⟨v, t.dst, t.type, t.name, t.ranking, t.props⟩
        ⟨w, s.dst, s.type, s.name, s.ranking, s.props⟩ t s ⟨rfl, rfl, rfl⟩ ⟨rfl, rfl, rfl⟩]
      simp
  induction ss generalizing v with
  | nil => simp [edgeKeys, hopsFrom]
  | cons s ss ih =>
    simp only [edgeKeys, hopsFrom, List.pairwise_cons, ih]
    rw [key ss s.dst v s]

end Path

/-- C19: a path has duplicate vertices exactly if two of its vertices (at different positions) have
equal ids. -/
theorem C19_vertices (p : Path Value) :
    p.hasDuplicateVertices = true ↔
      ∃ i j : Nat, i < j ∧ ∃ u v : Vertex Value, (vertices p)[i]? = some u ∧ (vertices p)[j]? = some v ∧ Value.beq v.vid u.vid = true := by
  have main : p.hasDuplicateVertices = false ↔ (vertices p).Pairwise (fun u v => Value.beq v.vid u.vid = false) := by
    unfold Path.hasDuplicateVertices
    split
    · rename_i h; simp [vertices, h]
    · rw [Path.dupVertexLoop_eq, Path.dupLoop_iff, vertices, List.pairwise_cons, List.pairwise_map]
      have e : (p.steps.map (·.dst)).Pairwise (fun u v => Value.beq v.vid u.vid = false) ↔
          p.steps.Pairwise (fun a b => Value.beq b.dst.vid a.dst.vid = false) := List.pairwise_map
      rw [e]; simp
  rw [← Bool.not_eq_false, main, List.pairwise_iff_getElem]
  constructor
  · intro h
    apply Classical.byContradiction
    intro hc
    refine h fun i j hi hj hij => ?_
    apply Classical.byContradiction
    intro hne
    exact hc ⟨i, j, hij, _, _, List.getElem?_eq_getElem hi, List.getElem?_eq_getElem hj, by simpa using hne⟩
  · rintro ⟨i, j, hij, u, v, hu, hv, e⟩ h
    obtain ⟨hi, rfl⟩ := List.getElem?_eq_some_iff.mp hu
    obtain ⟨hj, rfl⟩ := List.getElem?_eq_some_iff.mp hv
    rw [h i j hi hj hij] at e; simp at e

/-- C19: a path has duplicate edges exactly if two of its hops (at different positions) are the same
edge, in either direction. -/
theorem C19_edges (p : Path Value) :
    p.hasDuplicateEdges = true ↔
      ∃ i j : Nat, i < j ∧ ∃ g h : Hop, (hops p)[i]? = some g ∧ (hops p)[j]? = some h ∧ h.sameEdge Value.beq g := by
  have main : p.hasDuplicateEdges = false ↔ (hops p).Pairwise (fun g h => ¬ h.sameEdge Value.beq g) := by
    unfold Path.hasDuplicateEdges
    split
    · rename_i h
      obtain ⟨v, ss⟩ := p
      match ss, h with
      | [], _ => simp [hops, hopsFrom]
      | [_], _ => simp [hops, hopsFrom]
      | _ :: _ :: _, h => simp at h; omega
    · rw [Path.dupEdgeLoop_eq, Path.dupLoop_iff, Path.pairwise_edgeKeys p.src p.steps]
      simp [hops]
  rw [← Bool.not_eq_false, main, List.pairwise_iff_getElem]
  constructor
  · intro h
    apply Classical.byContradiction
    intro hc
    refine h fun i j hi hj hij => ?_
    intro hne
    exact hc ⟨i, j, hij, _, _, List.getElem?_eq_getElem hi, List.getElem?_eq_getElem hj, hne⟩
  · rintro ⟨i, j, hij, u, v, hu, hv, e⟩ h
    obtain ⟨hi, rfl⟩ := List.getElem?_eq_some_iff.mp hu
    obtain ⟨hj, rfl⟩ := List.getElem?_eq_some_iff.mp hv
    exact h i j hi hj hij e

example : Path.hasDuplicateEdges ⟨⟨.int 1, []⟩, [⟨⟨.int 2, []⟩, 5, [], 0, []⟩, ⟨⟨.int 1, []⟩, -5, [], 0, []⟩]⟩ = true := by
  decide +kernel
example : Path.hasDuplicateVertices ⟨⟨.int 1, []⟩, [⟨⟨.int 2, []⟩, 5, [], 0, []⟩, ⟨⟨.int 3, []⟩, 5, [], 0, []⟩]⟩ = false := by
  decide +kernel

/-! ## C20 -/

/-- Steps whose destination is an id with the tags of a snapshot `G`. -/
def StepOk (G : Value → List (Tag Value)) (s : Step Value) : Prop :=
  Value.IsKey s.dst.vid ∧ s.dst.tags = G s.dst.vid

/-- C20: the step order is a strict weak order, and two steps tie exactly if destination and type are
the same (the ranking, the name and the properties are never compared). -/
theorem C20_step_order_partial (G : Value → List (Tag Value)) (hG : Value.Consistent G) :
    StrictWeakOrder (Step.lt Value.beq Value.lt) (StepOk G) ∧
    ∀ a b, StepOk G a → StepOk G b →
      ((Step.lt Value.beq Value.lt a b = false ∧ Step.lt Value.beq Value.lt b a = false) ↔
        Value.beq a.dst.vid b.dst.vid = true ∧ a.type = b.type) := by
  have hv : Swo (Vertex.lt Value.beq Value.lt) (fun v => Value.IsKey v.vid ∧ v.tags = G v.vid) :=
    (Value.swo_keys.comap (fun v : Vertex Value => v.vid) (fun _ h => h.1)).congr
      (fun a b ha hb => (Value.lt_vertex_key hG a b ha hb).1)
  have hve : ∀ a b : Vertex Value, (Value.IsKey a.vid ∧ a.tags = G a.vid) → (Value.IsKey b.vid ∧ b.tags = G b.vid) →
      (Vertex.beq Value.beq a b = true ↔ Vertex.lt Value.beq Value.lt a b = false ∧ Vertex.lt Value.beq Value.lt b a = false) := by
    intro a b ha hb
    rw [(Value.lt_vertex_key hG a b ha hb).1, (Value.lt_vertex_key hG b a hb ha).1, (Value.lt_vertex_key hG a b ha hb).2]
    exact Value.beq_key_iff ha.1 hb.1
  refine ⟨Swo.strictWeak ?_, ?_⟩
  · exact Swo.lex (S := StepOk G) (eq1 := fun a b => Vertex.beq Value.beq a.dst b.dst)
      (lt1 := fun a b => Vertex.lt Value.beq Value.lt a.dst b.dst) (lt2 := fun a b => decide (a.type < b.type))
      (hv.comap (fun s : Step Value => s.dst) (fun _ h => h))
      ((Swo.int (fun _ => True)).comap (fun s : Step Value => s.type) (fun _ _ => trivial))
      (fun a b ha hb => hve _ _ ha hb)
  · intro a b ha hb
    have e1 := hve _ _ ha hb
    have e2 := hve _ _ hb ha
    rw [← (Value.lt_vertex_key hG a.dst b.dst ha hb).2]
    unfold Step.lt
    cases h1 : Vertex.beq Value.beq a.dst b.dst <;> cases h2 : Vertex.beq Value.beq b.dst a.dst <;> simp_all
    omega

/-- C20 fails: two different steps that tie (they differ in the ranking), also as paths. -/
theorem C20_ties_violated :
    (∃ a b : Step Value, Step.beq Value.beq a b = false ∧
      Step.lt Value.beq Value.lt a b = false ∧ Step.lt Value.beq Value.lt b a = false) ∧
    (∃ p q : Path Value, Value.beq (.path p) (.path q) = false ∧
      Value.lt (.path p) (.path q) = false ∧ Value.lt (.path q) (.path p) = false) :=
  ⟨⟨⟨⟨.int 2, []⟩, 5, [], 0, []⟩, ⟨⟨.int 2, []⟩, 5, [], 1, []⟩, by decide +kernel, by decide +kernel, by decide +kernel⟩,
   ⟨⟨⟨.int 1, []⟩, [⟨⟨.int 2, []⟩, 5, [], 0, []⟩]⟩, ⟨⟨.int 1, []⟩, [⟨⟨.int 2, []⟩, 5, [], 1, []⟩]⟩,
    by decide +kernel, by decide +kernel, by decide +kernel⟩⟩

example : StepOk (fun _ => []) ⟨⟨.int 2, []⟩, 5, [], 0, []⟩ := ⟨trivial, rfl⟩

/-! ## C21 -/

/-- Every row is as long as the header. -/
def DataSet.WF (ds : DataSet) : Prop := ∀ r ∈ ds.rows, r.length = ds.colNames.length

/-- The cell in row `i` under column `c` (first column of that name). -/
def DataSet.cell (ds : DataSet) (c : Bytes) (i : Nat) : Option Value :=
  match ds.rows[i]?, ds.colNames.findIdx? (· == c) with
  | some r, some j => r[j]?
  | _, _ => none

/-- C21: `append` accepts exactly an equal header (or fills an empty header) and then has the rows of
both, in order; a refused append changes nothing. -/
theorem C21_append (ds o : DataSet) :
    ((ds.append o).2 = true ↔ ds.colNames = [] ∨ ds.colNames = o.colNames) ∧
    ((ds.append o).2 = true → (ds.append o).1.rows = ds.rows ++ o.rows ∧ (ds.append o).1.colNames = o.colNames) ∧
    ((ds.append o).2 = false → (ds.append o).1 = ds) := by
  unfold DataSet.append
  by_cases h1 : ds.colNames = []
  · simp [h1]
  · by_cases h2 : ds.colNames = o.colNames
    · have : o.colNames ≠ [] := h2 ▸ h1
      simp [h2, this]
    · simp [h1, h2]

/-- C21: adding rows keeps every row as long as the header, for every sequence of additions, and the
rows are exactly the accepted ones in order. -/
theorem C21_emplace (cols : List Bytes) (rs : List (List Value)) :
    let ds := rs.foldl (fun d r => (d.emplaceBack r).1) (⟨cols, []⟩ : DataSet)
    ds.WF ∧ ds.colNames = cols ∧ ds.rows = rs.filter (fun r => r.length == cols.length) := by
  have main : ∀ (rs : List (List Value)) (acc : List (List Value)),
      (rs.foldl (fun d r => (d.emplaceBack r).1) (⟨cols, acc⟩ : DataSet)) =
        ⟨cols, acc ++ rs.filter (fun r => r.length == cols.length)⟩ := by
    intro rs
    induction rs with
    | nil => intro acc; simp
    | cons r rs ih =>
      intro acc
      rw [List.foldl_cons]
      by_cases h : r.length = cols.length
      · have e : ((⟨cols, acc⟩ : DataSet).emplaceBack r).1 = ⟨cols, acc ++ [r]⟩ := by simp [DataSet.emplaceBack, h]
        rw [e, ih]; simp [h]
      · have e : ((⟨cols, acc⟩ : DataSet).emplaceBack r).1 = ⟨cols, acc⟩ := by simp [DataSet.emplaceBack, h]
        rw [e, ih]; simp [h]
  simp only [main rs [], List.nil_append]
  refine ⟨?_, trivial, trivial⟩
  intro r hr
  simpa using (List.mem_filter.mp hr).2

/-- C21: reading a column of a well-formed data set gives the cell of every row. -/
theorem C21_colValues (ds : DataSet) (h : ds.WF) (c : Bytes) (hc : c ∈ ds.colNames) :
    ∃ vs, ds.colValues c = some vs ∧ vs.length = ds.rows.length ∧ ∀ i : Nat, vs[i]? = ds.cell c i := by
  obtain ⟨rows, hrows⟩ : ∃ rows, rows = ds.rows := ⟨_, rfl⟩
  cases hj : ds.colNames.findIdx? (· == c) with
  | none =>
    rw [List.findIdx?_eq_none_iff] at hj
    have := hj c hc
    simp at this
  | some j =>
    have hlt : j < ds.colNames.length := (List.findIdx?_eq_some_iff_getElem.mp hj).1
    have : ∀ rows : List (List Value), (∀ r ∈ rows, r.length = ds.colNames.length) →
        ∃ vs, rows.mapM (fun r => r[j]?) = some vs ∧ vs.length = rows.length ∧
          ∀ i : Nat, vs[i]? = (rows[i]?).bind (fun r => r[j]?) := by
      intro rows
      induction rows with
      | nil => intro _; exact ⟨[], rfl, rfl, by simp⟩
      | cons r rows ih =>
        intro hr
        obtain ⟨vs, h1, h2, h3⟩ := ih (fun x hx => hr x (by simp [hx]))
        have hl : j < r.length := by rw [hr r (by simp)]; exact hlt
        refine ⟨r[j] :: vs, ?_, by simp [h2], ?_⟩
        · rw [List.mapM_cons, List.getElem?_eq_getElem hl]
          simp [h1]
        · intro i
          cases i with
          | zero => simp [List.getElem?_eq_getElem hl]
          | succ i => simpa using h3 i
    obtain ⟨vs, h1, h2, h3⟩ := this ds.rows h
    refine ⟨vs, ?_, h2, ?_⟩
    · simp only [DataSet.colValues, hj, h1]
    · intro i
      rw [h3 i]
      simp only [DataSet.cell, hj]
      cases ds.rows[i]? <;> rfl

/-- C21: `merge` refuses different row counts, and otherwise every row of the result has the values of
both rows and the header has both headers. -/
theorem C21_merge_partial (ds o : DataSet) :
    ((ds.merge o).2 = true ↔ ds.rows.length = o.rows.length) ∧
    ((ds.merge o).2 = false → (ds.merge o).1 = ds) ∧
    ((ds.merge o).2 = true → (ds.merge o).1.colNames = ds.colNames ++ o.colNames ∧
      (ds.merge o).1.rows.length = ds.rows.length ∧
      (∀ (i : Nat) r s, ds.rows[i]? = some r → o.rows[i]? = some s → ∃ t : List Value, (ds.merge o).1.rows[i]? = some t ∧
        t.Perm (r ++ s)) ∧
      -- the cells are aligned only if one of the two has no columns
      (ds.WF → o.colNames = [] → o.WF → ∀ c i, (ds.merge o).1.cell c i = ds.cell c i)) := by
  unfold DataSet.merge
  by_cases h : ds.rows.length = o.rows.length
  · simp only [h, ne_eq, not_true, if_false, true_and, forall_const]
    refine ⟨by simp, by simp; omega, ?_, ?_⟩
    · intro i r s hr hs
      exact ⟨s ++ r, by simp [List.getElem?_zipWith, hr, hs], List.perm_append_comm⟩
    · intro hw ho hwo c i
      have hz : List.zipWith (fun r s => s ++ r) ds.rows o.rows = ds.rows := by
        apply List.ext_getElem
        · simp; omega
        · intro n h1 h2
          have hn : n < o.rows.length := by omega
          have : (o.rows[n]) = [] := by
            have := hwo o.rows[n] (List.getElem_mem hn)
            simpa [ho] using this
          simp [this]
      simp only [ho, List.append_nil, hz]
  · simp [h]

/-- C21 fails: after merging a column `a` holding 1 with a column `b` holding 2, column `a` of the
result holds 2. -/
theorem C21_merge_violated :
    ∃ ds o : DataSet, ds.WF ∧ o.WF ∧ (ds.merge o).2 = true ∧ ∃ c v, c ∈ ds.colNames ∧ c ∉ o.colNames ∧
      ds.cell c 0 = some v ∧ (ds.merge o).1.cell c 0 ≠ some v := by
  refine ⟨⟨[[97]], [[.int 1]]⟩, ⟨[[98]], [[.int 2]]⟩, ?_, ?_, rfl, [97], .int 1, by decide, by decide, by decide +kernel,
    by decide +kernel⟩
  · intro r hr; simp at hr; subst hr; rfl
  · intro r hr; simp at hr; subst hr; rfl

example : DataSet.WF ⟨[[97], [98]], [[.int 1, .int 2], [.int 3, .int 4]]⟩ := by
  intro r hr; simp at hr; rcases hr with rfl | rfl <;> rfl

/-! ## C66: appending paths -/

/-- The last vertex of a path. -/
def lastVertex (p : Path Value) : Vertex Value := ((vertices p).getLast?).getD p.src

/-- C66: when the second path starts at the last vertex of the first (its only one, if it has no steps), `append`
joins them: the vertices of the first, then those of the second after its start, with the edges of both. -/
theorem C66_append_partial (p q : Path Value) (h : Vertex.beq Value.beq (lastVertex p) q.src = true) :
    ∃ r, p.append q = some (r, true) ∧ vertices r = vertices p ++ (vertices q).tail ∧ r.src = p.src ∧
      r.steps = p.steps ++ q.steps := by
  refine ⟨⟨p.src, p.steps ++ q.steps⟩, ?_, by simp [vertices], rfl, rfl⟩
  unfold Path.append
  cases hs : p.steps.getLast? with
  | none =>
    rw [List.getLast?_eq_none_iff] at hs
    have : lastVertex p = p.src := by simp [lastVertex, vertices, hs]
    rw [this] at h
    simp [h]
  | some s =>
    have hl : lastVertex p = s.dst := by simp [lastVertex, vertices, List.getLast?_cons, hs]
    rw [hl] at h
    split
    · rfl
    · simp [h]

/-- C66: a refused append changes nothing, and means that the second path starts neither at the first
nor at the last vertex of the first. -/
theorem C66_refused (p q r : Path Value) (h : p.append q = some (r, false)) :
    r = p ∧ Vertex.beq Value.beq p.src q.src = false ∧ Vertex.beq Value.beq (lastVertex p) q.src = false := by
  unfold Path.append at h
  split at h
  · simp at h
  · rename_i h1
    split at h
    · simp at h
    · rename_i s hs
      split at h
      · simp at h
      · rename_i h2
        simp only [Option.some.injEq, Prod.mk.injEq, and_true] at h
        refine ⟨h.symm, by simpa using h1, ?_⟩
        have : lastVertex p = s.dst := by simp [lastVertex, vertices, List.getLast?_cons, hs]
        rw [this]; simpa using h2

/-- C66 fails: `append` also accepts a path that starts where the first one *starts*, although the
paths do not join; and on a path without steps that starts elsewhere the behaviour is undefined. -/
theorem C66_append_violated :
    (∃ p q r : Path Value, p.append q = some (r, true) ∧ Vertex.beq Value.beq (lastVertex p) q.src = false) ∧
    (∃ p q : Path Value, p.append q = none) :=
  ⟨⟨⟨⟨.int 5, []⟩, [⟨⟨.int 4, []⟩, 1, [], 0, []⟩]⟩, ⟨⟨.int 5, []⟩, [⟨⟨.int 9, []⟩, 1, [], 0, []⟩]⟩, ⟨⟨.int 5, []⟩, _⟩, by
    have : Vertex.beq Value.beq ⟨.int 5, []⟩ ⟨.int 5, []⟩ = true := by decide +kernel
    simp only [Path.append, this, if_true]; rfl, by decide +kernel⟩,
   ⟨⟨⟨.int 5, []⟩, []⟩, ⟨⟨.int 6, []⟩, []⟩, by
    have : Vertex.beq Value.beq ⟨.int 5, []⟩ ⟨.int 6, []⟩ = false := by decide +kernel
    simp [Path.append, this]⟩⟩

example : Vertex.beq Value.beq (lastVertex ⟨⟨.int 5, []⟩, [⟨⟨.int 4, []⟩, 1, [], 0, []⟩]⟩) ⟨.int 4, []⟩ = true := by
  decide +kernel

end Nebula
