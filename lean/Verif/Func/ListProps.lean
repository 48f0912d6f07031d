import Verif.Func.Spec
import Verif.Func.Props
import Verif.Value.GraphProps
/-!
# The functions of lists, maps, vertices, edges and paths (C87)
-/
namespace Nebula
namespace Func
open Spec

/-! ## Lists -/

/-- C87 (`head`, `tail`, `last`, `size`): a nonempty list is its head followed by its tail, and its last
element is at its end. -/
theorem C87_list (L : FLib) (w : World) (vs : List Value) (h : vs ≠ []) :
    ∃ x xs ys y, body L w .head [.list vs] = .val x ∧ body L w .tail [.list vs] = .val (.list xs) ∧
      body L w .last [.list vs] = .val y ∧ vs = x :: xs ∧ vs = ys ++ [y] ∧
      body L w .size [.list vs] = .val (.int (xs.length + 1)) := by
  cases vs with
  | nil => exact absurd rfl h
  | cons x xs =>
    refine ⟨x, xs, (x :: xs).dropLast, (x :: xs).getLast h, rfl, rfl, ?_, rfl,
      (List.dropLast_append_getLast h).symm, ?_⟩
    · show ofOpt ((x :: xs).getLast?) = _
      rw [List.getLast?_eq_getLast_of_ne_nil h]; rfl
    · show Res.val (Value.int ((x :: xs).length : Nat)) = _
      simp

/-- C87 (`tail`): of the empty list, the empty list. -/
theorem C87_tail_empty (L : FLib) (w : World) : body L w .tail [.list []] = .val (.list []) := rfl

/-- C87 (`size`): the number of bytes of a string, of elements of a list or set, of entries of a map, of rows of a dataset; NULL for values that have no elements. -/
theorem C87_size (L : FLib) (w : World) :
    (∀ s : Bytes, body L w .size [.str s] = .val (.int s.length)) ∧ (∀ vs : List Value, body L w .size [.list vs] = .val (.int vs.length)) ∧
    (∀ vs : List Value, body L w .size [.set vs] = .val (.int vs.length)) ∧ (∀ kvs : List (Bytes × Value), body L w .size [.map kvs] = .val (.int kvs.length)) ∧
    (∀ (cols : List Bytes) (rows : List (List Value)), body L w .size [.dataset cols rows] = .val (.int rows.length)) ∧
    (∀ v : Value, typeOf v ∉ [.empty, .string, .list, .set, .map, .dataset] → ∃ n, body L w .size [v] = .val (.null n)) := by
  refine ⟨fun _ => rfl, fun _ => rfl, fun _ => rfl, fun _ => rfl, fun _ _ => rfl, fun v hv => ?_⟩
  cases v <;> first
    | exact ⟨_, rfl⟩
    | exact absurd hv (by simp [typeOf])

example : typeOf (Value.int 1) ∉ [VType.empty, .string, .list, .set, .map, .dataset] := by decide

/-- C87 (`coalesce`): the first element that is not NULL; NULL if there is none. -/
theorem C87_coalesce (L : FLib) (w : World) (vs : List Value) (v : Value) (hv : v.isNull = false) :
    body L w .coalesce [.list vs] = .val v ↔
      ∃ a b, vs = a ++ v :: b ∧ ∀ x ∈ a, x.isNull = true := by
  have hb : ∀ x : Value, Value.beq x Value.kNull = x.isNull := by
    intro x; cases x <;> simp [Value.beq, Value.kNull, Value.isNull]
  have key : ∀ vs, coalesceLoop vs = v ↔ ∃ a b, vs = a ++ v :: b ∧ ∀ x ∈ a, x.isNull = true := by
    intro vs
    induction vs with
    | nil =>
      constructor
      · intro h; rw [← h] at hv; cases hv
      · rintro ⟨a, b, h, _⟩; simp at h
    | cons x xs ih =>
      rw [coalesceLoop, hb]
      cases hx : x.isNull with
      | false =>
        simp only [Bool.not_false, if_true]
        constructor
        · rintro rfl; exact ⟨[], xs, rfl, by simp⟩
        · rintro ⟨a, b, h, ha⟩
          cases a with
          | nil => injection h
          | cons y a =>
            injection h with h1 h2
            have := ha y List.mem_cons_self
            rw [← h1, hx] at this; cases this
      | true =>
        simp only [Bool.not_true, Bool.false_eq_true, if_false]
        rw [ih]
        constructor
        · rintro ⟨a, b, rfl, ha⟩
          exact ⟨x :: a, b, rfl, by simpa [hx] using ha⟩
        · rintro ⟨a, b, h, ha⟩
          cases a with
          | nil => injection h with h1 h2; rw [h1, hv] at hx; cases hx
          | cons y a =>
            injection h with h1 h2
            exact ⟨a, b, h2, fun z hz => ha z (List.mem_cons_of_mem _ hz)⟩
  show Res.val (coalesceLoop vs) = _ ↔ _
  rw [← key vs]
  constructor
  · intro h; injection h
  · intro h; rw [h]

theorem C87_coalesce_null (L : FLib) (w : World) (vs : List Value) (h : ∀ x ∈ vs, x.isNull = true) :
    body L w .coalesce [.list vs] = .val (.null .null) := by
  have hb : ∀ x : Value, Value.beq x Value.kNull = x.isNull := by
    intro x; cases x <;> simp [Value.beq, Value.kNull, Value.isNull]
  show Res.val (coalesceLoop vs) = _
  congr 1
  induction vs with
  | nil => rfl
  | cons x xs ih =>
    rw [coalesceLoop, hb, h x List.mem_cons_self]
    exact ih fun y hy => h y (List.mem_cons_of_mem _ hy)

example (L : FLib) (w : World) : body L w .coalesce [.list [.null .nan, .int 3, .int 4]] = .val (.int 3) :=
  (C87_coalesce L w _ _ rfl).2 ⟨[.null .nan], [.int 4], rfl, by simp [Value.isNull]⟩

/-- C87 (`udf_is_in`): whether the first argument equals one of the others. -/
theorem C87_is_in (L : FLib) (w : World) (a : Value) (args : List Value) :
    body L w .udf_is_in (a :: args) = .val (.bool true) ∨ body L w .udf_is_in (a :: args) = .val (.bool false) :=
  by
  show Res.val (.bool _) = _ ∨ Res.val (.bool _) = _
  cases List.any (List.drop 1 (a :: args)) fun x => Value.beq x a
  · exact .inr rfl
  · exact .inl rfl

theorem C87_is_in_iff (L : FLib) (w : World) (a : Value) (args : List Value) :
    body L w .udf_is_in (a :: args) = .val (.bool true) ↔ ∃ x ∈ args, Value.beq x a = true := by
  show Res.val (.bool (args.any fun x => Value.beq x a)) = _ ↔ _
  rw [← List.any_eq_true]
  constructor
  · intro h; injection h with h; injection h
  · intro h; rw [h]

/-! ## Names and properties -/

theorem setInsert_mem (k x : Bytes) (s : List Bytes) : x ∈ setInsert k s ↔ x = k ∨ x ∈ s := by
  induction s with
  | nil => simp [setInsert]
  | cons y s ih =>
    rw [setInsert]
    split
    · simp
    · split
      · simp only [List.mem_cons, ih]
        constructor <;> (rintro (h | h | h) <;> simp [h])
      · rename_i h1 h2
        have : k = y := by
          rcases bytesLt_total k y with h | h | h
          · exact absurd h h1
          · exact h
          · exact absurd h h2
        subst this; simp

theorem sortedNames_cons {a b : Bytes} {r : List Bytes} (h : SortedNames (b :: r)) (hab : bytesLt a b = true) :
    SortedNames (a :: b :: r) := ⟨hab, h⟩

theorem setInsert_sorted (k : Bytes) (s : List Bytes) (h : SortedNames s) : SortedNames (setInsert k s) := by
  induction s with
  | nil => trivial
  | cons y s ih =>
    rw [setInsert]
    split
    · rename_i h1; exact ⟨h1, h⟩
    · split
      · rename_i h1 h2
        cases s with
        | nil => exact ⟨h2, trivial⟩
        | cons z s =>
          have hz := ih h.2
          rw [setInsert] at hz ⊢
          split
          · rename_i h3; rw [if_pos h3] at hz; exact ⟨h2, hz⟩
          · rename_i h3
            rw [if_neg h3] at hz
            split
            · rename_i h4; rw [if_pos h4] at hz; exact ⟨h.1, hz⟩
            · exact h
      · exact h

theorem foldl_setInsert (ks : List Bytes) (s : List Bytes) (h : SortedNames s) :
    SortedNames (ks.foldl (fun s k => setInsert k s) s) ∧
    ∀ x, x ∈ ks.foldl (fun s k => setInsert k s) s ↔ x ∈ ks ∨ x ∈ s := by
  induction ks generalizing s with
  | nil => exact ⟨h, fun x => by simp⟩
  | cons k ks ih =>
    obtain ⟨h1, h2⟩ := ih (setInsert k s) (setInsert_sorted k s h)
    refine ⟨h1, fun x => ?_⟩
    rw [List.foldl_cons, h2, setInsert_mem]
    simp only [List.mem_cons]
    constructor
    · rintro (h | h | h) <;> simp [h]
    · rintro ((h | h) | h) <;> simp [h]

/-- The names of the properties that a value has. -/
def propNames : Value → Option (List Bytes)
  | .vertex v => some (v.tags.flatMap fun t => t.props.map Prod.fst)
  | .edge e => some (e.props.map Prod.fst)
  | .map kvs => some (kvs.map Prod.fst)
  | _ => none

/-- C87 (`keys`): the names of the properties, each once, in increasing order. -/
theorem C87_keys (L : FLib) (w : World) (v : Value) (ns : List Bytes) (h : propNames v = some ns) :
    ∃ r, body L w .keys [v] = .val (.list (r.map .str)) ∧ SortedNames r ∧ ∀ x, x ∈ r ↔ x ∈ ns := by
  have key := foldl_setInsert ns [] trivial
  refine ⟨ns.foldl (fun s k => setInsert k s) [], ?_, key.1, fun x => by rw [key.2 x]; simp⟩
  cases v <;> simp only [propNames, Option.some.injEq, reduceCtorEq] at h <;> subst h <;> rfl

example (L : FLib) (w : World) : body L w .keys [.vertex ⟨.int 1, [⟨ascii "b", [(ascii "y", .int 1), (ascii "x", .int 2)]⟩,
    ⟨ascii "a", [(ascii "x", .int 3)]⟩]⟩] = .val (.list [.str (ascii "x"), .str (ascii "y")]) := by rfl

theorem insertNew_lookup (kvs : List (Bytes × Value)) (m : List (Bytes × Value)) (k : Bytes) :
    (kvs.foldl insertNew m).lookup k = (m.lookup k).or (kvs.lookup k) := by
  have ha : ∀ (m n : List (Bytes × Value)), (m ++ n).lookup k = (m.lookup k).or (n.lookup k) := by
    intro m n
    induction m with
    | nil => rfl
    | cons x m ih =>
      obtain ⟨a, b⟩ := x
      simp only [List.cons_append, List.lookup_cons]
      cases k == a <;> simp [ih]
  induction kvs generalizing m with
  | nil => simp
  | cons kv kvs ih =>
    obtain ⟨a, b⟩ := kv
    rw [List.foldl_cons, ih]
    unfold insertNew
    rw [List.lookup_cons]
    split
    · rename_i h
      cases hk : k == a with
      | false => rfl
      | true =>
        have hk' : k = a := by simpa using hk
        subst hk'
        obtain ⟨x, hx⟩ := Option.isSome_iff_exists.1 h
        rw [hx]; rfl
    · rename_i h
      rw [ha, List.lookup_cons]
      cases hk : k == a with
      | false => simp
      | true =>
        have hk' : k = a := by simpa using hk
        subst hk'
        have : m.lookup k = none := by
          cases hm : m.lookup k with
          | none => rfl
          | some x => rw [hm] at h; simp at h
        rw [this]; rfl

/-- C87 (`properties` of a vertex): each property has the value it has in the first tag that has it. -/
theorem C87_properties (L : FLib) (w : World) (v : Vertex Value) :
    ∃ m, body L w .properties [.vertex v] = .val (.map m) ∧
      ∀ k, m.lookup k = v.tags.findSome? fun t => t.props.lookup k := by
  refine ⟨_, rfl, fun k => ?_⟩
  rw [insertNew_lookup]
  show Option.or none _ = _
  rw [Option.none_or]
  generalize v.tags = ts
  induction ts with
  | nil => rfl
  | cons t ts ih =>
    rw [List.flatMap_cons, List.findSome?_cons, ← ih]
    generalize t.props = ps
    induction ps with
    | nil => rfl
    | cons p ps ih2 =>
      obtain ⟨a, b⟩ := p
      simp only [List.cons_append, List.lookup_cons]
      cases k == a with
      | true => rfl
      | false => simpa using ih2

/-- C87: `keys` of a vertex are the keys of its properties. -/
theorem C87_keys_properties (L : FLib) (w : World) (v : Vertex Value) :
    ∃ m, body L w .properties [.vertex v] = .val (.map m) ∧
      body L w .keys [.map m] = body L w .keys [.vertex v] := by
  refine ⟨_, rfl, ?_⟩
  show Res.val (keysFn.names _) = Res.val (keysFn.names _)
  congr 1
  unfold keysFn.names
  congr 2
  -- both lists are sorted and have the same members
  have hsort : ∀ (a b : List Bytes), SortedNames a → SortedNames b → (∀ x, x ∈ a ↔ x ∈ b) → a = b := by
    have hlt : ∀ (l : List Bytes) (a : Bytes), SortedNames (a :: l) → ∀ x ∈ l, bytesLt a x = true := by
      intro l
      induction l with
      | nil => intro a _ x hx; cases hx
      | cons b l ih =>
        intro a h x hx
        rcases List.mem_cons.1 hx with rfl | hx
        · exact h.1
        · exact bytesLt_trans _ _ _ h.1 (ih b h.2 x hx)
    have htl : ∀ (l : List Bytes) (a : Bytes), SortedNames (a :: l) → SortedNames l := by
      intro l a h
      cases l with
      | nil => trivial
      | cons b l => exact h.2
    intro a
    induction a with
    | nil =>
      intro b _ _ h
      cases b with
      | nil => rfl
      | cons y b => exact absurd ((h y).2 List.mem_cons_self) (by simp)
    | cons x a ih =>
      intro b ha hb h
      cases b with
      | nil => exact absurd ((h x).1 List.mem_cons_self) (by simp)
      | cons y b =>
        have hxy : x = y := by
          rcases List.mem_cons.1 ((h x).1 List.mem_cons_self) with e | e
          · exact e
          · rcases List.mem_cons.1 ((h y).2 List.mem_cons_self) with e2 | e2
            · exact e2.symm
            · have h1 := hlt _ _ hb x e
              have h2 := hlt _ _ ha y e2
              rw [bytesLt_asymm _ _ h1] at h2; cases h2
        subst hxy
        congr 1
        apply ih b (htl _ _ ha) (htl _ _ hb)
        intro z
        constructor
        · intro hz
          rcases List.mem_cons.1 ((h z).1 (List.mem_cons_of_mem _ hz)) with e | e
          · subst e; have := hlt _ _ ha z hz; rw [bytesLt_irrefl] at this; cases this
          · exact e
        · intro hz
          rcases List.mem_cons.1 ((h z).2 (List.mem_cons_of_mem _ hz)) with e | e
          · subst e; have := hlt _ _ hb z hz; rw [bytesLt_irrefl] at this; cases this
          · exact e
  apply hsort _ _ (foldl_setInsert _ [] trivial).1 (foldl_setInsert _ [] trivial).1
  intro x
  rw [(foldl_setInsert _ [] trivial).2, (foldl_setInsert _ [] trivial).2]
  simp only [List.not_mem_nil, or_false]
  have hmem : ∀ (l : List (Bytes × Value)), x ∈ l.map Prod.fst ↔ l.lookup x ≠ none := by
    intro l
    induction l with
    | nil => simp
    | cons p l ih =>
      obtain ⟨a, b⟩ := p
      rw [List.map_cons, List.mem_cons, ih, List.lookup_cons]
      cases hxa : x == a with
      | true => simp at hxa; simp [hxa]
      | false => simp at hxa; simp [hxa]
  rw [hmem, insertNew_lookup, show (List.lookup x ([] : List (Bytes × Value))) = none from rfl, Option.none_or,
    ← hmem]
  rw [List.map_flatMap]

/-- C87 (`tags`, `labels`): the names of the tags. -/
theorem C87_tags (L : FLib) (w : World) (v : Vertex Value) :
    body L w .tags [.vertex v] = .val (.list (v.tags.map fun t => .str t.name)) ∧
    body L w .labels [.vertex v] = body L w .tags [.vertex v] ∧
    body L w .id [.vertex v] = .val v.vid := ⟨rfl, rfl, rfl⟩

/-! ## Edges -/

/-- C87 (`src`, `dst`, `rank`, `type`): an edge and the same edge seen from the other end have the same
source, destination, rank and name. -/
theorem C87_edge (L : FLib) (w : World) (e : Edge Value) (h : e.type ≠ 0) (f : Fn)
    (hf : f = .src ∨ f = .dst ∨ f = .rank ∨ f = .type) :
    body L w f [.edge e.reverse] = body L w f [.edge e] := by
  rcases hf with rfl | rfl | rfl | rfl
  · show Res.val (if -e.type > 0 then e.dst else e.src) = Res.val (if e.type > 0 then e.src else e.dst)
    congr 1; split <;> split <;> first | rfl | omega
  · show Res.val (if -e.type > 0 then e.src else e.dst) = Res.val (if e.type > 0 then e.dst else e.src)
    congr 1; split <;> split <;> first | rfl | omega
  · rfl
  · rfl

/-- C87: of an edge seen from its source, `src` and `dst` are the ids of `startnode` and `endnode`. -/
theorem C87_edge_nodes_partial (L : FLib) (w : World) (e : Edge Value) (h : 0 < e.type) :
    ∃ s d, body L w .startnode [.edge e] = .val s ∧ body L w .endnode [.edge e] = .val d ∧
      body L w .id [s] = body L w .src [.edge e] ∧ body L w .id [d] = body L w .dst [.edge e] := by
  refine ⟨_, _, rfl, rfl, ?_, ?_⟩
  · show Res.val e.src = Res.val (if e.type > 0 then e.src else e.dst)
    rw [if_pos h]
  · show Res.val e.dst = Res.val (if e.type > 0 then e.dst else e.src)
    rw [if_pos h]

/-- C87: of an edge seen from its destination, `startnode` is the destination. -/
theorem C87_edge_nodes_violated (L : FLib) (w : World) :
    let e : Edge Value := ⟨.int 1, .int 2, -7, ascii "like", 0, []⟩
    body L w .startnode [.edge e] = .val (.vertex ⟨.int 1, []⟩) ∧ body L w .src [.edge e] = .val (.int 2) :=
  ⟨rfl, rfl⟩

/-! ## Paths -/

/-- The edge of a hop. -/
def hopEdge (h : Hop) : Value := .edge ⟨h.tail.vid, h.head.vid, h.type, h.name, h.ranking, h.props⟩

/-- C87 (`nodes`, `relationships`, `length`): the vertices and the edges of a path in order; the length
is the number of edges, one less than the number of vertices. -/
theorem C87_path (L : FLib) (w : World) (p : Path Value) :
    body L w .nodes [.path p] = .val (.list ((vertices p).map .vertex)) ∧
    body L w .relationships [.path p] = .val (.list ((hops p).map hopEdge)) ∧
    body L w .length [.path p] = .val (.int (hops p).length) ∧
    (vertices p).length = (hops p).length + 1 := by
  have hl : ∀ (v : Vertex Value) (ss : List (Step Value)), (hopsFrom v ss).length = ss.length := by
    intro v ss
    induction ss generalizing v with
    | nil => rfl
    | cons s ss ih => simp [hopsFrom, ih]
  have hr : ∀ (v : Vertex Value) (ss : List (Step Value)), relLoop v.vid ss = (hopsFrom v ss).map hopEdge := by
    intro v ss
    induction ss generalizing v with
    | nil => rfl
    | cons s ss ih => rw [relLoop, hopsFrom, List.map_cons, ih]; rfl
  refine ⟨?_, ?_, ?_, ?_⟩
  · show Res.val (.list (.vertex p.src :: p.steps.map fun s => .vertex s.dst)) = _
    simp [vertices, List.map_map]
  · show Res.val (.list (relLoop p.src.vid p.steps)) = _
    rw [hr]; rfl
  · show Res.val (.int (p.steps.length : Nat)) = _
    rw [show hops p = hopsFrom p.src p.steps from rfl, hl]
  · rw [show hops p = hopsFrom p.src p.steps from rfl, hl]; simp [vertices]

/-- C87 (`startnode`, `endnode`): the first and the last of the vertices. -/
theorem C87_path_ends (L : FLib) (w : World) (p : Path Value) :
    ∃ a b, body L w .startnode [.path p] = .val (.vertex a) ∧ body L w .endnode [.path p] = .val (.vertex b) ∧
      (vertices p).head? = some a ∧ (vertices p).getLast? = some b := by
  obtain ⟨src, steps⟩ := p
  rcases List.eq_nil_or_concat steps with rfl | ⟨ss, s, rfl⟩ <;> try rw [List.concat_eq_append]
  · exact ⟨src, src, rfl, rfl, rfl, rfl⟩
  · refine ⟨src, s.dst, rfl, ?_, rfl, ?_⟩
    · show (match (ss ++ [s]).getLast? with
        | none => Res.val (.vertex src)
        | some s => .val (.vertex s.dst)) = _
      simp
    · show (src :: (ss ++ [s]).map (·.dst)).getLast? = _
      rw [List.map_append, ← List.cons_append, List.getLast?_append]; rfl

/-- C87 (`reversepath`): the vertices in the opposite order and the edges in the opposite order, each
traversed the other way; reversing twice gives the path back. -/
theorem C87_reversepath (L : FLib) (w : World) (p : Path Value) :
    ∃ q, body L w .reversepath [.path p] = .val (.path q) ∧
      vertices q = (vertices p).reverse ∧ hops q = ((hops p).map Hop.opposite).reverse ∧
      body L w .reversepath [.path q] = .val (.path p) := by
  refine ⟨p.reverse, rfl, C18_vertices p, C18_edges p, ?_⟩
  show Res.val (.path p.reverse.reverse) = _
  rw [(C18_involution p).1]

/-- C87: what `startnode` and `endnode` of a path are, its reversal has exchanged. -/
theorem C87_reversepath_ends (L : FLib) (w : World) (p q : Path Value)
    (h : body L w .reversepath [.path p] = .val (.path q)) :
    body L w .startnode [.path q] = body L w .endnode [.path p] ∧
    body L w .endnode [.path q] = body L w .startnode [.path p] := by
  obtain ⟨q', hq, hv, _, _⟩ := C87_reversepath L w p
  rw [hq] at h; injection h with h; injection h with h; subst h
  obtain ⟨a, b, h1, h2, h3, h4⟩ := C87_path_ends L w p
  obtain ⟨c, d, g1, g2, g3, g4⟩ := C87_path_ends L w q'
  rw [hv, List.head?_reverse, h4] at g3
  rw [hv, List.getLast?_reverse, h3] at g4
  injection g3 with g3; injection g4 with g4
  rw [h1, h2, g1, g2, g3, g4]; exact ⟨rfl, rfl⟩

/-- C87 (`hassameedgeinpath`, `hassamevertexinpath`): whether two of the edges, or two of the vertices,
are the same. -/
theorem C87_same_in_path (L : FLib) (w : World) (p : Path Value) :
    (body L w .hassameedgeinpath [.path p] = .val (.bool true) ↔
      ∃ i j : Nat, i < j ∧ ∃ g h : Hop, (hops p)[i]? = some g ∧ (hops p)[j]? = some h ∧
        h.sameEdge Value.beq g) ∧
    (body L w .hassamevertexinpath [.path p] = .val (.bool true) ↔
      ∃ i j : Nat, i < j ∧ ∃ u v : Vertex Value, (vertices p)[i]? = some u ∧ (vertices p)[j]? = some v ∧
        Value.beq v.vid u.vid = true) := by
  constructor
  · rw [← C19_edges p]
    show Res.val (.bool p.hasDuplicateEdges) = _ ↔ _
    exact ⟨fun h => by injection h with h; injection h, fun h => by rw [h]⟩
  · rw [← C19_vertices p]
    show Res.val (.bool p.hasDuplicateVertices) = _ ↔ _
    exact ⟨fun h => by injection h with h; injection h, fun h => by rw [h]⟩

end Func
end Nebula
