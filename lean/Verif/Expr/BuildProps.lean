import Verif.Expr.OpsProps
import Verif.Expr.EvalProps
import Verif.Value.GraphSpec
/-!
# C89 (attributes), C90 (building paths), C91 (list, set and map expressions, `++` and `--`)
-/
namespace Nebula
open EvalSpec Value Spec

/-! ## C89 -/

/-- The named components of dates and times. -/
def components : Value → List (String × Int)
  | .date d => [("year", d.year), ("month", d.month), ("day", d.day)]
  | .time t => [("hour", t.hour), ("minute", t.minute), ("second", t.sec), ("microsecond", t.microsec)]
  | .datetime d => [("year", d.year), ("month", d.month), ("day", d.day), ("hour", d.hour),
      ("minute", d.minute), ("second", d.sec), ("microsecond", d.microsec)]
  | _ => []

/-- Same text but for the case of letters. -/
def SameText (k : Bytes) (n : String) : Prop := k.map toLower = ascii n

/-- C89 (dates and times): the attribute of a component's name, in any case of letters, is the component;
any other name gives the unknown-property NULL. -/
theorem C89_components {env : Env} {p : List Nat} {l r : Expr} {s s' : EState} {a : Value} {k : Bytes}
    (h : Evaluates env p 0 [l, r] s [a, .str k] s') (ha : components a ≠ []) :
    ∃ v s2, (Expr.binary .attribute l r).eval env p s = some (v, s2) ∧ SameContext s' s2 ∧
      (∀ n x, (n, x) ∈ components a → SameText k n → v = .int x) ∧
      ((∀ n x, (n, x) ∈ components a → ¬ SameText k n) → v = .null .unknownProp) := by
  rw [eval_binary h]
  cases a with
  | date d =>
    refine ⟨_, _, rfl, ⟨rfl, rfl⟩, ?_, ?_⟩
    · intro n x hn hk
      unfold SameText at hk
      simp only [components, List.mem_cons, List.not_mem_nil, or_false, Prod.mk.injEq] at hn
      simp only [Ops.dateAttr, hk]
      rcases hn with ⟨rfl, rfl⟩ | ⟨rfl, rfl⟩ | ⟨rfl, rfl⟩ <;> rfl
    · intro hn
      simp only [components, List.mem_cons, List.not_mem_nil, or_false, Prod.mk.injEq] at hn
      unfold SameText at hn
      simp only [Ops.dateAttr]
      rw [if_neg (hn "year" d.year (by simp)), if_neg (hn "month" d.month (by simp)), if_neg (hn "day" d.day (by simp))]
      rfl
  | time d =>
    refine ⟨_, _, rfl, ⟨rfl, rfl⟩, ?_, ?_⟩
    · intro n x hn hk
      unfold SameText at hk
      simp only [components, List.mem_cons, List.not_mem_nil, or_false, Prod.mk.injEq] at hn
      simp only [Ops.timeAttr, hk]
      rcases hn with ⟨rfl, rfl⟩ | ⟨rfl, rfl⟩ | ⟨rfl, rfl⟩ | ⟨rfl, rfl⟩ <;> rfl
    · intro hn
      simp only [components, List.mem_cons, List.not_mem_nil, or_false, Prod.mk.injEq] at hn
      unfold SameText at hn
      simp only [Ops.timeAttr]
      rw [if_neg (hn "hour" d.hour (by simp)), if_neg (hn "minute" d.minute (by simp)), if_neg (hn "second" d.sec (by simp)),
        if_neg (hn "microsecond" d.microsec (by simp))]
      rfl
  | datetime d =>
    refine ⟨_, _, rfl, ⟨rfl, rfl⟩, ?_, ?_⟩
    · intro n x hn hk
      unfold SameText at hk
      simp only [components, List.mem_cons, List.not_mem_nil, or_false, Prod.mk.injEq] at hn
      simp only [Ops.dateTimeAttr, hk]
      rcases hn with ⟨rfl, rfl⟩ | ⟨rfl, rfl⟩ | ⟨rfl, rfl⟩ | ⟨rfl, rfl⟩ | ⟨rfl, rfl⟩ | ⟨rfl, rfl⟩ | ⟨rfl, rfl⟩ <;> rfl
    · intro hn
      simp only [components, List.mem_cons, List.not_mem_nil, or_false, Prod.mk.injEq] at hn
      unfold SameText at hn
      simp only [Ops.dateTimeAttr]
      rw [if_neg (hn "year" d.year (by simp)), if_neg (hn "month" d.month (by simp)), if_neg (hn "day" d.day (by simp)),
        if_neg (hn "hour" d.hour (by simp)), if_neg (hn "minute" d.minute (by simp)), if_neg (hn "second" d.sec (by simp)),
        if_neg (hn "microsecond" d.microsec (by simp))]
      rfl
  | _ => exact absurd rfl ha

example : SameText (ascii "Month") "month" := by unfold SameText; decide +kernel

/-- The properties of a map, of the tags of a vertex (the first tag that has the name wins), of an edge. -/
def propertyOf : Value → Bytes → Option Value
  | .map m, k => m.lookup k
  | .vertex v, k => v.tags.findSome? fun t => t.props.lookup k
  | .edge e, k => e.props.lookup k
  | _, _ => none

/-- What the names with an underscore denote. -/
def builtins : Value → List (String × Value)
  | .vertex v => [("_vid", v.vid)]
  | .edge e => [("_src", e.src), ("_dst", e.dst), ("_rank", .int e.ranking), ("_type", .str e.name)]
  | _ => []

theorem findTag_eq (k : Bytes) (ts : List (Tag Value)) :
    Ops.findTag k ts = ts.findSome? fun t => t.props.lookup k := by
  induction ts with
  | nil => rfl
  | cons t ts ih =>
    rw [Ops.findTag, List.findSome?_cons, ih]
    cases t.props.lookup k <;> rfl

/-- A map, vertex or edge. -/
def HasProperties (a : Value) : Prop :=
  (∃ m, a = .map m) ∨ (∃ v, a = .vertex v) ∨ (∃ e, a = .edge e)

/-- C89 (properties): a name without an underscore denotes the property; the unknown-property NULL if
there is none. -/
theorem C89_property {env : Env} {p : List Nat} {l r : Expr} {s s' : EState} {a : Value} {k : Bytes}
    (h : Evaluates env p 0 [l, r] s [a, .str k] s') (ha : HasProperties a)
    (hk : ∀ t, k ≠ 95 :: t) :
    ∃ s2, SameContext s' s2 ∧ (Expr.binary .attribute l r).eval env p s =
      some ((propertyOf a k).getD (.null .unknownProp), s2) := by
  rw [eval_binary h]
  have hu : Ops.underscore k = false := by
    cases k with
    | nil => rfl
    | cons c k =>
      unfold Ops.underscore
      simp only [List.head?_cons]
      have : c ≠ 95 := fun e => hk k (by rw [e])
      simpa using this
  have hv : k ≠ Ops.kVid := by
    intro e; apply hk ((Ops.kVid).drop 1); rw [e]; decide +kernel
  refine ⟨s'.setMem p (s'.mem p), ⟨rfl, rfl⟩, ?_⟩
  rcases ha with ⟨m, rfl⟩ | ⟨v, rfl⟩ | ⟨e, rfl⟩
  · rfl
  · simp only [Eval.binOp, Ops.attr, if_neg hv, findTag_eq]; rfl
  · simp only [Eval.binOp, Ops.attr, hu]; rfl

/-- C89 (built-in names): `_vid` of a vertex; `_src`, `_dst`, `_rank`, `_type` of an edge. -/
theorem C89_builtin {env : Env} {p : List Nat} {l r : Expr} {s s' : EState} {a : Value} {n : String} {x : Value}
    (h : Evaluates env p 0 [l, r] s [a, .str (ascii n)] s') (hx : (n, x) ∈ builtins a) :
    ∃ s2, SameContext s' s2 ∧ (Expr.binary .attribute l r).eval env p s = some (x, s2) := by
  rw [eval_binary h]
  refine ⟨s'.setMem p x, ⟨rfl, rfl⟩, ?_⟩
  cases a with
  | vertex v =>
    simp only [builtins, List.mem_cons, List.not_mem_nil, or_false, Prod.mk.injEq] at hx
    obtain ⟨rfl, rfl⟩ := hx
    simp only [Eval.binOp, Ops.attr, Ops.kVid, if_true, Option.map_some]
  | edge e =>
    simp only [builtins, List.mem_cons, List.not_mem_nil, or_false, Prod.mk.injEq] at hx
    rcases hx with ⟨rfl, rfl⟩ | ⟨rfl, rfl⟩ | ⟨rfl, rfl⟩ | ⟨rfl, rfl⟩ <;> rfl
  | _ => cases hx

/-- C89 (subscripts by name): where the attribute is a property or a built-in name the subscript is the same
value. -/
theorem C89_subscript {env : Env} {p : List Nat} {l r : Expr} {s s' : EState} {a : Value} {k : Bytes} {x : Value}
    (h : Evaluates env p 0 [l, r] s [a, .str k] s') (ha : HasProperties a)
    (hx : (propertyOf a k = some x ∧ ∀ t, k ≠ 95 :: t) ∨ ∃ n, k = ascii n ∧ (n, x) ∈ builtins a) :
    (Expr.binary .subscript l r).eval env p s = some (x, s') := by
  rw [eval_binary h]
  simp only [Eval.binOp, Eval.pure, Option.some.injEq, Prod.mk.injEq, and_true]
  rcases hx with ⟨hx, hk⟩ | ⟨n, rfl, hx⟩
  · have hu : Ops.underscore k = false := by
      cases k with
      | nil => rfl
      | cons c k =>
        unfold Ops.underscore
        simp only [List.head?_cons]
        have : c ≠ 95 := fun e => hk k (by rw [e])
        simpa using this
    have hv : k ≠ Ops.kVid := by
      intro e; apply hk ((Ops.kVid).drop 1); rw [e]; decide +kernel
    rcases ha with ⟨m, rfl⟩ | ⟨v, rfl⟩ | ⟨e, rfl⟩
    · simp only [propertyOf] at hx; simp only [Ops.subscript, hx, Option.getD_some]
    · simp only [propertyOf] at hx; simp only [Ops.subscript, if_neg hv, findTag_eq, hx, Option.getD_some]
    · simp only [propertyOf] at hx; simp only [Ops.subscript, hu, hx, Option.getD_some]; rfl
  · cases a with
    | vertex v =>
      simp only [builtins, List.mem_cons, List.not_mem_nil, or_false, Prod.mk.injEq] at hx
      obtain ⟨rfl, rfl⟩ := hx
      simp only [Ops.subscript, Ops.kVid, if_true]
    | edge e =>
      simp only [builtins, List.mem_cons, List.not_mem_nil, or_false, Prod.mk.injEq] at hx
      rcases hx with ⟨rfl, rfl⟩ | ⟨rfl, rfl⟩ | ⟨rfl, rfl⟩ | ⟨rfl, rfl⟩ <;> rfl
    | _ => cases hx

/-- C89 (subscripts by an absent name): the unknown-property NULL of a map, the plain NULL of a vertex or
edge; so it is NULL wherever the attribute is. -/
theorem C89_subscript_absent {env : Env} {p : List Nat} {l r : Expr} {s s' : EState} {a : Value} {k : Bytes}
    (h : Evaluates env p 0 [l, r] s [a, .str k] s') (hx : propertyOf a k = none) :
    ((∃ m, a = .map m) → (Expr.binary .subscript l r).eval env p s = some (.null .unknownProp, s')) ∧
    (((∃ v, a = .vertex v) ∨ ∃ e, a = .edge e) → (∀ n x, (n, x) ∈ builtins a → k ≠ ascii n) →
      (Expr.binary .subscript l r).eval env p s = some (NULL, s')) := by
  rw [eval_binary h]
  simp only [Eval.binOp, Eval.pure, Option.some.injEq, Prod.mk.injEq, and_true]
  constructor
  · rintro ⟨m, rfl⟩
    simp only [propertyOf] at hx
    simp only [Ops.subscript, hx]; rfl
  · rintro (⟨v, rfl⟩ | ⟨e, rfl⟩) hb
    · simp only [propertyOf] at hx
      have hv : k ≠ Ops.kVid := hb "_vid" v.vid (by simp [builtins])
      simp only [Ops.subscript, if_neg hv, findTag_eq, hx]; rfl
    · simp only [propertyOf] at hx
      have h1 : k ≠ Ops.kSrc := hb "_src" e.src (by simp [builtins])
      have h2 : k ≠ Ops.kDst := hb "_dst" e.dst (by simp [builtins])
      have h3 : k ≠ Ops.kRank := hb "_rank" (.int e.ranking) (by simp [builtins])
      have h4 : k ≠ Ops.kType := hb "_type" (.str e.name) (by simp [builtins])
      simp only [Ops.subscript, hx]
      split
      · simp [Ops.edgeBuiltin, h1, h2, h3, h4, kNull]
      · rfl

/-- C89 (`exists(a.k)`): true exactly if the property is there and not NULL. -/
theorem C89_exists {env : Env} {p : List Nat} {l r : Expr} {f : Option Expr} {o i : Bytes} {s s' : EState} {a : Value} {k : Bytes}
    (h : Evaluates env (0 :: p) 0 [l, r] s [a, .str k] s') (ha : HasProperties a) :
    ∃ b, (Expr.predicate (ascii "exists") i (.binary .attribute l r) f o).eval env p s = some (.bool b, s') ∧
      (b = true ↔ ∃ x, propertyOf a k = some x ∧ ∀ n, x ≠ .null n) := by
  have he : (Expr.predicate (ascii "exists") i (.binary .attribute l r) f o).eval env p s =
      some (Ops.exists? a (.str k), s') := by
    cases h with
    | cons h1 t =>
      cases t with
      | cons h2 t =>
        cases t
        rw [show 0 + 1 = 1 from rfl] at h2
        simp only [Expr.eval, Expr.operands, Eval.predicate, if_true, Eval.bind, h1, h2, Eval.pure]
  rw [he]
  have key : ∀ (o : Option Value) (d : Value), d.isNull = true →
      ((!(o.getD d).isNull) = true ↔ ∃ x, o = some x ∧ ∀ n, x ≠ .null n) := by
    intro o d hd
    cases o with
    | none => simp [hd]
    | some x => cases x <;> simp [isNull]
  rcases ha with ⟨m, rfl⟩ | ⟨v, rfl⟩ | ⟨e, rfl⟩
  · exact ⟨_, rfl, key _ _ rfl⟩
  · refine ⟨_, rfl, ?_⟩; rw [findTag_eq]; exact key _ _ rfl
  · exact ⟨_, rfl, key _ _ rfl⟩

/-- C89: the built-in names are not properties for `exists`: `exists(v._vid)` is false although `v._vid`
has a value. -/
theorem C89_exists_violated (env : Env) (s : EState) (p : List Nat) :
    let v := Expr.const (.vertex ⟨.int 7, []⟩)
    let k := Expr.const (.str (ascii "_vid"))
    (∃ s', (Expr.binary .attribute v k).eval env p s = some (.int 7, s')) ∧
    (Expr.predicate (ascii "exists") [] (.binary .attribute v k) none []).eval env p s = some (.bool false, s) := by
  refine ⟨⟨_, rfl⟩, ?_⟩
  obtain ⟨b, hb, hb2⟩ := C89_exists (env := env) (p := p) (f := none) (o := []) (i := []) (s := s) (s' := s)
    (l := .const (.vertex ⟨.int 7, []⟩)) (r := .const (.str (ascii "_vid"))) (a := .vertex ⟨.int 7, []⟩)
    (k := ascii "_vid") (.cons rfl (.cons rfl (.nil _ _))) (.inr (.inl ⟨_, rfl⟩))
  show _ = some (Value.bool false, s)
  rw [hb]
  cases b with
  | false => rfl
  | true => obtain ⟨x, hx, _⟩ := hb2.1 rfl; cases hx

/-- C89: on anything else that is no collection the attribute is the bad-type NULL; a name that is no
text aborts. -/
theorem C89_other {env : Env} {p : List Nat} {l r : Expr} {s s' : EState} {a k : Value}
    (h : Evaluates env p 0 [l, r] s [a, k] s') :
    (¬ HasProperties a → components a = [] → ∃ s2, SameContext s' s2 ∧
      (Expr.binary .attribute l r).eval env p s = some (.null .badType, s2)) ∧
    (HasProperties a ∨ components a ≠ [] → (∀ t, k ≠ .str t) →
      (Expr.binary .attribute l r).eval env p s = none) := by
  rw [eval_binary h]
  constructor
  · intro h1 h2
    refine ⟨s'.setMem p (s'.mem p), ⟨rfl, rfl⟩, ?_⟩
    cases a
    case map m => exact absurd (.inl ⟨m, rfl⟩) h1
    case vertex m => exact absurd (.inr (.inl ⟨m, rfl⟩)) h1
    case edge m => exact absurd (.inr (.inr ⟨m, rfl⟩)) h1
    case date d => cases h2
    case time d => cases h2
    case datetime d => cases h2
    all_goals rfl
  · intro h1 h2
    cases a
    case map m => cases k <;> first | rfl | exact absurd rfl (h2 _)
    case vertex m => cases k <;> first | rfl | exact absurd rfl (h2 _)
    case edge m => cases k <;> first | rfl | exact absurd rfl (h2 _)
    case date m => cases k <;> first | rfl | exact absurd rfl (h2 _)
    case time m => cases k <;> first | rfl | exact absurd rfl (h2 _)
    case datetime m => cases k <;> first | rfl | exact absurd rfl (h2 _)
    all_goals (rcases h1 with (⟨_, h⟩ | ⟨_, h⟩ | ⟨_, h⟩) | h <;> first | cases h | exact absurd rfl h)

/-! ## C90 -/

/-- The items of a path after its first vertex: edges, each possibly followed by its end vertex. -/
abbrev Legs := List (Edge Value × Option (Vertex Value))

/-- The vertex at the end of a leg. -/
def legEnd (g : Edge Value × Option (Vertex Value)) : Vertex Value := g.2.getD ⟨g.1.dst, []⟩

/-- The vertex behind an edge, if it is there. -/
def legVertex : Option (Vertex Value) → List Value
  | some w => [.vertex w]
  | none => []

/-- The items as values. -/
def legValues (gs : Legs) : List Value := gs.flatMap fun g => .edge g.1 :: legVertex g.2

/-- Each edge begins where the last one ended, and ends at the vertex given behind it. -/
def Joined (v : Vertex Value) : Legs → Prop
  | [] => True
  | g :: gs => Value.beq v.vid g.1.src = true ∧ Value.beq g.1.dst (legEnd g).vid = true ∧ Joined (legEnd g) gs

/-- The hops of the legs. -/
def legHops (v : Vertex Value) : Legs → List Hop
  | [] => []
  | g :: gs => ⟨v, legEnd g, g.1.type, g.1.name, g.1.ranking, g.1.props⟩ :: legHops (legEnd g) gs

/-- The steps of the legs. -/
def legSteps (gs : Legs) : List (Step Value) :=
  gs.map fun g => ⟨legEnd g, g.1.type, g.1.name, g.1.ranking, g.1.props⟩

theorem setLastDst_append (ss : List (Step Value)) (s : Step Value) (v : Vertex Value) :
    Ops.setLastDst (ss ++ [s]) v = ss ++ [{ s with dst := v }] := by
  induction ss with
  | nil => rfl
  | cons x ss ih =>
    cases ss with
    | nil => rfl
    | cons y ss =>
      show x :: Ops.setLastDst (y :: ss ++ [s]) v = _
      rw [ih]; rfl

/-- The loop over the legs: the steps so far end with a step to `v`, or there are none and `v` is free. -/
theorem pathLoop_legs {env : Env} {p : List Nat} (gs : Legs) (rest : List (Eval Value)) :
    ∀ {j i : Nat} {es : List Expr} {s s1 : EState} {path : Path Value} {v : Vertex Value},
    Evaluates env p j es s (legValues gs) s1 →
    (∀ st, path.steps.getLast? = some st → st.dst = v) →
    Joined v gs →
    ∃ i', Eval.pathLoop i path (Expr.evals env es j p ++ rest) s =
      Eval.pathLoop i' { path with steps := path.steps ++ legSteps gs } rest s1 := by
  induction gs with
  | nil =>
    intro j i es s s1 path v h _ _
    cases h
    exact ⟨i, by simp [Expr.evals, legSteps]⟩
  | cons g gs ih =>
    intro j i es s s1 path v h hlast hj
    obtain ⟨e, w⟩ := g
    obtain ⟨hj1, hj2, hj3⟩ := hj
    have hv : legValues ((e, w) :: gs) = .edge e :: (legVertex w ++ legValues gs) := by
      unfold legValues
      rw [List.flatMap_cons]; rfl
    rw [hv] at h
    cases h with
    | @cons _ x es _ s2 _ _ _ head tail =>
      have step : Ops.pathItem i path (.edge e) = some { path with steps := path.steps ++ [Ops.edgeStep e] } := by
        unfold Ops.pathItem
        cases hl : path.steps.getLast? with
        | none => rfl
        | some last =>
          simp only
          rw [hlast last hl, if_pos hj1]
      cases w with
      | none =>
        have e1 : legEnd (e, none) = ⟨e.dst, []⟩ := rfl
        rw [e1] at hj3
        obtain ⟨i', hi'⟩ := ih (j := j + 1) (i := i + 1) (es := es) (s := s2) (s1 := s1)
          (path := { path with steps := path.steps ++ [Ops.edgeStep e] }) (v := ⟨e.dst, []⟩) tail
          (by intro st hst; simp at hst; subst hst; rfl) hj3
        refine ⟨i', ?_⟩
        rw [Expr.evals, List.cons_append, Eval.pathLoop, Eval.bind, head]
        simp only [step]
        rw [hi']
        simp [legSteps, Ops.edgeStep, legEnd]
      | some w =>
        cases tail with
        | @cons _ y es _ s3 _ _ _ head2 tail2 =>
          have e1 : legEnd (e, some w) = w := rfl
          rw [e1] at hj3 hj2
          have step2 : Ops.pathItem (i + 1) { path with steps := path.steps ++ [Ops.edgeStep e] } (.vertex w) =
              some { path with steps := path.steps ++ [{ Ops.edgeStep e with dst := w }] } := by
            unfold Ops.pathItem
            simp only [List.getLast?_append, List.getLast?_singleton, Option.some_or]
            rw [if_pos (show (Ops.edgeStep e).dst.vid.beq w.vid = true from hj2), setLastDst_append]
          obtain ⟨i', hi'⟩ := ih (j := j + 1 + 1) (i := i + 1 + 1) (es := es) (s := s3) (s1 := s1)
            (path := { path with steps := path.steps ++ [{ Ops.edgeStep e with dst := w }] }) (v := w) tail2
            (by intro st hst; simp at hst; subst hst; rfl) hj3
          refine ⟨i', ?_⟩
          rw [Expr.evals, List.cons_append, Eval.pathLoop, Eval.bind, head]
          simp only [step]
          rw [Expr.evals, List.cons_append, Eval.pathLoop, Eval.bind, head2]
          simp only [step2]
          rw [hi']
          simp [legSteps, Ops.edgeStep, legEnd]

theorem hopsFrom_legSteps (v : Vertex Value) (gs : Legs) : hopsFrom v (legSteps gs) = legHops v gs := by
  induction gs generalizing v with
  | nil => rfl
  | cons g gs ih =>
    show hopsFrom v (_ :: legSteps gs) = _
    rw [hopsFrom, legHops, ih]

/-- C90: from a vertex and edges that are joined the path is built that goes from the vertex along the
edges: its vertices are the vertex and the ends of the edges, its hops the edges. -/
theorem C90_path {env : Env} {p : List Nat} {es : List Expr} {s s1 : EState} {v : Vertex Value} {gs : Legs}
    (h : Evaluates env p 0 es s (.vertex v :: legValues gs) s1) (hj : Joined v gs) :
    ∃ q, (Expr.coll .pathBuild es).eval env p s = some (.path q, s1) ∧
      vertices q = v :: gs.map legEnd ∧ hops q = legHops v gs := by
  refine ⟨⟨v, legSteps gs⟩, ?_, ?_, hopsFrom_legSteps v gs⟩
  · cases h with
    | @cons _ x es _ s2 _ _ _ head tail =>
      show Eval.pathBuild (Expr.evals env (x :: es) 0 p) s = _
      rw [Expr.evals, Eval.pathBuild, Eval.bind, head]
      simp only [Ops.getVertex]
      obtain ⟨i', hi'⟩ := pathLoop_legs gs [] (i := 1) (path := ⟨v, []⟩) (v := v) tail
        (by intro st hst; cases hst)
        hj
      simp only [List.append_nil, List.nil_append] at hi'
      rw [hi']; rfl
  · show v :: (legSteps gs).map (·.dst) = _
    simp [legSteps, List.map_map, Function.comp_def]

/-- The edge 1→2, the vertex 2, the edge 2→3. -/
def exampleLegs : Legs :=
  [(⟨.int 1, .int 2, 5, ascii "like", 0, []⟩, some ⟨.int 2, []⟩), (⟨.int 2, .int 3, 5, ascii "like", 0, []⟩, none)]

example : Joined ⟨.int 1, []⟩ exampleLegs := by
  simp [Joined, exampleLegs, legEnd, Value.beq]

/-- C90: an edge that does not begin where the last one ended, or a vertex that is not where the edge ends,
makes the result the bad-data NULL. Partial: not for the first edge. -/
theorem C90_refused_partial {env : Env} {p : List Nat} {es : List Expr} {e : Expr} {rest : List Expr} {s s1 s2 : EState}
    {v w : Vertex Value} {gs : Legs} {x : Value}
    (h : Evaluates env p 0 es s (.vertex v :: legValues gs) s1) (hj : Joined v gs)
    (hlast : gs.getLast?.map legEnd = some w) (hx : e.eval env (es.length :: p) s1 = some (x, s2))
    (hbad : (∃ d, x = .edge d ∧ Value.beq w.vid d.src = false) ∨ (∃ u, x = .vertex u ∧ Value.beq w.vid u.vid = false)) :
    (Expr.coll .pathBuild (es ++ e :: rest)).eval env p s = some (.null .badData, s2) := by
  cases h with
  | @cons _ x0 es _ s3 _ _ _ head tail =>
    show Eval.pathBuild (Expr.evals env ((x0 :: es) ++ e :: rest) 0 p) s = _
    rw [evals_append, Expr.evals, List.cons_append, Eval.pathBuild, Eval.bind, head]
    simp only [Ops.getVertex]
    obtain ⟨i', hi'⟩ := pathLoop_legs gs (Expr.evals env (e :: rest) (0 + (x0 :: es).length) p) (i := 1)
      (path := ⟨v, []⟩) (v := v) tail (by intro st hst; cases hst) hj
    rw [hi', Expr.evals, Nat.zero_add, Eval.pathLoop, Eval.bind, hx]
    have hl : ∃ st, (legSteps gs).getLast? = some st ∧ st.dst = w := by
      unfold legSteps
      rw [List.getLast?_map]
      cases hg : gs.getLast? with
      | none => rw [hg] at hlast; cases hlast
      | some g => rw [hg] at hlast; injection hlast with hlast; exact ⟨_, rfl, hlast⟩
    obtain ⟨st, hst, rfl⟩ := hl
    have hn : Ops.pathItem i' ⟨v, [] ++ legSteps gs⟩ x = none := by
      rcases hbad with ⟨d, rfl, hb⟩ | ⟨u, rfl, hb⟩
      · simp only [Ops.pathItem, List.nil_append, hst, hb]; rfl
      · simp only [Ops.pathItem, List.nil_append, hst, hb]; rfl
    simp only [hn]
    rfl

/-- C90: the first edge is joined to the first vertex without a test, and a plain id is put in place of the
end of an edge without a test: an edge 5→2 after the vertex 1 gives the hop 1→2, and the id 3 behind
the edge 1→2 gives the hop 1→3. -/
theorem C90_violated (env : Env) (s : EState) (p : List Nat) :
    (∃ q, (Expr.coll .pathBuild [.const (.vertex ⟨.int 1, []⟩),
        .const (.edge ⟨.int 5, .int 2, 7, ascii "like", 0, []⟩)]).eval env p s = some (.path q, s) ∧
      vertices q = [⟨.int 1, []⟩, ⟨.int 2, []⟩]) ∧
    (∃ q, (Expr.coll .pathBuild [.const (.vertex ⟨.int 1, []⟩),
        .const (.edge ⟨.int 1, .int 2, 7, ascii "like", 0, []⟩), .const (.int 3)]).eval env p s = some (.path q, s) ∧
      vertices q = [⟨.int 1, []⟩, ⟨.int 3, []⟩]) :=
  ⟨⟨_, rfl, rfl⟩, ⟨_, rfl, rfl⟩⟩

/-! ## C91 -/

theorem all_evaluates {env : Env} {p : List Nat} {i : Nat} {es : List Expr} {s s1 : EState} {vs : List Value}
    (h : Evaluates env p i es s vs s1) : Eval.all (Expr.evals env es i p) s = some (vs, s1) := by
  induction h with
  | nil i s => rfl
  | @cons i e es s s1 s2 v vs head tail ih =>
    simp only [Expr.evals, Eval.all, Eval.bind, head, ih, Eval.pure]

/-- C91 (`[e₁, …]`): the list of the values. -/
theorem C91_list {env : Env} {p : List Nat} {es : List Expr} {s s1 : EState} {vs : List Value}
    (h : Evaluates env p 0 es s vs s1) :
    (Expr.coll .list es).eval env p s = some (.list vs, s1) := by
  simp only [Expr.eval, Eval.coll, Eval.bind, all_evaluates h, Eval.pure]

/-- C91 (`{e₁, …}`): a set of values of the operands, in which every operand has an equal and no two are
equal. -/
theorem C91_set {env : Env} {p : List Nat} {es : List Expr} {s s1 : EState} {vs : List Value}
    (h : Evaluates env p 0 es s vs s1) (hr : ∀ v ∈ vs, Value.beq v v = true) :
    ∃ us, (Expr.coll .set es).eval env p s = some (.set us, s1) ∧ (∀ u ∈ us, u ∈ vs) ∧
      (∀ v ∈ vs, ∃ u ∈ us, Value.beq u v = true) ∧ us.Pairwise (fun a b => Value.beq a b = false) := by
  refine ⟨vs.foldl Agg.setInsert [], ?_, ?_⟩
  · simp only [Expr.eval, Eval.coll, Eval.bind, all_evaluates h, Eval.pure]
  · have key : ∀ (vs : List Value), (∀ v ∈ vs, Value.beq v v = true) → ∀ (acc : List Value),
        acc.Pairwise (fun a b => Value.beq a b = false) →
        (∀ u ∈ vs.foldl Agg.setInsert acc, u ∈ acc ∨ u ∈ vs) ∧
        (∀ u ∈ acc, u ∈ vs.foldl Agg.setInsert acc) ∧
        (∀ v ∈ vs, ∃ u ∈ vs.foldl Agg.setInsert acc, Value.beq u v = true) ∧
        (vs.foldl Agg.setInsert acc).Pairwise (fun a b => Value.beq a b = false) := by
      intro vs
      induction vs with
      | nil => intro _ acc hp; exact ⟨fun u h => .inl h, fun u h => h, by simp, hp⟩
      | cons v vs ih =>
        intro hr acc hp
        have hv := hr v List.mem_cons_self
        have hp' : (Agg.setInsert acc v).Pairwise (fun a b => Value.beq a b = false) := by
          unfold Agg.setInsert
          split
          · exact hp
          · rename_i hn
            rw [List.pairwise_append]
            refine ⟨hp, List.pairwise_singleton _ _, fun a ha b hb => ?_⟩
            rw [List.mem_singleton] at hb; subst hb
            cases hc : Value.beq a b with
            | false => rfl
            | true => exact absurd (List.any_eq_true.2 ⟨a, ha, hc⟩) hn
        have hsub : ∀ u ∈ acc, u ∈ Agg.setInsert acc v := by
          intro u hu; unfold Agg.setInsert; split
          · exact hu
          · exact List.mem_append_left _ hu
        obtain ⟨h1, h2, h3, h4⟩ := ih (fun x hx => hr x (List.mem_cons_of_mem _ hx)) (Agg.setInsert acc v) hp'
        refine ⟨?_, fun u hu => h2 u (hsub u hu), ?_, h4⟩
        · intro u hu
          rcases h1 u hu with h | h
          · unfold Agg.setInsert at h
            split at h
            · exact .inl h
            · rcases List.mem_append.1 h with h | h
              · exact .inl h
              · rw [List.mem_singleton] at h; subst h; exact .inr List.mem_cons_self
          · exact .inr (List.mem_cons_of_mem _ h)
        · intro x hx
          rcases List.mem_cons.1 hx with rfl | hx
          · by_cases hn : (acc.any fun y => Value.beq y x) = true
            · obtain ⟨y, hy, hyx⟩ := List.any_eq_true.1 hn
              exact ⟨y, h2 y (hsub y hy), hyx⟩
            · refine ⟨x, h2 x ?_, hv⟩
              unfold Agg.setInsert
              rw [if_neg hn]; exact List.mem_append_right _ List.mem_cons_self
          · exact h3 x hx
    obtain ⟨h1, _, h3, h4⟩ := key vs hr [] List.Pairwise.nil
    exact ⟨fun u hu => (h1 u hu).resolve_left (by simp), h3, h4⟩

/-- C91 (`{k₁: e₁, …}`): each key has the value of its first occurrence; every value is evaluated; no key
occurs twice. -/
theorem C91_map {env : Env} {p : List Nat} {kvs : List (Bytes × Expr)} {s s1 : EState} {vs : List Value}
    (h : Evaluates env p 0 (kvs.map Prod.snd) s vs s1) :
    ∃ m, (Expr.map kvs).eval env p s = some (.map m, s1) ∧
      (∀ k, m.lookup k = ((kvs.map Prod.fst).zip vs).lookup k) ∧ (m.map Prod.fst).Nodup := by
  have hlook : ∀ (m : List (Bytes × Value)) (k : Bytes), m.lookup k = none ↔ k ∉ m.map Prod.fst := by
    intro m k
    induction m with
    | nil => simp
    | cons x m ih =>
      obtain ⟨a, b⟩ := x
      rw [List.lookup_cons, List.map_cons, List.mem_cons]
      cases hk : k == a with
      | true => simp at hk; simp [hk]
      | false => simp at hk; simp [hk, ih]
  have happ : ∀ (m n : List (Bytes × Value)) (k : Bytes), (m ++ n).lookup k = (m.lookup k).or (n.lookup k) := by
    intro m n k
    induction m with
    | nil => rfl
    | cons x m ih =>
      obtain ⟨a, b⟩ := x
      simp only [List.cons_append, List.lookup_cons]
      cases k == a <;> simp [ih]
  have key : ∀ (kvs : List (Bytes × Expr)) (i : Nat) (s : EState) (vs : List Value) (acc : List (Bytes × Value)),
      Evaluates env p i (kvs.map Prod.snd) s vs s1 → (acc.map Prod.fst).Nodup →
      ∃ m, Eval.mapOf acc (Expr.evalKvs env kvs i p) s = some (.map m, s1) ∧
        (∀ k, m.lookup k = (acc.lookup k).or (((kvs.map Prod.fst).zip vs).lookup k)) ∧ (m.map Prod.fst).Nodup := by
    intro kvs
    induction kvs with
    | nil =>
      intro i s vs acc h hn
      cases h
      exact ⟨acc, rfl, fun k => by simp, hn⟩
    | cons kv kvs ih =>
      intro i s vs acc h hn
      obtain ⟨a, e⟩ := kv
      cases h with
      | @cons _ _ _ _ s2 _ v vs head tail =>
        have hn' : ((Eval.mapInsert acc a v).map Prod.fst).Nodup := by
          unfold Eval.mapInsert
          split
          · exact hn
          · rename_i hc
            have : acc.lookup a = none := by
              cases hl : acc.lookup a with
              | none => rfl
              | some x => rw [hl] at hc; simp at hc
            rw [List.map_append, List.nodup_append]
            refine ⟨hn, by simp, fun x hx y hy => ?_⟩
            simp only [List.map_cons, List.map_nil, List.mem_singleton] at hy
            subst hy
            intro e; subst e
            exact (hlook acc x).1 this hx
        obtain ⟨m, hm, hl, hd⟩ := ih (i + 1) s2 vs (Eval.mapInsert acc a v) tail hn'
        refine ⟨m, ?_, fun k => ?_, hd⟩
        · rw [Expr.evalKvs, Eval.mapOf, Eval.bind, head]; exact hm
        · rw [hl]
          simp only [List.map_cons, List.zip_cons_cons, List.lookup_cons]
          unfold Eval.mapInsert
          split
          · rename_i hc
            cases hk : k == a with
            | false => rfl
            | true =>
              simp at hk; subst hk
              obtain ⟨x, hx⟩ := Option.isSome_iff_exists.1 hc
              rw [hx]; rfl
          · rename_i hc
            rw [happ, List.lookup_cons]
            cases hk : k == a with
            | false => simp
            | true =>
              simp at hk; subst hk
              have : acc.lookup k = none := by
                cases hl : acc.lookup k with
                | none => rfl
                | some x => rw [hl] at hc; simp at hc
              rw [this]; rfl
  obtain ⟨m, hm, hl, hd⟩ := key kvs 0 s vs [] h (by simp)
  refine ⟨m, ?_, fun k => by rw [hl k]; rfl, hd⟩
  simpa only [Expr.eval] using hm

/-- C91 (`++x`, `--x`): the new value is the variable's value plus (minus) one; it is returned and stored in
the variable, and no other variable changes. -/
theorem C91_increment (env : Env) (p : List Nat) (n : Bytes) (b : Bool) (s : EState) (v : Value) :
    (Value.add env.lib.fmt (s.vars n) (.int 1) = some v →
      ∃ s', (Expr.unary .incr (.var n b)).eval env p s = some (v, s') ∧ s'.vars n = v ∧
        ∀ m, m ≠ n → s'.vars m = s.vars m) ∧
    (Value.sub (s.vars n) (.int 1) = some v →
      ∃ s', (Expr.unary .decr (.var n b)).eval env p s = some (v, s') ∧ s'.vars n = v ∧
        ∀ m, m ≠ n → s'.vars m = s.vars m) := by
  constructor
  · intro h
    refine ⟨s.setVar n v, ?_, by simp [EState.setVar], fun m hm => by simp [EState.setVar, hm]⟩
    simp only [Expr.eval, Eval.unOp, Expr.varName, Eval.bind, Eval.getVar, Eval.lift, h, Option.map_some, Eval.setVar,
      Eval.pure]
  · intro h
    refine ⟨s.setVar n v, ?_, by simp [EState.setVar], fun m hm => by simp [EState.setVar, hm]⟩
    simp only [Expr.eval, Eval.unOp, Expr.varName, Eval.bind, Eval.getVar, Eval.lift, h, Option.map_some, Eval.setVar,
      Eval.pure]

/-- C91 violated: on a versioned variable they are undefined, because it is used as an object of another class. -/
theorem C91_increment_versioned_violated (env : Env) (p : List Nat) (n : Bytes) (v : Option Expr) (s : EState) :
    (Expr.unary .incr (.versionedVar n v)).eval env p s = none ∧ (Expr.unary .decr (.versionedVar n v)).eval env p s = none := by
  constructor <;> simp only [Expr.eval, Eval.unOp, Expr.varName, Eval.fail]

/-- C91: on anything but a variable they are the bad-type NULL. -/
theorem C91_increment_other (env : Env) (p : List Nat) (e : Expr) (s : EState) (h : e.varName = none) :
    (Expr.unary .incr e).eval env p s = some (.null .badType, s) ∧
    (Expr.unary .decr e).eval env p s = some (.null .badType, s) := by
  constructor <;> simp only [Expr.eval, Eval.unOp, h, Eval.pure] <;> rfl

/-- C91 (`IS NULL`, `IS EMPTY` and their negations, `NOT`, unary minus). -/
theorem C91_tests {env : Env} {p : List Nat} {e : Expr} {s s' : EState} {v : Value}
    (h : e.eval env (0 :: p) s = some (v, s')) :
    (∃ b, (Expr.unary .isNull e).eval env p s = some (.bool b, s') ∧
      (Expr.unary .isNotNull e).eval env p s = some (.bool (!b), s') ∧ (b = true ↔ ∃ n, v = .null n)) ∧
    (∃ b, (Expr.unary .isEmpty e).eval env p s = some (.bool b, s') ∧
      (Expr.unary .isNotEmpty e).eval env p s = some (.bool (!b), s') ∧ (b = true ↔ v = .empty)) := by
  constructor
  · refine ⟨v.isNull, ?_, ?_, ?_⟩
    · simp only [Expr.eval, Eval.unOp, Eval.bind, h, Eval.pure]
    · simp only [Expr.eval, Eval.unOp, Eval.bind, h, Eval.pure]
    · cases v <;> simp [isNull]
  · refine ⟨v.isEmpty, ?_, ?_, ?_⟩
    · simp only [Expr.eval, Eval.unOp, Eval.bind, h, Eval.pure]
    · simp only [Expr.eval, Eval.unOp, Eval.bind, h, Eval.pure]
    · cases v <;> simp [isEmpty]

end Nebula

namespace Nebula
open EvalSpec Value Spec

/-! ## Witnesses -/

example (env : Env) (p : List Nat) (s : EState) :
    Evaluates env p 0 [.const (.date ⟨2020, 2, 3⟩), .const (.str (ascii "MONTH"))] s
      [.date ⟨2020, 2, 3⟩, .str (ascii "MONTH")] s ∧ components (.date ⟨2020, 2, 3⟩) ≠ [] :=
  ⟨.cons rfl (.cons rfl (.nil _ _)), by simp [components]⟩

example : propertyOf (.vertex ⟨.int 1, [⟨ascii "a", [(ascii "x", .int 1)]⟩, ⟨ascii "b", [(ascii "x", .int 2), (ascii "y", .int 3)]⟩]⟩)
    (ascii "y") = some (.int 3) := by decide +kernel

example (env : Env) (p : List Nat) (s : EState) :
    Evaluates env p 0 [.const (.vertex ⟨.int 1, []⟩), .const (.edge ⟨.int 1, .int 2, 5, ascii "like", 0, []⟩),
      .const (.vertex ⟨.int 2, []⟩), .const (.edge ⟨.int 2, .int 3, 5, ascii "like", 0, []⟩)] s
      (.vertex ⟨.int 1, []⟩ :: legValues exampleLegs) s :=
  .cons rfl (.cons rfl (.cons rfl (.cons rfl (.nil _ _))))

example : exampleLegs.getLast?.map legEnd = some ⟨.int 3, []⟩ ∧ Value.beq (.int 3) (.int 4) = false := by
  refine ⟨rfl, ?_⟩; simp [Value.beq]

example (env : Env) (p : List Nat) (s : EState) :
    Evaluates env p 0 ([(ascii "k", Expr.const (.int 1)), (ascii "k", .const (.int 2))].map Prod.snd) s [.int 1, .int 2] s ∧
    (([(ascii "k", Expr.const (.int 1)), (ascii "k", .const (.int 2))].map Prod.fst).zip [Value.int 1, .int 2]).lookup (ascii "k") =
      some (.int 1) :=
  ⟨.cons rfl (.cons rfl (.nil _ _)), by decide +kernel⟩

example (env : Env) (n : Bytes) (s : EState) (h : s.vars n = .int 41) :
    Value.add env.lib.fmt (s.vars n) (.int 1) = some (.int 42) := by
  rw [h]; rfl

end Nebula
