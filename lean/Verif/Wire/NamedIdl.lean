import Verif.Wire.Named
import Verif.Wire.SizeLemmas
/-!
# Specification: the names that the interface files declare (C148)

`declared` is the text of the structures of src/common/interface/common.thrift and graph.thrift: number, name and type
of each field.  `render` turns a datum, which has numbers, into the document with the names that they declare.
-/
namespace Nebula
namespace Wire
namespace Named

/-- The structures of the interface files. -/
inductive Struct where
  | value | date | time | dateTime | nList | nMap | nSet | row | dataSet | tag | vertex | edge | step | path | hostAddr | keyValue
  | profilingStats | planNodeBranchInfo | pair | planNodeDescription | planDescription | executionResponse | authResponse
deriving DecidableEq

/-- The types of the interface files, with enumerations and `typedef`s replaced. -/
inductive Decl where
  | bool | byte | i16 | i32 | i64 | double | binary
  | list (d : Decl) | set (d : Decl) | map (k v : Decl) | struct (s : Struct)

/-- The type that the protocol uses for a declared type. -/
def Decl.ttype : Decl → TType
  | .bool => .bool | .byte => .byte | .i16 => .i16 | .i32 => .i32 | .i64 => .i64 | .double => .double | .binary => .string
  | .list _ => .list | .set _ => .set | .map _ _ => .map | .struct _ => .struct

/-- common.thrift, graph.thrift. -/
def declared : Struct → List (Nat × String × Decl)
  | .value => [(1, "nVal", .i32), (2, "bVal", .bool), (3, "iVal", .i64), (4, "fVal", .double), (5, "sVal", .binary),
      (6, "dVal", .struct .date), (7, "tVal", .struct .time), (8, "dtVal", .struct .dateTime), (9, "vVal", .struct .vertex),
      (10, "eVal", .struct .edge), (11, "pVal", .struct .path), (12, "lVal", .struct .nList), (13, "mVal", .struct .nMap),
      (14, "uVal", .struct .nSet), (15, "gVal", .struct .dataSet)]
  | .date => [(1, "year", .i16), (2, "month", .byte), (3, "day", .byte)]
  | .time => [(1, "hour", .byte), (2, "minute", .byte), (3, "sec", .byte), (4, "microsec", .i32)]
  | .dateTime => [(1, "year", .i16), (2, "month", .byte), (3, "day", .byte), (4, "hour", .byte), (5, "minute", .byte),
      (6, "sec", .byte), (7, "microsec", .i32)]
  | .nList => [(1, "values", .list (.struct .value))]
  | .nMap => [(1, "kvs", .map .binary (.struct .value))]
  | .nSet => [(1, "values", .set (.struct .value))]
  | .row => [(1, "values", .list (.struct .value))]
  | .dataSet => [(1, "column_names", .list .binary), (2, "rows", .list (.struct .row))]
  | .tag => [(1, "name", .binary), (2, "props", .map .binary (.struct .value))]
  | .vertex => [(1, "vid", .struct .value), (2, "tags", .list (.struct .tag))]
  | .edge => [(1, "src", .struct .value), (2, "dst", .struct .value), (3, "type", .i32), (4, "name", .binary), (5, "ranking", .i64),
      (6, "props", .map .binary (.struct .value))]
  | .step => [(1, "dst", .struct .vertex), (2, "type", .i32), (3, "name", .binary), (4, "ranking", .i64),
      (5, "props", .map .binary (.struct .value))]
  | .path => [(1, "src", .struct .vertex), (2, "steps", .list (.struct .step))]
  | .hostAddr => [(1, "host", .binary), (2, "port", .i32)]
  | .keyValue => [(1, "key", .binary), (2, "value", .binary)]
  | .profilingStats => [(1, "rows", .i64), (2, "exec_duration_in_us", .i64), (3, "total_duration_in_us", .i64),
      (4, "other_stats", .map .binary .binary)]
  | .planNodeBranchInfo => [(1, "is_do_branch", .bool), (2, "condition_node_id", .i64)]
  | .pair => [(1, "key", .binary), (2, "value", .binary)]
  | .planNodeDescription => [(1, "name", .binary), (2, "id", .i64), (3, "output_var", .binary), (4, "description", .list (.struct .pair)),
      (5, "profiles", .list (.struct .profilingStats)), (6, "branch_info", .struct .planNodeBranchInfo), (7, "dependencies", .list .i64)]
  | .planDescription => [(1, "plan_node_descs", .list (.struct .planNodeDescription)), (2, "node_index_map", .map .i64 .i64),
      (3, "format", .binary), (4, "optimize_time_in_us", .i32)]
  | .executionResponse => [(1, "error_code", .i32), (2, "latency_in_us", .i32), (3, "data", .struct .dataSet), (4, "space_name", .binary),
      (5, "error_msg", .binary), (6, "plan_desc", .struct .planDescription), (7, "comment", .binary)]
  | .authResponse => [(1, "error_code", .i32), (2, "error_msg", .binary), (3, "session_id", .i64), (4, "time_zone_offset_seconds", .i32),
      (5, "time_zone_name", .binary)]

/-- What `translateFieldName` has to say about a structure. -/
def translation (s : Struct) : List (Bytes × Int × TType) :=
  (declared s).map fun (id, name, d) => (ascii name, (id : Int), d.ttype)

/-- The type of the elements, the type of the mapped values, the fields of a structure. -/
def Decl.elem : Decl → Decl
  | .list d => d
  | .set d => d
  | .map _ d => d
  | d => d
def Decl.fields : Decl → List (Nat × String × Decl)
  | .struct s => declared s
  | _ => []

/-- The entries of a map from integers to integers. -/
def numbers : List (Datum × Datum) → List (Int × Int)
  | (.i64 a, .i64 b) :: l => (a, b) :: numbers l
  | _ => []

mutual
/-- The document for a datum of a declared type. -/
def render (d : Decl) : Datum → Doc
  | .bool b => .bool b
  | .byte i => .num i
  | .i16 i => .num i
  | .i32 i => .num i
  | .i64 i => .num i
  | .double n => .dbl (F64.ofBits n)
  | .binary s => .text s
  | .list _ l => .seq (renderL d.elem l)
  | .set _ l => .seq (renderL d.elem l)
  | .map _ _ l =>
    match d with
    | .map .i64 .i64 => .table (numbers l)
    | d => .obj (renderM d.elem l)
  | .struct fs => .obj (renderF d.fields fs)
def renderL (d : Decl) : List Datum → List Doc
  | [] => []
  | x :: l => render d x :: renderL d l
/-- Maps with texts as keys. -/
def renderM (d : Decl) : List (Datum × Datum) → List (Bytes × Doc)
  | [] => []
  | (.binary k, x) :: l => (k, render d x) :: renderM d l
  | _ :: l => renderM d l
/-- Fields, by the names that are declared for their numbers. -/
def renderF (t : List (Nat × String × Decl)) : List (Nat × Datum) → List (Bytes × Doc)
  | [] => []
  | (id, x) :: l =>
    match t.lookup id with
    | some (name, d) => (ascii name, render d x) :: renderF t l
    | none => renderF t l
end

/-! ## Lemmas -/

theorem renderL_map {α : Type} {w : α → Doc} {f : α → Datum} {d : Decl} : ∀ (l : List α), (∀ x ∈ l, w x = render d (f x)) →
    l.map w = renderL d (l.map f)
  | [], _ => by simp [renderL]
  | a :: l, h => by
    rw [List.map_cons, List.map_cons, renderL, h a List.mem_cons_self, renderL_map l fun x hx => h x (List.mem_cons_of_mem _ hx)]

theorem renderM_map {V : Type} {w : V → Doc} {f : V → Datum} {d : Decl} : ∀ (l : Props V), (∀ x ∈ l.map Prod.snd, w x = render d (f x)) →
    (l.map fun kv => (kv.1, w kv.2)) = renderM d (l.map fun kv => (Datum.binary kv.1, f kv.2))
  | [], _ => by simp [renderM]
  | a :: l, h => by
    rw [List.map_cons, List.map_cons, renderM, h a.2 (by simp), renderM_map l fun x hx => h x (by simp at hx ⊢; right; exact hx)]

theorem renderF_cons {t : List (Nat × String × Decl)} {id : Nat} {x : Datum} {l : List (Nat × Datum)} {name : String} {d : Decl}
    (h : t.lookup id = some (name, d)) {e : Doc} (he : e = render d x) {r : List (Bytes × Doc)} (hr : r = renderF t l) :
    (ascii name, e) :: r = renderF t ((id, x) :: l) := by
  rw [renderF, h, he, hr]

theorem numbers_map : ∀ (l : List (Int × Int)), numbers (l.map fun kv => (Datum.i64 kv.1, Datum.i64 kv.2)) = l
  | [] => rfl
  | a :: l => by rw [List.map_cons, numbers, numbers_map l]

section values
variable {bits : F64 → Nat}
local notation "R" => render (Decl.struct Struct.value)

theorem rProps {m : Props Value} (h : ∀ x ∈ m.map Prod.snd, writeValue x = R (idl bits x)) :
    writeProps writeValue m = render (.map .binary (.struct .value)) (.map ctBinary ctStruct (m.map fun kv => (Datum.binary kv.1, idl bits kv.2))) := by
  rw [writeProps, render, Decl.elem, renderM_map m h]
  intro h; cases h

theorem rTag {t : Tag Value} (h : ∀ x ∈ t.props.map Prod.snd, writeValue x = R (idl bits x)) :
    writeTag writeValue t = render (.struct .tag) (tagIdl bits t) := by
  rw [writeTag, tagIdl, render]
  exact congrArg _ (renderF_cons (by rfl) (by simp [render]) (renderF_cons (by rfl) (rProps h) (by simp [renderF])))

theorem rVertex {v : Vertex Value} (h : ∀ x ∈ v.vid :: v.tags.flatMap (fun t => t.props.map Prod.snd), writeValue x = R (idl bits x)) :
    writeVertex writeValue v = render (.struct .vertex) (idlVertex bits v) := by
  rw [writeVertex, idlVertex_eq, render]
  refine congrArg _ (renderF_cons (by rfl) (h _ List.mem_cons_self) (renderF_cons (by rfl) ?_ (by simp [renderF])))
  rw [render, Decl.elem]
  exact congrArg _ (renderL_map v.tags fun t ht => rTag fun x hx => h x (List.mem_cons_of_mem _ (List.mem_flatMap.2 ⟨t, ht, hx⟩)))

theorem rStep {s : Step Value} (h : ∀ x ∈ (s.dst.vid :: s.dst.tags.flatMap fun t => t.props.map Prod.snd) ++ s.props.map Prod.snd,
    writeValue x = R (idl bits x)) : writeStep writeValue s = render (.struct .step) (stepIdl bits s) := by
  rw [writeStep, stepIdl, render, sgn_dir]
  exact congrArg _ (renderF_cons (by rfl) (rVertex fun x hx => h x (List.mem_append_left _ hx))
    (renderF_cons (by rfl) (by simp [render]) (renderF_cons (by rfl) (by simp [render]) (renderF_cons (by rfl) (by simp [render])
      (renderF_cons (by rfl) (rProps fun x hx => h x (List.mem_append_right _ hx)) (by simp [renderF]))))))

theorem rRow {r : List Value} (h : ∀ x ∈ r, writeValue x = R (idl bits x)) :
    writeVList writeValue r = render (.struct .row) (.struct [(1, .list ctStruct (r.map (idl bits)))]) := by
  rw [writeVList, render]
  refine congrArg _ (renderF_cons (by rfl) ?_ (by simp [renderF]))
  rw [render, Decl.elem]
  exact congrArg _ (renderL_map r h)

theorem rDataSet {c : List Bytes} {r : List (List Value)} (h : ∀ x ∈ r.flatten, writeValue x = R (idl bits x)) :
    writeDataSet writeValue c r = render (.struct .dataSet) (dataSetIdl bits c r) := by
  rw [writeDataSet, dataSetIdl, idlRows_eq, render]
  refine congrArg _ (renderF_cons (by rfl) ?_ (renderF_cons (by rfl) ?_ (by simp [renderF])))
  · rw [render, Decl.elem]; exact congrArg _ (renderL_map c fun x _ => by simp [render])
  · rw [render, Decl.elem]
    exact congrArg _ (renderL_map r fun x hx => rRow fun v hv => h v (List.mem_flatten.2 ⟨x, hx, hv⟩))

theorem nullNum_code (n : NullType) : nullNum n = nullCode n := by cases n <;> rfl

/-- The document of a value is what the interface file declares. -/
theorem writeValue_render (hb : BitsOk bits) (v : Value) (hv : Fits v) : writeValue v = R (idl bits v) := by
  induction v using Value.children_induction with
  | h v ih =>
    have hk : ∀ x ∈ v.children, writeValue x = R (idl bits x) := fun x hx => ih x hx (hv.kids x hx)
    have hhere := hv.here
    rw [writeValue_eqn]
    cases v with
    | empty => simp [writeUnion, idl, render, renderF]
    | null n =>
      rw [writeUnion, idl, render]
      exact congrArg _ (renderF_cons (by rfl) (by simp [render, nullNum_code]) (by simp [renderF]))
    | bool b => rw [writeUnion, idl, render]; exact congrArg _ (renderF_cons (by rfl) (by simp [render]) (by simp [renderF]))
    | int b => rw [writeUnion, idl, render]; exact congrArg _ (renderF_cons (by rfl) (by simp [render]) (by simp [renderF]))
    | float f =>
      rw [writeUnion, idl, render]
      exact congrArg _ (renderF_cons (by rfl) (by rw [render, (hb f hhere).2]) (by simp [renderF]))
    | str b => rw [writeUnion, idl, render]; exact congrArg _ (renderF_cons (by rfl) (by simp [render]) (by simp [renderF]))
    | date d =>
      rw [writeUnion, idl, render]
      refine congrArg _ (renderF_cons (by rfl) ?_ (by simp [renderF]))
      rw [writeDate, Date.idl, render]
      exact congrArg _ (renderF_cons (by rfl) (by simp [render]) (renderF_cons (by rfl) (by simp [render]) (renderF_cons (by rfl) (by simp [render])
        (by simp [renderF]))))
    | time d =>
      rw [writeUnion, idl, render]
      refine congrArg _ (renderF_cons (by rfl) ?_ (by simp [renderF]))
      rw [writeTime, Time.idl, render]
      exact congrArg _ (renderF_cons (by rfl) (by simp [render]) (renderF_cons (by rfl) (by simp [render]) (renderF_cons (by rfl) (by simp [render])
        (renderF_cons (by rfl) (by simp [render]) (by simp [renderF])))))
    | datetime d =>
      rw [writeUnion, idl, render]
      refine congrArg _ (renderF_cons (by rfl) ?_ (by simp [renderF]))
      rw [writeDateTime, DateTime.idl, render]
      exact congrArg _ (renderF_cons (by rfl) (by simp [render]) (renderF_cons (by rfl) (by simp [render]) (renderF_cons (by rfl) (by simp [render])
        (renderF_cons (by rfl) (by simp [render]) (renderF_cons (by rfl) (by simp [render]) (renderF_cons (by rfl) (by simp [render])
        (renderF_cons (by rfl) (by simp [render]) (by simp [renderF]))))))))
    | vertex x =>
      rw [writeUnion, idl, render]
      exact congrArg _ (renderF_cons (by rfl) (rVertex hk) (by simp [renderF]))
    | edge x =>
      obtain ⟨s, d, t, nm, r, p⟩ := x
      rw [writeUnion, idl, render]
      refine congrArg _ (renderF_cons (by rfl) ?_ (by simp [renderF]))
      rw [writeEdge, render, sgn_dir, idlProps_eq]
      exact congrArg _ (renderF_cons (by rfl) (hk _ (by simp [Value.children])) (renderF_cons (by rfl) (hk _ (by simp [Value.children]))
        (renderF_cons (by rfl) (by simp [render]) (renderF_cons (by rfl) (by simp [render]) (renderF_cons (by rfl) (by simp [render])
        (renderF_cons (by rfl) (rProps fun v hv => hk v (by simp only [Value.children, List.mem_cons]; right; right; exact hv)) (by simp [renderF])))))))
    | path x =>
      obtain ⟨v, ss⟩ := x
      rw [writeUnion, idl, render]
      refine congrArg _ (renderF_cons (by rfl) ?_ (by simp [renderF]))
      rw [writePath, render]
      refine congrArg _ (renderF_cons (by rfl) (rVertex fun v hv => hk v (List.mem_append_left _ hv)) (renderF_cons (by rfl) ?_ (by simp [renderF])))
      rw [render, idlSteps_eq, Decl.elem]
      exact congrArg _ (renderL_map ss fun t ht => rStep fun v hv => hk v (List.mem_append_right _ (List.mem_flatMap.2 ⟨t, ht, hv⟩)))
    | list l =>
      rw [writeUnion, idl, render]
      refine congrArg _ (renderF_cons (by rfl) ?_ (by simp [renderF]))
      rw [writeVList, render]
      refine congrArg _ (renderF_cons (by rfl) ?_ (by simp [renderF]))
      rw [render, idlVec_eq, Decl.elem]
      exact congrArg _ (renderL_map l hk)
    | map m =>
      rw [writeUnion, idl, render]
      refine congrArg _ (renderF_cons (by rfl) ?_ (by simp [renderF]))
      rw [writeVMap, render, idlProps_eq]
      exact congrArg _ (renderF_cons (by rfl) (rProps hk) (by simp [renderF]))
    | set l =>
      rw [writeUnion, idl, render]
      refine congrArg _ (renderF_cons (by rfl) ?_ (by simp [renderF]))
      rw [writeVSet, render]
      refine congrArg _ (renderF_cons (by rfl) ?_ (by simp [renderF]))
      rw [render, idlVec_eq, Decl.elem]
      exact congrArg _ (renderL_map l hk)
    | dataset c r =>
      rw [writeUnion, idl, render]
      exact congrArg _ (renderF_cons (by rfl) (rDataSet hk) (by simp [renderF]))
end values

/-! ## Answers -/

section answers
variable {t : List (Nat × String × Decl)} {id : Nat} {name : String} {d : Decl} {l : List (Nat × Datum)} {r : List (Bytes × Option Doc)}

theorem present_req (h : t.lookup id = some (name, d)) {e : Doc} {x : Datum} (he : e = render d x) (hr : present r = renderF t l) :
    present ((ascii name, some e) :: r) = renderF t ((id, x) :: l) := by
  rw [present, renderF, h, he, hr]

theorem present_opt {α : Type} {o : Option α} {f : α → Doc} {g : α → Datum} (h : t.lookup id = some (name, d))
    (he : ∀ a, o = some a → f a = render d (g a)) (hr : present r = renderF t l) :
    present ((ascii name, o.map f) :: r) = renderF t (opt id g o ++ l) := by
  cases o with
  | none => simpa [present, opt] using hr
  | some a => rw [Option.map_some, present, opt, List.singleton_append, renderF, h, he a rfl, hr]

theorem rAuth (r : AuthResponse) : writeAuth r = render (.struct .authResponse) (authIdl r) := by
  rw [writeAuth, authIdl, render]
  simp only [List.append_assoc, List.cons_append, List.nil_append]
  refine congrArg _ (present_req (by rfl) (by simp [render]) (present_opt (by rfl) (by simp [render]) (present_opt (by rfl) (by simp [render])
    (present_opt (by rfl) (by simp [render]) ?_))))
  rw [← List.append_nil (opt 5 _ _)]
  exact present_opt (by rfl) (by simp [render]) (by simp [present, renderF])

theorem rStats (p : ProfilingStats) : writeStats p = render (.struct .profilingStats) (statsIdl p) := by
  rw [writeStats, statsIdl, render]
  simp only [List.append_assoc, List.cons_append, List.nil_append]
  refine congrArg _ (present_req (by rfl) (by simp [render]) (present_req (by rfl) (by simp [render]) (present_req (by rfl) (by simp [render]) ?_)))
  rw [← List.append_nil (opt 4 _ _)]
  refine present_opt (by rfl) (fun m _ => ?_) (by simp [present, renderF])
  rw [writeProps, render, Decl.elem, renderM_map (f := Datum.binary) m fun x _ => by simp [render]]
  intro h; cases h

theorem rBranch (b : BranchInfo) : writeBranch b = render (.struct .planNodeBranchInfo) (branchIdl b) := by
  rw [writeBranch, branchIdl, render]
  exact congrArg _ (present_req (by rfl) (by simp [render]) (present_req (by rfl) (by simp [render]) (by simp [present, renderF])))

theorem rPair (b : Bytes × Bytes) : writePair b = render (.struct .pair) (pairIdl b) := by
  rw [writePair, pairIdl, render]
  exact congrArg _ (present_req (by rfl) (by simp [render]) (present_req (by rfl) (by simp [render]) (by simp [present, renderF])))

theorem rNode (p : PlanNode) : writeNode p = render (.struct .planNodeDescription) (nodeIdl p) := by
  rw [writeNode, nodeIdl, render]
  simp only [List.append_assoc, List.cons_append, List.nil_append]
  refine congrArg _ (present_req (by rfl) (by simp [render]) (present_req (by rfl) (by simp [render]) (present_req (by rfl) (by simp [render])
    (present_opt (by rfl) (fun l _ => ?_) (present_opt (by rfl) (fun l _ => ?_) (present_opt (by rfl) (fun b _ => rBranch b) ?_))))))
  · rw [render, Decl.elem]; exact congrArg _ (renderL_map l fun x _ => rPair x)
  · rw [render, Decl.elem]; exact congrArg _ (renderL_map l fun x _ => rStats x)
  · rw [← List.append_nil (opt 7 _ _)]
    refine present_opt (by rfl) (fun l _ => ?_) (by simp [present, renderF])
    rw [render, Decl.elem]; exact congrArg _ (renderL_map l fun x _ => by simp [render])

theorem rPlan (p : PlanDesc) : writePlan p = render (.struct .planDescription) (planIdl p) := by
  rw [writePlan, planIdl, render]
  refine congrArg _ (present_req (by rfl) ?_ (present_req (by rfl) ?_ (present_req (by rfl) (by simp [render]) (present_req (by rfl) (by simp [render])
    (by simp [present, renderF])))))
  · rw [render, Decl.elem]; exact congrArg _ (renderL_map p.nodes fun x _ => rNode x)
  · rw [render, numbers_map]

theorem rExec {bits : F64 → Nat} (hb : BitsOk bits) (r : ExecResponse) (hr : ∀ d, r.data = some d → ∀ row ∈ d.2, ∀ v ∈ row, Fits v) :
    writeExec r = render (.struct .executionResponse) (execIdl bits r) := by
  rw [writeExec, execIdl, render]
  simp only [List.append_assoc, List.cons_append, List.nil_append]
  refine congrArg _ (present_req (by rfl) (by simp [render]) (present_req (by rfl) (by simp [render]) (present_opt (by rfl) (fun d hd => rDataSet ?_)
    (present_opt (by rfl) (by simp [render]) (present_opt (by rfl) (by simp [render]) (present_opt (by rfl) (fun p _ => rPlan p) ?_))))))
  · intro x hx
    obtain ⟨row, h1, h2⟩ := List.mem_flatten.1 hx
    exact writeValue_render hb x (hr d hd row h1 x h2)
  · rw [← List.append_nil (opt 7 _ _)]
    exact present_opt (by rfl) (by simp [render]) (by simp [present, renderF])
end answers

end Named
end Wire
end Nebula
