import Verif.Wire.Fields
import Verif.Wire.ResponseSpec
/-! # The answers of the graph service on the wire: helper lemmas -/
namespace Nebula
namespace Wire

/-! ## Readers and their fields -/

macro "next_tac" : tactic => `(tactic| (
  constructor
  intro curr x hx
  simp only [authReader, statsReader, pairReader, nodeReader, planReader, execReader] at hx
  repeat' (split at hx)
  all_goals first
    | (cases hx; rename_i h; subst h; exact ⟨by decide, by decide, by decide, _, rfl⟩)
    | cases hx))

theorem auth_next : NextOk authReader := by next_tac
theorem stats_next : NextOk statsReader := by next_tac
theorem pair_next : NextOk pairReader := by next_tac
theorem node_next : NextOk nodeReader := by next_tac
theorem plan_next : NextOk planReader := by next_tac
theorem exec_next (rv : Value → Bytes → Option (Value × Bytes)) : NextOk (execReader rv) := by next_tac

/-! ## AuthResponse -/

def authFlds (r : AuthResponse) : List (Fld (AuthResponse × List Nat)) :=
  [mkFld 1 ctI32 writeInt (some r.errorCode) id fun s x => { s with errorCode := x },
   mkFld 2 ctBinary writeBinary r.errorMsg id fun s x => { s with errorMsg := some x },
   mkFld 3 ctI64 writeInt r.sessionId id fun s x => { s with sessionId := some x },
   mkFld 4 ctI32 writeInt r.timeZoneOffset id fun s x => { s with timeZoneOffset := some x },
   mkFld 5 ctBinary writeBinary r.timeZoneName id fun s x => { s with timeZoneName := some x }]

theorem auth_known {r : AuthResponse} (h : AuthFit r) : Known authReader (authFlds r) where
  next := auth_next
  pos := by simp [authFlds, mkFld]
  sorted := by simp [authFlds, mkFld]
  seen := by
    simp only [authFlds, List.forall_mem_cons, List.not_mem_nil, false_implies, implies_true, and_true]
    exact ⟨mkFld_seen, mkFld_seen, mkFld_seen, mkFld_seen, mkFld_seen⟩
  good := by
    simp only [authFlds, List.forall_mem_cons, List.not_mem_nil, false_implies, implies_true, and_true]
    exact ⟨mkFld_good (by decide) (by decide) (by decide) rfl fun a ha rest => by cases ha; exact readI32_write h.code rest,
      mkFld_good (by decide) (by decide) (by decide) rfl fun a ha rest => readBinary_write (h.msg a ha) rest,
      mkFld_good (by decide) (by decide) (by decide) rfl fun a ha rest => readI64_write (h.session a ha) rest,
      mkFld_good (by decide) (by decide) (by decide) rfl fun a ha rest => readI32_write (h.offset a ha) rest,
      mkFld_good (by decide) (by decide) (by decide) rfl fun a ha rest => readBinary_write (h.zone a ha) rest⟩

theorem auth_wire (r : AuthResponse) : authFields r = (authFlds r).map Fld.wire := rfl

theorem auth_final (o r : AuthResponse) : (final (o, []) (authFlds r)).1 =
    ⟨r.errorCode, r.sessionId.or o.sessionId, r.errorMsg.or o.errorMsg, r.timeZoneOffset.or o.timeZoneOffset,
      r.timeZoneName.or o.timeZoneName⟩ ∧ ∀ i ∈ [1], i ∈ (final (o, []) (authFlds r)).2 := by
  obtain ⟨c, s, m, t, z⟩ := r
  cases s <;> cases m <;> cases t <;> cases z <;> simp [final, authFlds, mkFld]

/-! ## ProfilingStats -/

def statsFlds (p : ProfilingStats) : List (Fld (ProfilingStats × List Nat)) :=
  [mkFld 1 ctI64 writeInt (some p.rows) id fun s x => { s with rows := x },
   mkFld 2 ctI64 writeInt (some p.execDuration) id fun s x => { s with execDuration := x },
   mkFld 3 ctI64 writeInt (some p.totalDuration) id fun s x => { s with totalDuration := x },
   mkFld 4 ctMap (writeMap writeBinary writeBinary ctBinary ctBinary) p.otherStats id fun s x => { s with otherStats := some x }]

theorem stats_known {p : ProfilingStats} (h : StatsFit p) : Known statsReader (statsFlds p) where
  next := stats_next
  pos := by simp [statsFlds, mkFld]
  sorted := by simp [statsFlds, mkFld]
  seen := by
    simp only [statsFlds, List.forall_mem_cons, List.not_mem_nil, false_implies, implies_true, and_true]
    exact ⟨mkFld_seen, mkFld_seen, mkFld_seen, mkFld_seen⟩
  good := by
    simp only [statsFlds, List.forall_mem_cons, List.not_mem_nil, false_implies, implies_true, and_true]
    exact ⟨mkFld_good (by decide) (by decide) (by decide) rfl fun a ha rest => by cases ha; exact readI64_write h.rows rest,
      mkFld_good (by decide) (by decide) (by decide) rfl fun a ha rest => by cases ha; exact readI64_write h.exec rest,
      mkFld_good (by decide) (by decide) (by decide) rfl fun a ha rest => by cases ha; exact readI64_write h.total rest,
      mkFld_good (by decide) (by decide) (by decide) rfl fun a ha rest =>
        readMap_write (h.other a ha).1 (h.other a ha).2.1 (by decide) (by decide)
          (fun kv hkv => ⟨readBinary_write ((h.other a ha).2.2 kv hkv).1, readBinary_write ((h.other a ha).2.2 kv hkv).2⟩) rest⟩

theorem stats_wire (p : ProfilingStats) : statsFields p = (statsFlds p).map Fld.wire := rfl

theorem stats_final (o p : ProfilingStats) : (final (o, []) (statsFlds p)).1 =
    ⟨p.rows, p.execDuration, p.totalDuration, p.otherStats.or o.otherStats⟩ ∧
      ∀ i ∈ [1, 2, 3], i ∈ (final (o, []) (statsFlds p)).2 := by
  obtain ⟨c, s, m, t⟩ := p
  cases t <;> simp [final, statsFlds, mkFld]

theorem or_none' {α : Type} (x : Option α) : x.or none = x := by cases x <;> rfl

theorem read_stats {p : ProfilingStats} (h : StatsFit p) (rest : Bytes) : readStats {} (writeStats p ++ rest) = some (p, rest) := by
  rw [writeStats, ← withExtra_nil, stats_wire]
  refine (stats_known h).read [] (by simp) (by simp [wfF]) ?_ (stats_final {} p).2 rest
  rw [(stats_final {} p).1, or_none']

/-! ## PlanNodeBranchInfo -/

theorem runBranch_extra (s : BranchInfo × List Nat) (rest : Bytes) : ∀ (ex : List (Nat × Datum)) (f last : Nat), (∀ d ∈ ex, 2 < d.1) → wfF ex →
    (encF last ex).length < f → runBranch f last s (encF last ex ++ ([0] ++ rest)) = some (s, rest)
  | [], f, last, _, _, hf => by
    obtain ⟨f, rfl⟩ : ∃ g, f = g + 1 := ⟨f - 1, by omega⟩
    rw [runBranch, encF]
    simp [readFieldHeader_stop]
  | (id, d) :: fs, f, last, hl, hw, hf => by
    obtain ⟨f, rfl⟩ : ∃ g, f = g + 1 := ⟨f - 1, by omega⟩
    rw [wfF] at hw
    have hh := fieldHeader_len last id d.ct
    have h2 := hl _ List.mem_cons_self
    simp only at h2
    simp only [encF, List.length_append] at hf
    rw [runBranch, encF, List.append_assoc, List.append_assoc, readFieldHeader_any d.ct_pos d.ct_lt hw.1.1]
    simp only
    rw [if_neg (by omega), if_neg (by omega), skips d hw.1.2 _ _ (by simp; omega)]
    exact runBranch_extra s rest fs f id (fun d hd => hl d (List.mem_cons_of_mem _ hd)) hw.2 (by omega)

theorem runBranch_fields {b : BranchInfo} (h : InI64 b.conditionNodeId) (o : BranchInfo) (f : Nat) (tail : Bytes) :
    runBranch (f + 2) 0 (o, []) (fieldHeader 0 1 (if b.isDoBranch then ctTrue else ctFalse) ++
      (fieldHeader 1 2 ctI64 ++ (writeInt b.conditionNodeId ++ tail))) = runBranch f 2 (b, [2, 1]) tail := by
  obtain ⟨d, c⟩ := b
  have e1 := readFieldHeader_write (last := 0) (id := 1) (ct := if d then ctTrue else ctFalse) (by decide) (by decide)
    (by cases d <;> decide) (by cases d <;> decide) (fieldHeader 1 2 ctI64 ++ (writeInt c ++ tail))
  have e2 := readFieldHeader_write (last := 1) (id := 2) (ct := ctI64) (by decide) (by decide) (by decide) (by decide) (writeInt c ++ tail)
  rw [runBranch]
  rw [show readFieldHeader 0 _ = _ from e1]
  have hc : (((1 : Nat) : Int) = 1 ∧ ((if d = true then ctTrue else ctFalse) = ctTrue ∨ (if d = true then ctTrue else ctFalse) = ctFalse)) := by
    cases d <;> decide
  simp only [if_pos hc]
  rw [runBranch, e2]
  simp only [readI64_write h]
  cases d <;> rfl

/-- Reading what was written, with unknown fields at the end. -/
theorem read_branch_extra {b : BranchInfo} (h : InI64 b.conditionNodeId) (o : BranchInfo) (ex : List (Nat × Datum)) (hl : ∀ d ∈ ex, 2 < d.1)
    (hw : wfF ex) (rest : Bytes) : readBranch o (withExtra ex 0 (branchFields b) ++ rest) = some (b, rest) := by
  have e : withExtra ex 0 (branchFields b) ++ rest = fieldHeader 0 1 (if b.isDoBranch then ctTrue else ctFalse) ++
      (fieldHeader 1 2 ctI64 ++ (writeInt b.conditionNodeId ++ (encF 2 ex ++ ([0] ++ rest)))) := by
    simp [branchFields, withExtra, List.append_assoc]
  have h1 := fieldHeader_len 0 1 (if b.isDoBranch then ctTrue else ctFalse)
  have h2 := fieldHeader_len 1 2 ctI64
  rw [readBranch, e]
  generalize hN : (fieldHeader 0 1 (if b.isDoBranch then ctTrue else ctFalse) ++
      (fieldHeader 1 2 ctI64 ++ (writeInt b.conditionNodeId ++ (encF 2 ex ++ ([0] ++ rest))))).length + 1 = N
  simp only [List.length_append] at hN
  obtain ⟨k, rfl⟩ : ∃ k, N = k + 2 := ⟨N - 2, by omega⟩
  rw [runBranch_fields h, show (2 : Int) = ((2 : Nat) : Int) from rfl,
    runBranch_extra _ rest ex k 2 hl hw (by simp only [List.length_singleton] at hN; omega)]
  rfl

theorem read_branch {b : BranchInfo} (h : InI64 b.conditionNodeId) (o : BranchInfo) (rest : Bytes) :
    readBranch o (writeBranch b ++ rest) = some (b, rest) := by
  rw [writeBranch, ← withExtra_nil]
  exact read_branch_extra h o [] (by simp) (by simp [wfF]) rest

/-! ## Pair -/

def pairFlds (p : Bytes × Bytes) : List (Fld ((Bytes × Bytes) × List Nat)) :=
  [mkFld 1 ctBinary writeBinary (some p.1) id fun s x => (x, s.2),
   mkFld 2 ctBinary writeBinary (some p.2) id fun s x => (s.1, x)]

theorem pair_known {p : Bytes × Bytes} (h : Small p.1.length ∧ Small p.2.length) : Known pairReader (pairFlds p) where
  next := pair_next
  pos := by simp [pairFlds, mkFld]
  sorted := by simp [pairFlds, mkFld]
  seen := by
    simp only [pairFlds, List.forall_mem_cons, List.not_mem_nil, false_implies, implies_true, and_true]
    exact ⟨mkFld_seen, mkFld_seen⟩
  good := by
    simp only [pairFlds, List.forall_mem_cons, List.not_mem_nil, false_implies, implies_true, and_true]
    exact ⟨mkFld_good (by decide) (by decide) (by decide) rfl fun a ha rest => by cases ha; exact readBinary_write h.1 rest,
      mkFld_good (by decide) (by decide) (by decide) rfl fun a ha rest => by cases ha; exact readBinary_write h.2 rest⟩

theorem pair_wire (p : Bytes × Bytes) : pairFields p = (pairFlds p).map Fld.wire := rfl

theorem pair_final (o p : Bytes × Bytes) : (final (o, []) (pairFlds p)).1 = p ∧ ∀ i ∈ [1, 2], i ∈ (final (o, []) (pairFlds p)).2 := by
  simp [final, pairFlds, mkFld]

theorem read_pair {p : Bytes × Bytes} (h : Small p.1.length ∧ Small p.2.length) (o : Bytes × Bytes) (rest : Bytes) :
    readPair o (writePair p ++ rest) = some (p, rest) := by
  rw [writePair, ← withExtra_nil, pair_wire]
  exact (pair_known h).read [] (by simp) (by simp [wfF]) (pair_final o p).1 (pair_final o p).2 rest

/-! ## PlanNodeDescription -/

def nodeFlds (p : PlanNode) : List (Fld (PlanNode × List Nat)) :=
  [mkFld 1 ctBinary writeBinary (some p.name) id fun s x => { s with name := x },
   mkFld 2 ctI64 writeInt (some p.id) id fun s x => { s with id := x },
   mkFld 3 ctBinary writeBinary (some p.outputVar) id fun s x => { s with outputVar := x },
   mkFld 4 ctList (writeList writePair ctStruct) p.description id fun s x => { s with description := some x },
   mkFld 5 ctList (writeList writeStats ctStruct) p.profiles id fun s x => { s with profiles := some x },
   mkFld 6 ctStruct writeBranch p.branchInfo id fun s x => { s with branchInfo := some x },
   mkFld 7 ctList (writeList writeInt ctI64) p.dependencies id fun s x => { s with dependencies := some x }]

theorem readList_id {α : Type} {w : α → Bytes} {rd : Bytes → Option (α × Bytes)} {ct : Nat} {l : List α}
    (hc : ct < 16) (hl : Small l.length) (h : ∀ a ∈ l, ∀ r, rd (w a ++ r) = some (a, r)) (rest : Bytes) :
    readList rd ct (writeList w ct l ++ rest) = some (l, rest) := by
  rw [readList_write (g := id) hc hl h, List.map_id]

theorem node_known {p : PlanNode} (h : NodeFit p) : Known nodeReader (nodeFlds p) where
  next := node_next
  pos := by simp [nodeFlds, mkFld]
  sorted := by simp [nodeFlds, mkFld]
  seen := by
    simp only [nodeFlds, List.forall_mem_cons, List.not_mem_nil, false_implies, implies_true, and_true]
    exact ⟨mkFld_seen, mkFld_seen, mkFld_seen, mkFld_seen, mkFld_seen, mkFld_seen, mkFld_seen⟩
  good := by
    simp only [nodeFlds, List.forall_mem_cons, List.not_mem_nil, false_implies, implies_true, and_true]
    exact ⟨mkFld_good (by decide) (by decide) (by decide) rfl fun a ha rest => by cases ha; exact readBinary_write h.name rest,
      mkFld_good (by decide) (by decide) (by decide) rfl fun a ha rest => by cases ha; exact readI64_write h.id rest,
      mkFld_good (by decide) (by decide) (by decide) rfl fun a ha rest => by cases ha; exact readBinary_write h.var rest,
      mkFld_good (by decide) (by decide) (by decide) rfl fun a ha rest =>
        readList_id (by decide) (h.desc a ha).1 (fun x hx => read_pair ((h.desc a ha).2 x hx) _) rest,
      mkFld_good (by decide) (by decide) (by decide) rfl fun a ha rest =>
        readList_id (by decide) (h.prof a ha).1 (fun x hx => read_stats ((h.prof a ha).2 x hx)) rest,
      mkFld_good (by decide) (by decide) (by decide) rfl fun a ha rest => read_branch (h.branch a ha) _ rest,
      mkFld_good (by decide) (by decide) (by decide) rfl fun a ha rest =>
        readList_id (by decide) (h.deps a ha).1 (fun x hx => readI64_write ((h.deps a ha).2 x hx)) rest⟩

theorem node_wire (p : PlanNode) : nodeFields p = (nodeFlds p).map Fld.wire := rfl

theorem node_final (o p : PlanNode) : (final (o, []) (nodeFlds p)).1 =
    ⟨p.name, p.id, p.outputVar, p.description.or o.description, p.profiles.or o.profiles, p.branchInfo.or o.branchInfo,
      p.dependencies.or o.dependencies⟩ ∧ ∀ i ∈ [1, 2, 3], i ∈ (final (o, []) (nodeFlds p)).2 := by
  obtain ⟨n, i, v, d, pr, b, de⟩ := p
  cases d <;> cases pr <;> cases b <;> cases de <;> simp [final, nodeFlds, mkFld]

theorem read_node {p : PlanNode} (h : NodeFit p) (rest : Bytes) : readNode {} (writeNode p ++ rest) = some (p, rest) := by
  rw [writeNode, ← withExtra_nil, node_wire]
  refine (node_known h).read [] (by simp) (by simp [wfF]) ?_ (node_final {} p).2 rest
  rw [(node_final {} p).1]
  simp only [or_none']

/-! ## PlanDescription -/

def planFlds (p : PlanDesc) : List (Fld (PlanDesc × List Nat)) :=
  [mkFld 1 ctList (writeList writeNode ctStruct) (some p.nodes) id fun s x => { s with nodes := x },
   mkFld 2 ctMap (writeMap writeInt writeInt ctI64 ctI64) (some p.nodeIndexMap) id fun s x => { s with nodeIndexMap := x },
   mkFld 3 ctBinary writeBinary (some p.format) id fun s x => { s with format := x },
   mkFld 4 ctI32 writeInt (some p.optimizeTime) id fun s x => { s with optimizeTime := x }]

theorem plan_known {p : PlanDesc} (h : PlanFit p) : Known planReader (planFlds p) where
  next := plan_next
  pos := by simp [planFlds, mkFld]
  sorted := by simp [planFlds, mkFld]
  seen := by
    simp only [planFlds, List.forall_mem_cons, List.not_mem_nil, false_implies, implies_true, and_true]
    exact ⟨mkFld_seen, mkFld_seen, mkFld_seen, mkFld_seen⟩
  good := by
    simp only [planFlds, List.forall_mem_cons, List.not_mem_nil, false_implies, implies_true, and_true]
    exact ⟨mkFld_good (by decide) (by decide) (by decide) rfl fun a ha rest => by
        cases ha; exact readList_id (by decide) h.nodes.1 (fun x hx => read_node (h.nodes.2 x hx)) rest,
      mkFld_good (by decide) (by decide) (by decide) rfl fun a ha rest => by
        cases ha
        exact readMap_write h.index.1 h.index.2.1 (by decide) (by decide)
          (fun kv hkv => ⟨readI64_write (h.index.2.2 kv hkv).1, readI64_write (h.index.2.2 kv hkv).2⟩) rest,
      mkFld_good (by decide) (by decide) (by decide) rfl fun a ha rest => by cases ha; exact readBinary_write h.format rest,
      mkFld_good (by decide) (by decide) (by decide) rfl fun a ha rest => by cases ha; exact readI32_write h.time rest⟩

theorem plan_wire (p : PlanDesc) : planFields p = (planFlds p).map Fld.wire := rfl

theorem plan_final (o p : PlanDesc) : (final (o, []) (planFlds p)).1 = p ∧ ∀ i ∈ [1, 2, 3, 4], i ∈ (final (o, []) (planFlds p)).2 := by
  simp [final, planFlds, mkFld]

theorem read_plan {p : PlanDesc} (h : PlanFit p) (o : PlanDesc) (rest : Bytes) : readPlan o (writePlan p ++ rest) = some (p, rest) := by
  rw [writePlan, ← withExtra_nil, plan_wire]
  exact (plan_known h).read [] (by simp) (by simp [wfF]) (plan_final o p).1 (plan_final o p).2 rest

/-! ## ExecutionResponse -/

def dataImage (d : List Bytes × List (List Value)) : List Bytes × List (List Value) := (d.1, d.2.map (List.map wireImage))

def execFlds (w : Value → Bytes) (r : ExecResponse) : List (Fld (ExecResponse × List Nat)) :=
  [mkFld 1 ctI32 writeInt (some r.errorCode) id fun s x => { s with errorCode := x },
   mkFld 2 ctI32 writeInt (some r.latency) id fun s x => { s with latency := x },
   mkFld 3 ctStruct (fun d => writeDataSet w d.1 d.2) r.data dataImage fun s x => { s with data := some x },
   mkFld 4 ctBinary writeBinary r.spaceName id fun s x => { s with spaceName := some x },
   mkFld 5 ctBinary writeBinary r.errorMsg id fun s x => { s with errorMsg := some x },
   mkFld 6 ctStruct writePlan r.plan id fun s x => { s with plan := some x },
   mkFld 7 ctBinary writeBinary r.comment id fun s x => { s with comment := some x }]

theorem exec_known {w : Value → Bytes} {rv : Value → Bytes → Option (Value × Bytes)} {r : ExecResponse} (h : ExecFit r)
    (hv : ∀ d, r.data = some d → ∀ v ∈ d.2.flatten, ∀ o rest, rv o (w v ++ rest) = some (wireImage v, rest)) :
    Known (execReader rv) (execFlds w r) where
  next := exec_next rv
  pos := by simp [execFlds, mkFld]
  sorted := by simp [execFlds, mkFld]
  seen := by
    simp only [execFlds, List.forall_mem_cons, List.not_mem_nil, false_implies, implies_true, and_true]
    exact ⟨mkFld_seen, mkFld_seen, mkFld_seen, mkFld_seen, mkFld_seen, mkFld_seen, mkFld_seen⟩
  good := by
    simp only [execFlds, List.forall_mem_cons, List.not_mem_nil, false_implies, implies_true, and_true]
    exact ⟨mkFld_good (by decide) (by decide) (by decide) rfl fun a ha rest => by cases ha; exact readI32_write h.code rest,
      mkFld_good (by decide) (by decide) (by decide) rfl fun a ha rest => by cases ha; exact readI32_write h.latency rest,
      mkFld_good (by decide) (by decide) (by decide) rfl fun a ha rest => by
        have hh := (h.data a ha).here
        exact read_dataSet hh.1 hh.2.1 hh.2.2 (hv a ha) _ rest,
      mkFld_good (by decide) (by decide) (by decide) rfl fun a ha rest => readBinary_write (h.space a ha) rest,
      mkFld_good (by decide) (by decide) (by decide) rfl fun a ha rest => readBinary_write (h.msg a ha) rest,
      mkFld_good (by decide) (by decide) (by decide) rfl fun a ha rest => read_plan (h.plan a ha) _ rest,
      mkFld_good (by decide) (by decide) (by decide) rfl fun a ha rest => readBinary_write (h.comment a ha) rest⟩

theorem exec_wire (w : Value → Bytes) (r : ExecResponse) : execFields w r = (execFlds w r).map Fld.wire := rfl

theorem exec_final (w : Value → Bytes) (o r : ExecResponse) : (final (o, []) (execFlds w r)).1 =
    ⟨r.errorCode, r.latency, r.image.data.or o.data, r.spaceName.or o.spaceName, r.errorMsg.or o.errorMsg, r.plan.or o.plan,
      r.comment.or o.comment⟩ ∧ ∀ i ∈ [1, 2], i ∈ (final (o, []) (execFlds w r)).2 := by
  obtain ⟨n, i, d, v, pr, b, de⟩ := r
  cases d <;> cases v <;> cases pr <;> cases b <;> cases de <;>
    simp [final, execFlds, mkFld, ExecResponse.image, dataImage]

/-- The bytes of a field are part of the whole. -/
theorem field_len (ex : List (Nat × Datum)) {id ct : Nat} {b : Bytes} : ∀ (fs : List (Nat × Nat × Option Bytes)) (last : Nat), (id, ct, some b) ∈ fs →
    b.length ≤ (withExtra ex last fs).length
  | [], _, h => by cases h
  | (i, c, none) :: fs, last, h => by
    rw [withExtra]
    rcases List.mem_cons.1 h with h | h
    · cases h
    · exact field_len ex fs last h
  | (i, c, some x) :: fs, last, h => by
    rw [withExtra]
    simp only [List.length_append]
    rcases List.mem_cons.1 h with h | h
    · cases h; omega
    · have := field_len ex fs i h; omega

theorem exec_values {bits : F64 → Nat} (hb : BitsOk bits) {r : ExecResponse} (h : ExecFit r) (ex : List (Nat × Datum)) (f : Nat)
    (hf : (withExtra ex 0 (execFields (writeValue bits) r)).length < f) :
    ∀ d, r.data = some d → ∀ v ∈ d.2.flatten, ∀ o rest, readValue f o (writeValue bits v ++ rest) = some (wireImage v, rest) := by
  intro d hd v hv o rest
  refine readValue_write hb v ((h.data d hd).kids v hv) f o rest ?_
  have h1 := len_child bits (v := .dataset d.1 d.2) (x := v) hv
  have h2 := field_len ex (id := 3) (ct := ctStruct) (b := writeDataSet (writeValue bits) d.1 d.2) (execFields (writeValue bits) r) 0
    (by simp [execFields, hd])
  have h3 : (writeValue bits (.dataset d.1 d.2)).length = (writeDataSet (writeValue bits) d.1 d.2).length + 2 := by
    rw [writeValue_eqn]
    simp [writeUnion, fieldHeader]
  omega

end Wire
end Nebula
