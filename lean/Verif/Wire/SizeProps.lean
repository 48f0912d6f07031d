import Verif.Wire.SizeLemmas
import Verif.Wire.ResponseProps
/-!
# What is written is what the interface files declare, and takes no more than announced (C131)
-/
namespace Nebula
namespace Wire

/-! ## Layout -/

/-- **C131 (values).** The bytes of a value are those of the datum that common.thrift declares for it. -/
theorem C131_value (bits : F64 → Nat) (v : Value) : serialize bits v = (idl bits v).enc := writeValue_idl v

/-- **C131 (key-value pairs and addresses).** -/
theorem C131_keyValue_host (kv : Bytes × Bytes) (h : HostAddr) :
    writeKeyValue kv = (keyValueIdl kv).enc ∧ writeHostAddr h = (hostAddrIdl h).enc := by
  constructor
  · simp [writeKeyValue, keyValueIdl, Datum.enc, encF, Datum.ct]
  · simp [writeHostAddr, hostAddrIdl, Datum.enc, encF, Datum.ct]

theorem writeAuth_idl (r : AuthResponse) : writeAuth r = (authIdl r).enc := by
  obtain ⟨c, s, m, o, z⟩ := r
  cases s <;> cases m <;> cases o <;> cases z <;>
    simp [writeAuth, authFields, writeFields, authIdl, opt, Datum.enc, encF, Datum.ct]

theorem writePair_idl (p : Bytes × Bytes) : writePair p = (pairIdl p).enc := by
  simp [writePair, pairFields, writeFields, pairIdl, Datum.enc, encF, Datum.ct]

theorem writeBranch_idl (b : BranchInfo) : writeBranch b = (branchIdl b).enc := by
  obtain ⟨b, i⟩ := b
  cases b <;> simp [writeBranch, branchFields, writeFields, branchIdl, Datum.enc, encF, Datum.ct]

theorem map_enc_bin (m : List (Bytes × Bytes)) : writeMap writeBinary writeBinary ctBinary ctBinary m =
    (Datum.map ctBinary ctBinary (m.map fun kv => (Datum.binary kv.1, Datum.binary kv.2))).enc := by
  rw [writeMap, Datum.enc, encM_map (wk := writeBinary) (wv := writeBinary) m fun kv _ => ⟨⟨rfl, rfl⟩, rfl, rfl⟩, List.length_map]
theorem map_enc_int (m : List (Int × Int)) : writeMap writeInt writeInt ctI64 ctI64 m =
    (Datum.map ctI64 ctI64 (m.map fun kv => (Datum.i64 kv.1, Datum.i64 kv.2))).enc := by
  rw [writeMap, Datum.enc, encM_map (wk := writeInt) (wv := writeInt) m fun kv _ => ⟨⟨rfl, rfl⟩, rfl, rfl⟩, List.length_map]
theorem list_enc_of {α : Type} {w : α → Bytes} {f : α → Datum} {ct : Nat} (h : ∀ x, (f x).isBool = false ∧ w x = (f x).enc) (l : List α) :
    writeList w ct l = (Datum.list ct (l.map f)).enc := by
  rw [writeList, Datum.enc, encL_map (w := w) l fun x _ => h x, List.length_map]

theorem writeStats_idl (p : ProfilingStats) : writeStats p = (statsIdl p).enc := by
  obtain ⟨a, b, c, m⟩ := p
  cases m with
  | none => simp [writeStats, statsFields, writeFields, statsIdl, opt, Datum.enc, encF, Datum.ct]
  | some m =>
    simp only [writeStats, statsFields, writeFields, statsIdl, opt, Option.map_some, map_enc_bin]
    simp [Datum.enc, encF, Datum.ct]

theorem writeNode_idl (p : PlanNode) : writeNode p = (nodeIdl p).enc := by
  obtain ⟨n, i, v, d, pr, b, dep⟩ := p
  have h1 := list_enc_of (w := writePair) (f := pairIdl) (ct := ctStruct) fun x => ⟨rfl, writePair_idl x⟩
  have h2 := list_enc_of (w := writeStats) (f := statsIdl) (ct := ctStruct) fun x => ⟨rfl, writeStats_idl x⟩
  have h3 := list_enc_of (w := writeInt) (f := Datum.i64) (ct := ctI64) fun x => ⟨rfl, rfl⟩
  have hb : ∀ b, (branchIdl b).ct = ctStruct := fun b => rfl
  cases d <;> cases pr <;> cases b <;> cases dep <;>
    simp only [writeNode, nodeFields, writeFields, nodeIdl, opt, Option.map_some, Option.map_none, h1, h2, h3, writeBranch_idl, List.append_nil, List.cons_append,
      List.nil_append, Datum.enc, encF, hb, List.append_assoc] <;>
    simp [Datum.ct]

theorem writePlan_idl (p : PlanDesc) : writePlan p = (planIdl p).enc := by
  have h1 := list_enc_of (w := writeNode) (f := nodeIdl) (ct := ctStruct) fun x => ⟨rfl, writeNode_idl x⟩
  simp only [writePlan, planFields, writeFields, planIdl, h1, map_enc_int]
  simp [Datum.enc, encF, Datum.ct]

theorem writeExec_idl (bits : F64 → Nat) (r : ExecResponse) : serializeExec bits r = (execIdl bits r).enc := by
  obtain ⟨c, l, d, s, m, p, o⟩ := r
  have hd : ∀ d : List Bytes × List (List Value), writeDataSet (writeValue bits) d.1 d.2 = (dataSetIdl bits d.1 d.2).enc :=
    fun d => dataset_enc fun x _ => writeValue_idl x
  have h1 : ∀ d : List Bytes × List (List Value), (dataSetIdl bits d.1 d.2).ct = ctStruct := fun _ => rfl
  have h2 : ∀ p, (planIdl p).ct = ctStruct := fun _ => rfl
  cases d <;> cases s <;> cases m <;> cases p <;> cases o <;>
    simp only [serializeExec, writeExec, execFields, writeFields, execIdl, opt, Option.map_some, Option.map_none, hd, writePlan_idl, List.append_nil, List.cons_append,
      List.nil_append, Datum.enc, encF, h1, h2, List.append_assoc] <;>
    simp [Datum.ct]

/-- **C131 (answers).** The bytes of an answer of the graph service, and of its parts, are those of the data that graph.thrift declares. -/
theorem C131_answers (bits : F64 → Nat) :
    (∀ r, serializeExec bits r = (execIdl bits r).enc) ∧ (∀ r, writeAuth r = (authIdl r).enc) ∧ (∀ p, writePlan p = (planIdl p).enc) ∧
    (∀ p, writeNode p = (nodeIdl p).enc) ∧ (∀ p, writeStats p = (statsIdl p).enc) ∧ (∀ p, writeBranch p = (branchIdl p).enc) ∧
    (∀ p, writePair p = (pairIdl p).enc) :=
  ⟨writeExec_idl bits, writeAuth_idl, writePlan_idl, writeNode_idl, writeStats_idl, writeBranch_idl, writePair_idl⟩

/-! ## Sizes -/

/-- **C131 (size of a value).** Both functions announce the most bytes that the declared datum can take, modulo 2^32. -/
theorem C131_size (bits : F64 → Nat) (v : Value) (zc : Bool) : announced (szValue v zc) = (idl bits v).room % 2 ^ 32 := by
  rw [announced, szValue_room (bits := bits)]

/-- **C131 (bound).** A value takes no more bytes than announced by either function, if this is less than 4 GiB. -/
theorem C131_bound_partial {bits : F64 → Nat} (hb : BitsOk bits) (v : Value) (hv : Fits v) (h : (idl bits v).room < 2 ^ 32) (zc : Bool) :
    (serialize bits v).length ≤ announced (szValue v zc) := by
  rw [C131_size bits, Nat.mod_eq_of_lt h, C131_value]
  exact enc_room _ (idl_wf hb v hv)

/-- Two texts of `n` bytes. -/
private theorem wraps {bits : F64 → Nat} (n : Nat) (hn : n = 2147483647) (s : Bytes) (hs : s.length = n) :
    Fits (.list [.str s, .str s]) ∧ ∀ zc, announced (szValue (.list [.str s, .str s]) zc) < (serialize bits (.list [.str s, .str s])).length := by
  constructor
  · refine Value.hered_iff.2 ⟨by simp [FitsHere, Small], ?_⟩
    intro x hx
    have : x = .str s := by simpa [Value.children] using hx
    rw [this]
    refine Value.hered_iff.2 ⟨?_, by simp [Value.children]⟩
    simp only [FitsHere, Small]
    omega
  · intro zc
    have e0 : (idl bits (.list [.str s, .str s])).room = 2 * n + 36 := by
      simp only [idl, idlVec, Datum.room, roomF, roomL, hs]; omega
    have e2 : n ≤ (serialize bits (.list [.str s, .str s])).length := by
      simp only [serialize, writeValue, wVec, writeBinary, List.length_append, hs]
      omega
    rw [C131_size bits, e0]
    omega

/-- **C131 (bound, violated).** The announced size is a 32-bit number: it is too small for some values that can be written. -/
theorem C131_bound_violated {bits : F64 → Nat} : ∃ v : Value, Fits v ∧ ∀ zc, announced (szValue v zc) < (serialize bits v).length :=
  ⟨_, wraps (bits := bits) _ rfl _ (List.length_replicate (n := 2147483647) (a := 0))⟩

/-- **C131 (sizes of pairs and addresses).** -/
theorem C131_size_keyValue_host (kv : Bytes × Bytes) (h : HostAddr) (zc : Bool) :
    announced (szKeyValue zc kv) = (keyValueIdl kv).room % 2 ^ 32 ∧ announced (szHostAddr h) = (hostAddrIdl h).room % 2 ^ 32 := by
  constructor
  · rw [announced, szKeyValue, sizeStr_eq, sizeStr_eq]
    simp [keyValueIdl, Datum.room, roomF, sizeField, sizeI16, sizeByte, sizeStop]; congr 1; omega
  · rw [announced, szHostAddr, sizeBinary]
    simp [hostAddrIdl, Datum.room, roomF, sizeField, sizeI16, sizeByte, sizeI32, sizeStop]

theorem szPair_room (zc : Bool) (p : Bytes × Bytes) : szPair zc p = (pairIdl p).room := by
  rw [szPair, sizeStr_eq, sizeStr_eq]
  simp [pairIdl, Datum.room, roomF, sizeField, sizeI16, sizeByte, sizeStop]; omega
theorem szBranch_room (b : BranchInfo) : szBranch b = (branchIdl b).room := rfl
theorem szStats_room (p : ProfilingStats) : szStats p = (statsIdl p).room := by
  obtain ⟨a, b, c, m⟩ := p
  cases m with
  | none => rfl
  | some m =>
    simp only [szStats, sizeOpt, sizeMap, statsIdl, opt, List.cons_append, List.nil_append, Datum.room, roomF,
      roomM_map (sk := sizeBinary) (sv := sizeBinary) (f := Datum.binary) (g := Datum.binary) m fun kv _ => ⟨rfl, rfl⟩]
    simp [sizeField, sizeI16, sizeByte, sizeI32, sizeI64, sizeStop]; omega
theorem sizeList_room {α : Type} {s : α → Nat} {f : α → Datum} (ct : Nat) (h : ∀ x, s x = (f x).room) (l : List α) :
    sizeList s l = (Datum.list ct (l.map f)).room := by
  rw [sizeList, Datum.room, roomL_map (s := s) l fun x _ => h x]; rfl
theorem szNode_room (zc : Bool) (p : PlanNode) : szNode zc p = (nodeIdl p).room := by
  obtain ⟨n, i, v, d, pr, b, dep⟩ := p
  have h1 := sizeList_room (s := szPair false) (f := pairIdl) ctStruct (szPair_room false)
  have h2 := sizeList_room (s := szStats) (f := statsIdl) ctStruct szStats_room
  have h3 := sizeList_room (s := fun _ : Int => sizeI64) (f := Datum.i64) ctI64 fun x => rfl
  cases d <;> cases pr <;> cases b <;> cases dep <;>
    simp only [szNode, sizeOpt, sizeStr_eq, h1, h2, h3, szBranch_room, nodeIdl, opt, List.append_nil, List.cons_append, List.nil_append] <;>
    simp [Datum.room, roomF, sizeField, sizeI16, sizeByte, sizeI64, sizeStop] <;> omega
theorem szPlan_room (zc : Bool) (p : PlanDesc) : szPlan zc p = (planIdl p).room := by
  have h1 := sizeList_room (s := szNode false) (f := nodeIdl) ctStruct (szNode_room false)
  simp only [szPlan, h1, sizeStr_eq, sizeMap, planIdl, Datum.room, roomF,
    roomM_map (sk := fun _ : Int => sizeI64) (sv := fun _ : Int => sizeI64) (f := Datum.i64) (g := Datum.i64) p.nodeIndexMap fun kv _ => ⟨rfl, rfl⟩]
  simp [sizeField, sizeI16, sizeByte, sizeI32, sizeI64, sizeStop]; omega
theorem szExec_room (bits : F64 → Nat) (r : ExecResponse) : szExec r = (execIdl bits r).room := by
  obtain ⟨c, l, d, s, m, p, o⟩ := r
  have hd : ∀ d : List Bytes × List (List Value), szDataSet (fun zc v => szValue v zc) true d.1 d.2 = (dataSetIdl bits d.1 d.2).room :=
    fun d => dataset_room (fun x _ zc => szValue_room x zc) true
  cases d <;> cases s <;> cases m <;> cases p <;> cases o <;>
    simp only [szExec, sizeOpt, sizeStr_eq, hd, szPlan_room, execIdl, opt, List.append_nil, List.cons_append, List.nil_append] <;>
    simp [Datum.room, roomF, sizeField, sizeI16, sizeByte, sizeI32, sizeStop] <;> omega
theorem szAuth_room (zc : Bool) (r : AuthResponse) : szAuth zc r = (authIdl r).room + (if r.timeZoneOffset.isSome then 5 else 0) := by
  obtain ⟨c, s, m, o, z⟩ := r
  cases s <;> cases m <;> cases o <;> cases z <;>
    simp only [szAuth, sizeOpt, sizeStr_eq, authIdl, opt, List.append_nil, List.cons_append, List.nil_append] <;>
    simp [Datum.room, roomF, sizeField, sizeI16, sizeByte, sizeI32, sizeI64, sizeStop] <;> omega

/-- **C131 (sizes of answers).** They announce the most bytes that the declared data can take; the offset of the time zone, an `i32`,
counts as an `i64`. -/
theorem C131_size_answers (bits : F64 → Nat) :
    (∀ r, announced (szExec r) = (execIdl bits r).room % 2 ^ 32) ∧
    (∀ r zc, announced (szAuth zc r) = ((authIdl r).room + (if r.timeZoneOffset.isSome then 5 else 0)) % 2 ^ 32) ∧
    (∀ p zc, announced (szPlan zc p) = (planIdl p).room % 2 ^ 32) ∧ (∀ p zc, announced (szNode zc p) = (nodeIdl p).room % 2 ^ 32) ∧
    (∀ p, announced (szStats p) = (statsIdl p).room % 2 ^ 32) ∧ (∀ p, announced (szBranch p) = (branchIdl p).room % 2 ^ 32) ∧
    (∀ p zc, announced (szPair zc p) = (pairIdl p).room % 2 ^ 32) :=
  ⟨fun r => by rw [announced, szExec_room bits], fun r zc => by rw [announced, szAuth_room], fun p zc => by rw [announced, szPlan_room],
    fun p zc => by rw [announced, szNode_room], fun p => by rw [announced, szStats_room], fun p => by rw [announced, szBranch_room],
    fun p zc => by rw [announced, szPair_room]⟩

/-! ## Answers that fit are well-formed -/

theorem wfF_append : ∀ (a b : List (Nat × Datum)), wfF (a ++ b) ↔ wfF a ∧ wfF b
  | [], b => by simp [wfF]
  | (i, d) :: a, b => by rw [List.cons_append, wfF, wfF, wfF_append a b]; simp only [and_assoc]
theorem wfF_opt {α : Type} {id : Nat} {f : α → Datum} {o : Option α} (hi : id ≤ 32767) (h : ∀ x, o = some x → (f x).WF) : wfF (opt id f o) := by
  cases o with
  | none => simp [opt, wfF]
  | some x => rw [opt, wfF, wfF]; exact ⟨⟨hi, h x rfl⟩, trivial⟩

theorem auth_wf {r : AuthResponse} (h : AuthFit r) : (authIdl r).WF := by
  rw [authIdl, Datum.WF]
  simp only [wfF_append]
  refine ⟨⟨⟨⟨?_, ?_⟩, ?_⟩, ?_⟩, ?_⟩
  · rw [wfF, wfF, Datum.WF]; exact ⟨⟨by decide, h.code⟩, trivial⟩
  · exact wfF_opt (by decide) fun x hx => by rw [Datum.WF]; exact h.msg x hx
  · exact wfF_opt (by decide) fun x hx => by rw [Datum.WF]; exact h.session x hx
  · exact wfF_opt (by decide) fun x hx => by rw [Datum.WF]; exact h.offset x hx
  · exact wfF_opt (by decide) fun x hx => by rw [Datum.WF]; exact h.zone x hx

theorem stats_wf {p : ProfilingStats} (h : StatsFit p) : (statsIdl p).WF := by
  rw [statsIdl, Datum.WF]
  simp only [wfF_append]
  refine ⟨?_, wfF_opt (by decide) fun m hm => ?_⟩
  · simp only [wfF, Datum.WF]
    exact ⟨⟨by decide, h.rows⟩, ⟨by decide, h.exec⟩, ⟨by decide, h.total⟩, trivial⟩
  · obtain ⟨a, _, c⟩ := h.other m hm
    rw [Datum.WF, List.length_map]
    refine ⟨by decide, by decide, a, wfM_map (f := Datum.binary) (g := Datum.binary) m fun kv hkv => ⟨⟨rfl, ?_⟩, rfl, ?_⟩⟩
    · rw [Datum.WF]; exact (c kv hkv).1
    · rw [Datum.WF]; exact (c kv hkv).2

theorem list_wf {α : Type} {f : α → Datum} {ct : Nat} {l : List α} (hc : ct < 16) (hl : Small l.length) (h : ∀ x ∈ l, (f x).et = ct ∧ (f x).WF) :
    (Datum.list ct (l.map f)).WF := by
  rw [Datum.WF, List.length_map]; exact ⟨hc, hl, wfL_map l h⟩

theorem node_wf {p : PlanNode} (h : NodeFit p) : (nodeIdl p).WF := by
  rw [nodeIdl, Datum.WF]
  simp only [wfF_append]
  refine ⟨⟨⟨⟨?_, ?_⟩, ?_⟩, ?_⟩, ?_⟩
  · simp only [wfF, Datum.WF]
    exact ⟨⟨by decide, h.name⟩, ⟨by decide, h.id⟩, ⟨by decide, h.var⟩, trivial⟩
  · refine wfF_opt (by decide) fun l hl => list_wf (by decide) (h.desc l hl).1 fun kv hkv => ⟨rfl, ?_⟩
    rw [pairIdl, Datum.WF]; simp only [wfF, Datum.WF]
    exact ⟨⟨by decide, ((h.desc l hl).2 kv hkv).1⟩, ⟨by decide, ((h.desc l hl).2 kv hkv).2⟩, trivial⟩
  · exact wfF_opt (by decide) fun l hl => list_wf (by decide) (h.prof l hl).1 fun x hx => ⟨rfl, stats_wf ((h.prof l hl).2 x hx)⟩
  · refine wfF_opt (by decide) fun b hb => ?_
    rw [branchIdl, Datum.WF]; simp only [wfF, Datum.WF]
    exact ⟨⟨by decide, trivial⟩, ⟨by decide, h.branch b hb⟩, trivial⟩
  · exact wfF_opt (by decide) fun l hl => list_wf (by decide) (h.deps l hl).1 fun x hx => ⟨rfl, by rw [Datum.WF]; exact (h.deps l hl).2 x hx⟩

theorem plan_wf {p : PlanDesc} (h : PlanFit p) : (planIdl p).WF := by
  have h1 := list_wf (f := nodeIdl) (ct := ctStruct) (by decide) h.nodes.1 fun x hx => ⟨rfl, node_wf (h.nodes.2 x hx)⟩
  have h2 : (Datum.map ctI64 ctI64 (p.nodeIndexMap.map fun kv => (Datum.i64 kv.1, Datum.i64 kv.2))).WF := by
    rw [Datum.WF, List.length_map]
    refine ⟨by decide, by decide, h.index.1, wfM_map (f := Datum.i64) (g := Datum.i64) _ fun kv hkv => ⟨⟨rfl, ?_⟩, rfl, ?_⟩⟩
    · rw [Datum.WF]; exact (h.index.2.2 kv hkv).1
    · rw [Datum.WF]; exact (h.index.2.2 kv hkv).2
  rw [planIdl, Datum.WF]
  simp only [wfF]
  exact ⟨⟨by decide, h1⟩, ⟨by decide, h2⟩, ⟨by decide, by rw [Datum.WF]; exact h.format⟩, ⟨by decide, by rw [Datum.WF]; exact h.time⟩, trivial⟩

theorem exec_wf {bits : F64 → Nat} (hb : BitsOk bits) {r : ExecResponse} (h : ExecFit r) : (execIdl bits r).WF := by
  rw [execIdl, Datum.WF]
  simp only [wfF_append]
  refine ⟨⟨⟨⟨⟨?_, ?_⟩, ?_⟩, ?_⟩, ?_⟩, ?_⟩
  · simp only [wfF, Datum.WF]
    exact ⟨⟨by decide, h.code⟩, ⟨by decide, h.latency⟩, trivial⟩
  · exact wfF_opt (by decide) fun d hd => dataset_wf (h.data d hd).here fun x hx => idl_wf hb x ((h.data d hd).kids x hx)
  · exact wfF_opt (by decide) fun x hx => by rw [Datum.WF]; exact h.space x hx
  · exact wfF_opt (by decide) fun x hx => by rw [Datum.WF]; exact h.msg x hx
  · exact wfF_opt (by decide) fun x hx => plan_wf (h.plan x hx)
  · exact wfF_opt (by decide) fun x hx => by rw [Datum.WF]; exact h.comment x hx

/-- **C131 (bound for answers).** An answer takes no more bytes than announced, if this is less than 4 GiB. -/
theorem C131_bound_answers_partial {bits : F64 → Nat} (hb : BitsOk bits) :
    (∀ r, ExecFit r → (execIdl bits r).room < 2 ^ 32 → (serializeExec bits r).length ≤ announced (szExec r)) ∧
    (∀ r zc, AuthFit r → (authIdl r).room + 5 < 2 ^ 32 → (writeAuth r).length ≤ announced (szAuth zc r)) := by
  constructor
  · intro r h hs
    rw [(C131_size_answers bits).1, Nat.mod_eq_of_lt hs, writeExec_idl]
    exact enc_room _ (exec_wf hb h)
  · intro r zc h hs
    have := enc_room _ (auth_wf h)
    rw [(C131_size_answers bits).2.1, writeAuth_idl, Nat.mod_eq_of_lt (by split <;> omega)]
    omega

/-! ## Witnesses -/

/-- A list of three values: 53 bytes announced, 16 written. -/
example : (serialize (fun _ => 0) (.list [.int 5, .str [65, 66], .null .badType])).length = 16 ∧
    announced (szValue (.list [.int 5, .str [65, 66], .null .badType]) true) = 53 ∧
    Fits (.list [.int 5, .str [65, 66], .null .badType]) := by
  refine ⟨by decide +kernel, by decide +kernel, Value.hered_iff.2 ⟨by simp [FitsHere, Small], ?_⟩⟩
  intro x hx
  simp only [Value.children, List.mem_cons, List.not_mem_nil, or_false] at hx
  rcases hx with rfl | rfl | rfl <;> exact Value.hered_iff.2 ⟨by simp [FitsHere, Small, InI64], by simp [Value.children]⟩

/-- The bound applies to the sample answer of C92 and to one of an authentication. -/
example {bits : F64 → Nat} (hb : BitsOk bits) : (serializeExec bits sampleExec).length ≤ announced (szExec sampleExec) := by
  refine (C131_bound_answers_partial hb).1 _ sampleExec_fit ?_
  rw [← szExec_room]
  decide +kernel

example : (writeAuth { errorCode := 0, sessionId := some 5, timeZoneName := some [85] }).length = 8 ∧
    announced (szAuth true { errorCode := 0, sessionId := some 5, timeZoneName := some [85] }) = 34 := by
  decide +kernel

end Wire
end Nebula
