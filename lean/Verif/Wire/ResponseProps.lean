import Verif.Wire.ResponseTrunc
/-!
# The answers of the graph service: on the wire (C92), compared and reused (C93)
-/
namespace Nebula
namespace Wire

/-! ## C92: answers survive the wire -/

/-- **C92**.  An answer to a login, written and read into a new object, arrives unchanged, whatever follows it. -/
theorem C92_auth (r : AuthResponse) (h : AuthFit r) (rest : Bytes) : readAuth {} (writeAuth r ++ rest) = some (r, rest) := by
  rw [writeAuth, ← withExtra_nil, auth_wire]
  refine (auth_known h).read [] (by simp) (by simp [wfF]) ?_ (auth_final {} r).2 rest
  rw [(auth_final {} r).1]
  simp only [or_none']

/-- **C92**.  An answer to a query — error code, latency, table, name of the space, message, plan with its nodes,
profiles, branches and dependencies, and comment, each optional part present or not — arrives with the table's
values as in C67 and everything else unchanged. -/
theorem C92_exec {bits : F64 → Nat} (hb : BitsOk bits) (r : ExecResponse) (h : ExecFit r) (rest : Bytes) :
    deserializeExec {} (serializeExec bits r ++ rest) = some (r.image, rest) := by
  rw [serializeExec, writeExec, ← withExtra_nil, deserializeExec, readExec]
  have hk := exec_known (w := writeValue bits) h (exec_values hb h []
    ((withExtra [] 0 (execFields (writeValue bits) r) ++ rest).length + 1) (by simp; omega))
  rw [exec_wire] at hk ⊢
  refine hk.read [] (by simp) (by simp [wfF]) ?_ (exec_final _ {} r).2 rest
  rw [(exec_final _ {} r).1]
  simp only [or_none', ExecResponse.image]

/-- **C92**.  If nothing in the table is changed by the wire, the answer arrives unchanged. -/
theorem C92_exec_plain {bits : F64 → Nat} (hb : BitsOk bits) (r : ExecResponse) (h : ExecFit r)
    (hp : ∀ d, r.data = some d → ∀ row ∈ d.2, ∀ v ∈ row, Plain v) (rest : Bytes) :
    deserializeExec {} (serializeExec bits r ++ rest) = some (r, rest) := by
  rw [C92_exec hb r h]
  obtain ⟨c, l, d, s, m, p, k⟩ := r
  cases d with
  | none => rfl
  | some d =>
    obtain ⟨cols, rows⟩ := d
    simp only [ExecResponse.image, Option.map_some]
    rw [list_id fun row hrow => list_id fun x hx => wireImage_plain x (hp _ rfl row hrow x hx)]

/-- **C92**.  A plan arrives unchanged. -/
theorem C92_plan (p : PlanDesc) (h : PlanFit p) (rest : Bytes) : readPlan {} (writePlan p ++ rest) = some (p, rest) :=
  read_plan h {} rest

theorem C92_node (p : PlanNode) (h : NodeFit p) (rest : Bytes) : readNode {} (writeNode p ++ rest) = some (p, rest) := read_node h rest

theorem C92_stats (p : ProfilingStats) (h : StatsFit p) (rest : Bytes) : readStats {} (writeStats p ++ rest) = some (p, rest) :=
  read_stats h rest

theorem C92_branch (b : BranchInfo) (h : InI64 b.conditionNodeId) (rest : Bytes) : readBranch {} (writeBranch b ++ rest) = some (b, rest) :=
  read_branch h {} rest

theorem C92_pair (p : Bytes × Bytes) (h : Small p.1.length ∧ Small p.2.length) (rest : Bytes) :
    readPair ([], []) (writePair p ++ rest) = some (p, rest) := read_pair h _ rest

/-! ### A newer peer -/

/-- **C92**.  Fields a newer peer adds are ignored. -/
theorem C92_auth_newer (r : AuthResponse) (h : AuthFit r) (ex : List (Nat × Datum)) (hex : ∀ d ∈ ex, 5 < d.1) (hw : wfF ex) (rest : Bytes) :
    readAuth {} (withExtra ex 0 (authFields r) ++ rest) = some (r, rest) := by
  rw [auth_wire]
  refine (auth_known h).read ex (fun d hd => ?_) hw ?_ (auth_final {} r).2 rest
  · have := hex d hd
    simp only [authReader]
    repeat rw [if_neg (by omega)]
  · rw [(auth_final {} r).1]
    simp only [or_none']

theorem C92_exec_newer {bits : F64 → Nat} (hb : BitsOk bits) (r : ExecResponse) (h : ExecFit r) (ex : List (Nat × Datum))
    (hex : ∀ d ∈ ex, 7 < d.1) (hw : wfF ex) (rest : Bytes) :
    deserializeExec {} (withExtra ex 0 (execFields (writeValue bits) r) ++ rest) = some (r.image, rest) := by
  rw [deserializeExec, readExec]
  have hk := exec_known (w := writeValue bits) h (exec_values hb h ex
    ((withExtra ex 0 (execFields (writeValue bits) r) ++ rest).length + 1) (by simp; omega))
  rw [exec_wire] at hk ⊢
  refine hk.read ex (fun d hd => ?_) hw ?_ (exec_final _ {} r).2 rest
  · have := hex d hd
    simp only [execReader]
    repeat rw [if_neg (by omega)]
  · rw [(exec_final _ {} r).1]
    simp only [or_none', ExecResponse.image]

theorem C92_plan_newer (p : PlanDesc) (h : PlanFit p) (ex : List (Nat × Datum)) (hex : ∀ d ∈ ex, 4 < d.1) (hw : wfF ex) (rest : Bytes) :
    readPlan {} (withExtra ex 0 (planFields p) ++ rest) = some (p, rest) := by
  rw [plan_wire]
  refine (plan_known h).read ex (fun d hd => ?_) hw (plan_final {} p).1 (plan_final {} p).2 rest
  have := hex d hd
  simp only [planReader]
  repeat rw [if_neg (by omega)]

theorem C92_node_newer (p : PlanNode) (h : NodeFit p) (ex : List (Nat × Datum)) (hex : ∀ d ∈ ex, 7 < d.1) (hw : wfF ex) (rest : Bytes) :
    readNode {} (withExtra ex 0 (nodeFields p) ++ rest) = some (p, rest) := by
  rw [node_wire]
  refine (node_known h).read ex (fun d hd => ?_) hw ?_ (node_final {} p).2 rest
  · have := hex d hd
    simp only [nodeReader]
    repeat rw [if_neg (by omega)]
  · rw [(node_final {} p).1]
    simp only [or_none']

theorem C92_stats_newer (p : ProfilingStats) (h : StatsFit p) (ex : List (Nat × Datum)) (hex : ∀ d ∈ ex, 4 < d.1) (hw : wfF ex) (rest : Bytes) :
    readStats {} (withExtra ex 0 (statsFields p) ++ rest) = some (p, rest) := by
  rw [stats_wire]
  refine (stats_known h).read ex (fun d hd => ?_) hw ?_ (stats_final {} p).2 rest
  · have := hex d hd
    simp only [statsReader]
    repeat rw [if_neg (by omega)]
  · rw [(stats_final {} p).1, or_none']

theorem C92_branch_newer (b : BranchInfo) (h : InI64 b.conditionNodeId) (ex : List (Nat × Datum)) (hex : ∀ d ∈ ex, 2 < d.1) (hw : wfF ex)
    (rest : Bytes) : readBranch {} (withExtra ex 0 (branchFields b) ++ rest) = some (b, rest) := read_branch_extra h {} ex hex hw rest

/-! ### Missing fields -/

/-- **C92**.  An answer without its error code is rejected; … -/
theorem C92_auth_required (r o : AuthResponse) (h : AuthFit r) (rest : Bytes) :
    readAuth o (writeFields 0 ((authFields r).filter fun f => f.1 ≠ 1) ++ rest) = none := by
  rw [auth_wire]
  exact (auth_known h).missing (by simp) o rest

/-- … one to a query without its error code or its latency, … -/
theorem C92_exec_required {bits : F64 → Nat} (hb : BitsOk bits) (r o : ExecResponse) (h : ExecFit r) (i : Nat) (hi : i ∈ [1, 2]) (f : Nat)
    (hf : (serializeExec bits r).length < f) (rest : Bytes) :
    readExec (readValue f) o (writeFields 0 ((execFields (writeValue bits) r).filter fun f => f.1 ≠ i) ++ rest) = none := by
  have hk := exec_known (w := writeValue bits) h (exec_values hb h [] f (by rwa [withExtra_nil]))
  rw [exec_wire]
  exact hk.missing hi o rest

/-- … a plan without its nodes, its index, its format or its time, … -/
theorem C92_plan_required (p o : PlanDesc) (h : PlanFit p) (i : Nat) (hi : i ∈ [1, 2, 3, 4]) (rest : Bytes) :
    readPlan o (writeFields 0 ((planFields p).filter fun f => f.1 ≠ i) ++ rest) = none := by
  rw [plan_wire]
  exact (plan_known h).missing hi o rest

/-- … a node without its name, its number or its variable, … -/
theorem C92_node_required (p o : PlanNode) (h : NodeFit p) (i : Nat) (hi : i ∈ [1, 2, 3]) (rest : Bytes) :
    readNode o (writeFields 0 ((nodeFields p).filter fun f => f.1 ≠ i) ++ rest) = none := by
  rw [node_wire]
  exact (node_known h).missing hi o rest

/-- … a profile without its counts, … -/
theorem C92_stats_required (p o : ProfilingStats) (h : StatsFit p) (i : Nat) (hi : i ∈ [1, 2, 3]) (rest : Bytes) :
    readStats o (writeFields 0 ((statsFields p).filter fun f => f.1 ≠ i) ++ rest) = none := by
  rw [stats_wire]
  exact (stats_known h).missing hi o rest

/-- … a branch without its side or its condition, … -/
theorem C92_branch_required (b o : BranchInfo) (h : InI64 b.conditionNodeId) (i : Nat) (hi : i ∈ [1, 2]) (rest : Bytes) :
    readBranch o (writeFields 0 ((branchFields b).filter fun f => f.1 ≠ i) ++ rest) = none := by
  obtain ⟨d, c⟩ := b
  simp at hi
  rcases hi with rfl | rfl
  · have e : writeFields 0 ((branchFields ⟨d, c⟩).filter fun f => f.1 ≠ 1) ++ rest = fieldHeader 0 2 ctI64 ++ (writeInt c ++ (0 :: rest)) := by
      simp [branchFields, writeFields]
    have h1 := fieldHeader_len 0 2 ctI64
    have e2 := readFieldHeader_write (last := 0) (id := 2) (ct := ctI64) (by decide) (by decide) (by decide) (by decide) (writeInt c ++ (0 :: rest))
    rw [readBranch, e]
    generalize hN : (fieldHeader 0 2 ctI64 ++ (writeInt c ++ (0 :: rest))).length + 1 = N
    simp only [List.length_append] at hN
    obtain ⟨k, rfl⟩ : ∃ k, N = k + 2 := ⟨N - 2, by omega⟩
    have key : runBranch (k + 2) 0 (o, []) (fieldHeader 0 2 ctI64 ++ (writeInt c ++ (0 :: rest))) = some (({ o with conditionNodeId := c }, [2]), rest) := by
      rw [runBranch, show readFieldHeader 0 _ = _ from e2]
      have hn : ¬(((2 : Nat) : Int) = 1 ∧ (ctI64 = ctTrue ∨ ctI64 = ctFalse)) := by decide
      simp only [if_neg hn, readI64_write h]
      rw [if_pos (by decide), runBranch, readFieldHeader_stop]
    rw [key]
    rfl
  · have e : writeFields 0 ((branchFields ⟨d, c⟩).filter fun f => f.1 ≠ 2) ++ rest = fieldHeader 0 1 (if d then ctTrue else ctFalse) ++ (0 :: rest) := by
      simp [branchFields, writeFields]
    have h1 := fieldHeader_len 0 1 (if d then ctTrue else ctFalse)
    have e1 := readFieldHeader_write (last := 0) (id := 1) (ct := if d then ctTrue else ctFalse) (by decide) (by decide)
      (by cases d <;> decide) (by cases d <;> decide) (0 :: rest)
    rw [readBranch, e]
    generalize hN : (fieldHeader 0 1 (if d then ctTrue else ctFalse) ++ (0 :: rest)).length + 1 = N
    simp only [List.length_append] at hN
    obtain ⟨k, rfl⟩ : ∃ k, N = k + 2 := ⟨N - 2, by omega⟩
    have hc : (((1 : Nat) : Int) = 1 ∧ ((if d = true then ctTrue else ctFalse) = ctTrue ∨ (if d = true then ctTrue else ctFalse) = ctFalse)) := by
      cases d <;> decide
    have key : runBranch (k + 2) 0 (o, []) (fieldHeader 0 1 (if d then ctTrue else ctFalse) ++ (0 :: rest)) =
        some (({ o with isDoBranch := d }, [1]), rest) := by
      rw [runBranch, show readFieldHeader 0 _ = _ from e1]
      simp only [if_pos hc]
      rw [runBranch, readFieldHeader_stop]
      cases d <;> rfl
    rw [key]
    rfl

/-- … a pair without key or value. -/
theorem C92_pair_required (p o : Bytes × Bytes) (h : Small p.1.length ∧ Small p.2.length) (i : Nat) (hi : i ∈ [1, 2]) (rest : Bytes) :
    readPair o (writeFields 0 ((pairFields p).filter fun f => f.1 ≠ i) ++ rest) = none := by
  rw [pair_wire]
  exact (pair_known h).missing hi o rest

/-! ### Truncation -/

/-- **C92**.  An answer of which the end is missing is rejected, at whatever byte it is cut off. -/
theorem C92_auth_truncated (r : AuthResponse) (h : AuthFit r) (p q : Bytes) (e : writeAuth r = p ++ q) (hq : q ≠ []) : readAuth {} p = none := by
  refine stab_cut (fun n => stab_struct (rstab_auth n) _ _) (q := q) (a := r) ?_ hq
  rw [← e]
  have := C92_auth r h []
  rwa [List.append_nil] at this

theorem C92_exec_truncated {bits : F64 → Nat} (hb : BitsOk bits) (r : ExecResponse) (h : ExecFit r) (p q : Bytes)
    (e : serializeExec bits r = p ++ q) (hq : q ≠ []) : deserializeExec {} p = none := by
  refine stab_cut (fun n => stab_exec n _) (q := q) (a := r.image) ?_ hq
  rw [← e]
  have := C92_exec hb r h []
  rwa [List.append_nil] at this

/-! ### Non-vacuity -/

/-- An answer with a table, a message and a plan of two nodes. -/
def sampleExec : ExecResponse where
  errorCode := -1005
  latency := 1234
  data := some ([[97], [98]], [[.int 1, .str [120]], [.null .null, .bool true]])
  errorMsg := some [111, 111, 112, 115]
  plan := some {
    nodes := [{ name := [83], id := 1, outputVar := [95, 118], dependencies := some [2, 3], branchInfo := some ⟨true, 7⟩,
                profiles := some [⟨10, 20, 30, some [([97], [98])]⟩] },
              { name := [84], id := 2, outputVar := [95, 119], description := some [([107], [118])] }]
    nodeIndexMap := [(1, 0), (2, 1)]
    format := [114, 111, 119]
    optimizeTime := 5 }

theorem sampleExec_fit : ExecFit sampleExec where
  code := by simp [sampleExec, InI32]
  latency := by simp [sampleExec, InI32]
  data := by
    intro d hd
    cases hd
    refine .mk (by simp [FitsHere, Small]) (by
      intro x hx
      simp [Value.children] at hx
      rcases hx with rfl | rfl | rfl | rfl <;> exact .mk (by simp [FitsHere, Small, InI64]) (by simp [Value.children]))
  space := by intro x hx; cases hx
  msg := by intro x hx; cases hx; simp [Small]
  plan := by
    intro x hx
    cases hx
    refine ⟨⟨by simp [Small], ?_⟩, by simp [Small, InI64], by simp [Small], by simp [InI32]⟩
    intro n hn
    simp at hn
    rcases hn with rfl | rfl
    · refine ⟨by simp [Small], by simp [InI64], by simp [Small], by simp, ?_, by simp [InI64], by simp [Small, InI64]⟩
      intro l hl
      cases hl
      refine ⟨by simp [Small], ?_⟩
      simp only [List.mem_singleton, forall_eq]
      exact ⟨by simp [InI64], by simp [InI64], by simp [InI64], by simp [Small]⟩
    · exact ⟨by simp [Small], by simp [InI64], by simp [Small], by simp [Small], by simp, by simp, by simp⟩
  comment := by intro x hx; cases hx

example {bits : F64 → Nat} (hb : BitsOk bits) : deserializeExec {} (serializeExec bits sampleExec ++ [42]) = some (sampleExec, [42]) :=
  C92_exec_plain hb _ sampleExec_fit (by
    intro d hd row hrow v hv
    cases hd
    simp at hrow
    rcases hrow with rfl | rfl <;> simp at hv <;> rcases hv with rfl | rfl <;>
      exact .mk (by simp [PlainHere]) (by simp [Value.children])) _

/-- Unknown fields, missing optional ones and a missing required one. -/
example : AuthFit { errorCode := 0, sessionId := some 5, timeZoneName := some [85] } ∧
    readAuth {} (withExtra [(9, .list ctByte [.byte 1]), (40, .bool true)] 0 (authFields { sessionId := some 5, timeZoneName := some [85] }))
      = some ({ sessionId := some 5, timeZoneName := some [85] }, []) ∧
    readAuth {} (writeFields 0 ((authFields { sessionId := some 5 }).filter fun f => f.1 ≠ 1)) = none := by
  have h : AuthFit { errorCode := 0, sessionId := some 5, timeZoneName := some [85] } :=
    ⟨by simp [InI32], by simp [InI64], by simp, by simp, by simp [Small]⟩
  refine ⟨h, ?_, ?_⟩
  · have := C92_auth_newer _ h [(9, .list ctByte [.byte 1]), (40, .bool true)] (by simp)
      (by simp [wfF, Datum.WF, wfL, Datum.et, Datum.ct, ctByte, Small]) []
    rwa [List.append_nil] at this
  · have := C92_auth_required { sessionId := some 5 } {} ⟨by simp [InI32], by simp [InI64], by simp, by simp, by simp⟩ []
    rwa [List.append_nil] at this

/-! ## C93: comparing and reusing answers -/

/-- **C93**.  Comparing optional parts. -/
theorem checkPointer_iff {α : Type} {eq : α → α → Bool} (a b : Option α) : checkPointer eq a b = true ↔ Both (fun x y => eq x y = true) a b := by
  cases a <;> cases b <;> simp [checkPointer, Both]

theorem checkPointer_eq {α : Type} [BEq α] [LawfulBEq α] (a b : Option α) : checkPointer (fun x y : α => x == y) a b = true ↔ a = b := by
  cases a <;> cases b <;> simp [checkPointer]

/-- **C93** (partial: without the time zone's name).  Answers to a login are equal exactly if they agree in everything but the
name of the time zone. -/
theorem C93_auth_partial (l r : AuthResponse) : AuthResponse.beq l r = true ↔
    l.errorCode = r.errorCode ∧ l.sessionId = r.sessionId ∧ l.errorMsg = r.errorMsg ∧ l.timeZoneOffset = r.timeZoneOffset := by
  have hz : checkPointer (fun x y : Bytes => x == y) l.timeZoneName l.timeZoneName = true := by rw [checkPointer_eq]
  unfold AuthResponse.beq
  rw [← checkPointer_eq l.sessionId, ← checkPointer_eq l.errorMsg, ← checkPointer_eq l.timeZoneOffset]
  rw [hz]
  by_cases h1 : l.errorCode = r.errorCode <;> simp [h1]

/-- **C93** (the code's exception).  Answers that differ only in the name of the time zone count as equal. -/
theorem C93_auth_violated : ∃ l r : AuthResponse, l ≠ r ∧ AuthResponse.beq l r = true :=
  ⟨{ timeZoneName := some [65] }, { timeZoneName := some [66] }, by simp, rfl⟩

theorem listBeq_iff {α : Type} {eq : α → α → Bool} : ∀ (a b : List α), listBeq eq a b = true ↔ Each (fun x y => eq x y = true) a b
  | [], [] => by simp [listBeq, Each]
  | [], b :: r => by simp [listBeq, Each]
  | a :: l, [] => by simp [listBeq, Each]
  | a :: l, b :: r => by
    rw [listBeq, Bool.and_eq_true, listBeq_iff l r]
    constructor
    · rintro ⟨h1, h2, h3⟩
      refine ⟨by simp [h2], fun i x y hx hy => ?_⟩
      cases i with
      | zero => simp at hx hy; subst hx hy; exact h1
      | succ i => exact h3 i x y (by simpa using hx) (by simpa using hy)
    · rintro ⟨h1, h2⟩
      exact ⟨h2 0 a b rfl rfl, by simpa using h1, fun i x y hx hy => h2 (i + 1) x y (by simpa using hx) (by simpa using hy)⟩

theorem each_eq {α : Type} (a b : List α) : Each (fun x y => x = y) a b ↔ a = b := by
  constructor
  · rintro ⟨h1, h2⟩
    refine List.ext_getElem h1 fun i ha hb => h2 i _ _ (List.getElem?_eq_getElem ha) (List.getElem?_eq_getElem hb)
  · rintro rfl
    exact ⟨rfl, fun i x y hx hy => by rw [hx] at hy; exact Option.some.inj hy⟩

theorem lookup_iff {K V : Type} [BEq K] [LawfulBEq K] : ∀ {b : List (K × V)}, (b.map Prod.fst).Nodup → ∀ k v, b.lookup k = some v ↔ (k, v) ∈ b
  | [], _, k, v => by simp
  | (j, w) :: b, h, k, v => by
    rw [List.map_cons, List.nodup_cons] at h
    rw [List.lookup_cons]
    by_cases hk : k = j
    · subst hk
      simp only [BEq.rfl, List.mem_cons, Prod.mk.injEq, true_and]
      constructor
      · intro e; exact .inl (Option.some.inj e).symm
      · rintro (rfl | hm)
        · rfl
        · exact absurd (List.mem_map_of_mem (f := Prod.fst) hm) h.1
    · have : (k == j) = false := by simpa using hk
      simp only [this, List.mem_cons, Prod.mk.injEq, hk, false_and, false_or]
      exact lookup_iff h.2 k v

theorem subset_of_length {K V : Type} : ∀ {a b : List (K × V)}, (a.map Prod.fst).Nodup → (b.map Prod.fst).Nodup → a.length = b.length →
    (∀ kv ∈ a, kv ∈ b) → ∀ kv ∈ b, kv ∈ a
  | [], b, _, _, hl, _ => by
    have : b = [] := List.length_eq_zero_iff.1 hl.symm
    subst this; simp
  | x :: a, b, ha, hb, hl, hs => by
    obtain ⟨s, t, rfl⟩ := List.append_of_mem (hs x List.mem_cons_self)
    rw [List.map_cons, List.nodup_cons] at ha
    have hb' : ((s ++ t).map Prod.fst).Nodup := by
      refine hb.sublist ?_
      simp only [List.map_append, List.map_cons]
      exact List.Sublist.append_left (List.sublist_cons_self _ _) _
    have hx : ∀ kv ∈ a, kv ∈ s ++ t := by
      intro kv hkv
      have := hs kv (List.mem_cons_of_mem _ hkv)
      simp only [List.mem_append, List.mem_cons] at this ⊢
      rcases this with h | rfl | h
      · exact .inl h
      · exact absurd (List.mem_map_of_mem (f := Prod.fst) hkv) ha.1
      · exact .inr h
    have ih := subset_of_length ha.2 hb' (by simp at hl ⊢; omega) hx
    intro kv hkv
    simp only [List.mem_append, List.mem_cons] at hkv
    rcases hkv with h | rfl | h
    · exact List.mem_cons_of_mem _ (ih kv (List.mem_append_left _ h))
    · exact List.mem_cons_self
    · exact List.mem_cons_of_mem _ (ih kv (List.mem_append_right _ h))

theorem length_of_same {K V : Type} : ∀ {a b : List (K × V)}, (a.map Prod.fst).Nodup → (b.map Prod.fst).Nodup →
    SameEntries a b → a.length = b.length
  | [], b, _, _, h => by
    cases b with
    | nil => rfl
    | cons x b => exact absurd ((h x).2 List.mem_cons_self) (by simp)
  | x :: a, b, ha, hb, h => by
    obtain ⟨s, t, rfl⟩ := List.append_of_mem ((h x).1 List.mem_cons_self)
    rw [List.map_cons, List.nodup_cons] at ha
    have hb' : ((s ++ t).map Prod.fst).Nodup := by
      refine hb.sublist ?_
      simp only [List.map_append, List.map_cons]
      exact List.Sublist.append_left (List.sublist_cons_self _ _) _
    have hxb : x.1 ∉ (s ++ t).map Prod.fst := by
      have h2 : (x.1 :: (s ++ t).map Prod.fst).Nodup := by
        refine (List.Perm.nodup_iff ?_).1 hb
        simp only [List.map_append, List.map_cons]
        exact List.perm_middle
      exact (List.nodup_cons.1 h2).1
    have hs : SameEntries a (s ++ t) := by
      intro kv
      constructor
      · intro hkv
        have := (h kv).1 (List.mem_cons_of_mem _ hkv)
        simp only [List.mem_append, List.mem_cons] at this ⊢
        rcases this with h | rfl | h
        · exact .inl h
        · exact absurd (List.mem_map_of_mem (f := Prod.fst) hkv) ha.1
        · exact .inr h
      · intro hkv
        have h' : kv ∈ s ++ x :: t := by
          simp only [List.mem_append, List.mem_cons] at hkv ⊢
          rcases hkv with h | h
          · exact .inl h
          · exact .inr (.inr h)
        rcases List.mem_cons.1 ((h kv).2 h') with rfl | h'
        · exact absurd (List.mem_map_of_mem (f := Prod.fst) hkv) hxb
        · exact h'
    have := length_of_same ha.2 hb' hs
    simp at this ⊢; omega

/-- Hash maps are equal exactly if they have the same entries. -/
theorem mapBeq_iff {K V : Type} [BEq K] [LawfulBEq K] [BEq V] [LawfulBEq V] {a b : List (K × V)} (ha : (a.map Prod.fst).Nodup) (hb : (b.map Prod.fst).Nodup) :
    (a.length == b.length && a.all fun kv => b.lookup kv.1 == some kv.2) = true ↔ SameEntries a b := by
  rw [Bool.and_eq_true, List.all_eq_true]
  constructor
  · rintro ⟨h1, h2⟩
    have h1 : a.length = b.length := by simpa using h1
    have hs : ∀ kv ∈ a, kv ∈ b := fun kv hkv => (lookup_iff hb kv.1 kv.2).1 (by simpa using h2 kv hkv)
    exact fun kv => ⟨hs kv, subset_of_length ha hb h1 hs kv⟩
  · intro h
    refine ⟨by simpa using length_of_same ha hb h, fun kv hkv => ?_⟩
    have := (lookup_iff hb kv.1 kv.2).2 ((h kv).1 hkv)
    simpa using this

/-- **C93**.  Profiles are equal exactly if their counts agree and their further statistics have the same entries. -/
theorem C93_stats (l r : ProfilingStats) (hl : ∀ m, l.otherStats = some m → (m.map Prod.fst).Nodup)
    (hr : ∀ m, r.otherStats = some m → (m.map Prod.fst).Nodup) : ProfilingStats.beq l r = true ↔
      l.rows = r.rows ∧ l.execDuration = r.execDuration ∧ l.totalDuration = r.totalDuration ∧ Both SameEntries l.otherStats r.otherStats := by
  have hm : checkPointer (fun a b : List (Bytes × Bytes) =>
    a.length == b.length && a.all fun kv => b.lookup kv.1 == some kv.2) l.otherStats r.otherStats = true ↔
      Both SameEntries l.otherStats r.otherStats := by
    cases hl' : l.otherStats with
    | none => cases hr' : r.otherStats <;> simp [checkPointer, Both]
    | some a =>
      cases hr' : r.otherStats with
      | none => simp [checkPointer, Both]
      | some b => exact mapBeq_iff (hl a hl') (hr b hr')
  unfold ProfilingStats.beq
  rw [← hm]
  by_cases h1 : l.rows = r.rows <;> by_cases h2 : l.execDuration = r.execDuration <;> by_cases h3 : l.totalDuration = r.totalDuration <;>
    simp [h1, h2, h3]

/-- **C93** (partial: without the output variable).  Nodes of a plan are equal exactly if they agree in name, number, description,
profiles, branch and dependencies. -/
theorem C93_node_partial (l r : PlanNode) : PlanNode.beq l r = true ↔
    l.name = r.name ∧ l.id = r.id ∧ l.description = r.description ∧
      Both (Each fun x y => ProfilingStats.beq x y = true) l.profiles r.profiles ∧ l.branchInfo = r.branchInfo ∧
      l.dependencies = r.dependencies := by
  have hd : checkPointer (listBeq fun a b : Bytes × Bytes => a.1 == b.1 && a.2 == b.2) l.description r.description = true ↔ l.description = r.description := by
    have e : ∀ a b : List (Bytes × Bytes), (listBeq (fun a b : Bytes × Bytes => a.1 == b.1 && a.2 == b.2) a b = true) ↔ a = b := by
      intro a b
      rw [listBeq_iff, ← each_eq a b]
      simp only [Bool.and_eq_true, beq_iff_eq, Prod.ext_iff]
    cases l.description <;> cases r.description <;> simp [checkPointer, e]
  have hp : checkPointer (listBeq ProfilingStats.beq) l.profiles r.profiles = true ↔
      Both (Each fun x y => ProfilingStats.beq x y = true) l.profiles r.profiles := by
    cases l.profiles <;> cases r.profiles <;> simp [checkPointer, Both, listBeq_iff]
  have hb : checkPointer (fun a b : BranchInfo => a.isDoBranch == b.isDoBranch && a.conditionNodeId == b.conditionNodeId)
      l.branchInfo r.branchInfo = true ↔ l.branchInfo = r.branchInfo := by
    cases l.branchInfo with
    | none => cases r.branchInfo <;> simp [checkPointer]
    | some a =>
      cases r.branchInfo with
      | none => simp [checkPointer]
      | some b => obtain ⟨a1, a2⟩ := a; obtain ⟨b1, b2⟩ := b; simp [checkPointer]
  have he : checkPointer (listBeq fun a b : Int => a == b) l.dependencies r.dependencies = true ↔ l.dependencies = r.dependencies := by
    have e : ∀ a b : List Int, (listBeq (fun a b : Int => a == b) a b = true) ↔ a = b := by
      intro a b
      rw [listBeq_iff, ← each_eq a b]
      simp only [beq_iff_eq]
    cases l.dependencies <;> cases r.dependencies <;> simp [checkPointer, e]
  unfold PlanNode.beq
  rw [← hd, ← hp, ← hb, ← he]
  by_cases h1 : l.name = r.name <;> by_cases h2 : l.id = r.id <;> simp [h1, h2]

/-- **C93** (partial: without the time of the optimiser).  Plans are equal exactly if their nodes are, one by one, and they
agree in index and format. -/
theorem C93_plan_partial (l r : PlanDesc) (hl : (l.nodeIndexMap.map Prod.fst).Nodup) (hr : (r.nodeIndexMap.map Prod.fst).Nodup) :
    PlanDesc.beq l r = true ↔ Each (fun x y => PlanNode.beq x y = true) l.nodes r.nodes ∧
      SameEntries l.nodeIndexMap r.nodeIndexMap ∧ l.format = r.format := by
  unfold PlanDesc.beq
  rw [Bool.and_eq_true, Bool.and_eq_true, mapBeq_iff hl hr, listBeq_iff, beq_iff_eq, and_assoc]

/-- **C93** (the code's exceptions).  Nodes with different output variables, and plans with different times of the
optimiser, count as equal. -/
theorem C93_plan_violated : (∃ l r : PlanNode, l.outputVar ≠ r.outputVar ∧ PlanNode.beq l r = true) ∧
    ∃ l r : PlanDesc, l.optimizeTime ≠ r.optimizeTime ∧ PlanDesc.beq l r = true :=
  ⟨⟨{ outputVar := [1] }, { outputVar := [2] }, by simp, rfl⟩, ⟨{ optimizeTime := 1 }, { optimizeTime := 2 }, by simp, rfl⟩⟩

/-- **C93**.  Answers to a query are equal exactly if they agree in error code, latency, name of the space, message and
comment, and have equal tables and equal plans or none. -/
theorem C93_exec (l r : ExecResponse) : ExecResponse.beq l r = true ↔
    l.errorCode = r.errorCode ∧ l.latency = r.latency ∧
      Both (fun a b => Value.beq (.dataset a.1 a.2) (.dataset b.1 b.2) = true) l.data r.data ∧ l.spaceName = r.spaceName ∧
      l.errorMsg = r.errorMsg ∧ Both (fun a b => PlanDesc.beq a b = true) l.plan r.plan ∧ l.comment = r.comment := by
  unfold ExecResponse.beq
  rw [← checkPointer_iff, ← checkPointer_iff, ← checkPointer_eq l.spaceName, ← checkPointer_eq l.errorMsg, ← checkPointer_eq l.comment]
  by_cases h1 : l.errorCode = r.errorCode <;> by_cases h2 : l.latency = r.latency <;> simp [h1, h2]

/-- **C93**.  A cleared answer to a query can be read into again: nothing of its former contents remains. -/
theorem C93_exec_reuse {bits : F64 → Nat} (hb : BitsOk bits) (o r : ExecResponse) (h : ExecFit r) (rest : Bytes) :
    deserializeExec o.clear (serializeExec bits r ++ rest) = some (r.image, rest) := C92_exec hb r h rest

/-- **C93** (partial: the time zone).  Reading into a cleared answer to a login gives the answer read, except that a time zone
it does not carry is the former one. -/
theorem C93_auth_reuse_partial (o r : AuthResponse) (h : AuthFit r) (rest : Bytes) :
    readAuth o.clear (writeAuth r ++ rest) =
      some ({ r with timeZoneOffset := r.timeZoneOffset.or o.timeZoneOffset, timeZoneName := r.timeZoneName.or o.timeZoneName }, rest) := by
  rw [writeAuth, ← withExtra_nil, auth_wire]
  refine (auth_known h).read [] (by simp) (by simp [wfF]) ?_ (auth_final o.clear r).2 rest
  rw [(auth_final o.clear r).1]
  simp only [or_none', AuthResponse.clear]

/-- **C93** (the code's exception).  A cleared answer to a login keeps its time zone. -/
theorem C93_auth_reuse_violated : ∃ o r : AuthResponse, AuthFit r ∧ readAuth o.clear (writeAuth r) ≠ some (r, []) ∧
    (readAuth o.clear (writeAuth r)).map (fun x => x.1.timeZoneName) = some o.timeZoneName ∧ o.timeZoneName ≠ r.timeZoneName := by
  refine ⟨{ timeZoneName := some [65] }, {}, ⟨by simp [InI32], by simp, by simp, by simp, by simp⟩, ?_, ?_, by simp⟩
  · have := C93_auth_reuse_partial { timeZoneName := some [65] } {} ⟨by simp [InI32], by simp, by simp, by simp, by simp⟩ []
    rw [List.append_nil] at this
    rw [this]; simp
  · have := C93_auth_reuse_partial { timeZoneName := some [65] } {} ⟨by simp [InI32], by simp, by simp, by simp, by simp⟩ []
    rw [List.append_nil] at this
    rw [this]; rfl

example : AuthResponse.beq { sessionId := some 1 } { sessionId := none } = false ∧
    PlanNode.beq { dependencies := some [1] } { dependencies := some [2] } = false ∧
    ProfilingStats.beq { otherStats := some [([1], [2]), ([3], [4])] } { otherStats := some [([3], [4]), ([1], [2])] } = true := by
  refine ⟨rfl, rfl, by decide +kernel⟩

end Wire
end Nebula
