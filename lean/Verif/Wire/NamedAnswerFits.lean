import Verif.Wire.NamedFits
/-! # C161: an answer that was received by names can be sent on -/
namespace Nebula
namespace Wire
namespace Named

theorem keeps_fld {σ α : Type} {P : α → Prop} {I : σ → Prop} {id : Nat} {rd : Doc → Option α} {set : σ → α → σ} (h : Yields P rd) (hs : ∀ s a, I s → P a → I (set s a)) :
    ∀ s d s', DocFits d → I s.1 → fld id rd set s d = some s' → I s'.1 :=
  keeps_put (I := fun s : σ × List Nat => I s.1) h fun s a h1 h2 => hs s.1 a h1 h2

theorem yields_struct {σ : Type} {R : Reader (σ × List Nat)} {I : σ → Prop} (h : Keeps R fun s => I s.1) (req : List Nat) {o : σ} (ho : I o) : Yields I (readStruct R req o) := by
  intro d a hd e
  unfold readStruct at e
  split at e
  · cases e
  · next hr =>
    split at e
    · cases e; exact h.read ho _ _ hd hr
    · cases e

theorem yields_texts : Yields (fun m : List (Bytes × Bytes) => Small m.length ∧ (m.map Prod.fst).Nodup ∧ ∀ kv ∈ m, Small kv.1.length ∧ Small kv.2.length) (readProps readText) := by
  intro d a hd e
  cases d <;> simp only [readProps] at e
  case obj l =>
    simp only [DocFits] at hd
    obtain ⟨kvs, hk, rfl⟩ := Option.map_eq_some_iff.1 e
    obtain ⟨h1, h2⟩ := readAll_all (P := fun kv : Bytes × Bytes => Small kv.1.length ∧ Small kv.2.length) (by
      intro x y hx hy
      obtain ⟨v, hv, rfl⟩ := Option.map_eq_some_iff.1 hy
      exact ⟨hx.1, yields_text _ _ hx.2 hv⟩) (entries_mem hd.2) hk
    obtain ⟨a, b, c⟩ := foldl_mapSet_sane kvs [] h2 (by simp) (by simp)
    have h0 := hd.1
    exact ⟨by unfold Small at *; simp only [List.length_nil] at c; omega, b, a⟩
  all_goals cases e

theorem yields_table : Yields (fun m : List (Int × Int) => Small m.length ∧ (m.map Prod.fst).Nodup ∧ ∀ kv ∈ m, InI64 kv.1 ∧ InI64 kv.2) readTable := by
  intro d a hd e
  cases d <;> simp only [readTable] at e
  case table l =>
    simp only [DocFits] at hd
    obtain ⟨kvs, hk, rfl⟩ := Option.map_eq_some_iff.1 e
    obtain ⟨h1, h2⟩ := readAll_all (Q := fun _ => True) (P := fun kv : Int × Int => InI64 kv.1 ∧ InI64 kv.2) (by
      intro x y _ hy
      by_cases hx : InI64 x.1 ∧ InI64 x.2
      · rw [if_pos hx] at hy; cases hy; exact hx
      · rw [if_neg hx] at hy; cases hy) (fun _ _ => trivial) hk
    obtain ⟨a, b, c⟩ := foldl_setEntry_sane kvs [] h2 (by simp) (by simp)
    exact ⟨by unfold Small at *; simp only [List.length_nil] at c; omega, b, a⟩
  all_goals cases e

theorem keeps_auth : Keeps authReader fun s => AuthFit s.1 := by
  intro id ty g h
  simp only [authReader] at h
  split at h
  · cases h; exact keeps_fld yields_i32 fun s a hs ha => ⟨ha, hs.session, hs.msg, hs.offset, hs.zone⟩
  split at h
  · cases h; exact keeps_fld yields_text fun s a hs ha => ⟨hs.code, hs.session, some_inj ha, hs.offset, hs.zone⟩
  split at h
  · cases h; exact keeps_fld yields_i64 fun s a hs ha => ⟨hs.code, some_inj ha, hs.msg, hs.offset, hs.zone⟩
  split at h
  · cases h; exact keeps_fld yields_i32 fun s a hs ha => ⟨hs.code, hs.session, hs.msg, some_inj ha, hs.zone⟩
  split at h
  · cases h; exact keeps_fld yields_text fun s a hs ha => ⟨hs.code, hs.session, hs.msg, hs.offset, some_inj ha⟩
  cases h

theorem yields_auth {o : AuthResponse} (ho : AuthFit o) : Yields AuthFit (readAuth o) := yields_struct keeps_auth _ ho

theorem keeps_stats : Keeps statsReader fun s => StatsFit s.1 := by
  intro id ty g h
  simp only [statsReader] at h
  split at h
  · cases h; exact keeps_fld yields_i64 fun s a hs ha => ⟨ha, hs.exec, hs.total, hs.other⟩
  split at h
  · cases h; exact keeps_fld yields_i64 fun s a hs ha => ⟨hs.rows, ha, hs.total, hs.other⟩
  split at h
  · cases h; exact keeps_fld yields_i64 fun s a hs ha => ⟨hs.rows, hs.exec, ha, hs.other⟩
  split at h
  · cases h; exact keeps_fld yields_texts fun s a hs ha => ⟨hs.rows, hs.exec, hs.total, some_inj ha⟩
  cases h

theorem yields_stats : Yields StatsFit (readStats {}) := yields_struct keeps_stats _ stats_zero

theorem keeps_pair : Keeps pairReader fun s => Small s.1.1.length ∧ Small s.1.2.length := by
  intro id ty g h
  simp only [pairReader] at h
  split at h
  · cases h; exact keeps_fld (I := fun s : Bytes × Bytes => Small s.1.length ∧ Small s.2.length) yields_text fun s a hs ha => ⟨ha, hs.2⟩
  split at h
  · cases h; exact keeps_fld (I := fun s : Bytes × Bytes => Small s.1.length ∧ Small s.2.length) yields_text fun s a hs ha => ⟨hs.1, ha⟩
  cases h

theorem yields_pair : Yields (fun s : Bytes × Bytes => Small s.1.length ∧ Small s.2.length) (readPair ([], [])) := yields_struct keeps_pair _ ⟨small_zero, small_zero⟩

theorem keeps_branch : Keeps branchReader fun s => InI64 s.1.conditionNodeId := by
  intro id ty g h
  simp only [branchReader] at h
  split at h
  · cases h; exact keeps_fld (I := fun b : BranchInfo => InI64 b.conditionNodeId) (P := fun _ => True) (fun _ _ _ _ => trivial) fun s a hs _ => hs
  split at h
  · cases h; exact keeps_fld (I := fun b : BranchInfo => InI64 b.conditionNodeId) yields_i64 fun s a _ ha => ha
  cases h

theorem yields_branch : Yields (fun b : BranchInfo => InI64 b.conditionNodeId) (readBranch {}) := yields_struct keeps_branch _ (in64 (by simp))

theorem keeps_node : Keeps nodeReader fun s => NodeFit s.1 := by
  intro id ty g h
  simp only [nodeReader] at h
  split at h
  · cases h; exact keeps_fld yields_text fun s a hs ha => ⟨ha, hs.id, hs.var, hs.desc, hs.prof, hs.branch, hs.deps⟩
  split at h
  · cases h; exact keeps_fld yields_i64 fun s a hs ha => ⟨hs.name, ha, hs.var, hs.desc, hs.prof, hs.branch, hs.deps⟩
  split at h
  · cases h; exact keeps_fld yields_text fun s a hs ha => ⟨hs.name, hs.id, ha, hs.desc, hs.prof, hs.branch, hs.deps⟩
  split at h
  · cases h; exact keeps_fld (yields_seq yields_pair) fun s a hs ha => ⟨hs.name, hs.id, hs.var, some_inj ha, hs.prof, hs.branch, hs.deps⟩
  split at h
  · cases h; exact keeps_fld (yields_seq yields_stats) fun s a hs ha => ⟨hs.name, hs.id, hs.var, hs.desc, some_inj ha, hs.branch, hs.deps⟩
  split at h
  · cases h; exact keeps_fld yields_branch fun s a hs ha => ⟨hs.name, hs.id, hs.var, hs.desc, hs.prof, some_inj (P := fun b : BranchInfo => InI64 b.conditionNodeId) ha, hs.deps⟩
  split at h
  · cases h; exact keeps_fld (yields_seq yields_i64) fun s a hs ha => ⟨hs.name, hs.id, hs.var, hs.desc, hs.prof, hs.branch, some_inj ha⟩
  cases h

theorem yields_node : Yields NodeFit (readNode {}) := yields_struct keeps_node _ node_zero

theorem keeps_plan : Keeps planReader fun s => PlanFit s.1 := by
  intro id ty g h
  simp only [planReader] at h
  split at h
  · cases h; exact keeps_fld (yields_seq yields_node) fun s a hs ha => ⟨ha, hs.index, hs.format, hs.time⟩
  split at h
  · cases h; exact keeps_fld yields_table fun s a hs ha => ⟨hs.nodes, ha, hs.format, hs.time⟩
  split at h
  · cases h; exact keeps_fld yields_text fun s a hs ha => ⟨hs.nodes, hs.index, ha, hs.time⟩
  split at h
  · cases h; exact keeps_fld yields_i32 fun s a hs ha => ⟨hs.nodes, hs.index, hs.format, ha⟩
  cases h

theorem yields_plan : Yields PlanFit (readPlan {}) := yields_struct keeps_plan _ plan_zero

theorem keeps_exec (f : Nat) : Keeps (execReader (readValue f)) fun s => ExecSane s.1 := by
  intro id ty g h
  simp only [execReader] at h
  split at h
  · cases h; exact keeps_fld yields_i32 fun s a ⟨hs, ht⟩ ha => ⟨⟨ha, hs.latency, hs.data, hs.space, hs.msg, hs.plan, hs.comment⟩, ht⟩
  split at h
  · cases h; exact keeps_fld yields_i32 fun s a ⟨hs, ht⟩ ha => ⟨⟨hs.code, ha, hs.data, hs.space, hs.msg, hs.plan, hs.comment⟩, ht⟩
  split at h
  · cases h
    have hd : Yields (fun x : List Bytes × List (List Value) => Sane (.dataset x.1 x.2)) ((dataSetReader (readValue f) .empty).read ([], [])) := by
      intro d a hd e
      have hx := (keeps_dataSet (yields_value f)).read (s := ([], [])) ⟨⟨small_zero, by simp⟩, small_zero, by simp⟩ d a hd e
      refine .mk ⟨⟨hx.1, hx.2.1, fun r hr => (hx.2.2 r hr).1⟩, trivial⟩ fun y hy => ?_
      obtain ⟨r, hr, hy⟩ := List.mem_flatten.1 hy
      exact (hx.2.2 r hr).2 y hy
    exact keeps_fld hd fun s a ⟨hs, ht⟩ ha => ⟨⟨hs.code, hs.latency, some_inj (P := fun d : List Bytes × List (List Value) => Fits (.dataset d.1 d.2)) (sane_fits ha), hs.space, hs.msg,
      hs.plan, hs.comment⟩, some_inj (P := fun d : List Bytes × List (List Value) => Sane (.dataset d.1 d.2)) ha⟩
  split at h
  · cases h; exact keeps_fld yields_text fun s a ⟨hs, ht⟩ ha => ⟨⟨hs.code, hs.latency, hs.data, some_inj ha, hs.msg, hs.plan, hs.comment⟩, ht⟩
  split at h
  · cases h; exact keeps_fld yields_text fun s a ⟨hs, ht⟩ ha => ⟨⟨hs.code, hs.latency, hs.data, hs.space, some_inj ha, hs.plan, hs.comment⟩, ht⟩
  split at h
  · cases h; exact keeps_fld yields_plan fun s a ⟨hs, ht⟩ ha => ⟨⟨hs.code, hs.latency, hs.data, hs.space, hs.msg, some_inj ha, hs.comment⟩, ht⟩
  split at h
  · cases h; exact keeps_fld yields_text fun s a ⟨hs, ht⟩ ha => ⟨⟨hs.code, hs.latency, hs.data, hs.space, hs.msg, hs.plan, some_inj ha⟩, ht⟩
  cases h

/-! ## The theorems -/

/-- **C161 (answers in range).** Whatever document an answer to a query, an answer to a login or a plan was read from by names: everything in it is in the range of its type. -/
theorem C161_answer_fits {d : Doc} (hd : DocFits d) : (∀ r, readExec {} d = some r → ExecFit r) ∧ (∀ r, readAuth {} d = some r → AuthFit r) ∧ ∀ p, readPlan {} d = some p → PlanFit p :=
  ⟨fun _ h => (yields_struct (keeps_exec _) _ exec_zero _ _ hd h).fit,
    fun _ h => yields_auth ⟨by unfold InI32; simp, none_inj, none_inj, none_inj, none_inj⟩ _ _ hd h, fun _ h => yields_plan _ _ hd h⟩

/-- **C161 (answers from names to bytes).** An answer to a query that was read by names, from whatever document, can be sent on in the compact protocol: the next host reads it, the values of its
table as in C67 and everything else unchanged.  Answers to logins arrive unchanged. -/
theorem C161_answer_taken {bits : F64 → Nat} (hb : BitsOk bits) {d : Doc} (hd : DocFits d) (rest : Bytes) :
    (∀ r, readExec {} d = some r → deserializeExec {} (serializeExec bits r ++ rest) = some (r.image, rest)) ∧
    ∀ r, readAuth {} d = some r → Wire.readAuth {} (Wire.writeAuth r ++ rest) = some (r, rest) :=
  ⟨fun r h => C92_exec hb r ((C161_answer_fits hd).1 r h) rest, fun r h => C92_auth r ((C161_answer_fits hd).2.1 r h) rest⟩

/-- Fields in another order, one of them twice. -/
example : ∃ d r, DocFits d ∧ readExec {} d = some r ∧ r = { errorCode := -1, latency := 7, comment := some [99] } :=
  ⟨.obj [(ascii "comment", .text [99]), (ascii "latency_in_us", .num 5), (ascii "error_code", .num (-1)), (ascii "latency_in_us", .num 7)], _,
    by simp [DocFits, EntriesFit, Small, ascii], by exact rfl, rfl⟩

end Named
end Wire
end Nebula
