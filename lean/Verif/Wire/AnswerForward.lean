import Verif.Wire.ResponseProps
import Verif.Wire.ForwardProps
/-! # C160: an answer of the graph service that was received can be sent on -/
namespace Nebula
namespace Wire

theorem keeps_fld {σ α : Type} {P : α → Prop} {I : σ → Prop} {id : Nat} {rd : Bytes → Option (α × Bytes)} {set : σ → α → σ} (h : Yields P rd) (hs : ∀ s a, I s → P a → I (set s a)) :
    ∀ s bs s' r, I s.1 → fld id rd set s bs = some (s', r) → I s'.1 :=
  keeps_block (I := fun s : σ × List Nat => I s.1) h fun s a h1 h2 => hs s.1 a h1 h2

theorem yields_struct {σ : Type} {R : Reader (σ × List Nat)} {I : σ → Prop} (h : Keeps R fun s => I s.1) (req : List Nat) {o : σ} (ho : I o) : Yields I (readStruct R req o) := by
  intro bs a r e
  unfold readStruct at e
  split at e
  · cases e
  · next hr =>
    split at e
    · cases e; exact h.read ho _ _ _ hr
    · cases e

/-! ## Maps -/

theorem setEntry_keys {K V : Type} [BEq K] [LawfulBEq K] (m : List (K × V)) (k : K) (v : V) :
    (setEntry m k v).map Prod.fst = if m.any (fun kv => kv.1 == k) then m.map Prod.fst else m.map Prod.fst ++ [k] := by
  unfold setEntry
  split
  · rw [List.map_map]
    refine List.map_congr_left fun kv _ => ?_
    show (if (kv.1 == k) = true then (k, v) else kv).1 = kv.1
    by_cases h : kv.1 == k
    · rw [if_pos h]; exact (eq_of_beq h).symm
    · rw [if_neg h]
  · simp

theorem setEntry_length {K V : Type} [BEq K] (m : List (K × V)) (k : K) (v : V) : (setEntry m k v).length ≤ m.length + 1 := by
  unfold setEntry; split <;> simp

theorem setEntry_mem {K V : Type} [BEq K] {m : List (K × V)} {k : K} {v : V} {x : K × V} (h : x ∈ setEntry m k v) : x = (k, v) ∨ x ∈ m := by
  unfold setEntry at h
  split at h
  · obtain ⟨y, hy, rfl⟩ := List.mem_map.1 h
    by_cases hk : y.1 == k
    · left; simp [hk]
    · right; rw [if_neg hk]; exact hy
  · rcases List.mem_append.1 h with h | h
    · exact .inr h
    · left; simpa using h

theorem foldl_setEntry_sane {K V : Type} [BEq K] [LawfulBEq K] {Q : K × V → Prop} : ∀ (l m : List (K × V)), (∀ x ∈ l, Q x) → (∀ x ∈ m, Q x) → (m.map Prod.fst).Nodup →
    (∀ x ∈ l.foldl (fun m kv => setEntry m kv.1 kv.2) m, Q x) ∧ ((l.foldl (fun m kv => setEntry m kv.1 kv.2) m).map Prod.fst).Nodup ∧
      (l.foldl (fun m kv => setEntry m kv.1 kv.2) m).length ≤ m.length + l.length
  | [], m, _, h, hn => ⟨h, hn, by simp⟩
  | kv :: l, m, hl, h, hn => by
    have h1 : ∀ x ∈ setEntry m kv.1 kv.2, Q x := fun x hx => by
      rcases setEntry_mem hx with rfl | hx
      · exact hl _ List.mem_cons_self
      · exact h x hx
    have h2 : ((setEntry m kv.1 kv.2).map Prod.fst).Nodup := by
      rw [setEntry_keys]
      split
      · exact hn
      · next hk =>
        refine List.nodup_append.2 ⟨hn, by simp, fun a ha b hb => ?_⟩
        simp only [List.mem_singleton] at hb
        subst hb
        rintro rfl
        obtain ⟨x, hx, hxk⟩ := List.mem_map.1 ha
        exact hk (List.any_eq_true.2 ⟨x, hx, by simp [hxk]⟩)
    obtain ⟨a, b, c⟩ := foldl_setEntry_sane l _ (fun x hx => hl x (List.mem_cons_of_mem _ hx)) h1 h2
    have := setEntry_length m kv.1 kv.2
    refine ⟨a, b, ?_⟩
    simp only [List.foldl_cons, List.length_cons]
    omega

theorem yields_map {K V : Type} [BEq K] [LawfulBEq K] {P : K → Prop} {Q : V → Prop} {rk : Bytes → Option (K × Bytes)} {rv : Bytes → Option (V × Bytes)} (hk : Yields P rk)
    (hv : Yields Q rv) (kt vt : Nat) :
    Yields (fun m : List (K × V) => Small m.length ∧ (m.map Prod.fst).Nodup ∧ ∀ kv ∈ m, P kv.1 ∧ Q kv.2) (readMap rk rv kt vt) := by
  have none' : Small ([] : List (K × V)).length ∧ (([] : List (K × V)).map Prod.fst).Nodup ∧ ∀ kv ∈ ([] : List (K × V)), P kv.1 ∧ Q kv.2 := ⟨small_zero, by simp, by simp⟩
  intro bs a r e
  unfold readMap at e
  split at e
  · cases e
  · next k v n r1 hh =>
    have hn : Small n := by
      unfold readMapHeader at hh
      split at hh
      · cases hh
      · next hs =>
        split at hh
        · cases hh; exact small_zero
        · split at hh
          · cases hh
          · cases hh; exact yields_size _ _ _ hs
    split at e
    · cases e; exact none'
    · split at e
      · split at e
        · cases e
        · next kvs r2 hr =>
          cases e
          obtain ⟨h1, h2⟩ := readN_all (P := fun kv : K × V => P kv.1 ∧ Q kv.2) (by
            intro bs a r e
            dsimp only at e
            split at e
            · cases e
            · next h1 =>
              split at e
              · cases e
              · next h2 => cases e; exact ⟨hk _ _ _ h1, hv _ _ _ h2⟩) n _ _ _ hr
          obtain ⟨a, b, c⟩ := foldl_setEntry_sane kvs [] h2 (by simp) (by simp)
          refine ⟨?_, b, a⟩
          unfold Small at *; simp only [List.length_nil] at c; omega
      · split at e
        · cases e
        · cases e; exact none'

/-! ## The structures -/

theorem some_inj {α : Type} {P : α → Prop} {a : α} (h : P a) : ∀ x, some a = some x → P x := by intro x e; cases e; exact h
theorem none_inj {α : Type} {P : α → Prop} : ∀ x, none = some x → P x := by intro x e; cases e

theorem keeps_auth : Keeps authReader fun s => AuthFit s.1 := by
  intro id ty g h
  simp only [authReader] at h
  split at h
  · cases h; exact keeps_fld yields_i32 fun s a hs ha => ⟨ha, hs.session, hs.msg, hs.offset, hs.zone⟩
  split at h
  · cases h; exact keeps_fld yields_binary fun s a hs ha => ⟨hs.code, hs.session, some_inj ha, hs.offset, hs.zone⟩
  split at h
  · cases h; exact keeps_fld yields_i64 fun s a hs ha => ⟨hs.code, some_inj ha, hs.msg, hs.offset, hs.zone⟩
  split at h
  · cases h; exact keeps_fld yields_i32 fun s a hs ha => ⟨hs.code, hs.session, hs.msg, some_inj ha, hs.zone⟩
  split at h
  · cases h; exact keeps_fld yields_binary fun s a hs ha => ⟨hs.code, hs.session, hs.msg, hs.offset, some_inj ha⟩
  cases h

theorem yields_auth {o : AuthResponse} (ho : AuthFit o) : Yields AuthFit (readAuth o) := yields_struct keeps_auth _ ho

theorem keeps_stats : Keeps statsReader fun s => StatsFit s.1 := by
  intro id ty g h
  simp only [statsReader] at h
  split at h
  · cases h; exact keeps_fld yields_i64 fun s a hs ha => ⟨ha, hs.exec, hs.total, hs.other⟩
  split at h
  · cases h; exact keeps_fld yields_i64 fun s a hs ha => ⟨hs.rows, ha, hs.total, hs.other⟩
  split at h
  · cases h; exact keeps_fld yields_i64 fun s a hs ha => ⟨hs.rows, hs.exec, ha, hs.other⟩
  split at h
  · cases h; exact keeps_fld (yields_map yields_binary yields_binary _ _) fun s a hs ha => ⟨hs.rows, hs.exec, hs.total, some_inj ha⟩
  cases h

theorem in64 {x : Int} (h : -9223372036854775808 ≤ x ∧ x ≤ 9223372036854775807) : InI64 x := h

theorem stats_zero : StatsFit {} := ⟨in64 (by simp), in64 (by simp), in64 (by simp), none_inj⟩

theorem yields_stats : Yields StatsFit (readStats {}) := yields_struct keeps_stats _ stats_zero

theorem keeps_pair : Keeps pairReader fun s => Small s.1.1.length ∧ Small s.1.2.length := by
  intro id ty g h
  simp only [pairReader] at h
  split at h
  · cases h; exact keeps_fld (I := fun s : Bytes × Bytes => Small s.1.length ∧ Small s.2.length) yields_binary fun s a hs ha => ⟨ha, hs.2⟩
  split at h
  · cases h; exact keeps_fld (I := fun s : Bytes × Bytes => Small s.1.length ∧ Small s.2.length) yields_binary fun s a hs ha => ⟨hs.1, ha⟩
  cases h

theorem yields_pair : Yields (fun s : Bytes × Bytes => Small s.1.length ∧ Small s.2.length) (readPair ([], [])) := yields_struct keeps_pair _ ⟨small_zero, small_zero⟩

theorem runBranch_in : ∀ f curr s bs s' r, InI64 s.1.conditionNodeId → runBranch f curr s bs = some (s', r) → InI64 s'.1.conditionNodeId := by
  intro f
  induction f with
  | zero => intro _ _ _ _ _ _ e; cases e
  | succ f ih =>
    intro curr s bs s' r hs e
    rw [runBranch] at e
    split at e
    · cases e
    · cases e; exact hs
    · split at e
      · refine ih _ _ _ _ _ ?_ e; exact hs
      · split at e
        · split at e
          · cases e
          · next hx => exact ih _ _ _ _ _ (show InI64 _ from yields_i64 _ _ _ hx) e
        · split at e
          · cases e
          · exact ih _ _ _ _ _ hs e

theorem yields_branch : Yields (fun b : BranchInfo => InI64 b.conditionNodeId) (readBranch {}) := by
  intro bs a r e
  unfold readBranch at e
  split at e
  · cases e
  · next hr =>
    split at e
    · cases e; exact runBranch_in _ _ _ _ _ _ (in64 (by simp)) hr
    · cases e

theorem keeps_node : Keeps nodeReader fun s => NodeFit s.1 := by
  intro id ty g h
  simp only [nodeReader] at h
  split at h
  · cases h; exact keeps_fld yields_binary fun s a hs ha => ⟨ha, hs.id, hs.var, hs.desc, hs.prof, hs.branch, hs.deps⟩
  split at h
  · cases h; exact keeps_fld yields_i64 fun s a hs ha => ⟨hs.name, ha, hs.var, hs.desc, hs.prof, hs.branch, hs.deps⟩
  split at h
  · cases h; exact keeps_fld yields_binary fun s a hs ha => ⟨hs.name, hs.id, ha, hs.desc, hs.prof, hs.branch, hs.deps⟩
  split at h
  · cases h; exact keeps_fld (yields_list yields_pair _) fun s a hs ha => ⟨hs.name, hs.id, hs.var, some_inj ha, hs.prof, hs.branch, hs.deps⟩
  split at h
  · cases h; exact keeps_fld (yields_list yields_stats _) fun s a hs ha => ⟨hs.name, hs.id, hs.var, hs.desc, some_inj ha, hs.branch, hs.deps⟩
  split at h
  · cases h; exact keeps_fld yields_branch fun s a hs ha => ⟨hs.name, hs.id, hs.var, hs.desc, hs.prof, some_inj (P := fun b : BranchInfo => InI64 b.conditionNodeId) ha, hs.deps⟩
  split at h
  · cases h; exact keeps_fld (yields_list yields_i64 _) fun s a hs ha => ⟨hs.name, hs.id, hs.var, hs.desc, hs.prof, hs.branch, some_inj ha⟩
  cases h

theorem node_zero : NodeFit {} := ⟨small_zero, in64 (by simp), small_zero, none_inj, none_inj, none_inj, none_inj⟩

theorem yields_node : Yields NodeFit (readNode {}) := yields_struct keeps_node _ node_zero

theorem keeps_plan : Keeps planReader fun s => PlanFit s.1 := by
  intro id ty g h
  simp only [planReader] at h
  split at h
  · cases h; exact keeps_fld (yields_list yields_node _) fun s a hs ha => ⟨ha, hs.index, hs.format, hs.time⟩
  split at h
  · cases h; exact keeps_fld (yields_map yields_i64 yields_i64 _ _) fun s a hs ha => ⟨hs.nodes, ha, hs.format, hs.time⟩
  split at h
  · cases h; exact keeps_fld yields_binary fun s a hs ha => ⟨hs.nodes, hs.index, ha, hs.time⟩
  split at h
  · cases h; exact keeps_fld yields_i32 fun s a hs ha => ⟨hs.nodes, hs.index, hs.format, ha⟩
  cases h

theorem plan_zero : PlanFit {} := ⟨⟨small_zero, by simp⟩, ⟨small_zero, by simp, by simp⟩, small_zero, by unfold InI32; simp⟩

theorem yields_plan : Yields PlanFit (readPlan {}) := yields_struct keeps_plan _ plan_zero

/-- What holds of every answer that was received: it fits, and the table is sane (Verif.Wire.ReadFits). -/
structure ExecSane (r : ExecResponse) : Prop where
  fit : ExecFit r
  sane : ∀ d, r.data = some d → Sane (.dataset d.1 d.2)

theorem keeps_exec (f : Nat) : Keeps (execReader (readValue f)) fun s => ExecSane s.1 := by
  intro id ty g h
  simp only [execReader] at h
  split at h
  · cases h; exact keeps_fld yields_i32 fun s a ⟨hs, ht⟩ ha => ⟨⟨ha, hs.latency, hs.data, hs.space, hs.msg, hs.plan, hs.comment⟩, ht⟩
  split at h
  · cases h; exact keeps_fld yields_i32 fun s a ⟨hs, ht⟩ ha => ⟨⟨hs.code, ha, hs.data, hs.space, hs.msg, hs.plan, hs.comment⟩, ht⟩
  split at h
  · cases h
    have hd : Yields (fun x : List Bytes × List (List Value) => Sane (.dataset x.1 x.2)) ((dataSetReader (readValue f) .empty).read ([], [])) := by
      intro bs a r e
      have hx := (keeps_dataSet (yields_value f)).read (s := ([], [])) ⟨⟨small_zero, by simp⟩, small_zero, by simp⟩ bs a r e
      refine .mk ⟨⟨hx.1, hx.2.1, fun r hr => (hx.2.2 r hr).1⟩, trivial⟩ fun y hy => ?_
      obtain ⟨r, hr, hy⟩ := List.mem_flatten.1 hy
      exact (hx.2.2 r hr).2 y hy
    exact keeps_fld hd fun s a ⟨hs, ht⟩ ha => ⟨⟨hs.code, hs.latency, some_inj (P := fun d : List Bytes × List (List Value) => Fits (.dataset d.1 d.2)) (sane_fits ha), hs.space, hs.msg,
      hs.plan, hs.comment⟩, some_inj (P := fun d : List Bytes × List (List Value) => Sane (.dataset d.1 d.2)) ha⟩
  split at h
  · cases h; exact keeps_fld yields_binary fun s a ⟨hs, ht⟩ ha => ⟨⟨hs.code, hs.latency, hs.data, some_inj ha, hs.msg, hs.plan, hs.comment⟩, ht⟩
  split at h
  · cases h; exact keeps_fld yields_binary fun s a ⟨hs, ht⟩ ha => ⟨⟨hs.code, hs.latency, hs.data, hs.space, some_inj ha, hs.plan, hs.comment⟩, ht⟩
  split at h
  · cases h; exact keeps_fld yields_plan fun s a ⟨hs, ht⟩ ha => ⟨⟨hs.code, hs.latency, hs.data, hs.space, hs.msg, some_inj ha, hs.comment⟩, ht⟩
  split at h
  · cases h; exact keeps_fld yields_binary fun s a ⟨hs, ht⟩ ha => ⟨⟨hs.code, hs.latency, hs.data, hs.space, hs.msg, hs.plan, some_inj ha⟩, ht⟩
  cases h

theorem exec_zero : ExecSane {} := ⟨⟨by unfold InI32; simp, by unfold InI32; simp, none_inj, none_inj, none_inj, none_inj, none_inj⟩, none_inj⟩

theorem received_exec {bs rest : Bytes} {r : ExecResponse} (h : deserializeExec {} bs = some (r, rest)) : ExecSane r :=
  yields_struct (keeps_exec _) _ exec_zero _ _ _ h

/-! ## The theorems -/

/-- **C160.** An answer to a login, received from whatever bytes, arrives unchanged at the next host when it is sent on. -/
theorem C160_auth {bs r' : Bytes} {r : AuthResponse} (h : readAuth {} bs = some (r, r')) (rest : Bytes) : readAuth {} (writeAuth r ++ rest) = some (r, rest) :=
  C92_auth r (yields_auth ⟨by unfold InI32; simp, none_inj, none_inj, none_inj, none_inj⟩ _ _ _ h) rest

/-- **C160.** A plan, received from whatever bytes, arrives unchanged at the next host when it is sent on. -/
theorem C160_plan {bs r' : Bytes} {p : PlanDesc} (h : readPlan {} bs = some (p, r')) (rest : Bytes) : readPlan {} (writePlan p ++ rest) = some (p, rest) :=
  C92_plan p (yields_plan _ _ _ h) rest

/-- **C160.** An answer to a query, received from whatever bytes, can be sent on: the next host receives it, the values of its table as in C67 and everything else unchanged. -/
theorem C160_exec {bits : F64 → Nat} (hb : BitsOk bits) {bs r' : Bytes} {r : ExecResponse} (h : deserializeExec {} bs = some (r, r')) (rest : Bytes) :
    deserializeExec {} (serializeExec bits r ++ rest) = some (r.image, rest) := C92_exec hb r (received_exec h).fit rest

/-- **C160** (partial: edge and step types in the table that are directions).  The next host receives the very answer. -/
theorem C160_same_partial {bits : F64 → Nat} (hb : BitsOk bits) {bs r' : Bytes} {r : ExecResponse} (h : deserializeExec {} bs = some (r, r'))
    (hd : ∀ d, r.data = some d → ∀ row ∈ d.2, ∀ v ∈ row, Value.Hered DirHere v) (rest : Bytes) : deserializeExec {} (serializeExec bits r ++ rest) = some (r, rest) :=
  C92_exec_plain hb r (received_exec h).fit (fun d hd' row hrow v hv =>
    sane_plain (((received_exec h).sane d hd').kids v (List.mem_flatten.2 ⟨row, hrow, hv⟩)) (hd d hd' row hrow v hv)) rest

/-- **C160 (from the second host on).** Every host after the next receives what the next did. -/
theorem C160_stable {bits : F64 → Nat} (hb : BitsOk bits) {bs r' : Bytes} {r : ExecResponse} (h : deserializeExec {} bs = some (r, r')) (rest : Bytes) :
    deserializeExec {} (serializeExec bits r.image ++ rest) = some (r.image, rest) := by
  refine C160_same_partial hb (C160_exec hb h []) (fun d hd row hrow v hv => ?_) rest
  obtain ⟨d', _, rfl⟩ := Option.map_eq_some_iff.1 hd
  obtain ⟨row', _, rfl⟩ := List.mem_map.1 hrow
  obtain ⟨v', _, rfl⟩ := List.mem_map.1 hv
  exact image_dir v'

/-- An answer that arrives with its fields in another order and one of them twice, as no host writes it: it is received, and can be sent on. -/
example : ∃ bs r, deserializeExec {} bs = some (r, []) ∧ r.latency = 3 ∧ r.errorCode = -1 ∧ r.data = none := by
  refine ⟨[37, 6, 5, 2, 0, 5, 2, 1, 0], _, by rfl, rfl, rfl, rfl⟩

/-- The answer with one row, an edge of type `t`. -/
def edgeAnswer (t : Int) : ExecResponse := { latency := 3, data := some ([], [[.edge ⟨.empty, .empty, t, [], 0, []⟩]]) }

/-- **C160, violated.** Bytes of an answer with an edge of type 5, which another program may send: this one receives 5 and sends 1 on. -/
theorem C160_type_violated {bits : F64 → Nat} (hb : BitsOk bits) : ∃ bs, deserializeExec {} bs = some (edgeAnswer 5, []) ∧
    deserializeExec {} (serializeExec bits (edgeAnswer 5)) = some (edgeAnswer 1, []) := by
  have h : deserializeExec {} [21, 0, 21, 6, 28, 25, 8, 25, 28, 25, 28, 172, 53, 10, 0, 0, 0, 0, 0] = some (edgeAnswer 5, []) := by rfl
  refine ⟨_, h, ?_⟩
  have := C160_exec hb h []
  rw [List.append_nil] at this
  rw [this]; rfl

end Wire
end Nebula
