import Verif.Wire.NamedOrder
import Verif.Wire.NamedIdl
/-!
# Protocols that identify fields by name (C148)

What is written with such a protocol (JSON) is read back as with the compact protocol, except that every set arrives
empty: the name of its field is translated to another type than the one the reader accepts.
-/
namespace Nebula
namespace Wire
namespace Named

/-- C148: what arrives of any value: as it was (edge types by their direction), with every set emptied. -/
theorem C148_arrives (v : Value) (h : Fits v) : deserialize (writeValue v) = some (textImage v) :=
  readValue_write v h _ _ (Nat.le_refl _)

/-- C148, for values without (non-empty) sets: they arrive as through the compact protocol.  Missing: sets
(`C148_set_violated`). -/
theorem C148_values_partial (v : Value) (h : Fits v) (hs : Setless v) : deserialize (writeValue v) = some (wireImage v) := by
  rw [C148_arrives v h, textImage_setless v hs]

/-- C148 violated: whatever its elements, a set arrives empty. -/
theorem C148_set_violated (l : List Value) : deserialize (writeValue (.set l)) = some (.set []) := by
  rw [deserialize]
  obtain ⟨f, hf⟩ : ∃ f, (writeValue (.set l)).size = f + 1 := ⟨(writeValue (.set l)).size - 1, by
    have := size_pos (writeValue (.set l)); omega⟩
  rw [hf, writeValue_eqn]
  exact readValue_one (by exact rfl) (by exact rfl) (put_eq (read_set []))

example : Fits (.list [.int 1, .set [.int 2, .int 3], .str [97]]) ∧
    deserialize (writeValue (.list [.int 1, .set [.int 2, .int 3], .str [97]])) = some (.list [.int 1, .set [], .str [97]]) := by
  have h : Fits (.list [.int 1, .set [.int 2, .int 3], .str [97]]) := by
    have hi : ∀ i, InI64 i → Fits (.int i) := fun i hi => .mk hi (by simp [Value.children])
    refine .mk (by simp [FitsHere, Small]) ?_
    intro x hx
    simp only [Value.children, List.mem_cons, List.not_mem_nil, or_false] at hx
    rcases hx with rfl | rfl | rfl
    · exact hi 1 (by simp [InI64])
    · refine .mk (by simp [FitsHere, Small]) ?_
      intro x hx
      simp only [Value.children, List.mem_cons, List.not_mem_nil, or_false] at hx
      rcases hx with rfl | rfl
      · exact hi 2 (by simp [InI64])
      · exact hi 3 (by simp [InI64])
    · exact .mk (by simp [FitsHere, Small]) (by simp [Value.children])
  exact ⟨h, by rw [C148_arrives _ h]; rfl⟩

/-- C148: the structures that are not values. -/
theorem C148_structures (kv kv0 : Bytes × Bytes) (h h0 : HostAddr) (hp : -2147483648 ≤ h.port ∧ h.port ≤ 2147483647) :
    keyValueReader.read kv0 (writeKeyValue kv) = some kv ∧ hostAddrReader.read h0 (writeHostAddr h) = some h := by
  constructor
  · simp only [writeKeyValue, Reader.read]
    refine Eq.trans (fields_cons _ (by exact rfl) (by exact rfl) (put_eq (a := kv.1) rfl)) ?_
    refine Eq.trans (fields_cons _ (by exact rfl) (by exact rfl) (put_eq (a := kv.2) rfl)) ?_
    rfl
  · simp only [writeHostAddr, Reader.read]
    refine Eq.trans (fields_cons _ (by exact rfl) (by exact rfl) (put_eq (a := h.host) rfl)) ?_
    refine Eq.trans (fields_cons _ (by exact rfl) (by exact rfl) (put_eq (readNum_ok hp))) ?_
    rfl

example : (-2147483648 : Int) ≤ (⟨[104], 9669⟩ : HostAddr).port ∧ (⟨[104], 9669⟩ : HostAddr).port ≤ 2147483647 := by decide

/-- C148: the answers of the graph service, read into a new object: each field that was set is set again and the others
are not; the table as in `C148_arrives`. -/
theorem C148_answers (a : AuthResponse) (ha : AuthFit a) (p : PlanDesc) (hp : PlanFit p) (r : ExecResponse) (hr : ExecFit r) :
    readAuth {} (writeAuth a) = some a ∧ readPlan {} (writePlan p) = some p ∧
    readExec {} (writeExec r) = some { r with data := r.data.map fun d => (d.1, d.2.map (List.map textImage)) } :=
  ⟨read_auth ha, read_plan hp, read_exec hr⟩

example : AuthFit { errorCode := -1001, errorMsg := some [110, 111] } ∧
    PlanFit { nodes := [{ name := [65], id := 1, dependencies := some [2, 3] }], nodeIndexMap := [(1, 0)], format := [114] } ∧
    ExecFit { errorCode := 0, latency := 12, spaceName := some [115] } := by
  refine ⟨⟨by simp [InI32], by simp, by simp [Small], by simp, by simp⟩, ⟨⟨by simp [Small], ?_⟩, ⟨by simp [Small], by simp, by simp [InI64]⟩, by simp [Small], by simp [InI32]⟩,
    ⟨by simp [InI32], by simp [InI32], by simp, by simp [Small], by simp, by simp, by simp⟩⟩
  intro x hx
  simp only [List.mem_cons, List.not_mem_nil, or_false] at hx
  subst hx
  exact ⟨by simp [Small], by simp [InI64], by simp [Small], by simp, by simp, by simp, by simp [Small, InI64]⟩

/-- C148, for tables without (non-empty) sets: the answer arrives as through the compact protocol. -/
theorem C148_answer_partial (r : ExecResponse) (hr : ExecFit r) (hs : ∀ d, r.data = some d → ∀ row ∈ d.2, ∀ v ∈ row, Setless v) :
    readExec {} (writeExec r) = some r.image := by
  rw [read_exec hr, ExecResponse.image]
  cases hd : r.data with
  | none => rfl
  | some d =>
    have : d.2.map (List.map textImage) = d.2.map (List.map wireImage) :=
      List.map_congr_left fun row hrow => List.map_congr_left fun v hv => textImage_setless v (hs d hd row hrow v hv)
    simp [this]

example : ∀ d, ({ errorCode := 0, latency := 12, data := some ([[110]], [[.int 1], [.str [97]]]) } : ExecResponse).data = some d →
    ∀ row ∈ d.2, ∀ v ∈ row, Setless v := by
  intro d hd row hrow v hv
  simp only [Option.some.injEq] at hd
  subst hd
  simp only [List.mem_cons, List.not_mem_nil, or_false] at hrow
  rcases hrow with rfl | rfl <;> simp only [List.mem_cons, List.not_mem_nil, or_false] at hv <;> subst hv <;>
    exact .mk (by simp [SetlessHere]) (by simp [Value.children])

/-- C148: fields with names that a structure does not have are passed over, wherever they are. -/
theorem C148_unknown {σ : Type} (R : Reader σ) (s : σ) (fs : List (Bytes × Doc)) :
    R.read s (.obj fs) = R.read s (.obj (fs.filter fun f => R.names.any fun x => x.1 == f.1)) := by
  simp only [Reader.read]
  induction fs generalizing s with
  | nil => rfl
  | cons f fs ih =>
    obtain ⟨n, d⟩ := f
    by_cases hk : (R.names.any fun x => x.1 == n) = true
    · rw [List.filter_cons_of_pos (p := fun f : Bytes × Doc => R.names.any fun x => x.1 == f.1) hk]
      simp only [Reader.fields]
      cases R.block n with
      | none => exact ih s
      | some g =>
        simp only
        cases g s d with
        | none => rfl
        | some s' => exact ih s'
    · rw [List.filter_cons_of_neg (p := fun f : Bytes × Doc => R.names.any fun x => x.1 == f.1) hk, ← ih]
      have : R.names.lookup n = none := by
        cases h : R.names.lookup n with
        | none => rfl
        | some x => exact absurd (List.any_eq_true.2 ⟨_, lookup_mem h, by simp⟩) hk
      have hb : R.block n = none := by simp [Reader.block, this]
      rw [Reader.fields, hb]

example : dateReader.read Date.default (.obj [(ascii "zone", .text [90]), (ascii "day", .num 7), (ascii "year", .num 2021)]) =
    some { Date.default with day := 7, year := 2021 } := by rfl

/-- C148: a document with the fields in another order is read the same. -/
theorem C148_order {l r : List (Bytes × Doc)} (hp : l.Perm r) (hn : (l.map Prod.fst).Nodup) (f : Nat) :
    (∀ s, dateReader.read s (.obj l) = dateReader.read s (.obj r)) ∧
    (∀ s, timeReader.read s (.obj l) = timeReader.read s (.obj r)) ∧
    (∀ s, dateTimeReader.read s (.obj l) = dateTimeReader.read s (.obj r)) ∧
    (∀ s, keyValueReader.read s (.obj l) = keyValueReader.read s (.obj r)) ∧
    (∀ s, hostAddrReader.read s (.obj l) = hostAddrReader.read s (.obj r)) ∧
    (∀ s, (tagReader (readValue f) .empty).read s (.obj l) = (tagReader (readValue f) .empty).read s (.obj r)) ∧
    (∀ s, (vertexReader (readValue f) .empty).read s (.obj l) = (vertexReader (readValue f) .empty).read s (.obj r)) ∧
    (∀ s, (edgeReader (readValue f) .empty).read s (.obj l) = (edgeReader (readValue f) .empty).read s (.obj r)) ∧
    (∀ s, (stepReader (readValue f) .empty).read s (.obj l) = (stepReader (readValue f) .empty).read s (.obj r)) ∧
    (∀ s, (pathReader (readValue f) .empty).read s (.obj l) = (pathReader (readValue f) .empty).read s (.obj r)) ∧
    (∀ s, (dataSetReader (readValue f) .empty).read s (.obj l) = (dataSetReader (readValue f) .empty).read s (.obj r)) :=
  ⟨fields_perm order_date hp hn, fields_perm order_time hp hn, fields_perm order_dateTime hp hn, fields_perm order_keyValue hp hn,
    fields_perm order_hostAddr hp hn, fields_perm (order_tag _ _) hp hn, fields_perm (order_vertex _ _) hp hn,
    fields_perm (order_edge _ _) hp hn, fields_perm (order_step _ _) hp hn, fields_perm (order_path _ _) hp hn,
    fields_perm (order_dataSet _ _) hp hn⟩

example : [(ascii "day", Doc.num 7), (ascii "year", Doc.num 2021)].Perm [(ascii "year", Doc.num 2021), (ascii "day", Doc.num 7)] ∧
    ([(ascii "day", Doc.num 7), (ascii "year", Doc.num 2021)].map Prod.fst).Nodup := ⟨List.Perm.swap _ _ _, by decide +kernel⟩

/-- C148: a value is one field or none: two fields are refused, an unknown one leaves the object as it was. -/
theorem C148_union (f : Nat) (old : Value) (n : Bytes) (d : Doc) (m : Bytes) (e : Doc) (r : List (Bytes × Doc)) :
    readValue (f + 1) old (.obj []) = some .empty ∧
    readValue (f + 1) old (.obj ((n, d) :: (m, e) :: r)) = none ∧
    (n ∉ (["nVal", "bVal", "iVal", "fVal", "sVal", "dVal", "tVal", "dtVal", "vVal", "eVal", "pVal", "lVal", "mVal", "uVal", "gVal"].map ascii) →
      readValue (f + 1) old (.obj [(n, d)]) = some old) := by
  refine ⟨rfl, rfl, fun h => ?_⟩
  have hl : (unionReader (readValue f)).names.lookup n = none := by
    cases hx : (unionReader (readValue f)).names.lookup n with
    | none => rfl
    | some x =>
      have := lookup_mem hx
      exact absurd (List.mem_map_of_mem (f := Prod.fst) this) (by simpa [unionReader] using h)
  have hb : (unionReader (readValue f)).block n = none := by simp [Reader.block, hl]
  rw [readValue, Reader.fields, hb]; rfl

example : ascii "xVal" ∉ (["nVal", "bVal", "iVal", "fVal", "sVal", "dVal", "tVal", "dtVal", "vVal", "eVal", "pVal", "lVal", "mVal", "uVal", "gVal"].map ascii) := by
  decide +kernel

/-- C148: what is written are the documents that the interface files declare: the data of C131 with each number of a
field replaced by its declared name. -/
theorem C148_declared {bits : F64 → Nat} (hb : BitsOk bits) :
    (∀ v, Fits v → writeValue v = render (.struct .value) (idl bits v)) ∧
    (∀ kv, writeKeyValue kv = render (.struct .keyValue) (keyValueIdl kv)) ∧
    (∀ h, writeHostAddr h = render (.struct .hostAddr) (hostAddrIdl h)) ∧
    (∀ r, writeAuth r = render (.struct .authResponse) (authIdl r)) ∧
    (∀ p, writePlan p = render (.struct .planDescription) (planIdl p)) ∧
    (∀ r, ExecFit r → writeExec r = render (.struct .executionResponse) (execIdl bits r)) := by
  refine ⟨writeValue_render hb, fun kv => ?_, fun h => ?_, rAuth, rPlan, fun r hr => rExec hb r fun d hd row h1 v h2 =>
    (hr.data d hd).kids v (List.mem_flatten.2 ⟨row, h1, h2⟩)⟩
  · rw [writeKeyValue, keyValueIdl, render]
    exact congrArg _ (renderF_cons (by rfl) (by simp [render]) (renderF_cons (by rfl) (by simp [render]) (by simp [renderF])))
  · rw [writeHostAddr, hostAddrIdl, render]
    exact congrArg _ (renderF_cons (by rfl) (by simp [render]) (renderF_cons (by rfl) (by simp [render]) (by simp [renderF])))

example : render (.struct .value) (idl (fun _ => 0) (.list [.int 5, .date ⟨2021, 2, 3⟩])) =
    .obj [(ascii "lVal", .obj [(ascii "values", .seq [.obj [(ascii "iVal", .num 5)],
      .obj [(ascii "dVal", .obj [(ascii "year", .num 2021), (ascii "month", .num 2), (ascii "day", .num 3)])]])])] := by rfl

/-- C148: the readers translate names to the numbers and types that the interface files declare, all but that of sets. -/
theorem C148_names_partial {V : Type} (rv : V → Doc → Option V) (v0 : V) (ru : Value → Doc → Option Value) :
    (unionReader ru).names = translation .value ∧ dateReader.names = translation .date ∧ timeReader.names = translation .time ∧
    dateTimeReader.names = translation .dateTime ∧ (listReader rv v0).names = translation .nList ∧
    (listReader rv v0).names = translation .row ∧ (mapReader rv v0).names = translation .nMap ∧
    (dataSetReader rv v0).names = translation .dataSet ∧ (tagReader rv v0).names = translation .tag ∧
    (vertexReader rv v0).names = translation .vertex ∧ (edgeReader rv v0).names = translation .edge ∧
    (stepReader rv v0).names = translation .step ∧ (pathReader rv v0).names = translation .path ∧
    hostAddrReader.names = translation .hostAddr ∧ keyValueReader.names = translation .keyValue ∧
    statsReader.names = translation .profilingStats ∧ branchReader.names = translation .planNodeBranchInfo ∧
    pairReader.names = translation .pair ∧ nodeReader.names = translation .planNodeDescription ∧
    planReader.names = translation .planDescription ∧ (execReader ru).names = translation .executionResponse ∧
    authReader.names = translation .authResponse :=
  ⟨rfl, rfl, rfl, rfl, rfl, rfl, rfl, rfl, rfl, rfl, rfl, rfl, rfl, rfl, rfl, rfl, rfl, rfl, rfl, rfl, rfl, rfl⟩

/-- C148 violated: the type of the field of a set is not the declared one. -/
theorem C148_names_violated {V : Type} (rv : V → Doc → Option V) (v0 : V) (eq : V → V → Bool) :
    (setReader rv v0 eq).names ≠ translation .nSet := by
  show ([(ascii "values", 1, .struct)] : List (Bytes × Int × TType)) ≠ [(ascii "values", 1, .set)]
  simp

end Named
end Wire
end Nebula
