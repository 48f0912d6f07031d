import Verif.Status.Spec
/-! # Properties of `Status` (C26), `StatusOr` and `EitherOr` (C27) -/
namespace Nebula

/-! ## C26 -/

/-- The model variable means the specified code and message. -/
def Status.Means (s : Status) (v : StatusVal) : Prop :=
  (s = none ∧ v = .ok) ∨ ∃ b, s = some b ∧ b.size = b.data.length ∧ b.code = v.code ∧ b.data = v.msg ∧ v.code ≠ .ok

theorem Status.step_means {env : Nat → Status} {spec : Nat → StatusVal} (h : ∀ k, (env k).Means (spec k))
    (op : StatusOp) (hp : op.Proper) :
    ∃ env', Status.step env op = some env' ∧ ∀ k, (env' k).Means (StatusVal.step spec op k) := by
  have hcopy : ∀ j, match env j with
      | none => spec j = .ok
      | some b => ∃ b', Status.copyState b = some b' ∧ Status.Means (some b') (spec j) := by
    intro j
    rcases h j with ⟨h1, h2⟩ | ⟨b, h1, h2, h3, h4, h5⟩
    · rw [h1]; exact h2
    · rw [h1]
      refine ⟨{ b with data := b.data.take b.size }, ?_, .inr ⟨_, rfl, ?_, h3, ?_, h5⟩⟩
      · unfold Status.copyState; rw [if_pos (by omega)]
      · show b.size = (b.data.take b.size).length
        rw [h2, List.take_length]
      · show b.data.take b.size = _
        rw [h2, List.take_length]; exact h4
  cases op with
  | setOk i =>
    refine ⟨_, rfl, fun k => ?_⟩
    simp only [StatusVal.step]
    by_cases hk : k = i
    · rw [if_pos hk, if_pos hk]; exact .inl ⟨rfl, rfl⟩
    · rw [if_neg hk, if_neg hk]; exact h k
  | make i c m =>
    refine ⟨_, rfl, fun k => ?_⟩
    simp only [StatusVal.step]
    by_cases hk : k = i
    · rw [if_pos hk, if_pos hk]
      obtain ⟨h1, h2⟩ := hp
      have e : m.length % 65536 = m.length := Nat.mod_eq_of_lt h2
      refine .inr ⟨_, rfl, ?_, rfl, ?_, h1⟩
      · simp only [e, List.take_length]
      · simp only [e, List.take_length]
    · rw [if_neg hk, if_neg hk]; exact h k
  | copyCtor i j =>
    have hj := hcopy j
    simp only [Status.step, StatusVal.step]
    cases he : env j with
    | none =>
      rw [he] at hj
      refine ⟨_, rfl, fun k => ?_⟩
      by_cases hk : k = i
      · simp only [hk, if_true]; exact .inl ⟨rfl, hj⟩
      · simp only [hk, if_false]; exact h k
    | some b =>
      rw [he] at hj
      obtain ⟨b', h1, h2⟩ := hj
      refine ⟨_, by simp only [h1, Option.map_some]; rfl, fun k => ?_⟩
      by_cases hk : k = i
      · simp only [hk, if_true]; exact h2
      · simp only [hk, if_false]; exact h k
  | moveCtor i j =>
    simp only [StatusOp.Proper] at hp
    simp only [Status.step, StatusVal.step, if_neg hp]
    refine ⟨_, rfl, fun k => ?_⟩
    by_cases hk : k = i
    · simp only [hk, if_true]; exact h j
    · simp only [hk, if_false]
      by_cases hj : k = j
      · simp only [hj, if_true]; exact .inl ⟨rfl, rfl⟩
      · simp only [hj, if_false]; exact h k
  | copyAssign i j =>
    have hj := hcopy j
    simp only [Status.step, StatusVal.step]
    by_cases hc : i = j ∨ (env i = none ∧ env j = none)
    · rw [if_pos hc]
      refine ⟨_, rfl, fun k => ?_⟩
      by_cases hk : k = i
      · subst hk
        rw [if_pos rfl]
        rcases hc with rfl | ⟨h1, h2⟩
        · exact h k
        · rw [h2] at hj; exact .inl ⟨h1, hj⟩
      · rw [if_neg hk]; exact h k
    · rw [if_neg hc]
      cases he : env j with
      | none =>
        rw [he] at hj
        refine ⟨_, rfl, fun k => ?_⟩
        by_cases hk : k = i
        · simp only [hk, if_true]; exact .inl ⟨rfl, hj⟩
        · simp only [hk, if_false]; exact h k
      | some b =>
        rw [he] at hj
        obtain ⟨b', h1, h2⟩ := hj
        refine ⟨_, by simp only [h1, Option.map_some]; rfl, fun k => ?_⟩
        by_cases hk : k = i
        · simp only [hk, if_true]; exact h2
        · simp only [hk, if_false]; exact h k
  | moveAssign i j =>
    have hj := hcopy j
    simp only [Status.step, StatusVal.step]
    by_cases hc : i = j ∨ (env i = none ∧ env j = none)
    · rw [if_pos hc]
      refine ⟨_, rfl, fun k => ?_⟩
      by_cases hk : k = i
      · subst hk
        rw [if_pos rfl]
        rcases hc with rfl | ⟨h1, h2⟩
        · exact h k
        · rw [h2] at hj; exact .inl ⟨h1, hj⟩
      · rw [if_neg hk]
        by_cases hkj : k = j
        · subst hkj
          rw [if_pos rfl]
          rcases hc with rfl | ⟨h1, h2⟩
          · exact absurd rfl hk
          · exact .inl ⟨h2, rfl⟩
        · rw [if_neg hkj]; exact h k
    · rw [if_neg hc]
      refine ⟨_, rfl, fun k => ?_⟩
      by_cases hk : k = i
      · simp only [hk, if_true]; exact h j
      · simp only [hk, if_false]
        by_cases hkj : k = j
        · simp only [hkj, if_true]; exact .inl ⟨rfl, rfl⟩
        · simp only [hkj, if_false]; exact h k

theorem Status.run_means (ops : List StatusOp) : ∀ {env : Nat → Status} {spec : Nat → StatusVal},
    (∀ k, (env k).Means (spec k)) → (∀ op ∈ ops, op.Proper) →
    ∃ env', Status.run ops env = some env' ∧ ∀ k, (env' k).Means (StatusVal.run spec ops k) := by
  induction ops with
  | nil => intro env spec h _; exact ⟨env, rfl, h⟩
  | cons op ops ih =>
    intro env spec h hp
    obtain ⟨env1, h1, h2⟩ := Status.step_means h op (hp op List.mem_cons_self)
    obtain ⟨env2, h3, h4⟩ := ih h2 (fun o ho => hp o (List.mem_cons_of_mem _ ho))
    exact ⟨env2, by simp [Status.run, h1, h3], h4⟩

/-- C26: after every program that constructs, copies, moves and assigns statuses (messages below 65536
bytes), no operation was undefined and every variable reports the code and the message it should have;
the printed form is "OK", or a text for the code followed by the message; two variables compare equal
exactly if their codes are equal. -/
theorem C26_history_partial (ops : List StatusOp) (hp : ∀ op ∈ ops, op.Proper) :
    ∃ env, Status.run ops (fun _ => none) = some env ∧
      (∀ k, (env k).code = (StatusVal.run (fun _ => .ok) ops k).code ∧
        (env k).message = some (StatusVal.run (fun _ => .ok) ops k).msg ∧
        (env k).toString = some (if (StatusVal.run (fun _ => .ok) ops k).code = .ok then ascii "OK"
          else (StatusVal.run (fun _ => .ok) ops k).code.text ++ (StatusVal.run (fun _ => .ok) ops k).msg)) ∧
      ∀ i j, Status.eqVars env i j = true ↔
        (StatusVal.run (fun _ => .ok) ops i).code = (StatusVal.run (fun _ => .ok) ops j).code := by
  obtain ⟨env, h1, h2⟩ := Status.run_means ops (env := fun _ => none) (spec := fun _ => .ok)
    (fun _ => .inl ⟨rfl, rfl⟩) hp
  have hcode : ∀ k, (env k).code = (StatusVal.run (fun _ => .ok) ops k).code := by
    intro k
    rcases h2 k with ⟨e1, e2⟩ | ⟨b, e1, _, e3, _, _⟩
    · rw [e1, e2]; rfl
    · rw [e1]; exact e3
  refine ⟨env, h1, fun k => ⟨hcode k, ?_, ?_⟩, fun i j => ?_⟩
  · rcases h2 k with ⟨e1, e2⟩ | ⟨b, e1, e2, e3, e4, e5⟩
    · rw [e1, e2]; rfl
    · rw [e1, ← e4]
      simp only [Status.message]
      rw [if_pos (by omega), e2, List.take_length]
  · unfold Status.toString
    rw [hcode k]
    rcases h2 k with ⟨e1, e2⟩ | ⟨b, e1, e2, e3, e4, e5⟩
    · rw [e1, e2]; rfl
    · rw [if_neg e5, if_neg e5, e1]
      simp only
      rw [if_pos (by omega), e2, List.take_length, e3, e4]
  · unfold Status.eqVars
    by_cases hc : i = j ∨ (env i = none ∧ env j = none)
    · rw [if_pos hc, ← hcode i, ← hcode j]
      rcases hc with rfl | ⟨e1, e2⟩
      · simp
      · simp [e1, e2]
    · rw [if_neg hc, ← hcode i, ← hcode j]
      simp

/-- C26 violated: a message of 65536 bytes or more is cut to its length modulo 65536. -/
theorem C26_truncation_violated (c : StatusCode) (m : Bytes) (h : 65536 ≤ m.length) :
    (Status.make c m).message = some (m.take (m.length % 65536)) ∧ (Status.make c m).message ≠ some m := by
  have e : (Status.make c m).message = some (m.take (m.length % 65536)) := by
    have hl : m.length % 65536 < 65536 := Nat.mod_lt _ (by decide)
    unfold Status.make Status.message
    simp only [List.length_take]
    rw [if_pos (by omega), List.take_take, Nat.min_self]
  refine ⟨e, ?_⟩
  rw [e]
  intro he
  have := congrArg List.length (Option.some.inj he)
  rw [List.length_take] at this
  have hl : m.length % 65536 < 65536 := Nat.mod_lt _ (by decide)
  omega

theorem formatNoArgs_plain : ∀ m : Bytes, (∀ c ∈ m, c ≠ 37) → formatNoArgs m = some m
  | [], _ => rfl
  | c :: r, h => by
    have hc := h c List.mem_cons_self
    have hr := formatNoArgs_plain r (fun d hd => h d (List.mem_cons_of_mem _ hd))
    rw [formatNoArgs]
    · rw [hr]; rfl
    · intro r' e; exact absurd e hc
    · exact hc

/-- C26: a message given as a character pointer goes through a format. Without percent signs and NUL its
first 255 bytes are kept. -/
theorem C26_format_partial (c : StatusCode) (m : Bytes) (h37 : ∀ b ∈ m, b ≠ 37) (h0 : ∀ b ∈ m, b ≠ 0) :
    ∃ s, Status.fromFormat c m = some s ∧ s.message = some (m.take 255) ∧ s.code = c := by
  have hc : cstr m = m := cstr_of_no_nul fun h => h0 0 h rfl
  refine ⟨Status.make c (m.take 255), ?_, ?_, rfl⟩
  · unfold Status.fromFormat
    rw [hc, formatNoArgs_plain m h37]; rfl
  · have hlen : (m.take 255).length ≤ 255 := by rw [List.length_take]; omega
    have e : (m.take 255).length % 65536 = (m.take 255).length := Nat.mod_eq_of_lt (by omega)
    unfold Status.make Status.message
    simp only [e, List.take_length]
    rw [if_pos (Nat.le_refl _)]

/-- C26 violated: a message with a conversion, given as a character pointer, is undefined. -/
theorem C26_format_violated : Status.fromFormat .error (ascii "95% used") = none := by decide +kernel

example : ∃ env, Status.run [.make 0 .error (ascii "disk"), .copyCtor 1 0, .moveAssign 2 0] (fun _ => none) = some env ∧
    (env 0).code = .ok ∧ (env 1).message = some (ascii "disk") ∧ (env 2).message = some (ascii "disk") ∧
    Status.eqVars env 1 2 = true := by
  obtain ⟨env, h1, h2, h3⟩ := C26_history_partial [.make 0 .error (ascii "disk"), .copyCtor 1 0, .moveAssign 2 0]
    (by intro op h; simp at h; rcases h with rfl | rfl | rfl
        · exact ⟨by decide, by decide +kernel⟩
        · trivial
        · trivial)
  refine ⟨env, h1, ?_, ?_, ?_, ?_⟩
  · rw [(h2 0).1]; rfl
  · rw [(h2 1).2.1]; rfl
  · rw [(h2 2).2.1]; rfl
  · rw [h3]; rfl

/-! ## C27 -/

/-- The object holds exactly the specified alternative. -/
def UObj.Means {L R : Type} (o : UObj L R) : UVal L R → Prop
  | .void => o = ⟨.void, .raw⟩
  | .left l => o = ⟨.left, .left l⟩
  | .right r => o = ⟨.right, .right r⟩

/-- The variable exists on both sides and means the same. -/
def UMeans {L R : Type} : Option (UObj L R) → Option (UVal L R) → Prop
  | none, none => True
  | some o, some v => o.Means v
  | _, _ => False

def UEnv.Means {L R : Type} (e : UEnv L R) (s : UVal.Env L R) : Prop := ∀ k, UMeans (e k) (s k)

theorem UEnv.Means.set {L R : Type} {e : UEnv L R} {s : UVal.Env L R} (h : e.Means s) (i : Nat)
    {o : Option (UObj L R)} {v : Option (UVal L R)} (ho : UMeans o v) : (e.set i o).Means (UVal.Env.set s i v) := by
  intro k
  unfold UEnv.set UVal.Env.set
  by_cases hk : k = i
  · simp only [hk, if_true]; exact ho
  · simp only [hk, if_false]; exact h k

/-- What is known of a variable: absent on both sides, or one of the three states. -/
theorem UEnv.Means.cases {L R : Type} {e : UEnv L R} {s : UVal.Env L R} (h : e.Means s) (i : Nat) :
    (e i = none ∧ s i = none) ∨ (e i = some ⟨.void, .raw⟩ ∧ s i = some .void) ∨
    (∃ l, e i = some ⟨.left, .left l⟩ ∧ s i = some (.left l)) ∨
    (∃ r, e i = some ⟨.right, .right r⟩ ∧ s i = some (.right r)) := by
  have := h i
  cases he : e i with
  | none =>
    cases hs : s i with
    | none => exact .inl ⟨rfl, rfl⟩
    | some v => rw [he, hs] at this; exact this.elim
  | some o =>
    cases hs : s i with
    | none => rw [he, hs] at this; exact this.elim
    | some v =>
      rw [he, hs] at this
      cases v with
      | void => exact .inr (.inl ⟨by rw [show o = ⟨.void, .raw⟩ from this], rfl⟩)
      | left l => exact .inr (.inr (.inl ⟨l, by rw [show o = ⟨.left, .left l⟩ from this], rfl⟩))
      | right r => exact .inr (.inr (.inr ⟨r, by rw [show o = ⟨.right, .right r⟩ from this], rfl⟩))

/-- The result of an operation agrees with the specification: both undefined, or the same output and
again the same meaning. -/
def UAgree {L R : Type} : Option (UEnv L R × UOut L R) → Option (UVal.Env L R × UOut L R) → Prop
  | none, none => True
  | some p, some q => p.2 = q.2 ∧ p.1.Means q.1
  | _, _ => False

theorem UEnv.step_agree {L R : Type} (k : UKind) {e : UEnv L R} {s : UVal.Env L R} (h : e.Means s) (op : UOp L R)
    (hop : op.NotOwn k) : UAgree (UEnv.step k e op) (UVal.step s op) := by
  have hv : UMeans (some (⟨.void, .raw⟩ : UObj L R)) (some .void) := rfl
  have hl : ∀ l, UMeans (some (⟨.left, .left l⟩ : UObj L R)) (some (.left l)) := fun _ => rfl
  have hr : ∀ r, UMeans (some (⟨.right, .right r⟩ : UObj L R)) (some (.right r)) := fun _ => rfl
  have hn : UMeans (none : Option (UObj L R)) none := trivial
  cases op with
  | default i | ofLeft i x | ofRight i x =>
    rcases h.cases i with ⟨h1, h2⟩ | ⟨h1, h2⟩ | ⟨y, h1, h2⟩ | ⟨y, h1, h2⟩ <;>
      simp only [UEnv.step, UVal.step, UEnv.fresh, h1, h2, Option.map_some] <;>
      first | trivial | (refine ⟨rfl, h.set i ?_⟩; exact rfl)
  | isVoid i | isLeft i | isRight i =>
    rcases h.cases i with ⟨h1, h2⟩ | ⟨h1, h2⟩ | ⟨y, h1, h2⟩ | ⟨y, h1, h2⟩ <;>
      simp only [UEnv.step, UVal.step, h1, h2, Option.map_some, Option.map_none] <;>
      first | trivial | exact ⟨rfl, h⟩
  | getLeft i | getRight i =>
    rcases h.cases i with ⟨h1, h2⟩ | ⟨h1, h2⟩ | ⟨y, h1, h2⟩ | ⟨y, h1, h2⟩ <;>
      simp [UEnv.step, UVal.step, h1, h2, UObj.eoLeft, UObj.eoRight, Slot.readLeft, Slot.readRight] <;>
      first | trivial | exact ⟨rfl, h⟩
  | takeLeft i | takeRight i =>
    rcases h.cases i with ⟨h1, h2⟩ | ⟨h1, h2⟩ | ⟨y, h1, h2⟩ | ⟨y, h1, h2⟩ <;>
      simp [UEnv.step, UVal.step, h1, h2, UObj.eoTakeLeft, UObj.eoTakeRight, Slot.readLeft, Slot.readRight,
        Slot.killLeft, Slot.killRight] <;>
      first | trivial | (refine ⟨rfl, h.set i ?_⟩; exact rfl)
  | destroy i =>
    rcases h.cases i with ⟨h1, h2⟩ | ⟨h1, h2⟩ | ⟨y, h1, h2⟩ | ⟨y, h1, h2⟩ <;> cases k <;>
      simp [UEnv.step, UVal.step, h1, h2, UObj.soDestruct, UObj.eoDestruct, Slot.killLeft, Slot.killRight] <;>
      first | trivial | exact ⟨rfl, h.set i hn⟩
  | setLeft i x | setRight i x =>
    rcases h.cases i with ⟨h1, h2⟩ | ⟨h1, h2⟩ | ⟨y, h1, h2⟩ | ⟨y, h1, h2⟩ <;> cases k <;>
      simp [UEnv.step, UVal.step, UEnv.update, h1, h2, UObj.soSetLeft, UObj.soSetRight, UObj.eoSetLeft, UObj.eoSetRight,
        UObj.soDestruct, UObj.eoReset, UObj.eoDestruct, Slot.killLeft, Slot.killRight, Slot.construct] <;>
      first | trivial | (refine ⟨rfl, h.set i ?_⟩; exact rfl)
  | copyCtor i j =>
    rcases h.cases i with ⟨h1, h2⟩ | ⟨h1, h2⟩ | ⟨y, h1, h2⟩ | ⟨y, h1, h2⟩ <;>
    rcases h.cases j with ⟨h3, h4⟩ | ⟨h3, h4⟩ | ⟨z, h3, h4⟩ | ⟨z, h3, h4⟩ <;> cases k <;>
      simp [UEnv.step, UVal.step, UEnv.fresh, h1, h2, h3, h4, UObj.soCopy, UObj.eoCopy, Slot.readLeft, Slot.readRight] <;>
      first | trivial | (refine ⟨rfl, h.set i ?_⟩; exact rfl)
  | moveCtor i j =>
    rcases h.cases i with ⟨h1, h2⟩ | ⟨h1, h2⟩ | ⟨y, h1, h2⟩ | ⟨y, h1, h2⟩ <;>
    rcases h.cases j with ⟨h3, h4⟩ | ⟨h3, h4⟩ | ⟨z, h3, h4⟩ | ⟨z, h3, h4⟩ <;> cases k <;>
      simp [UEnv.step, UVal.step, h1, h2, h3, h4, UObj.soMove, UObj.eoMove, Slot.readLeft, Slot.readRight,
        UObj.soResetValue, UObj.soResetStatus, UObj.eoTakeLeft, UObj.eoTakeRight, Slot.killLeft, Slot.killRight] <;>
      first | trivial | (refine ⟨rfl, UEnv.Means.set (h.set i ?_) j ?_⟩ <;> exact rfl)
  | copyAssign i j =>
    by_cases hij : i = j
    · subst hij
      rcases h.cases i with ⟨h1, h2⟩ | ⟨h1, h2⟩ | ⟨y, h1, h2⟩ | ⟨y, h1, h2⟩ <;>
        simp [UEnv.step, UVal.step, h1, h2] <;>
        first | trivial | (refine ⟨rfl, fun k => ?_⟩; have := h k; unfold UVal.Env.set; by_cases hk : k = i <;> simp_all)
    · rcases h.cases i with ⟨h1, h2⟩ | ⟨h1, h2⟩ | ⟨y, h1, h2⟩ | ⟨y, h1, h2⟩ <;>
      rcases h.cases j with ⟨h3, h4⟩ | ⟨h3, h4⟩ | ⟨z, h3, h4⟩ | ⟨z, h3, h4⟩ <;> cases k <;>
        simp [UEnv.step, UVal.step, UEnv.update, hij, h1, h2, h3, h4, UObj.soCopyAssign, UObj.eoCopyAssign, Slot.readLeft, Slot.readRight,
          UObj.eoLeft, UObj.eoRight, UObj.soReset, UObj.soDestruct, UObj.eoReset, UObj.eoDestruct, Slot.killLeft, Slot.killRight, Slot.construct] <;>
        first | trivial | (refine ⟨rfl, h.set i ?_⟩; exact rfl)
  | moveAssign i j =>
    by_cases hij : i = j
    · subst hij
      rcases h.cases i with ⟨h1, h2⟩ | ⟨h1, h2⟩ | ⟨y, h1, h2⟩ | ⟨y, h1, h2⟩ <;>
        simp [UEnv.step, UVal.step, h1, h2] <;>
        first | trivial | exact ⟨rfl, h⟩
    · rcases h.cases i with ⟨h1, h2⟩ | ⟨h1, h2⟩ | ⟨y, h1, h2⟩ | ⟨y, h1, h2⟩ <;>
      rcases h.cases j with ⟨h3, h4⟩ | ⟨h3, h4⟩ | ⟨z, h3, h4⟩ | ⟨z, h3, h4⟩ <;> cases k <;>
        simp [UEnv.step, UVal.step, hij, h1, h2, h3, h4, UObj.soMoveAssign, UObj.eoMoveAssign, Slot.readLeft, Slot.readRight,
          UObj.soResetValue, UObj.soResetStatus, UObj.eoTakeLeft, UObj.eoTakeRight, UObj.soReset, UObj.soDestruct,
          UObj.eoReset, UObj.eoDestruct, Slot.killLeft, Slot.killRight, Slot.construct] <;>
        first | trivial | (refine ⟨rfl, UEnv.Means.set (h.set i ?_) j ?_⟩ <;> exact rfl)
  | setLeftRef i j =>
    rcases h.cases i with ⟨h1, h2⟩ | ⟨h1, h2⟩ | ⟨y, h1, h2⟩ | ⟨y, h1, h2⟩ <;>
    rcases h.cases j with ⟨h3, h4⟩ | ⟨h3, h4⟩ | ⟨z, h3, h4⟩ | ⟨z, h3, h4⟩ <;> cases k <;>
      simp [UOp.NotOwn] at hop <;>
      simp [UEnv.step, UVal.step, UEnv.update, hop, h1, h2, h3, h4, UObj.soSetLeft, UObj.eoSetLeft, Slot.readLeft, UObj.eoLeft,
        UObj.soDestruct, UObj.eoReset, UObj.eoDestruct, Slot.killLeft, Slot.killRight, Slot.construct] <;>
      first | trivial | (refine ⟨rfl, h.set i ?_⟩; exact rfl)
  | setRightRef i j =>
    rcases h.cases i with ⟨h1, h2⟩ | ⟨h1, h2⟩ | ⟨y, h1, h2⟩ | ⟨y, h1, h2⟩ <;>
    rcases h.cases j with ⟨h3, h4⟩ | ⟨h3, h4⟩ | ⟨z, h3, h4⟩ | ⟨z, h3, h4⟩ <;> cases k <;>
      simp [UOp.NotOwn] at hop <;>
      simp [UEnv.step, UVal.step, UEnv.update, hop, h1, h2, h3, h4, UObj.soSetRight, UObj.eoSetRight, Slot.readRight, UObj.eoRight,
        UObj.soDestruct, UObj.eoReset, UObj.eoDestruct, Slot.killLeft, Slot.killRight, Slot.construct] <;>
      first | trivial | (refine ⟨rfl, h.set i ?_⟩; exact rfl)

/-- C27: for every program over any number of `StatusOr` (or `EitherOr`) variables that does not assign a
variable from a reference into itself, the code is defined exactly where the intended semantics is, all
results agree, and afterwards every variable holds exactly one alternative or nothing, with the tag saying
which. In particular nothing is destroyed twice, read while not held, or leaked. -/
theorem C27_history_partial {L R : Type} (k : UKind) (ops : List (UOp L R)) (h : ∀ op ∈ ops, op.NotOwn k) :
    (UEnv.run k (fun _ => none) ops).map (·.2) = (UVal.run (fun _ => none) ops).map (·.2) ∧
    ∀ e outs, UEnv.run k (fun _ => none) ops = some (e, outs) → ∃ s, UVal.run (fun _ => none) ops = some (s, outs) ∧ e.Means s := by
  have main : ∀ (ops : List (UOp L R)) (e : UEnv L R) (s : UVal.Env L R), e.Means s → (∀ op ∈ ops, op.NotOwn k) →
      match UEnv.run k e ops, UVal.run s ops with
      | none, none => True
      | some p, some q => p.2 = q.2 ∧ p.1.Means q.1
      | _, _ => False := by
    intro ops
    induction ops with
    | nil => intro e s he _; exact ⟨rfl, he⟩
    | cons op ops ih =>
      intro e s he hop
      have hs := UEnv.step_agree k he op (hop op List.mem_cons_self)
      simp only [UEnv.run, UVal.run]
      cases h1 : UEnv.step k e op with
      | none =>
        cases h2 : UVal.step s op with
        | none => trivial
        | some q => rw [h1, h2] at hs; exact hs.elim
      | some p =>
        cases h2 : UVal.step s op with
        | none => rw [h1, h2] at hs; exact hs.elim
        | some q =>
          rw [h1, h2] at hs
          have := ih p.1 q.1 hs.2 (fun o ho => hop o (List.mem_cons_of_mem _ ho))
          simp only [Option.bind_some]
          cases h3 : UEnv.run k p.1 ops with
          | none =>
            cases h4 : UVal.run q.1 ops with
            | none => trivial
            | some q' => rw [h3, h4] at this; exact this.elim
          | some p' =>
            cases h4 : UVal.run q.1 ops with
            | none => rw [h3, h4] at this; exact this.elim
            | some q' =>
              rw [h3, h4] at this
              exact ⟨by simp only [hs.1, this.1], this.2⟩
  have hm := main ops (fun _ => none) (fun _ => none) (fun _ => trivial) h
  constructor
  · cases h1 : UEnv.run k (fun _ => none) ops <;> cases h2 : UVal.run (fun _ => none) ops <;> rw [h1, h2] at hm
    · rfl
    · exact hm.elim
    · exact hm.elim
    · simp [hm.1]
  · intro e outs he
    rw [he] at hm
    cases h2 : UVal.run (fun _ => none) ops with
    | none => rw [h2] at hm; exact hm.elim
    | some q =>
      rw [h2] at hm
      obtain ⟨a, b⟩ := q
      have hb : outs = b := hm.1
      exact ⟨a, by rw [hb], hm.2⟩

/-- C27 violated: assigning a variable its own value, `s = s.value()`, reads the value after destroying
it (`StatusOr` and both sides of `EitherOr`). -/
theorem C27_self_value_violated {L R : Type} (r : R) :
    UEnv.run (L := L) .statusOr (fun _ => none) [.ofRight 0 r, .setRightRef 0 0] = none ∧
    UEnv.run (L := L) .eitherOr (fun _ => none) [.ofRight 0 r, .setRightRef 0 0] = none ∧
    (UVal.run (L := L) (fun _ => none) [.ofRight 0 r, .setRightRef 0 0]).isSome := by
  refine ⟨rfl, rfl, rfl⟩

theorem C27_self_left_violated {L R : Type} (l : L) :
    UEnv.run (R := R) .eitherOr (fun _ => none) [.ofLeft 0 l, .setLeftRef 0 0] = none ∧
    (UVal.run (R := R) (fun _ => none) [.ofLeft 0 l, .setLeftRef 0 0]).isSome := by
  refine ⟨rfl, rfl⟩

/-- A value moved out of one variable into another. -/
example : (UEnv.run (L := Nat) (R := Nat) .statusOr (fun _ => none)
    [.ofRight 0 7, .moveCtor 1 0, .isVoid 0, .takeRight 1, .isRight 1, .setLeft 1 3, .getLeft 1, .destroy 0, .destroy 1]).map (·.2) =
    some [.unit, .unit, .bool true, .right 7, .bool false, .unit, .left 3, .unit, .unit] := by decide +kernel

example : (UEnv.run (L := Nat) (R := Nat) .eitherOr (fun _ => none) [.default 0, .getRight 0]).isNone := by decide +kernel

end Nebula
