import Verif.Web.RaceSpec
import Verif.Web.HandlersProps
/-!
# C153: flags are set and read by requests served at the same time
-/
namespace Nebula
namespace Web.Race
open Json Conf Net Life

variable {F : Type} {S : Site F}

/-! ## Flags keep their names and types -/

/-- The same flag, perhaps with another value. -/
def SameFlag (f f' : FlagInfo) : Prop := f' = f ∨ ∃ t, f' = { f with current := t, isDefault := false }

theorem SameFlag.name {f f' : FlagInfo} (h : SameFlag f f') : f'.name = f.name := by
  rcases h with rfl | ⟨t, rfl⟩ <;> rfl

theorem All2.names' {R : FlagInfo → FlagInfo → Prop} (hR : ∀ f f', R f f' → f'.name = f.name) {fs fs' : List FlagInfo} (h : All2 R fs fs') : fs'.map (·.name) = fs.map (·.name) := by
  induction h with
  | nil => rfl
  | cons h _ ih => simp [hR _ _ h, ih]

theorem failed_same {accept : FlagInfo → Bytes → Option Bytes} (hacc : AcceptsByType accept) {fs fs' : List FlagInfo} (h : All2 SameFlag fs fs') (n t : Bytes) :
    Failed accept fs' n t ↔ Failed accept fs n t := by
  induction h with
  | nil => rfl
  | @cons f f' fs fs' h _ ih =>
    simp only [Failed, List.mem_cons, forall_eq_or_imp] at ih ⊢
    rw [ih]
    rcases h with rfl | ⟨u, rfl⟩
    · rfl
    · rw [hacc f t u false]

/-! ## The invariant -/

/-- What request `id` has done of what it was asked. -/
def JobInv (S : Site F) (fs0 : List FlagInfo) (asked done : List (Bytes × Bytes)) : Job F → Prop
  | .setting todo failed => ∃ rest, asked = done ++ rest ∧ Items S.C todo rest ∧
      failed = (@List.filter _ (fun t => @decide (Failed S.accept fs0 t.1 t.2) (Classical.propDecidable _)) done).map (·.1)
  | _ => asked = []

def FlagInv (accept : FlagInfo → Bytes → Option Bytes) (done : Nat → List (Bytes × Bytes)) (f f' : FlagInfo) : Prop := Outcome accept done f f'

theorem FlagInv.same {accept : FlagInfo → Bytes → Option Bytes} {done : Nat → List (Bytes × Bytes)} {f f' : FlagInfo} (h : Outcome accept done f f') : SameFlag f f' := by
  cases h with
  | kept _ => exact .inl rfl
  | set _ _ => exact .inr ⟨_, rfl⟩

def Clean (ts : List (Bytes × Bytes)) : Prop := ∀ t ∈ ts, (0 : UInt8) ∉ t.1 ∧ (0 : UInt8) ∉ t.2

structure Inv (S : Site F) (fs0 : List FlagInfo) (asked done : Nat → List (Bytes × Bytes)) (js : Jobs F) (fs : List FlagInfo) : Prop where
  jobs : ∀ id, JobInv S fs0 (asked id) (done id) (js id)
  flags : All2 (Outcome S.accept done) fs0 fs
  prefixes : ∀ id, done id <+: asked id

/-- A step that changes no flag. -/
theorem outcome_congr {accept : FlagInfo → Bytes → Option Bytes} {done done' : Nat → List (Bytes × Bytes)} {fs0 fs : List FlagInfo} (h : All2 (Outcome accept done) fs0 fs)
    (hsub : ∀ id, ∀ e ∈ done id, e ∈ done' id) (hnew : ∀ id, ∀ e ∈ done' id, e ∈ done id ∨ Failed accept fs0 e.1 e.2) : All2 (Outcome accept done') fs0 fs := by
  induction h with
  | nil => exact .nil
  | @cons f f' fs0 fs h _ ih =>
    refine .cons ?_ (ih fun id e he => (hnew id e he).imp_right fun hf g hg => hf g (List.mem_cons_of_mem _ hg))
    cases h with
    | kept hk =>
      refine .kept fun id t ht => ?_
      rcases hnew id _ ht with h1 | h1
      · exact hk id t h1
      · exact h1 f (by simp) rfl
    | set h1 h2 => exact .set (hsub _ _ h1) h2

theorem outcome_set {accept : FlagInfo → Bytes → Option Bytes} (hacc : AcceptsByType accept) {done done' : Nat → List (Bytes × Bytes)} {fs0 fs fs' : List FlagInfo} {n t : Bytes} {i : Nat}
    (h : All2 (Outcome accept done) fs0 fs) (hsub : ∀ id, ∀ e ∈ done id, e ∈ done' id) (hi : (n, t) ∈ done' i) (hnew : ∀ id, ∀ e ∈ done' id, e ∈ done id ∨ e = (n, t))
    (hs : All2 (fun f f' => (f.name ≠ n ∧ f' = f) ∨ (f.name = n ∧ ∃ u, accept f t = some u ∧ f' = { f with current := u, isDefault := false })) fs fs') :
    All2 (Outcome accept done') fs0 fs' := by
  refine All2.comp (fun f g g' hfg hg => ?_) h hs
  have hname := (FlagInv.same hfg).name
  rcases hg with ⟨hne, rfl⟩ | ⟨heq, u, hu, rfl⟩
  · cases hfg with
    | kept hk =>
      refine .kept fun id t' ht => ?_
      rcases hnew id _ ht with h1 | h1
      · exact hk id t' h1
      · simp only [Prod.mk.injEq] at h1; exact absurd h1.1 hne
    | set h1 h2 => exact .set (hsub _ _ h1) h2
  · have hfn : f.name = n := by rw [← hname]; exact heq
    cases hfg with
    | kept hk => exact .set (id := i) (t := t) (by rw [hfn]; exact hi) hu
    | @set id t0 t1 h1 h2 =>
      rw [hacc f t t1 false] at hu
      exact .set (f := f) (id := i) (t := t) (t' := u) (by rw [hfn]; exact hi) hu

theorem inv_step (hacc : AcceptsByType S.accept) {fs0 : List FlagInfo} (hd : DistinctNames fs0) {asked done : Nat → List (Bytes × Bytes)} (hclean : ∀ id, Clean (asked id)) {js : Jobs F}
    {fs fs' : List FlagInfo} {id : Nat} {j : Job F} (hi : Inv S fs0 asked done js fs) (h : (js id).step S fs = some (j, fs')) :
    ∃ done', Inv S fs0 asked done' (js.put id j) fs' ∧ ∀ i, done i <+: done' i := by
  have hsame : All2 SameFlag fs0 fs := All2.imp' (fun _ _ => FlagInv.same) hi.flags
  have hd' : DistinctNames fs := by unfold DistinctNames; rw [All2.names' (fun _ _ h => SameFlag.name h) hsame]; exact hd
  have hj := hi.jobs id
  have quiet : fs' = fs → JobInv S fs0 (asked id) (done id) j → ∃ done', Inv S fs0 asked done' (js.put id j) fs' ∧ ∀ i, done i <+: done' i := by
    intro e hq
    subst e
    refine ⟨done, ⟨fun i => ?_, hi.flags, hi.prefixes⟩, fun i => List.prefix_refl _⟩
    unfold Jobs.put
    by_cases hii : i = id
    · rw [if_pos hii, hii]; exact hq
    · rw [if_neg hii]; exact hi.jobs i
  cases hjs : js id with
  | reading verbose todo out =>
    rw [hjs] at h
    cases todo with
    | nil => simp only [Job.step, Option.some.injEq, Prod.mk.injEq] at h; exact quiet h.2.symm (by rw [← h.1]; rw [hjs] at hj; exact hj)
    | cons n ns =>
      simp only [Job.step, Option.map_eq_some_iff, Prod.mk.injEq] at h
      obtain ⟨d, -, rfl, rfl⟩ := h
      exact quiet rfl (by rw [hjs] at hj; exact hj)
  | readingAll verbose =>
    rw [hjs] at h
    simp only [Job.step, Option.map_eq_some_iff, Prod.mk.injEq] at h
    obtain ⟨d, -, rfl, rfl⟩ := h
    exact quiet rfl (by rw [hjs] at hj; exact hj)
  | setting todo failed =>
    rw [hjs] at h hj
    obtain ⟨rest, e1, e2, e3⟩ := hj
    cases todo with
    | nil => simp only [Job.step, Option.some.injEq, Prod.mk.injEq] at h; exact quiet h.2.symm (by rw [← h.1]; exact ⟨rest, e1, e2, e3⟩)
    | cons x todo =>
      obtain ⟨k, v⟩ := x
      cases e2 with
      | @cons _ b _ rest hkv hrest =>
      obtain ⟨k', t⟩ := b
      simp only at hkv
      obtain ⟨rfl, hv⟩ := hkv
      have hmem : (k, t) ∈ asked id := by rw [e1]; simp
      obtain ⟨c1, c2⟩ := hclean id _ hmem
      simp only [Job.step, asString_iff.mpr hv, cstr_id c1, cstr_id c2] at h
      let done' : Nat → List (Bytes × Bytes) := fun i => if i = id then done id ++ [(k, t)] else done i
      have hdid : done' id = done id ++ [(k, t)] := by simp [done']
      have hdoth : ∀ i, i ≠ id → done' i = done i := fun i h => by simp [done', h]
      have hsub : ∀ i, ∀ e ∈ done i, e ∈ done' i := by
        intro i e he
        by_cases hii : i = id
        · rw [hii, hdid]; rw [hii] at he; simp [he]
        · rw [hdoth i hii]; exact he
      have hnew : ∀ i, ∀ e ∈ done' i, e ∈ done i ∨ e = (k, t) := by
        intro i e he
        by_cases hii : i = id
        · rw [hii, hdid] at he; rw [hii]; simpa using he
        · rw [hdoth i hii] at he; exact .inl he
      have hpre : ∀ i, done' i <+: asked i := by
        intro i
        by_cases hii : i = id
        · rw [hii, hdid, e1]; exact ⟨rest, by simp⟩
        · rw [hdoth i hii]; exact hi.prefixes i
      have hgrow : ∀ i, done i <+: done' i := by
        intro i
        by_cases hii : i = id
        · rw [hii, hdid]; exact List.prefix_append _ _
        · rw [hdoth i hii]; exact List.prefix_refl _
      have hjobs : ∀ failed', failed' = (@List.filter _ (fun t => @decide (Failed S.accept fs0 t.1 t.2) (Classical.propDecidable _)) (done id ++ [(k, t)])).map (·.1) →
          ∀ i, JobInv S fs0 (asked i) (done' i) ((js.put id (.setting todo failed')) i) := by
        intro failed' hf i
        unfold Jobs.put
        by_cases hii : i = id
        · rw [if_pos hii, hii, hdid]
          exact ⟨rest, by rw [e1]; simp, hrest, hf⟩
        · rw [if_neg hii, hdoth i hii]; exact hi.jobs i
      cases hso : setOption S.accept k t fs with
      | none =>
        rw [hso] at h
        simp only [Option.some.injEq, Prod.mk.injEq] at h
        obtain ⟨rfl, rfl⟩ := h
        have hf : Failed S.accept fs0 k t := (failed_same hacc hsame k t).mp ((setOption_none hd').mp hso)
        refine ⟨done', ⟨hjobs _ ?_, outcome_congr hi.flags hsub (fun i e he => ?_), hpre⟩, hgrow⟩
        · rw [List.filter_append, List.map_append, ← e3]; simp [hf]
        · rcases hnew i e he with h1 | rfl
          · exact .inl h1
          · exact .inr hf
      | some gs =>
        rw [hso] at h
        simp only [Option.some.injEq, Prod.mk.injEq] at h
        obtain ⟨rfl, rfl⟩ := h
        obtain ⟨-, -, hs⟩ := setOption_some hd' hso
        have hf : ¬ Failed S.accept fs0 k t := fun hf => by
          have := (setOption_none hd').mpr ((failed_same hacc hsame k t).mpr hf)
          rw [hso] at this; cases this
        refine ⟨done', ⟨hjobs _ ?_, outcome_set hacc hi.flags hsub (i := id) (by rw [hdid]; simp) hnew hs, hpre⟩, hgrow⟩
        rw [List.filter_append, List.map_append, ← e3]; simp [hf]

theorem inv_run (hacc : AcceptsByType S.accept) {fs0 : List FlagInfo} (hd : DistinctNames fs0) {asked : Nat → List (Bytes × Bytes)} (hclean : ∀ id, Clean (asked id))
    (sched : List Nat) {done : Nat → List (Bytes × Bytes)} {js js' : Jobs F} {fs fs' : List FlagInfo} (hi : Inv S fs0 asked done js fs) (h : run S js fs sched = some (js', fs')) :
    ∃ done', Inv S fs0 asked done' js' fs' := by
  induction sched generalizing done js fs with
  | nil => simp only [run, Option.some.injEq, Prod.mk.injEq] at h; obtain ⟨rfl, rfl⟩ := h; exact ⟨done, hi⟩
  | cons id sched ih =>
    simp only [run, Option.bind_eq_some_iff] at h
    obtain ⟨⟨j, fs1⟩, h1, h2⟩ := h
    obtain ⟨done', h3, -⟩ := inv_step hacc hd hclean hi h1
    exact ih h3 h2

/-- What the requests ask for: those that set flags, the texts of their items; those that read flags, nothing. -/
def Asks (S : Site F) (asked : List (Bytes × Bytes)) : Job F → Prop
  | .setting todo failed => failed = [] ∧ Items S.C todo asked ∧ Clean asked
  | _ => asked = []

theorem inv_start {fs0 : List FlagInfo} {asked : Nat → List (Bytes × Bytes)} {js : Jobs F} (h : ∀ id, Asks S (asked id) (js id)) : Inv S fs0 asked (fun _ => []) js fs0 := by
  refine ⟨fun id => ?_, ?_, fun id => List.nil_prefix⟩
  · have := h id
    cases hj : js id with
    | setting todo failed => rw [hj] at this; exact ⟨asked id, rfl, this.2.1, this.1⟩
    | reading _ _ _ => rw [hj] at this; exact this
    | readingAll _ => rw [hj] at this; exact this
  · have : ∀ fs : List FlagInfo, All2 (Outcome S.accept fun _ => []) fs fs := by
      intro fs
      induction fs with
      | nil => exact .nil
      | cons f fs ih => exact .cons (.kept (by simp)) ih
    exact this fs0

theorem asks_clean {asked : Nat → List (Bytes × Bytes)} {js : Jobs F} (h : ∀ id, Asks S (asked id) (js id)) (id : Nat) : Clean (asked id) := by
  have := h id
  cases hj : js id with
  | setting todo failed => rw [hj] at this; exact this.2.2
  | reading _ _ _ => rw [hj] at this; simp only [Asks] at this; rw [this]; intro t ht; cases ht
  | readingAll _ => rw [hj] at this; simp only [Asks] at this; rw [this]; intro t ht; cases ht

/-! ## C153 -/

open Classical in
/-- **C153 (answers).** Whatever other requests do meanwhile, in whatever order, a request that sets flags is told that exactly those failed that there are not or that refuse the text, in
the order of the request: the answer it would have had alone. -/
theorem C153_answer (hacc : AcceptsByType S.accept) {fs : List FlagInfo} (hd : DistinctNames fs) {asked : Nat → List (Bytes × Bytes)} {js js' : Jobs F} {fs' : List FlagInfo}
    (ha : ∀ id, Asks S (asked id) (js id)) (sched : List Nat) (h : run S js fs sched = some (js', fs')) {id : Nat} {failed : List Bytes} (hj : js' id = .setting [] failed) :
    failed = ((asked id).filter fun t => Failed S.accept fs t.1 t.2).map (·.1) := by
  obtain ⟨done, hi⟩ := inv_run hacc hd (asks_clean ha) sched (inv_start ha) h
  have := hi.jobs id
  rw [hj] at this
  obtain ⟨rest, e1, e2, e3⟩ := this
  cases e2
  rw [List.append_nil] at e1
  rw [e1, e3]

/-- **C153 (values).** When all requests have finished, every flag for which a text was asked that it accepts has one of those texts, and every other flag is as before, in whatever order
the requests ran. -/
theorem C153_values (hacc : AcceptsByType S.accept) {fs : List FlagInfo} (hd : DistinctNames fs) {asked : Nat → List (Bytes × Bytes)} {js js' : Jobs F} {fs' : List FlagInfo}
    (ha : ∀ id, Asks S (asked id) (js id)) (sched : List Nat) (h : run S js fs sched = some (js', fs')) (hf : ∀ id, (js' id).Finished) :
    All2 (Outcome S.accept asked) fs fs' := by
  obtain ⟨done, hi⟩ := inv_run hacc hd (asks_clean ha) sched (inv_start ha) h
  have key : ∀ id, done id = asked id := by
    intro id
    have h1 := hi.jobs id
    have h2 := hf id
    cases hj : js' id with
    | setting todo failed =>
      rw [hj] at h1 h2
      obtain ⟨rest, e1, e2, -⟩ := h1
      simp only [Job.Finished] at h2
      subst h2
      cases e2
      rw [e1, List.append_nil]
    | reading v l o =>
      rw [hj] at h1
      have := hi.prefixes id
      rw [show asked id = [] from h1] at this ⊢
      exact List.prefix_nil.1 this
    | readingAll v =>
      rw [hj] at h1
      have := hi.prefixes id
      rw [show asked id = [] from h1] at this ⊢
      exact List.prefix_nil.1 this
  have : done = asked := funext key
  rw [← this]; exact hi.flags

/-- **C153 (values meanwhile).** At every moment, every flag has the value it had before or one that it accepts and that was asked for. -/
theorem C153_meanwhile (hacc : AcceptsByType S.accept) {fs : List FlagInfo} (hd : DistinctNames fs) {asked : Nat → List (Bytes × Bytes)} {js js' : Jobs F} {fs' : List FlagInfo}
    (ha : ∀ id, Asks S (asked id) (js id)) (sched : List Nat) (h : run S js fs sched = some (js', fs')) :
    All2 (fun f f' => f' = f ∨ ∃ id t t', (f.name, t) ∈ asked id ∧ S.accept f t = some t' ∧ f' = { f with current := t', isDefault := false }) fs fs' := by
  obtain ⟨done, hi⟩ := inv_run hacc hd (asks_clean ha) sched (inv_start ha) h
  refine All2.imp' (fun f f' hff => ?_) hi.flags
  cases hff with
  | kept _ => exact .inl rfl
  | set h1 h2 => exact .inr ⟨_, _, _, (hi.prefixes _).subset h1, h2, rfl⟩

theorem Moments.mono {α β : Type} {P Q : Nat → α → β → Prop} {k : Nat} {ns : List α} {ds : List β} (hpq : ∀ k n d, P k n d → Q (k + 1) n d) (h : Moments P k ns ds) : Moments Q (k + 1) ns ds := by
  induction h with
  | nil => exact .nil
  | cons h1 h2 _ ih => exact .cons (by omega) (hpq _ _ _ h2) ih

theorem Moments.early {α β : Type} {P : Nat → α → β → Prop} {k k0 : Nat} {ns : List α} {ds : List β} (hk : k0 ≤ k) (h : Moments P k ns ds) : Moments P k0 ns ds := by
  cases h with
  | nil => exact .nil
  | cons h1 h2 h3 => exact .cons (by omega) h2 h3

theorem run_cons (js : Jobs F) (fs : List FlagInfo) (id : Nat) (sched : List Nat) (k : Nat) {j : Job F} {fs1 : List FlagInfo} (h : (js id).step S fs = some (j, fs1)) :
    run S js fs ((id :: sched).take (k + 1)) = run S (js.put id j) fs1 (sched.take k) := by
  rw [List.take_succ_cons, run, h]; rfl

theorem put_same (js : Jobs F) (id : Nat) (j : Job F) : (js.put id j) id = j := by simp [Jobs.put]

theorem put_other (js : Jobs F) {id i : Nat} (j : Job F) (h : i ≠ id) : (js.put id j) i = js i := by simp [Jobs.put, h]

theorem reading_run (sched : List Nat) {js js' : Jobs F} {fs fs' : List FlagInfo} (h : run S js fs sched = some (js', fs')) {id : Nat} {verbose : Bool} {todo : List Bytes} {out : List (Dyn F)}
    (hj : js id = .reading verbose todo out) : ∃ names rest new, todo = names ++ rest ∧ js' id = .reading verbose rest (out ++ new) ∧
      Moments (fun k n d => ∃ js1 fs1, run S js fs (sched.take k) = some (js1, fs1) ∧ oneFlag S.T S.bigInt verbose n (flagInfo fs1 (cstr n)) = some d) 0 names new := by
  induction sched generalizing js fs todo out with
  | nil =>
    simp only [run, Option.some.injEq, Prod.mk.injEq] at h; obtain ⟨rfl, rfl⟩ := h
    exact ⟨[], todo, [], rfl, by simp [hj], .nil⟩
  | cons i sched ih =>
    simp only [run, Option.bind_eq_some_iff] at h
    obtain ⟨⟨j, fs1⟩, h1, h2⟩ := h
    have hshift : ∀ k n d, (∃ js1 fs1', run S (js.put i j) fs1 (sched.take k) = some (js1, fs1') ∧ oneFlag S.T S.bigInt verbose n (flagInfo fs1' (cstr n)) = some d) →
        ∃ js1 fs1', run S js fs ((i :: sched).take (k + 1)) = some (js1, fs1') ∧ oneFlag S.T S.bigInt verbose n (flagInfo fs1' (cstr n)) = some d := by
      rintro k n d ⟨a, b, c, e⟩
      exact ⟨a, b, by rw [run_cons js fs i sched k h1]; exact c, e⟩
    by_cases hi : i = id
    · subst hi
      rw [hj] at h1
      cases todo with
      | nil =>
        simp only [Job.step, Option.some.injEq, Prod.mk.injEq] at h1
        obtain ⟨rfl, rfl⟩ := h1
        obtain ⟨names, rest, new, e1, e2, e3⟩ := ih h2 (put_same js i _)
        exact ⟨names, rest, new, e1, e2, (e3.mono hshift).early (by omega)⟩
      | cons n ns =>
        simp only [Job.step, Option.map_eq_some_iff, Prod.mk.injEq] at h1
        obtain ⟨d, hd, rfl, rfl⟩ := h1
        obtain ⟨names, rest, new, e1, e2, e3⟩ := ih h2 (put_same js i _)
        refine ⟨n :: names, rest, d :: new, by rw [e1]; rfl, by rw [e2]; simp, .cons (Nat.le_refl 0) ⟨js, fs, rfl, hd⟩ (e3.mono hshift)⟩
    · obtain ⟨names, rest, new, e1, e2, e3⟩ := ih h2 ((put_other js j (fun e => hi e.symm)).trans hj)
      exact ⟨names, rest, new, e1, e2, (e3.mono hshift).early (by omega)⟩

/-- **C153 (reading).** What a request is told about each flag is what a request for that flag alone would have been told at one moment, and these moments follow one another in the order of
the names. -/
theorem C153_reading (sched : List Nat) {js js' : Jobs F} {fs fs' : List FlagInfo} (h : run S js fs sched = some (js', fs')) {id : Nat} {verbose json : Bool} {names : List Bytes}
    {out : List (Dyn F)} (hj : js id = .reading verbose names []) (hj' : js' id = .reading verbose [] out) :
    Moments (fun k n d => ∃ js1 fs1, run S js fs (sched.take k) = some (js1, fs1) ∧ getFlags S.T S.bigInt ⟨verbose, json, [n]⟩ fs1 = some [d]) 0 names out := by
  obtain ⟨ns, rest, new, e1, e2, e3⟩ := reading_run sched h hj
  rw [hj'] at e2
  simp only [Job.reading.injEq, List.nil_append, true_and] at e2
  obtain ⟨rfl, rfl⟩ := e2
  rw [List.append_nil] at e1; subst e1
  have : ∀ {k : Nat} {ns : List Bytes} {ds : List (Dyn F)}, Moments (fun k n d => ∃ js1 fs1, run S js fs (sched.take k) = some (js1, fs1) ∧ oneFlag S.T S.bigInt verbose n (flagInfo fs1 (cstr n)) = some d) k ns ds →
      Moments (fun k n d => ∃ js1 fs1, run S js fs (sched.take k) = some (js1, fs1) ∧ getFlags S.T S.bigInt ⟨verbose, json, [n]⟩ fs1 = some [d]) k ns ds := by
    intro k ns ds hm
    induction hm with
    | nil => exact .nil
    | cons h1 h2 _ ih =>
      obtain ⟨a, b, c, e⟩ := h2
      exact .cons h1 ⟨a, b, c, by simp [getFlags, collect, e]⟩ ih
  exact this e3

/-- **C153 (reading all).** A request for all flags is told their values at one moment. -/
theorem C153_all (sched : List Nat) {js js' : Jobs F} {fs fs' : List FlagInfo} (h : run S js fs sched = some (js', fs')) {id : Nat} {verbose json : Bool}
    {out : List (Dyn F)} (hj : js id = .readingAll verbose) (hj' : js' id = .reading verbose [] out) :
    ∃ k js1 fs1, run S js fs (sched.take k) = some (js1, fs1) ∧ getFlags S.T S.bigInt ⟨verbose, json, []⟩ fs1 = some out := by
  induction sched generalizing js fs with
  | nil =>
    simp only [run, Option.some.injEq, Prod.mk.injEq] at h; obtain ⟨rfl, rfl⟩ := h
    rw [hj] at hj'; cases hj'
  | cons i sched ih =>
    simp only [run, Option.bind_eq_some_iff] at h
    obtain ⟨⟨j, fs1⟩, h1, h2⟩ := h
    by_cases hi : i = id
    · subst hi
      have h1' := h1
      rw [hj] at h1
      simp only [Job.step, Option.map_eq_some_iff, Prod.mk.injEq] at h1
      obtain ⟨o, ho, rfl, rfl⟩ := h1
      obtain ⟨names, rest, new, e1, e2, e3⟩ := reading_run sched h2 (put_same js i _)
      have e1' := List.append_eq_nil_iff.1 e1.symm
      obtain ⟨rfl, rfl⟩ := e1'
      cases e3
      rw [hj'] at e2
      simp only [Job.reading.injEq, List.append_nil, true_and] at e2
      subst e2
      exact ⟨0, js, fs, rfl, by simpa [getFlags] using ho⟩
    · obtain ⟨k, a, b, c, e⟩ := ih h2 ((put_other js j (fun e => hi e.symm)).trans hj)
      exact ⟨k + 1, a, b, by rw [run_cons js fs i sched k h1]; exact c, e⟩

/-- **C153 (alone).** A request that sets flags and is not interrupted does what C100 says, and one that reads them what C101 says. -/
theorem C153_alone (js : Jobs F) (id : Nat) (fs : List FlagInfo) :
    (∀ todo failed, js id = .setting todo failed →
      run S js fs (List.replicate todo.length id) = (setLoop S.C S.accept todo failed fs).map fun r => (js.put id (.setting [] r.1), r.2)) ∧
    (∀ verbose json names, names ≠ [] → js id = .reading verbose names [] →
      run S js fs (List.replicate names.length id) = (getFlags S.T S.bigInt ⟨verbose, json, names⟩ fs).map fun out => (js.put id (.reading verbose [] out), fs)) := by
  have putput : ∀ (js : Jobs F) (a b : Job F), (js.put id a).put id b = js.put id b := by
    intro js a b; funext i; unfold Jobs.put; by_cases h : i = id <;> simp [h]
  have putself : ∀ (js : Jobs F), js.put id (js id) = js := by
    intro js; funext i; unfold Jobs.put; by_cases h : i = id <;> simp [h]
  constructor
  · intro todo
    induction todo generalizing js fs with
    | nil =>
      intro failed hj
      have := putself js
      rw [hj] at this
      simp [run, setLoop, this]
    | cons x todo ih =>
      intro failed hj
      obtain ⟨k, v⟩ := x
      rw [List.length_cons, List.replicate_succ, run, hj]
      simp only [Job.step, setLoop]
      cases asString S.C v with
      | none => rfl
      | some t =>
        simp only
        cases setOption S.accept (cstr k) (cstr t) fs with
        | none => simp only [Option.bind_some]; rw [ih (js.put id _) fs _ (put_same js id _)]; simp only [putput]
        | some fs' => simp only [Option.bind_some]; rw [ih (js.put id _) fs' _ (put_same js id _)]; simp only [putput]
  · intro verbose json names hne hj
    have gen : ∀ (names : List Bytes) (js : Jobs F) (out : List (Dyn F)), js id = .reading verbose names out →
        run S js fs (List.replicate names.length id) =
          (collect (names.map fun n => oneFlag S.T S.bigInt verbose n (flagInfo fs (cstr n)))).map fun new => (js.put id (.reading verbose [] (out ++ new)), fs) := by
      intro names
      induction names with
      | nil =>
        intro js out hj
        have := putself js
        rw [hj] at this
        simp [run, collect, this]
      | cons n ns ih =>
        intro js out hj
        rw [List.length_cons, List.replicate_succ, run, hj]
        simp only [Job.step, List.map_cons, collect]
        cases oneFlag S.T S.bigInt verbose n (flagInfo fs (cstr n)) with
        | none => rfl
        | some d =>
          simp only [Option.map_some, Option.bind_some]
          rw [ih (js.put id _) _ (put_same js id _)]
          simp only [putput, Option.map_map]
          congr 1
          funext new
          simp
    rw [gen names js [] hj]
    simp [getFlags, hne]

/-- **C153 (no failure).** Requests that set flags to scalars never end the process, whatever the schedule. -/
theorem C153_runs (sched : List Nat) (js : Jobs F) (fs : List FlagInfo) (h : ∀ id, ∃ todo failed ts, js id = .setting todo failed ∧ Items S.C todo ts) :
    ∃ js' fs', run S js fs sched = some (js', fs') := by
  induction sched generalizing js fs with
  | nil => exact ⟨js, fs, rfl⟩
  | cons i sched ih =>
    have hstep : ∃ todo' failed' ts' fs1, (js i).step S fs = some (.setting todo' failed', fs1) ∧ Items S.C todo' ts' := by
      obtain ⟨todo, failed, ts, e, hit⟩ := h i
      rw [e]
      cases hit with
      | nil => exact ⟨[], failed, [], fs, rfl, .nil⟩
      | @cons a b l m hab hlm =>
        obtain ⟨k, v⟩ := a
        simp only [Job.step, asString_iff.mpr hab.2]
        cases setOption S.accept (cstr k) (cstr b.2) fs with
        | none => exact ⟨l, _, m, fs, rfl, hlm⟩
        | some fs1 => exact ⟨l, _, m, fs1, rfl, hlm⟩
    obtain ⟨todo', failed', ts', fs1, e1, e2⟩ := hstep
    obtain ⟨js', fs', e3⟩ := ih (js.put i (.setting todo' failed')) fs1 (by
      intro id
      by_cases hid : id = i
      · subst hid; exact ⟨todo', failed', ts', put_same js id _, e2⟩
      · rw [put_other js _ hid]; exact h id)
    exact ⟨js', fs', by simp [run, e1, e3]⟩

/-! ## Not as a whole -/

def sampleSite : Site Nat where
  D := sampleDoubles
  C := sampleConv
  T := sampleTexts
  ord := id
  it := id
  accept := sampleAccept
  bigInt := toI64
  read := fun _ => .ok 1
  all := []
  sha := []

/-- Requests 0 and 1 set the same two flags (and one sets a flag that there is not), request 2 reads them. -/
def sampleJobs : Jobs Nat
  | 0 => .setting [(ascii "wal_ttl", .int 1), (ascii "nope", .bool true), (ascii "port", .int 1)] []
  | 1 => .setting [(ascii "wal_ttl", .int 2), (ascii "port", .int 2)] []
  | 2 => .reading false [ascii "wal_ttl", ascii "port"] []
  | _ => .reading false [] []

def sampleAsked : Nat → List (Bytes × Bytes)
  | 0 => [(ascii "wal_ttl", ascii "1"), (ascii "nope", ascii "1"), (ascii "port", ascii "1")]
  | 1 => [(ascii "wal_ttl", ascii "2"), (ascii "port", ascii "2")]
  | _ => []

example : AcceptsByType sampleSite.accept ∧ DistinctNames sampleFlags ∧ ∀ id, Asks sampleSite (sampleAsked id) (sampleJobs id) := by
  refine ⟨fun f t t' b => rfl, by unfold DistinctNames; decide +kernel, fun id => ?_⟩
  match id with
  | 0 =>
    refine ⟨rfl, .cons ⟨rfl, ?_⟩ (.cons ⟨rfl, ?_⟩ (.cons ⟨rfl, ?_⟩ .nil)), ?_⟩
    · exact asString_iff.mp (by decide +kernel)
    · exact asString_iff.mp (by decide +kernel)
    · exact asString_iff.mp (by decide +kernel)
    · unfold Clean; decide +kernel
  | 1 =>
    refine ⟨rfl, .cons ⟨rfl, ?_⟩ (.cons ⟨rfl, ?_⟩ .nil), ?_⟩
    · exact asString_iff.mp (by decide +kernel)
    · exact asString_iff.mp (by decide +kernel)
    · unfold Clean; decide +kernel
  | 2 => rfl
  | n + 3 => rfl

/-- A schedule after which all requests have finished; request 0 is told what failed. -/
example : ∃ js' fs', run sampleSite sampleJobs sampleFlags [2, 0, 1, 0, 1, 0, 2] = some (js', fs') ∧ (∀ id, (js' id).Finished) ∧ js' 0 = .setting [] [ascii "nope"] := by
  refine ⟨_, _, rfl, fun id => ?_, by rfl⟩
  match id with
  | 0 => rfl
  | 1 => rfl
  | 2 => rfl
  | n + 3 => rfl

/-- The values of the first two flags after a schedule. -/
def sampleResult (sched : List Nat) : Option (List Bytes) := (run sampleSite sampleJobs sampleFlags sched).map fun r => (r.2.map (·.current)).take 2

/-- **C153 fails for requests as a whole:** two requests that set the same two flags can leave one flag as the one request asked and the other as the other asked, which no order of whole
requests does. -/
theorem C153_whole_violated : sampleResult [0, 1, 0, 1, 0] = some [ascii "2", ascii "1"] ∧
    sampleResult [0, 0, 0, 1, 1] = some [ascii "2", ascii "2"] ∧ sampleResult [1, 1, 0, 0, 0] = some [ascii "1", ascii "1"] := by
  refine ⟨by decide +kernel, by decide +kernel, by decide +kernel⟩

/-- **C153 fails for readers:** a request that reads two flags can see one as it was before a request that sets both, and the other as it is after it. -/
theorem C153_reader_violated :
    ((run sampleSite sampleJobs sampleFlags [2, 1, 1, 2]).map fun r => r.1 2) =
      some (.reading false [] [.obj [(ascii "name", .str (ascii "wal_ttl")), (ascii "value", .int 86400)], .obj [(ascii "name", .str (ascii "port")), (ascii "value", .int 2)]]) := by
  rfl

end Web.Race
end Nebula
