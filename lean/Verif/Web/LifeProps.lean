import Verif.Web.LifeSpec
import Verif.Web.HandlersProps
/-!
# C152: every request is answered once and its handler deleted once
-/
namespace Nebula
namespace Web.Life
open Json Conf Net

variable {F : Type} {S : Site F}

/-! ## What happens to one handler -/

/-- One call, as far as the handler itself goes. -/
def locStep : Option Obj → Act → Option (Option Obj)
  | none, .create k => some (some { kind := k })
  | some _, .create _ => none
  | none, .call _ => none
  | some o, .call (.request m) => (o.onRequest m).map some
  | some o, .call (.body p) => some (some (o.onBody p))
  | some o, .call .upgrade => some (some o)
  | some o, .call .eom => some (some o)
  | some _, .call .complete => some none
  | some o, .call .error => some (if o.kind.deletesOnError then none else some o)

def locRun : Option Obj → List Act → Option (Option Obj)
  | x, [] => some x
  | x, a :: as => (locStep x a).bind fun y => locRun y as

theorem locRun_append (x : Option Obj) (as bs : List Act) : locRun x (as ++ bs) = (locRun x as).bind fun y => locRun y bs := by
  induction as generalizing x with
  | nil => rfl
  | cons a as ih =>
    rw [List.cons_append, locRun, locRun]
    cases locStep x a with
    | none => rfl
    | some y => exact ih y

theorem own_nil (id : Nat) : own id [] = [] := rfl

theorem own_cons (id i : Nat) (a : Act) (tr : List (Nat × Act)) : own id ((i, a) :: tr) = if i = id then a :: own id tr else own id tr := by
  unfold own
  by_cases h : i = id <;> simp [h]

theorem own_append (id : Nat) (tr tr' : List (Nat × Act)) : own id (tr ++ tr') = own id tr ++ own id tr' := by
  unfold own; rw [List.filter_append, List.map_append]

theorem step_loc {st st' : Sys} {i : Nat} {a : Act} (h : st.step S i a = some st') :
    locStep (st.heap i) a = some (st'.heap i) ∧ ∀ j, j ≠ i → st'.heap j = st.heap j := by
  cases a with
  | create k =>
    cases hh : st.heap i with
    | some o => simp [Sys.step, hh] at h
    | none =>
      simp [Sys.step, hh] at h; subst h
      exact ⟨by simp [locStep, Sys.set], fun j hj => by simp [Sys.set, hj]⟩
  | call e =>
    cases hh : st.heap i with
    | none => simp [Sys.step, hh] at h
    | some o =>
      cases e with
      | request m =>
        simp only [Sys.step, hh, Option.map_eq_some_iff] at h
        obtain ⟨o', h1, rfl⟩ := h
        exact ⟨by simp [locStep, Sys.set, h1], fun j hj => by simp [Sys.set, hj]⟩
      | body p =>
        simp [Sys.step, hh] at h; subst h
        exact ⟨by simp [locStep, Sys.set], fun j hj => by simp [Sys.set, hj]⟩
      | upgrade =>
        simp [Sys.step, hh] at h; subst h
        exact ⟨by simp [locStep, hh], fun j hj => rfl⟩
      | eom =>
        simp only [Sys.step, hh, Option.map_eq_some_iff] at h
        obtain ⟨⟨r, fs⟩, h1, rfl⟩ := h
        exact ⟨by simp [locStep, hh], fun j hj => rfl⟩
      | complete =>
        simp [Sys.step, hh] at h; subst h
        exact ⟨by simp [locStep, Sys.set], fun j hj => by simp [Sys.set, hj]⟩
      | error =>
        simp only [Sys.step, hh, Option.some.injEq] at h; subst h
        cases hd : o.kind.deletesOnError
        · exact ⟨by simp [locStep, hd, hh], fun j hj => by simp⟩
        · exact ⟨by simp [locStep, hd, Sys.set], fun j hj => by simp [Sys.set, hj]⟩

theorem run_loc {st st' : Sys} {tr : List (Nat × Act)} (h : st.run S tr = some st') (id : Nat) : locRun (st.heap id) (own id tr) = some (st'.heap id) := by
  induction tr generalizing st with
  | nil => simp [Sys.run] at h; subst h; rfl
  | cons x tr ih =>
    obtain ⟨i, a⟩ := x
    simp only [Sys.run, Option.bind_eq_some_iff] at h
    obtain ⟨st1, h1, h2⟩ := h
    obtain ⟨e1, e2⟩ := step_loc h1
    rw [own_cons]
    by_cases hi : i = id
    · subst hi
      rw [if_pos rfl, locRun, e1]
      exact ih h2
    · rw [if_neg hi, ← e2 id (Ne.symm hi)]
      exact ih h2

theorem run_append (st : Sys) (tr tr' : List (Nat × Act)) : st.run S (tr ++ tr') = (st.run S tr).bind fun st' => st'.run S tr' := by
  induction tr generalizing st with
  | nil => rfl
  | cons x tr ih =>
    obtain ⟨i, a⟩ := x
    rw [List.cons_append, Sys.run, Sys.run]
    cases st.step S i a with
    | none => rfl
    | some y => exact ih y

/-- The pieces of the body and the changes of protocol. -/
def Obj.feed (o : Obj) : List Ev → Obj
  | [] => o
  | .body p :: es => (o.onBody p).feed es
  | _ :: es => o.feed es

theorem loc_feed (o : Obj) (mid : List Ev) (hm : ∀ e ∈ mid, e.Between) : locRun (some o) (mid.map .call) = some (some (o.feed mid)) := by
  induction mid generalizing o with
  | nil => rfl
  | cons e mid ih =>
    have h0 := hm e (by simp)
    have h1 : ∀ e ∈ mid, e.Between := fun e h => hm e (by simp [h])
    cases e <;> simp only [Ev.Between] at h0
    · simp only [List.map_cons, locRun, locStep, Option.bind_some, Obj.feed]; exact ih _ h1
    · simp only [List.map_cons, locRun, locStep, Option.bind_some, Obj.feed]; exact ih _ h1

theorem onBody_kind (o : Obj) (p : Bytes) : (o.onBody p).kind = o.kind := by
  unfold Obj.onBody
  cases hk : o.kind <;> simp [hk]
  cases o.body <;> simp [hk]

theorem feed_kind (o : Obj) (mid : List Ev) : (o.feed mid).kind = o.kind := by
  induction mid generalizing o with
  | nil => rfl
  | cons e mid ih =>
    cases e with
    | body p => rw [Obj.feed, ih, onBody_kind]
    | _ => exact ih o

theorem onRequest_kind {o o' : Obj} {m : Msg} (h : o.onRequest m = some o') : o'.kind = o.kind := by
  unfold Obj.onRequest at h
  split at h
  · injection h with h; rw [← h]
  all_goals
    split at h
    · cases h
    all_goals (injection h with h; rw [← h])

theorem feed_other {o : Obj} (h : o.kind ≠ .flagsSet) (mid : List Ev) : o.feed mid = o := by
  induction mid with
  | nil => rfl
  | cons e mid ih =>
    cases e with
    | body p =>
      have : o.onBody p = o := by unfold Obj.onBody; cases hk : o.kind <;> simp_all
      rw [Obj.feed, this, ih]
    | _ => exact ih

theorem feed_set {o : Obj} (h : o.kind = .flagsSet) (mid : List Ev) :
    o.feed mid = { o with body := match o.body with
      | some b => some (b ++ (pieces mid).flatten)
      | none => if pieces mid = [] then none else some (pieces mid).flatten } := by
  induction mid generalizing o with
  | nil =>
    cases hb : o.body <;> simp [Obj.feed, pieces] <;> (cases o; simp_all)
  | cons e mid ih =>
    cases e with
    | body p =>
      rw [Obj.feed, ih (by rw [onBody_kind]; exact h)]
      cases hb : o.body <;> simp [Obj.onBody, h, hb, pieces]
    | _ => exact ih h

/-- What `onEOM` answers. -/
theorem eom_served {k : Kind} {m : Msg} {o : Obj} (h : ({ kind := k } : Obj).onRequest m = some o) (mid : List Ev) (fs : List FlagInfo) :
    (o.feed mid).onEOM S fs = served S k m (pieces mid) fs := by
  have hk := onRequest_kind h
  cases k with
  | flagsSet =>
    rw [feed_set hk]
    simp only [Obj.onRequest] at h
    cases hm : m.method with
    | none => simp [hm] at h
    | some x =>
      cases x <;> simp [hm] at h <;> subst h <;> simp [Obj.onEOM, served, hm] <;> rfl
  | flagsGet =>
    rw [feed_other (by rw [hk]; simp)]
    simp only [Obj.onRequest] at h
    cases hm : m.method with
    | none => simp [hm] at h
    | some x => cases x <;> simp [hm] at h <;> subst h <;> simp [Obj.onEOM, served, hm, replyFlags]
  | stats =>
    rw [feed_other (by rw [hk]; simp)]
    simp only [Obj.onRequest] at h
    cases hm : m.method with
    | none => simp [hm] at h
    | some x => cases x <;> simp [hm] at h <;> subst h <;> simp [Obj.onEOM, served, hm, replyStats]
  | status =>
    rw [feed_other (by rw [hk]; simp)]
    simp only [Obj.onRequest] at h
    cases hm : m.method with
    | none => simp [hm] at h
    | some x => cases x <;> simp [hm] at h <;> subst h <;> simp [Obj.onEOM, served, hm, replyStatus]
  | unknown =>
    rw [feed_other (by rw [hk]; simp)]
    simp only [Obj.onRequest, Option.some.injEq] at h
    subst h; rfl

/-- A handler after the head of the request and pieces of the body. -/
theorem loc_begun {k : Kind} {m : Msg} {mid : List Ev} {x : Option Obj} (hm : ∀ e ∈ mid, e.Between)
    (h : locRun none (.create k :: (Ev.request m :: mid).map .call) = some x) :
    ∃ o, ({ kind := k } : Obj).onRequest m = some o ∧ x = some (o.feed mid) := by
  simp only [List.map_cons, locRun, locStep, Option.bind_some] at h
  cases ho : ({ kind := k } : Obj).onRequest m with
  | none => simp [ho] at h
  | some o =>
    simp only [ho, Option.map_some, Option.bind_some] at h
    rw [loc_feed o mid hm] at h
    injection h with h
    exact ⟨o, rfl, h.symm⟩

/-- How far a request can have come. -/
theorem whole_prefix {es more : List Ev} (h : Whole (es ++ more)) :
    es = [] ∨ ∃ m mid tail, es = .request m :: mid ++ tail ∧ (∀ e ∈ mid, e.Between) ∧
      (tail = [] ∨ tail = [.eom] ∨ tail = [.eom, .complete] ∨ tail = [.eom, .error] ∨ tail = [.error]) := by
  obtain ⟨m, mid, tail, e, hm, ht⟩ := h
  cases es with
  | nil => exact .inl rfl
  | cons x es =>
    right
    simp only [List.cons_append, List.cons.injEq] at e
    obtain ⟨rfl, e⟩ := e
    rcases List.append_eq_append_iff.1 e with ⟨a, e1, e2⟩ | ⟨a, e1, e2⟩
    · exact ⟨m, es, [], by simp, fun y hy => hm y (by rw [e1]; simp [hy]), .inl rfl⟩
    · refine ⟨m, mid, a, by rw [e1]; rfl, hm, ?_⟩
      rcases ht with rfl | rfl | rfl
      · match a with
        | [] => exact .inl rfl
        | [y] => simp at e2; obtain ⟨rfl, -⟩ := e2; exact .inr (.inl rfl)
        | [y, z] => simp at e2; obtain ⟨rfl, rfl, -⟩ := e2; exact .inr (.inr (.inl rfl))
        | y :: z :: w :: a => simp at e2
      · match a with
        | [] => exact .inl rfl
        | [y] => simp at e2; obtain ⟨rfl, -⟩ := e2; exact .inr (.inl rfl)
        | [y, z] => simp at e2; obtain ⟨rfl, rfl, -⟩ := e2; exact .inr (.inr (.inr (.inl rfl)))
        | y :: z :: w :: a => simp at e2
      · match a with
        | [] => exact .inl rfl
        | [y] => simp at e2; obtain ⟨rfl, -⟩ := e2; exact .inr (.inr (.inr (.inr rfl)))
        | y :: z :: a => simp at e2

theorem call_inj {es es' : List Ev} {k k' : Kind} (h : Act.create k :: es.map Act.call = .create k' :: es'.map .call) : k = k' ∧ es = es' := by
  simp only [List.cons.injEq, Act.create.injEq] at h
  refine ⟨h.1, ?_⟩
  exact (List.map_inj_right (fun a b h => by injection h)).1 h.2

/-- The handler of a request, after any history. -/
theorem heap_after {fs : List FlagInfo} {tr : List (Nat × Act)} {st : Sys} (h : (Sys.start fs).run S tr = some st) {id : Nat} {k : Kind} {m : Msg} {mid tail : List Ev}
    (ho : own id tr = .create k :: (Ev.request m :: mid ++ tail).map .call) (hm : ∀ e ∈ mid, e.Between) :
    ∃ o, ({ kind := k } : Obj).onRequest m = some o ∧ locRun (some (o.feed mid)) (tail.map .call) = some (st.heap id) := by
  have hl := run_loc h id
  rw [ho, List.map_append, ← List.cons_append, locRun_append] at hl
  simp only [Option.bind_eq_some_iff] at hl
  obtain ⟨x, h1, h2⟩ := hl
  obtain ⟨o, h3, rfl⟩ := loc_begun hm h1
  exact ⟨o, h3, h2⟩

/-! ## C152 -/

/-- **C152 (deletion).** When a request has ended, its handler is gone, in every history of the service, whatever other requests do meanwhile and whichever way the request ended.
Partial: not if the handler is that of the status and the request ended with an error. -/
theorem C152_freed_partial {fs : List FlagInfo} {tr : List (Nat × Act)} {st : Sys} (h : (Sys.start fs).run S tr = some st) {id : Nat} {k : Kind} {es : List Ev}
    (ho : own id tr = .create k :: es.map .call) (hw : Whole es) (hk : ¬ (k = .status ∧ Ev.error ∈ es)) : st.heap id = none := by
  obtain ⟨m, mid, tail, rfl, hm, ht⟩ := hw
  obtain ⟨o, h1, h2⟩ := heap_after h ho hm
  have hkind : (o.feed mid).kind = k := by rw [feed_kind, onRequest_kind h1]
  rcases ht with rfl | rfl | rfl
  · simp [locRun, locStep] at h2; exact h2.symm
  · have hd : (o.feed mid).kind.deletesOnError = true := by
      rw [hkind]; cases k <;> simp [Kind.deletesOnError] at hk ⊢
    simp [locRun, locStep, hd] at h2; exact h2.symm
  · have hd : (o.feed mid).kind.deletesOnError = true := by
      rw [hkind]; cases k <;> simp [Kind.deletesOnError] at hk ⊢
    simp [locRun, locStep, hd] at h2; exact h2.symm

/-- **C152 fails for the status:** the handler of a request for the status that ends with an error is never deleted, in any history: each such request takes memory for good. -/
theorem C152_leak_violated {fs : List FlagInfo} {tr : List (Nat × Act)} {st : Sys} (h : (Sys.start fs).run S tr = some st) {id : Nat} {es : List Ev}
    (ho : own id tr = .create .status :: es.map .call) (hw : Whole es) (he : Ev.error ∈ es) : ∃ o, st.heap id = some o := by
  obtain ⟨m, mid, tail, rfl, hm, ht⟩ := hw
  obtain ⟨o, h1, h2⟩ := heap_after h ho hm
  have hd : (o.feed mid).kind.deletesOnError = false := by rw [feed_kind, onRequest_kind h1]; rfl
  rcases ht with rfl | rfl | rfl
  · simp at he
    rcases he with he
    exact absurd (hm _ he) (by simp [Ev.Between])
  · simp [locRun, locStep, hd] at h2; exact ⟨_, h2.symm⟩
  · simp [locRun, locStep, hd] at h2; exact ⟨_, h2.symm⟩

/-- **C152 (no early deletion).** As long as neither the end nor an error of a request was told, its handler is there. -/
theorem C152_kept {fs : List FlagInfo} {tr : List (Nat × Act)} {st : Sys} (h : (Sys.start fs).run S tr = some st) {id : Nat} {k : Kind} {es more : List Ev}
    (ho : own id tr = .create k :: es.map .call) (hw : Whole (es ++ more)) (hc : Ev.complete ∉ es) (he : Ev.error ∉ es) : ∃ o, st.heap id = some o := by
  rcases whole_prefix hw with rfl | ⟨m, mid, tail, rfl, hm, ht⟩
  · have := run_loc h id
    rw [ho] at this
    simp [locRun, locStep, Sys.start] at this
    exact ⟨_, this.symm⟩
  · obtain ⟨o, h1, h2⟩ := heap_after h ho hm
    rcases ht with rfl | rfl | rfl | rfl | rfl
    · simp [locRun] at h2; exact ⟨_, h2.symm⟩
    · simp [locRun, locStep] at h2; exact ⟨_, h2.symm⟩
    · simp at hc
    · simp at he
    · simp at he

/-- The first call that fails. -/
theorem run_none {st : Sys} {tr : List (Nat × Act)} (h : st.run S tr = none) :
    ∃ pre i a post st', tr = pre ++ (i, a) :: post ∧ st.run S pre = some st' ∧ st'.step S i a = none := by
  induction tr generalizing st with
  | nil => cases h
  | cons x tr ih =>
    obtain ⟨i, a⟩ := x
    simp only [Sys.run] at h
    cases h1 : st.step S i a with
    | none => exact ⟨[], i, a, tr, st, rfl, rfl, h1⟩
    | some st1 =>
      simp only [h1, Option.bind_some] at h
      obtain ⟨pre, j, b, post, st', e, h2, h3⟩ := ih h
      exact ⟨(i, a) :: pre, j, b, post, st', by rw [e]; rfl, by simp [Sys.run, h1, h2], h3⟩

/-- **C152 (no use after deletion).** If the calls are as promised, the only things that can go wrong in a history are a request with an unknown method and an answer that cannot be
given (C100 to C102 say which): no handler is used after its deletion, deleted twice, or used before it is made. -/
theorem C152_safe {fs : List FlagInfo} {tr : List (Nat × Act)} (hp : Proper tr) (h : (Sys.start fs).run S tr = none) :
    ∃ pre id k e post st, tr = pre ++ (id, .call e) :: post ∧ (Sys.start fs).run S pre = some st ∧
      ((∃ m, e = .request m ∧ m.method = none ∧ own id pre = [.create k]) ∨
       (∃ m mid, e = .eom ∧ own id pre = .create k :: (Ev.request m :: mid).map .call ∧ served S k m (pieces mid) st.flags = none)) := by
  obtain ⟨pre, id, a, post, st, rfl, h1, h2⟩ := run_none h
  have hown : own id (pre ++ (id, a) :: post) = own id pre ++ a :: own id post := by rw [own_append, own_cons, if_pos rfl]
  have hl := run_loc h1 id
  rcases hp id with hp | ⟨k, es, more, ho, hw⟩
  · rw [hown] at hp; simp at hp
  · rw [hown] at ho
    cases hpre : own id pre with
    | nil =>
      rw [hpre, List.nil_append] at ho
      simp only [List.cons.injEq] at ho
      obtain ⟨rfl, -⟩ := ho
      rw [hpre] at hl
      simp only [locRun, Option.some.injEq] at hl
      simp [Sys.step, ← hl, Sys.start] at h2
    | cons b bs =>
      rw [hpre, List.cons_append] at ho
      simp only [List.cons.injEq] at ho
      obtain ⟨rfl, ho⟩ := ho
      obtain ⟨e1, e2', e3, e4, e5⟩ := List.map_eq_append_iff.1 ho.symm
      obtain ⟨e, es', rfl, rfl, e6⟩ := List.map_eq_cons_iff.1 e5
      subst e4
      have hw' : Whole (e1 ++ [e] ++ (es' ++ more)) := by rw [e3] at hw; simpa using hw
      refine ⟨pre, id, k, e, post, st, rfl, h1, ?_⟩
      rw [hpre] at hl
      have hstep : ∀ o, st.heap id = some o → (∃ m, e = .request m ∧ o.onRequest m = none) ∨ (e = .eom ∧ o.onEOM S st.flags = none) := by
        intro o hh
        cases e with
        | request m => simp [Sys.step, hh] at h2; exact .inl ⟨m, rfl, h2⟩
        | eom => simp [Sys.step, hh] at h2; exact .inr ⟨rfl, h2⟩
        | body p => simp [Sys.step, hh] at h2
        | upgrade => simp [Sys.step, hh] at h2
        | complete => simp [Sys.step, hh] at h2
        | error => simp [Sys.step, hh] at h2
      rcases whole_prefix hw' with hx | ⟨m, mid, tail, hx, hm, ht⟩
      · simp at hx
      cases e1 with
      | nil =>
        have hh : st.heap id = some { kind := k } := by
          simp [locRun, locStep, Sys.start] at hl; exact hl.symm
        simp only [List.nil_append, List.cons_append, List.cons.injEq] at hx
        rcases hstep _ hh with ⟨m', rfl, h3⟩ | ⟨rfl, -⟩
        · refine .inl ⟨m', rfl, ?_, by simp [hpre]⟩
          unfold Obj.onRequest at h3
          cases hmm : m'.method with
          | none => rfl
          | some y => cases k <;> cases y <;> simp [hmm] at h3
        · exact absurd hx.1 (by simp)
      | cons e0 e1 =>
        simp only [List.cons_append, List.cons.injEq] at hx
        obtain ⟨rfl, hx⟩ := hx
        -- the calls so far are the head and pieces of the body, or more
        have hpos : (∃ mid', e1 = mid' ∧ (∀ e ∈ mid', e.Between)) ∨ (∃ mid', e1 = mid' ++ [.eom] ∧ (∀ e ∈ mid', e.Between) ∧ (e = .complete ∨ e = .error)) := by
          rcases ht with rfl | rfl | rfl | rfl | rfl
          · rw [List.append_nil] at hx
            exact .inl ⟨e1, rfl, fun y hy => hm y (by rw [← hx]; simp [hy])⟩
          · obtain ⟨rfl, -⟩ := List.append_inj' hx rfl
            exact .inl ⟨e1, rfl, hm⟩
          · have hx' : e1 ++ [e] = (mid ++ [.eom]) ++ [.complete] := by rw [hx]; simp
            obtain ⟨rfl, h'⟩ := List.append_inj' hx' rfl
            exact .inr ⟨mid, rfl, hm, .inl (by simpa using h')⟩
          · have hx' : e1 ++ [e] = (mid ++ [.eom]) ++ [.error] := by rw [hx]; simp
            obtain ⟨rfl, h'⟩ := List.append_inj' hx' rfl
            exact .inr ⟨mid, rfl, hm, .inr (by simpa using h')⟩
          · obtain ⟨rfl, -⟩ := List.append_inj' hx rfl
            exact .inl ⟨e1, rfl, hm⟩
        rcases hpos with ⟨mid', rfl, hm'⟩ | ⟨mid', rfl, hm', he⟩
        · obtain ⟨o, h3, h4⟩ := heap_after h1 (tail := []) (by rw [hpre, List.append_nil]) hm'
          simp [locRun] at h4
          rcases hstep _ h4.symm with ⟨m', rfl, h5⟩ | ⟨rfl, h5⟩
          · exfalso
            have : Ev.request m' ∈ mid ++ tail := by rw [← hx]; simp
            rcases List.mem_append.1 this with h6 | h6
            · exact absurd (hm _ h6) (by simp [Ev.Between])
            · rcases ht with rfl | rfl | rfl | rfl | rfl <;> simp at h6
          · exact .inr ⟨m, e1, rfl, hpre, by rw [← eom_served h3]; exact h5⟩
        · obtain ⟨o, h3, h4⟩ := heap_after h1 (k := k) (m := m) (mid := mid') (tail := [.eom]) (by rw [hpre]; simp) hm'
          simp [locRun, locStep] at h4
          rcases hstep _ h4.symm with ⟨m', rfl, h5⟩ | ⟨rfl, h5⟩
          · simp at he
          · simp at he

/-- The answers to a request. -/
def repliesTo (id : Nat) (st : Sys) : List Reply := (st.sent.filter fun x => x.1 = id).map (·.2)

theorem step_quiet {st st' : Sys} {i : Nat} {a : Act} (h : st.step S i a = some st') (id : Nat) (ha : i = id → a ≠ .call .eom) : repliesTo id st' = repliesTo id st := by
  cases a with
  | create k =>
    simp only [Sys.step] at h
    split at h
    · cases h
    · injection h with h; rw [← h]; rfl
  | call e =>
    simp only [Sys.step] at h
    split at h
    · cases h
    · cases e with
      | request m => simp only [Option.map_eq_some_iff] at h; obtain ⟨_, _, rfl⟩ := h; rfl
      | body p => injection h with h; rw [← h]; rfl
      | upgrade => injection h with h; rw [← h]
      | eom =>
        simp only [Option.map_eq_some_iff] at h
        obtain ⟨⟨r, fs⟩, _, rfl⟩ := h
        have : i ≠ id := fun e => ha e rfl
        simp [repliesTo, this]
      | complete => injection h with h; rw [← h]; rfl
      | error => injection h with h; rw [← h]; split <;> rfl

theorem run_quiet {st st' : Sys} {tr : List (Nat × Act)} (h : st.run S tr = some st') (id : Nat) (ha : Act.call .eom ∉ own id tr) : repliesTo id st' = repliesTo id st := by
  induction tr generalizing st with
  | nil => simp [Sys.run] at h; rw [h]
  | cons x tr ih =>
    obtain ⟨i, a⟩ := x
    simp only [Sys.run, Option.bind_eq_some_iff] at h
    obtain ⟨st1, h1, h2⟩ := h
    rw [own_cons] at ha
    by_cases hi : i = id
    · rw [if_pos hi] at ha
      rw [ih h2 (fun hh => ha (by simp [hh])), step_quiet h1 id (fun _ e => ha (by simp [e]))]
    · rw [if_neg hi] at ha
      rw [ih h2 ha, step_quiet h1 id (fun e => absurd e hi)]

theorem own_split {id : Nat} {tr : List (Nat × Act)} {as bs : List Act} {a : Act} (h : own id tr = as ++ a :: bs) :
    ∃ pre post, tr = pre ++ (id, a) :: post ∧ own id pre = as ∧ own id post = bs := by
  induction tr generalizing as with
  | nil => simp [own] at h
  | cons x tr ih =>
    obtain ⟨i, b⟩ := x
    rw [own_cons] at h
    by_cases hi : i = id
    · rw [if_pos hi] at h
      cases as with
      | nil =>
        simp only [List.nil_append, List.cons.injEq] at h
        exact ⟨[], tr, by rw [hi, h.1]; rfl, rfl, h.2⟩
      | cons c as =>
        simp only [List.cons_append, List.cons.injEq] at h
        obtain ⟨pre, post, e1, e2, e3⟩ := ih h.2
        exact ⟨(i, b) :: pre, post, by rw [e1]; rfl, by rw [own_cons, if_pos hi, e2, h.1], e3⟩
    · rw [if_neg hi] at h
      obtain ⟨pre, post, e1, e2, e3⟩ := ih h
      exact ⟨(i, b) :: pre, post, by rw [e1]; rfl, by rw [own_cons, if_neg hi, e2], e3⟩

/-- **C152 (one answer).** A request that has come to its end is answered exactly once, and what it is answered, and what becomes of the flags, depends only on its head, on the bytes
of its body however they were cut into pieces, and on the flags at that moment. -/
theorem C152_answer {fs : List FlagInfo} {tr : List (Nat × Act)} {st : Sys} (h : (Sys.start fs).run S tr = some st) {id : Nat} {k : Kind} {m : Msg} {mid tail : List Ev}
    (ho : own id tr = .create k :: (Ev.request m :: mid ++ .eom :: tail).map .call) (hm : ∀ e ∈ mid, e.Between) (ht : tail = [] ∨ tail = [.complete] ∨ tail = [.error]) :
    ∃ pre post st0 st1 r, tr = pre ++ (id, .call .eom) :: post ∧ (Sys.start fs).run S pre = some st0 ∧ (Sys.start fs).run S (pre ++ [(id, .call .eom)]) = some st1 ∧
      served S k m (pieces mid) st0.flags = some (r, st1.flags) ∧ repliesTo id st = [r] := by
  have ho' : own id tr = (.create k :: (Ev.request m :: mid).map .call) ++ .call .eom :: tail.map .call := by rw [ho]; simp
  obtain ⟨pre, post, rfl, e1, e2⟩ := own_split ho'
  rw [run_append] at h
  simp only [Option.bind_eq_some_iff, Sys.run] at h
  obtain ⟨st0, h0, st1, h1, h2⟩ := h
  obtain ⟨o, g1, g2⟩ := heap_after h0 (tail := []) (by rw [e1, List.append_nil]) hm
  simp [locRun] at g2
  have hnoeom : Act.call .eom ∉ own id pre := by
    rw [e1]; simp
    exact fun hh => absurd (hm _ hh) (by simp [Ev.Between])
  have hnoeom' : Act.call .eom ∉ own id post := by
    rw [e2]; rcases ht with rfl | rfl | rfl <;> simp
  have h1' := h1
  simp only [Sys.step, ← g2, Option.map_eq_some_iff] at h1
  obtain ⟨⟨r, fs'⟩, h3, h4⟩ := h1
  have hf : st1.flags = fs' := by rw [← h4]
  refine ⟨pre, post, st0, st1, r, rfl, h0, ?_, ?_, ?_⟩
  · rw [run_append, h0]; simp [Sys.run, h1']
  · rw [hf, ← eom_served g1]; exact h3
  · rw [run_quiet h2 id hnoeom']
    have e0 := run_quiet h0 id hnoeom
    rw [← h4]
    have : repliesTo id st0 = [] := by rw [e0]; rfl
    simp only [repliesTo, List.filter_append, List.map_append] at this ⊢
    rw [this]; simp

/-- **C152 (no answer).** A request that has not come to its end, or has failed before, is not answered. -/
theorem C152_silent {fs : List FlagInfo} {tr : List (Nat × Act)} {st : Sys} (h : (Sys.start fs).run S tr = some st) (id : Nat) (he : Act.call .eom ∉ own id tr) :
    repliesTo id st = [] := by
  rw [run_quiet h id he]; rfl

/-! ## Histories -/

def sampleSite : Site Nat where
  D := sampleDoubles
  C := sampleConv
  T := sampleTexts
  ord := id
  it := id
  accept := sampleAccept
  bigInt := toI64
  read := fun _ => .ok 1
  all := []
  sha := ascii "abc"

/-- Three requests at the same time: flags are set by a body in two pieces, the connection of a request for the status breaks, a path is not known. -/
def sampleHistory : List (Nat × Act) :=
  [(1, .create .flagsSet), (2, .create .status), (1, .call (.request { method := some .put })), (2, .call (.request { method := some .get })),
   (1, .call (.body (ascii "{\"wal_"))), (3, .create .unknown), (2, .call .error), (3, .call (.request { method := some .other })), (1, .call (.body (ascii "ttl\":60}"))),
   (1, .call .eom), (3, .call .eom), (3, .call .error), (1, .call .complete)]

example : Proper sampleHistory := by
  intro id
  by_cases h1 : id = 1
  · subst h1
    exact .inr ⟨.flagsSet, [.request { method := some .put }, .body (ascii "{\"wal_"), .body (ascii "ttl\":60}"), .eom, .complete], [], by decide +kernel,
      { method := some .put }, [.body (ascii "{\"wal_"), .body (ascii "ttl\":60}")], [.eom, .complete], rfl, by simp [Ev.Between], .inl rfl⟩
  by_cases h2 : id = 2
  · subst h2
    exact .inr ⟨.status, [.request { method := some .get }, .error], [], by decide +kernel, { method := some .get }, [], [.error], rfl, by simp, .inr (.inr rfl)⟩
  by_cases h3 : id = 3
  · subst h3
    exact .inr ⟨.unknown, [.request { method := some .other }, .eom, .error], [], by decide +kernel, { method := some .other }, [], [.eom, .error], rfl, by simp, .inr (.inl rfl)⟩
  · left
    simp [own, sampleHistory, Ne.symm h1, Ne.symm h2, Ne.symm h3]

/-- It runs to its end; requests 1 and 3 are answered and their handlers are gone, that of request 2 is still there. -/
example : ((Sys.start sampleFlags).run sampleSite sampleHistory).map (fun st => ((st.heap 1).isSome, (st.heap 2).isSome, (st.heap 3).isSome)) = some (false, true, false) ∧
    ((Sys.start sampleFlags).run sampleSite sampleHistory).map (fun st => st.sent.map fun x => (x.1, x.2.code)) = some [(1, 200), (3, 404)] ∧
    ((Sys.start sampleFlags).run sampleSite sampleHistory).map (fun st => decide (st.flags = sampleFlags)) = some false := by
  refine ⟨by decide +kernel, by decide +kernel, by decide +kernel⟩

/-- A history that ends the process: the flags are to be set and there is no body. -/
example : ((Sys.start sampleFlags).run sampleSite [(1, .create .flagsSet), (1, .call (.request { method := some .put })), (1, .call .eom)]).isNone = true := by decide +kernel

end Web.Life
end Nebula
