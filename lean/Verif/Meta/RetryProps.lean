import Verif.Meta.Retry
/-! # C54: requests to the meta server -/
namespace Nebula
namespace Meta

variable {R A : Type}

/-- An outcome after which the request may be sent again. -/
def RpcOutcome.Retryable : RpcOutcome R → Prop
  | .exception => True
  | .response code _ _ => code = .leaderChanged

/-- What the caller is told when an outcome is the last one. -/
def RpcOutcome.verdict (respGen : R → A) : RpcOutcome R → RpcResult A
  | .exception => .error
  | .response .succeeded _ p => .value (respGen p)
  | .response .leaderChanged _ _ => .leaderChanged
  | .response (.other _) _ _ => .error

/-- The log of a request: some attempts, then the last one, then the answer to the caller. -/
def logOf (attempts : List (HostAddr × RpcOutcome R)) (last : HostAddr × RpcOutcome R) (r : RpcResult A) : List (RpcEvent R A) :=
  (attempts ++ [last]).map (fun a => .sent a.1 a.2) ++ [.fulfilled r]

theorem log_cons (a : HostAddr × RpcOutcome R) (as : List (HostAddr × RpcOutcome R)) (last : HostAddr × RpcOutcome R) (r : RpcResult A) :
    logOf (a :: as) last r = .sent a.1 a.2 :: logOf as last r := rfl

theorem getResponse_spec (w : RpcWorld R) (respGen : R → A) (toLeader : Bool) (retry : Nat) (limit : Int) (h : MetaHosts) :
    ∃ attempts last, getResponse w respGen toLeader retry limit h = logOf attempts last (last.2.verdict respGen) ∧
      (∀ a ∈ attempts, a.2.Retryable) ∧ attempts.length ≤ (limit - retry).toNat ∧
      (last.2.Retryable → attempts.length = (limit - retry).toNat) ∧
      (∀ (k : Nat) (a : HostAddr × RpcOutcome R), (attempts ++ [last])[k]? = some a → a.2 = w.answer (retry + k) a.1) := by
  rw [getResponse]
  dsimp only
  generalize hh : w.env retry h = g
  generalize hhost : (if toLeader = true then g.leader else g.active) = host
  have step : ∀ (t : RpcOutcome R) (g' : MetaHosts), w.answer retry host = t → t.Retryable → (retry : Int) < limit →
      ∃ attempts last, .sent host t :: getResponse w respGen toLeader (retry + 1) limit g' = logOf attempts last (last.2.verdict respGen) ∧
      (∀ a ∈ attempts, a.2.Retryable) ∧ attempts.length ≤ (limit - retry).toNat ∧
      (last.2.Retryable → attempts.length = (limit - retry).toNat) ∧
      (∀ (k : Nat) (a : HostAddr × RpcOutcome R), (attempts ++ [last])[k]? = some a → a.2 = w.answer (retry + k) a.1) := by
    intro t g' ht hr hlt
    obtain ⟨as, last, h1, h2, h3, h4, h5⟩ := getResponse_spec w respGen toLeader (retry + 1) limit g'
    refine ⟨(host, t) :: as, last, by rw [h1, log_cons], ?_, ?_, ?_, ?_⟩
    · intro a ha
      rcases List.mem_cons.1 ha with rfl | ha
      · exact hr
      · exact h2 a ha
    · simp only [List.length_cons]; omega
    · intro hl; have := h4 hl; simp only [List.length_cons]; omega
    · intro k a ha
      cases k with
      | zero => simp at ha; subst ha; exact ht.symm
      | succ k =>
        simp at ha
        have := h5 k a (by simpa using ha)
        rw [this]; congr 1; omega
  have stop : ∀ (t : RpcOutcome R) (r : RpcResult A), w.answer retry host = t → r = t.verdict respGen → (t.Retryable → ¬ (retry : Int) < limit) →
      ∃ attempts last, .sent host t :: [.fulfilled r] = logOf attempts last (last.2.verdict respGen) ∧
      (∀ a ∈ attempts, a.2.Retryable) ∧ attempts.length ≤ (limit - retry).toNat ∧
      (last.2.Retryable → attempts.length = (limit - retry).toNat) ∧
      (∀ (k : Nat) (a : HostAddr × RpcOutcome R), (attempts ++ [last])[k]? = some a → a.2 = w.answer (retry + k) a.1) := by
    intro t r ht hr hlim
    refine ⟨[], (host, t), by rw [hr]; rfl, by simp, by simp, ?_, ?_⟩
    · intro h; have := hlim h; simp only [List.length_nil]; omega
    · intro k a ha
      cases k with
      | zero => simp at ha; subst ha; exact ht.symm
      | succ k => simp at ha
  cases ht : w.answer retry host with
  | exception =>
    dsimp only
    by_cases hlt : (retry : Int) < limit
    · rw [if_pos hlt]; exact step _ _ ht trivial hlt
    · rw [if_neg hlt]; exact stop _ _ ht rfl (fun _ => hlt)
  | response code leader payload =>
    dsimp only
    cases code with
    | succeeded => rw [if_pos rfl]; exact stop _ _ ht rfl (fun h => by cases h)
    | leaderChanged =>
      rw [if_neg (by decide), if_pos rfl]
      by_cases hlt : (retry : Int) < limit
      · rw [if_pos hlt]; exact step _ _ ht rfl hlt
      · rw [if_neg hlt]; exact stop _ _ ht rfl (fun _ => hlt)
    | other c =>
      rw [if_neg (by intro h; cases h), if_neg (by intro h; cases h)]
      exact stop _ _ ht rfl (fun h => by cases h)
termination_by (limit - retry).toNat

/-- **C54.** Whatever the outcomes: the promise is fulfilled exactly once, after everything else; between one and limit + 1 requests are sent;
only after a failed call or a leader change is the request sent again, and it is sent again as long as the limit allows; the caller gets
what the last outcome says. -/
theorem C54_bounded_once (w : RpcWorld R) (respGen : R → A) (toLeader : Bool) (limit : Int) (h : MetaHosts) :
    ∃ attempts last, getResponse w respGen toLeader 0 limit h = logOf attempts last (last.2.verdict respGen) ∧
      (∀ a ∈ attempts, a.2.Retryable) ∧ attempts.length ≤ limit.toNat ∧ (last.2.Retryable → attempts.length = limit.toNat) ∧
      (∀ (k : Nat) (a : HostAddr × RpcOutcome R), (attempts ++ [last])[k]? = some a → a.2 = w.answer k a.1) := by
  obtain ⟨as, last, h1, h2, h3, h4, h5⟩ := getResponse_spec w respGen toLeader 0 limit h
  refine ⟨as, last, h1, h2, by simpa using h3, by simpa using h4, by simpa using h5⟩

/-- The number of times the promise is fulfilled. -/
def fulfilments (l : List (RpcEvent R A)) : Nat := l.countP fun | .fulfilled _ => true | _ => false

/-- The number of requests sent. -/
def sends (l : List (RpcEvent R A)) : Nat := l.countP fun | .sent _ _ => true | _ => false

/-- **C54.** In numbers: one fulfilment, at the end, and at most limit + 1 requests. -/
theorem C54_counts (w : RpcWorld R) (respGen : R → A) (toLeader : Bool) (limit : Int) (h : MetaHosts) :
    fulfilments (getResponse w respGen toLeader 0 limit h) = 1 ∧ 1 ≤ sends (getResponse w respGen toLeader 0 limit h) ∧
    sends (getResponse w respGen toLeader 0 limit h) ≤ limit.toNat + 1 ∧
    ∃ r, (getResponse w respGen toLeader 0 limit h).getLast? = some (.fulfilled r) := by
  obtain ⟨as, last, h1, _, h3, _, _⟩ := C54_bounded_once w respGen toLeader limit h
  have hf : ∀ l : List (HostAddr × RpcOutcome R), fulfilments (l.map (fun a => (RpcEvent.sent a.1 a.2 : RpcEvent R A))) = 0 := by
    intro l; unfold fulfilments; rw [List.countP_map, List.countP_eq_zero]; intro a _; simp
  have hs : ∀ l : List (HostAddr × RpcOutcome R), sends (l.map (fun a => (RpcEvent.sent a.1 a.2 : RpcEvent R A))) = l.length := by
    intro l; unfold sends; rw [List.countP_map, List.countP_eq_length]; intro a _; simp
  have e1 : ∀ a b : List (RpcEvent R A), fulfilments (a ++ b) = fulfilments a + fulfilments b := by
    intro a b; unfold fulfilments; rw [List.countP_append]
  have e2 : ∀ a b : List (RpcEvent R A), sends (a ++ b) = sends a + sends b := by
    intro a b; unfold sends; rw [List.countP_append]
  rw [h1]
  unfold logOf
  refine ⟨?_, ?_, ?_, ⟨_, by rw [List.getLast?_append]; rfl⟩⟩
  · rw [e1, hf]; rfl
  · rw [e2, hs]; simp; omega
  · rw [e2, hs]
    have : sends ([.fulfilled (last.2.verdict respGen)] : List (RpcEvent R A)) = 0 := rfl
    rw [this]; simp; omega

/-- **C54.** The caller gets a value exactly when some attempt within the limit succeeded and everything before it could be retried. -/
theorem C54_success_iff (w : RpcWorld R) (respGen : R → A) (toLeader : Bool) (limit : Int) (h : MetaHosts) (a : A) :
    (getResponse w respGen toLeader 0 limit h).getLast? = some (.fulfilled (.value a)) ↔
    ∃ attempts host leader p, attempts.length ≤ limit.toNat ∧ (∀ x ∈ attempts, RpcOutcome.Retryable x.2) ∧ a = respGen p ∧
      getResponse w respGen toLeader 0 limit h = logOf attempts (host, .response .succeeded leader p) (.value a) := by
  obtain ⟨as, last, h1, h2, h3, h4, h5⟩ := C54_bounded_once w respGen toLeader limit h
  have hl : (logOf as last (last.2.verdict respGen)).getLast? = some (RpcEvent.fulfilled (last.2.verdict respGen)) := by
    unfold logOf; rw [List.getLast?_append]; rfl
  constructor
  · intro he
    rw [h1, hl] at he
    have hv : last.2.verdict respGen = .value a := by
      have := Option.some.inj he
      exact RpcEvent.fulfilled.inj this
    obtain ⟨host, t⟩ := last
    cases t with
    | exception => cases hv
    | response code leader p =>
      cases code with
      | succeeded =>
        have : respGen p = a := RpcResult.value.inj hv
        subst this
        exact ⟨as, host, leader, p, h3, h2, rfl, h1⟩
      | leaderChanged => cases hv
      | other c => cases hv
  · rintro ⟨bs, host, leader, p, _, _, rfl, he⟩
    rw [he]; unfold logOf; rw [List.getLast?_append]; rfl

/-- The requests sent, in order. -/
def sentList : List (RpcEvent R A) → List (HostAddr × RpcOutcome R)
  | [] => []
  | .sent h t :: l => (h, t) :: sentList l
  | .fulfilled _ :: l => sentList l

/-- **C54.** Where a retry goes: if no other request interferes, after a leader change that names a leader the next attempt is made at that
leader, after any other retryable outcome at one of the configured servers.  (For requests to the leader, which all requests of
the client are.) -/
theorem C54_next_host (w : RpcWorld R) (respGen : R → A) (limit : Int) : ∀ (k : Nat) (retry : Nat) (h : MetaHosts) (x y : HostAddr × RpcOutcome R),
    (sentList (getResponse w respGen true retry limit h))[k]? = some x → (sentList (getResponse w respGen true retry limit h))[k + 1]? = some y →
    w.env (retry + k + 1) = id → (∃ leader p, x.2 = .response .leaderChanged leader p ∧ leader ≠ ⟨[], 0⟩ ∧ y.1 = leader) ∨
      ((x.2 = .exception ∨ ∃ p, x.2 = .response .leaderChanged ⟨[], 0⟩ p) ∧ y.1 ∈ w.addrs) := by
  intro k
  have hpick : ∀ j, w.pick j ∈ w.addrs := fun j => List.getElem_mem _
  have hfirst : ∀ (retry : Nat) (h : MetaHosts) (z : HostAddr × RpcOutcome R), w.env retry = id →
      (sentList (getResponse w respGen true retry limit h))[0]? = some z → z.1 = h.leader := by
    intro retry h z henv hz
    rw [getResponse, henv] at hz
    simp [sentList] at hz
    rw [← hz]
  induction k with
  | zero =>
    intro retry h x y hx hy henv
    rw [getResponse] at hx hy
    dsimp only at hx hy
    simp [sentList] at hx
    simp only [if_true, sentList, List.getElem?_cons_succ] at hy
    generalize w.env retry h = g at hx hy
    subst hx
    cases ht : w.answer retry g.leader with
    | exception =>
      rw [ht] at hy
      dsimp only at hy
      by_cases hlt : (retry : Int) < limit
      · rw [if_pos hlt] at hy
        have := hfirst _ _ _ henv hy
        refine .inr ⟨.inl rfl, ?_⟩
        rw [this, updateLeader, if_neg (by simp)]
        exact hpick _
      · rw [if_neg hlt] at hy; simp [sentList] at hy
    | response code leader p =>
      rw [ht] at hy
      dsimp only at hy
      cases code with
      | succeeded => rw [if_pos rfl] at hy; simp [sentList] at hy
      | other c => rw [if_neg (by intro h; cases h), if_neg (by intro h; cases h)] at hy; simp [sentList] at hy
      | leaderChanged =>
        rw [if_neg (by decide), if_pos rfl] at hy
        by_cases hlt : (retry : Int) < limit
        · rw [if_pos hlt] at hy
          have := hfirst _ _ _ henv hy
          by_cases hl : leader = ⟨[], 0⟩
          · subst hl
            refine .inr ⟨.inr ⟨p, rfl⟩, ?_⟩
            rw [this, updateLeader, if_neg (by simp)]
            exact hpick _
          · refine .inl ⟨leader, p, rfl, hl, ?_⟩
            rw [this, updateLeader, if_pos hl]
        · rw [if_neg hlt] at hy; simp [sentList] at hy
  | succ k ih =>
    intro retry h x y hx hy henv
    rw [getResponse] at hx hy
    dsimp only at hx hy
    simp only [if_true, sentList, List.getElem?_cons_succ] at hx hy
    generalize w.env retry h = g at hx hy
    have henv' : w.env (retry + 1 + k + 1) = id := by rw [← henv]; congr 1; omega
    cases ht : w.answer retry g.leader with
    | exception =>
      rw [ht] at hx hy
      dsimp only at hx hy
      by_cases hlt : (retry : Int) < limit
      · rw [if_pos hlt] at hx hy
        exact ih _ _ _ _ hx hy henv'
      · rw [if_neg hlt] at hx; simp [sentList] at hx
    | response code leader p =>
      rw [ht] at hx hy
      dsimp only at hx hy
      cases code with
      | succeeded => rw [if_pos rfl] at hx; simp [sentList] at hx
      | other c => rw [if_neg (by intro h; cases h), if_neg (by intro h; cases h)] at hx; simp [sentList] at hx
      | leaderChanged =>
        rw [if_neg (by decide), if_pos rfl] at hx hy
        by_cases hlt : (retry : Int) < limit
        · rw [if_pos hlt] at hx hy
          exact ih _ _ _ _ hx hy henv'
        · rw [if_neg hlt] at hx; simp [sentList] at hx

/-- Two servers; the first answers that the second is the leader, the second answers. -/
def redirectWorld : RpcWorld Nat where
  addrs := [⟨ascii "a", 1⟩, ⟨ascii "b", 1⟩]
  nonempty := by simp
  env := fun _ h => h
  random := fun _ => 0
  answer := fun _ h => if h = ⟨ascii "b", 1⟩ then .response .succeeded ⟨[], 0⟩ 42 else .response .leaderChanged ⟨ascii "b", 1⟩ 0

theorem redirect_step (w : RpcWorld R) (respGen : R → A) (k : Nat) (limit : Int) (h : MetaHosts) (l : HostAddr) (p : R) (he : w.env k h = h)
    (ha : w.answer k h.leader = .response .leaderChanged l p) (hl : l ≠ ⟨[], 0⟩) (hk : (k : Int) < limit) :
    getResponse w respGen true k limit h = .sent h.leader (.response .leaderChanged l p) :: getResponse w respGen true (k + 1) limit ⟨l, h.active⟩ := by
  rw [getResponse]
  dsimp only
  rw [he, if_pos rfl, ha]
  dsimp only
  rw [if_neg (by decide), if_pos rfl, if_pos hk, updateLeader, if_pos hl]

theorem success_step (w : RpcWorld R) (respGen : R → A) (k : Nat) (limit : Int) (h : MetaHosts) (l : HostAddr) (p : R) (he : w.env k h = h)
    (ha : w.answer k h.leader = .response .succeeded l p) :
    getResponse w respGen true k limit h = [.sent h.leader (.response .succeeded l p), .fulfilled (.value (respGen p))] := by
  rw [getResponse]
  dsimp only
  rw [he, if_pos rfl, ha]
  dsimp only
  rw [if_pos rfl]

theorem redirect_log : getResponse redirectWorld (fun n => n + 1) true 0 3 ⟨⟨ascii "a", 1⟩, ⟨ascii "a", 1⟩⟩ =
    [.sent ⟨ascii "a", 1⟩ (.response .leaderChanged ⟨ascii "b", 1⟩ 0), .sent ⟨ascii "b", 1⟩ (.response .succeeded ⟨[], 0⟩ 42),
     .fulfilled (.value 43)] := by
  rw [redirect_step redirectWorld _ 0 3 _ ⟨ascii "b", 1⟩ 0 rfl (by decide +kernel) (by decide +kernel) (by decide),
    success_step redirectWorld _ 1 3 _ ⟨[], 0⟩ 42 rfl (by decide +kernel)]

/-- The request is redirected, then answered: the retry goes to the named leader. -/
example : (sentList (getResponse redirectWorld (fun n => n + 1) true 0 3 ⟨⟨ascii "a", 1⟩, ⟨ascii "a", 1⟩⟩))[1]? =
    some (⟨ascii "b", 1⟩, .response .succeeded ⟨[], 0⟩ 42) ∧ redirectWorld.env 1 = id := by
  rw [redirect_log]; exact ⟨rfl, rfl⟩

end Meta
end Nebula
