import Verif.Meta.KvSpec
/-!
# C123: the key-value calls of the meta client
-/
namespace Nebula
namespace Meta

variable {S Q R A : Type}

theorem sends_log (as : List (HostAddr × RpcOutcome R)) (last : HostAddr × RpcOutcome R) (r : RpcResult A) : sends (logOf as last r) = as.length + 1 := by
  induction as with
  | nil => rfl
  | cons a as ih => rw [log_cons]; simp only [sends, List.countP_cons] at ih ⊢; rw [ih]; simp

/-- The log of a call against a server, put together from C54. -/
theorem call_log (srv : Server S Q R) (w : RpcWorld R) (nh : HostAddr) (na : R) (q : Q) (m : Around S) (s : S) (gen : R → A) (toLeader : Bool) (limit : Int) (h : MetaHosts) :
    ∃ (n : Nat) (o : RpcOutcome R), n ≤ limit.toNat ∧ sends (getResponse (srv.world w nh na q m s) gen toLeader 0 limit h) = n + 1 ∧
      (∀ host, o = (srv.world w nh na q m s).answer n host) ∧ (∀ k < n, m.fate k ≠ .answered) ∧
      ∀ r, Result (getResponse (srv.world w nh na q m s) gen toLeader 0 limit h) r ↔ r = o.verdict gen := by
  obtain ⟨as, last, h1, h2, h3, h4, h5⟩ := C54_bounded_once (srv.world w nh na q m s) gen toLeader limit h
  have hl : last.2 = (srv.world w nh na q m s).answer as.length last.1 := h5 _ _ (by simp)
  refine ⟨as.length, last.2, h3, ?_, ?_, ?_, ?_⟩
  · rw [h1, sends_log]
  · intro host; rw [hl]; rfl
  · intro k hk hf
    have hx : (as ++ [last])[k]? = some as[k] := by simp [List.getElem?_append, hk]
    have ha := h5 k _ hx
    have hr := h2 as[k] (List.getElem_mem hk)
    rw [ha] at hr
    simp only [Server.world, hf] at hr
    split at hr <;> simp [RpcOutcome.Retryable] at hr
  · intro r
    unfold Result
    rw [h1]
    unfold logOf
    rw [List.getLast?_append]
    simp only [List.getLast?_singleton, Option.some_or, Option.some.injEq, RpcEvent.fulfilled.injEq]
    exact eq_comm

/-- The state the server is left in. -/
def leftIn (srv : Server S Q R) (q : Q) (m : Around S) (s : S) (log : List (RpcEvent R A)) : S := srv.state q m s (sends log)

/-- C123 (a call that succeeds took effect when it was answered): whatever the other clients do and however many attempts were lost before: the last attempt met some state, changed it as the request
says, and the answer is the one for that state. -/
theorem C123_success (srv : Server S Q R) (w : RpcWorld R) (nh : HostAddr) (na : R) (q : Q) (m : Around S) (s : S) (gen : R → A) (toLeader : Bool) (limit : Int) (h : MetaHosts) (a : A)
    (hr : Result (getResponse (srv.world w nh na q m s) gen toLeader 0 limit h) (.value a)) :
    ∃ k r, k ≤ limit.toNat ∧ srv.exec q (srv.met q m s k) = some (leftIn srv q m s (getResponse (srv.world w nh na q m s) gen toLeader 0 limit h), r) ∧ a = gen r := by
  obtain ⟨n, o, h1, h2, h3, _, h5⟩ := call_log srv w nh na q m s gen toLeader limit h
  have hv := (h5 _).1 hr
  have ho := h3 nh
  unfold leftIn
  rw [h2]
  simp only [Server.state]
  simp only [Server.world] at ho
  cases hf : m.fate n with
  | lost b => rw [hf] at ho; rw [ho] at hv; simp [RpcOutcome.verdict] at hv
  | redirected l => rw [hf] at ho; rw [ho] at hv; simp [RpcOutcome.verdict] at hv
  | answered =>
    rw [hf] at ho
    simp only at ho
    cases he : srv.exec q (srv.met q m s n) with
    | none => rw [he] at ho; simp only at ho; rw [ho] at hv; simp [RpcOutcome.verdict] at hv
    | some x =>
      rw [he] at ho
      simp only at ho
      rw [ho] at hv
      simp only [RpcOutcome.verdict, RpcResult.value.injEq] at hv
      refine ⟨n, x.2, h1, ?_, hv⟩
      have : srv.attempt q Fate.answered (m.others n (srv.state q m s n)) = x.1 := by
        simp only [Server.attempt, Server.effect]
        unfold Server.met at he
        rw [he]
      rw [this, he]

/-- With nobody else around the states met are the first one, or what one application makes of it. -/
theorem alone_state {srv : Server S Q R} {q : Q} {m : Around S} (hi : Idempotent srv q) (hm : m.Alone) (s : S) (k : Nat) :
    srv.state q m s k = s ∨ srv.state q m s k = srv.effect q s := by
  induction k with
  | zero => exact .inl rfl
  | succ k ih =>
    have hm' : m.others k (srv.state q m s k) = srv.state q m s k := hm _ _
    simp only [Server.state, hm']
    generalize m.fate k = f
    cases f with
    | lost b =>
      cases b
      · exact ih
      · right
        simp only [Server.attempt]
        rcases ih with ih | ih <;> rw [ih]
        exact hi s
    | redirected l => exact ih
    | answered =>
      right
      simp only [Server.attempt]
      rcases ih with ih | ih <;> rw [ih]
      exact hi s

/-- C123 (lost attempts do not count): if applying a request twice is the same as applying it once, and nobody else changes the server meanwhile, then a call that succeeds has had the effect of one application, and a
call that fails that of one application or none. -/
theorem C123_once (srv : Server S Q R) (w : RpcWorld R) (nh : HostAddr) (na : R) (q : Q) (hi : Idempotent srv q) (m : Around S) (hm : m.Alone) (s : S) (gen : R → A) (toLeader : Bool) (limit : Int)
    (h : MetaHosts) (r : RpcResult A) (hr : Result (getResponse (srv.world w nh na q m s) gen toLeader 0 limit h) r) :
    (∀ a, r = .value a → leftIn srv q m s (getResponse (srv.world w nh na q m s) gen toLeader 0 limit h) = srv.effect q s) ∧
    (leftIn srv q m s (getResponse (srv.world w nh na q m s) gen toLeader 0 limit h) = s ∨
     leftIn srv q m s (getResponse (srv.world w nh na q m s) gen toLeader 0 limit h) = srv.effect q s) := by
  refine ⟨?_, alone_state hi hm s _⟩
  rintro a rfl
  obtain ⟨k, r, _, he, _⟩ := C123_success srv w nh na q m s gen toLeader limit h a hr
  have hs := alone_state hi hm s k
  have hm' : m.others k (srv.state q m s k) = srv.state q m s k := hm _ _
  simp only [Server.met, hm'] at he
  have he' : srv.effect q (srv.state q m s k) = leftIn srv q m s (getResponse (srv.world w nh na q m s) gen toLeader 0 limit h) := by
    unfold Server.effect; rw [he]
  rw [← he']
  rcases hs with hs | hs <;> rw [hs]
  exact hi s

/-- C123: a call that reaches a server that answers, within the limit, succeeds or is refused by it; it never fails for lack of attempts. -/
theorem C123_reached (srv : Server S Q R) (w : RpcWorld R) (nh : HostAddr) (na : R) (q : Q) (m : Around S) (s : S) (gen : R → A) (toLeader : Bool) (limit : Int) (h : MetaHosts) (k : Nat)
    (hk : k ≤ limit.toNat) (hf : m.fate k = .answered) (hn : ∀ j < k, m.fate j ≠ .answered) :
    Result (getResponse (srv.world w nh na q m s) gen toLeader 0 limit h) (match srv.exec q (srv.met q m s k) with | some (_, r) => .value (gen r) | none => .error) := by
  obtain ⟨n, o, h1, h2, h3, h4, h5⟩ := call_log srv w nh na q m s gen toLeader limit h
  obtain ⟨as, last, g1, g2, g3, g4, g5⟩ := C54_bounded_once (srv.world w nh na q m s) gen toLeader limit h
  have hnk : n = k := by
    rcases Nat.lt_trichotomy n k with hlt | he | hgt
    · exfalso
      -- the last attempt was lost, so all attempts allowed were made
      have hlast : last.2 = (srv.world w nh na q m s).answer as.length last.1 := g5 _ _ (by simp)
      have hs : sends (getResponse (srv.world w nh na q m s) gen toLeader 0 limit h) = as.length + 1 := by
        rw [g1, sends_log]
      have hlen : as.length = n := by omega
      have hr : last.2.Retryable := by
        rw [hlast, hlen]
        have := hn n hlt
        simp only [Server.world]
        cases hfn : m.fate n with
        | lost b => trivial
        | redirected l => rfl
        | answered => exact absurd hfn this
      have := g4 hr
      omega
    · exact he
    · exact absurd hf (h4 k hgt)
  subst hnk
  rw [h5]
  have ho := h3 nh
  simp only [Server.world, hf] at ho
  rw [ho]
  cases he : srv.exec q (srv.met q m s n) with
  | none => rfl
  | some x => rfl

/-! ## The store -/

section
variable (scan : Contents → Bytes → Bytes → Bytes → List Bytes)

/-- What a list of puts leaves. -/
theorem puts_get (seg : Bytes) (ps : List (Bytes × Bytes)) (s : Contents) (g k : Bytes) :
    ps.foldl (fun s p => Contents.set s seg p.1 (some p.2)) s g k = if g = seg then (match lastOf ps k with | some v => some v | none => s g k) else s g k := by
  induction ps generalizing s with
  | nil => simp [lastOf]
  | cons p ps ih =>
    rw [List.foldl_cons, ih]
    by_cases hg : g = seg
    · simp only [hg, if_true, Contents.set, lastOf, List.reverse_cons, List.find?_append, true_and]
      cases hf : List.find? (fun p => p.1 == k) ps.reverse with
      | some x => simp
      | none =>
        by_cases hk : p.1 = k
        · simp [hk]
        · have hk' : ¬ k = p.1 := fun h => hk h.symm
          have hb : (p.1 == k) = false := by simpa using hk
          simp [hk', hb]
    · simp [hg, Contents.set]

theorem kv_idempotent (q : KvReq) : Idempotent (kvServer scan) q := by
  intro s
  cases q with
  | multiPut seg ps =>
    simp only [Server.effect, kvServer]
    funext g k
    rw [puts_get, puts_get]
    by_cases hg : g = seg
    · simp only [hg, if_true]
      cases lastOf ps k <;> rfl
    · simp [hg]
  | get seg k =>
    simp only [Server.effect, kvServer]
    cases h : s seg k <;> simp [h]
  | multiGet seg ks =>
    simp only [Server.effect, kvServer]
    cases h : ks.mapM (s seg) <;> simp [h]
  | scan seg a b => rfl
  | remove seg k =>
    simp only [Server.effect, kvServer]
    funext g k'
    simp only [Contents.set]
    split <;> rfl
  | removeRange seg a b =>
    simp only [Server.effect, kvServer]
    funext g k'
    split <;> rfl

/-- The segments accepted are those with proper names. -/
theorem C123_segment (s : Bytes) : checkSegment s = true ↔ SegmentName s := by
  have hc : ∀ c : UInt8, ((48 ≤ c && c ≤ 57) || (97 ≤ c && c ≤ 122) || (65 ≤ c && c ≤ 90)) = true ↔
      c ∈ ascii "0123456789abcdefghijklmnopqrstuvwxyzABCDEFGHIJKLMNOPQRSTUVWXYZ" := by
    have : ∀ n : Fin 256, ((48 ≤ UInt8.ofFin n && UInt8.ofFin n ≤ 57) || (97 ≤ UInt8.ofFin n && UInt8.ofFin n ≤ 122) || (65 ≤ UInt8.ofFin n && UInt8.ofFin n ≤ 90)) = true ↔
      UInt8.ofFin n ∈ ascii "0123456789abcdefghijklmnopqrstuvwxyzABCDEFGHIJKLMNOPQRSTUVWXYZ" := by decide +kernel
    intro c
    exact this c.toFin
  unfold checkSegment SegmentName
  simp only [Bool.and_eq_true, List.all_eq_true, hc]
  simp

/-- C123 (refused calls): a call with a segment that is not made of letters and digits, without pairs or keys, or with an empty key or bound is refused and sends nothing; every other call is sent. -/
theorem C123_refused (c : KvCall) :
    c.request = none ↔ match c with
      | .multiPut seg ps => ¬ SegmentName seg ∨ ps = []
      | .get seg k => ¬ SegmentName seg ∨ k = []
      | .multiGet seg ks => ¬ SegmentName seg ∨ ks = []
      | .scan seg a b => ¬ SegmentName seg ∨ a = [] ∨ b = []
      | .remove seg k => ¬ SegmentName seg ∨ k = []
      | .removeRange seg a b => ¬ SegmentName seg ∨ a = [] ∨ b = [] := by
  cases c <;> simp only [KvCall.request, ← C123_segment, ite_eq_left_iff, reduceCtorEq, imp_false, Bool.not_eq_true] <;> simp [Bool.or_eq_true, or_assoc] <;> grind

theorem C123_refused_sends_nothing (c : KvCall) (world : KvReq → RpcWorld KvResp) (limit : Int) (h : MetaHosts) (hc : c.request = none) :
    c.run world limit h = [.fulfilled .error] := by simp only [KvCall.run, hc]

/-- The server behind a call: alone with it, whatever the fates of the attempts. -/
def alone (fate : Nat → Fate) : Around Contents := ⟨fun _ s => s, fate⟩

/-- The call made of the store: its result and what it leaves. -/
def KvCall.on (c : KvCall) (w : RpcWorld KvResp) (nh : HostAddr) (fate : Nat → Fate) (limit : Int) (h : MetaHosts) (s : Contents) : List (RpcEvent KvResp KvAnswer) × Contents :=
  let log := c.run (fun q => (kvServer scan).world w nh ⟨[], []⟩ q (alone fate) s) limit h
  (log, match c.request with
    | none => s
    | some q => leftIn (kvServer scan) q (alone fate) s log)

theorem on_success (c : KvCall) (q : KvReq) (hq : c.request = some q) (w : RpcWorld KvResp) (nh : HostAddr) (fate : Nat → Fate) (limit : Int) (h : MetaHosts) (s : Contents) (a : KvAnswer)
    (hr : Result (c.on scan w nh fate limit h s).1 (.value a)) :
    (c.on scan w nh fate limit h s).2 = (kvServer scan).effect q s ∧
    ∃ t r, (t = s ∨ t = (kvServer scan).effect q s) ∧ ((kvServer scan).exec q t).map Prod.snd = some r ∧ a = c.respGen r := by
  simp only [KvCall.on, KvCall.run, hq] at hr ⊢
  refine ⟨(C123_once _ _ _ _ q (kv_idempotent scan q) _ (fun _ _ => rfl) s _ _ _ _ _ hr).1 a rfl, ?_⟩
  obtain ⟨k, r, _, he, ha⟩ := C123_success _ _ _ _ _ _ _ _ _ _ _ _ hr
  exact ⟨_, r, alone_state (kv_idempotent scan q) (fun _ _ => rfl) s k, by simp only [Server.met, alone] at he; rw [he]; rfl, ha⟩

/-- C123 (writing): a `multiPut` that succeeds leaves, under every key it names, the value of the last pair with this key, and everything else as it was, however often it had to be sent. -/
theorem C123_put (seg : Bytes) (ps : List (Bytes × Bytes)) (w : RpcWorld KvResp) (nh : HostAddr) (fate : Nat → Fate) (limit : Int) (h : MetaHosts) (s : Contents) (a : KvAnswer)
    (hr : Result ((KvCall.multiPut seg ps).on scan w nh fate limit h s).1 (.value a)) (g k : Bytes) :
    a = .done true ∧ ((KvCall.multiPut seg ps).on scan w nh fate limit h s).2 g k =
      if g = seg then (match lastOf ps k with | some v => some v | none => s g k) else s g k := by
  cases hq : (KvCall.multiPut seg ps).request with
  | none => simp [KvCall.on, KvCall.run, hq, Result] at hr
  | some q =>
    obtain ⟨h1, t, r, _, _, ha⟩ := on_success scan _ q hq w nh fate limit h s a hr
    refine ⟨ha, ?_⟩
    have : q = .multiPut seg ps := by
      simp only [KvCall.request] at hq
      split at hq
      · cases hq
      · simpa using hq.symm
    rw [h1, this]
    simp only [Server.effect, kvServer]
    exact puts_get seg ps s g k

/-- C123 (removing): a `remove` or `removeRange` that succeeds removes exactly the key, or the keys of the range. -/
theorem C123_remove (seg key : Bytes) (w : RpcWorld KvResp) (nh : HostAddr) (fate : Nat → Fate) (limit : Int) (h : MetaHosts) (s : Contents) (a : KvAnswer)
    (hr : Result ((KvCall.remove seg key).on scan w nh fate limit h s).1 (.value a)) (g k : Bytes) :
    a = .done true ∧ ((KvCall.remove seg key).on scan w nh fate limit h s).2 g k = if g = seg ∧ k = key then none else s g k := by
  cases hq : (KvCall.remove seg key).request with
  | none => simp [KvCall.on, KvCall.run, hq, Result] at hr
  | some q =>
    obtain ⟨h1, t, r, _, _, ha⟩ := on_success scan _ q hq w nh fate limit h s a hr
    refine ⟨ha, ?_⟩
    have : q = .remove seg key := by
      simp only [KvCall.request] at hq
      split at hq
      · cases hq
      · simpa using hq.symm
    rw [h1, this]
    rfl

theorem C123_remove_range (seg x y : Bytes) (w : RpcWorld KvResp) (nh : HostAddr) (fate : Nat → Fate) (limit : Int) (h : MetaHosts) (s : Contents) (a : KvAnswer)
    (hr : Result ((KvCall.removeRange seg x y).on scan w nh fate limit h s).1 (.value a)) (g k : Bytes) :
    a = .done true ∧ ((KvCall.removeRange seg x y).on scan w nh fate limit h s).2 g k = if g = seg ∧ InRange x y k then none else s g k := by
  cases hq : (KvCall.removeRange seg x y).request with
  | none => simp [KvCall.on, KvCall.run, hq, Result] at hr
  | some q =>
    obtain ⟨h1, t, r, _, _, ha⟩ := on_success scan _ q hq w nh fate limit h s a hr
    refine ⟨ha, ?_⟩
    have : q = .removeRange seg x y := by
      simp only [KvCall.request] at hq
      split at hq
      · cases hq
      · simpa using hq.symm
    rw [h1, this]
    rfl

/-- The requests that only read. -/
theorem read_effect (q : KvReq) (hq : (∃ g k, q = .get g k) ∨ (∃ g ks, q = .multiGet g ks) ∨ ∃ g a b, q = .scan g a b) (s : Contents) : (kvServer scan).effect q s = s := by
  rcases hq with ⟨g, k, rfl⟩ | ⟨g, ks, rfl⟩ | ⟨g, a, b, rfl⟩ <;> simp only [Server.effect, kvServer]
  · cases s g k <;> rfl
  · cases ks.mapM (s g) <;> rfl

/-- C123 (reading): a read that succeeds gives the values stored, in the order of the keys asked for, and no read ever changes anything, successful or not. -/
theorem C123_read (c : KvCall) (hc : (∃ g k, c = .get g k) ∨ (∃ g ks, c = .multiGet g ks) ∨ ∃ g x y, c = .scan g x y) (w : RpcWorld KvResp) (nh : HostAddr) (fate : Nat → Fate) (limit : Int)
    (h : MetaHosts) (s : Contents) (a : KvAnswer) :
    (c.on scan w nh fate limit h s).2 = s ∧
    (Result (c.on scan w nh fate limit h s).1 (.value a) →
      (∀ g k, c = .get g k → ∃ v, a = .value v ∧ s g k = some v) ∧
      (∀ g ks, c = .multiGet g ks → ∃ vs, a = .values vs ∧ ks.mapM (s g) = some vs) ∧
      (∀ g x y, c = .scan g x y → a = .values (scan s g x y))) := by
  have key : ∀ q, c.request = some q → (∃ g k, q = .get g k) ∨ (∃ g ks, q = .multiGet g ks) ∨ ∃ g a b, q = .scan g a b := by
    intro q hq
    rcases hc with ⟨g, k, rfl⟩ | ⟨g, ks, rfl⟩ | ⟨g, x, y, rfl⟩ <;> simp only [KvCall.request] at hq <;> split at hq <;> simp at hq <;> subst hq <;> simp
  have hstate : ∀ q, c.request = some q → ∀ k, (kvServer scan).state q (alone fate) s k = s := by
    intro q hq k
    have := alone_state (m := alone fate) (kv_idempotent scan q) (fun _ _ => rfl) s k
    rw [read_effect scan q (key q hq)] at this
    rcases this with h | h <;> exact h
  refine ⟨?_, ?_⟩
  · simp only [KvCall.on]
    cases hq : c.request with
    | none => rfl
    | some q => exact hstate q hq _
  · intro hr
    cases hq : c.request with
    | none => simp [KvCall.on, KvCall.run, hq, Result] at hr
    | some q =>
      obtain ⟨_, t, r, ht, he, ha⟩ := on_success scan c q hq w nh fate limit h s a hr
      rw [read_effect scan q (key q hq)] at ht
      have ht : t = s := by rcases ht with h | h <;> exact h
      subst ht
      refine ⟨?_, ?_, ?_⟩
      · rintro g k rfl
        simp only [KvCall.request] at hq
        split at hq <;> simp at hq
        subst hq
        simp only [kvServer, Option.map_map, Option.map_eq_some_iff] at he
        obtain ⟨v, hv, rfl⟩ := he
        exact ⟨v, ha, hv⟩
      · rintro g ks rfl
        simp only [KvCall.request] at hq
        split at hq <;> simp at hq
        subst hq
        simp only [kvServer, Option.map_map, Option.map_eq_some_iff] at he
        obtain ⟨v, hv, rfl⟩ := he
        exact ⟨v, ha, hv⟩
      · rintro g x y rfl
        simp only [KvCall.request] at hq
        split at hq <;> simp at hq
        subst hq
        simp only [kvServer, Option.map_some, Option.some.injEq] at he
        subst he
        exact ha

/-- C123 (reading what was written): after a `multiPut` that succeeded, a `get` of one of its keys that succeeds gives the last value put. -/
theorem C123_put_get (seg : Bytes) (ps : List (Bytes × Bytes)) (k v : Bytes) (hk : lastOf ps k = some v) (w w' : RpcWorld KvResp) (nh nh' : HostAddr) (fate fate' : Nat → Fate) (limit limit' : Int)
    (h h' : MetaHosts) (s : Contents) (a b : KvAnswer) (hp : Result ((KvCall.multiPut seg ps).on scan w nh fate limit h s).1 (.value a))
    (hg : Result ((KvCall.get seg k).on scan w' nh' fate' limit' h' ((KvCall.multiPut seg ps).on scan w nh fate limit h s).2).1 (.value b)) : b = .value v := by
  obtain ⟨v', rfl, hv⟩ := ((C123_read scan _ (.inl ⟨seg, k, rfl⟩) _ _ _ _ _ _ b).2 hg).1 seg k rfl
  rw [(C123_put scan seg ps w nh fate limit h s a hp seg k).2] at hv
  simp only [if_true, hk, Option.some.injEq] at hv
  rw [hv]

/-- C123: after a `removeRange` that succeeded, a `scan` of the same range finds nothing. -/
theorem C123_remove_scan (seg x y : Bytes) (w w' : RpcWorld KvResp) (nh nh' : HostAddr) (fate fate' : Nat → Fate) (limit limit' : Int) (h h' : MetaHosts) (s : Contents) (a b : KvAnswer)
    (hs : ∀ t, Scans scan t) (hp : Result ((KvCall.removeRange seg x y).on scan w nh fate limit h s).1 (.value a))
    (hg : Result ((KvCall.scan seg x y).on scan w' nh' fate' limit' h' ((KvCall.removeRange seg x y).on scan w nh fate limit h s).2).1 (.value b)) : b = .values [] := by
  have := ((C123_read scan _ (.inr (.inr ⟨seg, x, y, rfl⟩)) _ _ _ _ _ _ b).2 hg).2.2 seg x y rfl
  rw [this]
  obtain ⟨ks, _, hk, he⟩ := hs ((KvCall.removeRange seg x y).on scan w nh fate limit h s).2 seg x y
  rw [he]
  have : ks = [] := by
    apply List.eq_nil_iff_forall_not_mem.2
    intro k hkm
    have := (hk k).1 hkm
    rw [(C123_remove_range scan seg x y w nh fate limit h s a hp seg k).2] at this
    simp [this.1] at this
  rw [this]
  rfl

end

/-! ## What is not guaranteed -/

/-- C123 (one application) fails when others are active: a put whose first answer is lost is applied again, after another client's put of the same key.  The other's value is overwritten by one that had been visible
before it: a reader sees `a`, then `b`, then `a` again, though `a` was put by one call. -/
theorem C123_atomic_violated (scan : Contents → Bytes → Bytes → Bytes → List Bytes) (w : RpcWorld KvResp) (nh : HostAddr) (h : MetaHosts) (g k a b : Bytes) :
    ∃ (m : Around Contents) (s : Contents) (q : KvReq), q = .multiPut g [(k, a)] ∧
      (∀ s', m.others 1 s' = (kvServer scan).effect (.multiPut g [(k, b)]) s') ∧
      Result (getResponse ((kvServer scan).world w nh ⟨[], []⟩ q m s) (KvCall.multiPut g [(k, a)]).respGen true 0 3 h) (.value (.done true)) ∧
      (kvServer scan).state q m s 1 g k = some a ∧ (kvServer scan).met q m s 1 g k = some b ∧ (kvServer scan).state q m s 2 g k = some a := by
  let m : Around Contents := ⟨fun i s => if i = 1 then (kvServer scan).effect (.multiPut g [(k, b)]) s else s, fun i => if i = 0 then .lost true else .answered⟩
  refine ⟨m, fun _ _ => none, .multiPut g [(k, a)], rfl, fun s' => rfl, ?_, ?_, ?_, ?_⟩
  · exact C123_reached (kvServer scan) w nh ⟨[], []⟩ (.multiPut g [(k, a)]) m (fun _ _ => none) _ true 3 h 1 (by decide) rfl (by
      intro j hj
      have : j = 0 := by omega
      subst this
      simp [m])
  · simp [Server.state, Server.attempt, Server.effect, kvServer, Contents.set, m]
  · simp [Server.met, Server.state, Server.attempt, Server.effect, kvServer, Contents.set, m]
  · simp [Server.state, Server.attempt, Server.effect, kvServer, Contents.set, m]

/-- A server that makes spaces: a name that exists already is refused (MetaClient.cpp:1067-1083 `createSpace` without `ifNotExists`). -/
def spaceServer : Server (List Bytes) Bytes Nat where
  exec name spaces := if name ∈ spaces then none else some (name :: spaces, spaces.length)

/-- C123 (a call that fails had no effect or is known to have failed) does not hold for requests that are not idempotent: `createSpace` makes the space, the answer is lost, and the repeated request reports an
error. -/
theorem C123_create_violated (w : RpcWorld Nat) (nh : HostAddr) (h : MetaHosts) (name : Bytes) :
    ∃ m : Around (List Bytes), m.Alone ∧ Result (getResponse (spaceServer.world w nh 0 name m []) id true 0 3 h) .error ∧
      leftIn spaceServer name m [] (getResponse (spaceServer.world w nh 0 name m []) id true 0 3 h) = [name] := by
  let m : Around (List Bytes) := ⟨fun _ s => s, fun i => if i = 0 then .lost true else .answered⟩
  have hr := C123_reached spaceServer w nh 0 name m [] id true 3 h 1 (by decide) rfl (by
      intro j hj
      have : j = 0 := by omega
      subst this
      simp [m])
  have he : spaceServer.exec name (spaceServer.met name m [] 1) = none := by
    simp [Server.met, Server.state, Server.attempt, Server.effect, spaceServer, m]
  rw [he] at hr
  refine ⟨m, fun _ _ => rfl, hr, ?_⟩
  have hst : ∀ k, spaceServer.state name m [] (k + 1) = [name] := by
    intro k
    induction k with
    | zero => simp [Server.state, Server.attempt, Server.effect, spaceServer, m]
    | succ k ih =>
      rw [Server.state, ih]
      simp [Server.attempt, Server.effect, spaceServer, m]
  unfold leftIn
  obtain ⟨n, o, _, hs, _⟩ := call_log spaceServer w nh 0 name m [] id true 3 h
  rw [hs]
  exact hst n

/-- The hypotheses are met: a `multiPut` that is redirected, lost and then answered, and a `get` that is answered at once. -/
example (scan : Contents → Bytes → Bytes → Bytes → List Bytes) (w : RpcWorld KvResp) (nh l : HostAddr) (h : MetaHosts) (s : Contents) :
    let put := KvCall.multiPut (ascii "seg") [(ascii "k", ascii "v"), (ascii "k", ascii "w")]
    let fate := fun k => if k = 0 then Fate.redirected l else if k = 1 then .lost true else .answered
    let s' := (put.on scan w nh fate 3 h s).2
    Result (put.on scan w nh fate 3 h s).1 (.value (.done true)) ∧ lastOf [(ascii "k", ascii "v"), (ascii "k", ascii "w")] (ascii "k") = some (ascii "w") ∧
    Result ((KvCall.get (ascii "seg") (ascii "k")).on scan w nh (fun _ => .answered) 3 h s').1 (.value (.value (ascii "w"))) := by
  intro put fate s'
  have hq : put.request = some (.multiPut (ascii "seg") [(ascii "k", ascii "v"), (ascii "k", ascii "w")]) := by decide +kernel
  have hp : Result (put.on scan w nh fate 3 h s).1 (.value (.done true)) := by
    simp only [KvCall.on, KvCall.run, hq]
    exact C123_reached (kvServer scan) w nh ⟨[], []⟩ _ (alone fate) s _ true 3 h 2 (by decide) rfl (by
      intro j hj
      have : j = 0 ∨ j = 1 := by omega
      rcases this with rfl | rfl <;> simp [alone, fate])
  have hl : lastOf [(ascii "k", ascii "v"), (ascii "k", ascii "w")] (ascii "k") = some (ascii "w") := by decide +kernel
  have hs' : s' (ascii "seg") (ascii "k") = some (ascii "w") := by
    have := (C123_put scan _ _ w nh fate 3 h s _ hp (ascii "seg") (ascii "k")).2
    rw [if_pos rfl, hl] at this
    exact this
  refine ⟨hp, hl, ?_⟩
  have hg : (KvCall.get (ascii "seg") (ascii "k")).request = some (.get (ascii "seg") (ascii "k")) := by decide +kernel
  simp only [KvCall.on, KvCall.run, hg]
  have := C123_reached (kvServer scan) w nh ⟨[], []⟩ (.get (ascii "seg") (ascii "k")) (alone fun _ => .answered) s' (KvCall.get (ascii "seg") (ascii "k")).respGen true 3 h 0 (by decide) rfl (by intro j hj; omega)
  simpa [kvServer, Server.met, Server.state, alone, hs', KvCall.respGen] using this

end Meta
end Nebula
