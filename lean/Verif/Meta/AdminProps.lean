import Verif.Meta.AdminSpec
import Verif.Meta.KvProps
/-! # C129: administrative calls of the meta client -/
namespace Nebula
namespace Meta
namespace Admin

/-- The calls for default values. -/
def Call.IsDefault : Call → Prop
  | .getTagDefaultValue _ _ _ | .getEdgeDefaultValue _ _ _ => True
  | _ => False

/-- **C129.** The service understands from the request the very call that was made, with all its arguments in their places. -/
theorem C129_understood (c : Call) (h : ¬ c.IsDefault) : understand c.wire = some c := by
  cases c
  case balance H a b =>
    cases a <;> cases b <;> cases H <;> rfl
  case createTagIndex o => cases o <;> rfl
  case createEdgeIndex o => cases o <;> rfl
  case reportTaskFinish o => cases o <;> rfl
  case getTagDefaultValue => exact absurd trivial h
  case getEdgeDefaultValue => exact absurd trivial h
  all_goals rfl

/-- **C129.** Different calls send different requests. -/
theorem C129_distinct (c d : Call) (hc : ¬ c.IsDefault) (hd : ¬ d.IsDefault) (h : c.wire = d.wire) : c = d := by
  have := C129_understood c hc
  rw [h, C129_understood d hd] at this
  exact (Option.some.inj this).symm

/-- A service that carries out calls, behind the wire. -/
def onWire {S : Type} (srv : Server S Call Resp) : Server S Wire Resp where
  exec w s := (understand w).bind fun c => srv.exec c s

/-- **C129.** A call that succeeds was carried out by the service as it was made, in the state one of its attempts met, and the caller gets
what the service answered; whatever other clients do and whichever attempts are lost. -/
theorem C129_success {S : Type} (srv : Server S Call Resp) (c : Call) (hc : ¬ c.IsDefault) (ready : Bool) (w : RpcWorld Resp) (nh : HostAddr) (na : Resp) (m : Around S)
    (s : S) (limit : Int) (h : MetaHosts) (a : Answer)
    (hr : Result (c.run ready (fun q => (onWire srv).world w nh na q m s) limit h) (.value a)) :
    ∃ k r s', k ≤ limit.toNat ∧ srv.exec c ((onWire srv).met c.wire m s k) = some (s', r) ∧ a = c.answer r ∧
      s' = leftIn (onWire srv) c.wire m s (c.run ready (fun q => (onWire srv).world w nh na q m s) limit h) := by
  have hrun : c.run ready (fun q => (onWire srv).world w nh na q m s) limit h =
      getResponse ((onWire srv).world w nh na c.wire m s) c.answer true 0 limit h := by
    unfold Call.run at hr ⊢
    split at hr
    · simp [Result] at hr
    · rfl
  rw [hrun] at hr ⊢
  obtain ⟨k, r, h1, h2, h3⟩ := C123_success (onWire srv) w nh na c.wire m s c.answer true limit h a hr
  refine ⟨k, r, _, h1, ?_, h3, rfl⟩
  have hu : ∀ t, (onWire srv).exec c.wire t = srv.exec c t := by
    intro t
    show (understand c.wire).bind _ = _
    rw [C129_understood c hc]; rfl
  rw [← hu]; exact h2

/-- **C129.** The calls that make something give its id if the service sent one of that kind, and otherwise break the promise. -/
theorem C129_ids (r : Resp) (n : Int) :
    (∀ d b, (Call.createSpace d b).answer r = .id n ↔ r.id = some (.space, n)) ∧
    (∀ sp nm sc b, (Call.createTagSchema sp nm sc b).answer r = .id n ↔ r.id = some (.tag, n)) ∧
    (∀ sp nm sc b, (Call.createEdgeSchema sp nm sc b).answer r = .id n ↔ r.id = some (.edge, n)) ∧
    (∀ sp ix nm fs b cm, (Call.createTagIndex sp ix nm fs b cm).answer r = .id n ↔ r.id = some (.index, n)) ∧
    (∀ sp ix nm fs b cm, (Call.createEdgeIndex sp ix nm fs b cm).answer r = .id n ↔ r.id = some (.index, n)) := by
  have key : ∀ k, r.idOf k = .id n ↔ r.id = some (k, n) := by
    intro k
    unfold Resp.idOf
    rcases r.id with _ | ⟨k', n'⟩
    · simp
    · by_cases hk : k' = k <;> simp [hk]
  refine ⟨?_, ?_, ?_, ?_, ?_⟩ <;> intros <;> exact key _

/-- The methods of the meta service that ask for something. -/
def asking : List String := ["listSpaces", "getSpace", "listHosts", "listParts", "getPartsAlloc", "listTags", "getTag", "getTagIndex", "listTagIndexes",
  "listTagIndexStatus", "listEdges", "getEdge", "getEdgeIndex", "listEdgeIndexes", "listEdgeIndexStatus", "listUsers", "listRoles", "getUserRoles", "get",
  "getConfig", "listConfigs", "listSnapshots", "listListener", "getZone", "listZones", "getGroup", "listGroups", "getStatis", "listFTClients",
  "listFTIndexes", "listSessions", "getSession", "runAdminJob", "createSession", "updateSessions"]

/-- The methods of the meta service that only do something. -/
def doing : List String := ["dropSpace", "alterTag", "dropTag", "dropTagIndex", "rebuildTagIndex", "alterEdge", "dropEdge", "dropEdgeIndex", "rebuildEdgeIndex",
  "createUser", "dropUser", "alterUser", "grantRole", "revokeRole", "changePassword", "leaderBalance", "regConfig", "setConfig", "createSnapshot",
  "dropSnapshot", "addListener", "removeListener", "addZone", "dropZone", "addHostIntoZone", "dropHostFromZone", "addGroup", "dropGroup",
  "addZoneIntoGroup", "dropZoneFromGroup", "signInFTService", "signOutFTService", "createFTIndex", "dropFTIndex"]

/-- **C129.** What the caller gets of a successful answer: the content for calls that ask for something, `true` for those that only do
something, the id (`C129_ids`) for those that make something, the number of the plan and the table of tasks for balancing, and the answer
itself for the two that pass it on. -/
theorem C129_answer (c : Call) (r : Resp) :
    (c.wire.method ∈ asking → c.answer r = .payload r.payload) ∧
    (c.wire.method ∈ doing → c.answer r = .done true) ∧
    (c.wire.method = "balance" → c.answer r = .number r.number ∨ c.answer r = .payload r.payload) ∧
    (c.wire.method ∈ ["removeSession", "killQuery"] → c.answer r = .response r) ∧
    (c.wire.method = "reportTaskFinish" → c.answer r = .code true) ∧
    (c.wire.method ∈ asking ∨ c.wire.method ∈ doing ∨
      c.wire.method ∈ ["balance", "removeSession", "killQuery", "reportTaskFinish", "createSpace", "createTag", "createEdge", "createTagIndex", "createEdgeIndex"]) := by
  cases c <;> simp [Call.wire, Call.answer, asking, doing]

/-- **C129.** A balance gives the number of its plan, and asking for one gives its tasks. -/
theorem C129_balance (r : Resp) (hs : List HostAddr) (a b : Bool) (id : Int) :
    (Call.balance hs a b).answer r = .number r.number ∧ (Call.showBalance id).answer r = .payload r.payload := ⟨rfl, rfl⟩

/-- **C129.** The configuration cannot be read before the flags are registered; nothing is sent. -/
theorem C129_config_not_ready (module : Int) (name : Bytes) (world : Wire → RpcWorld Resp) (limit : Int) (h : MetaHosts) :
    (Call.getConfig module name).run false world limit h = [.fulfilled .error] := rfl

theorem rawBytes_length : ∀ (n : Nat) (x : Int), (rawBytes n x).length = n
  | 0, _ => rfl
  | n + 1, x => by simp [rawBytes, rawBytes_length n]

theorem rawBytes_get : ∀ (n : Nat) (x : Int) (i : Nat) (h : i < (rawBytes n x).length), (rawBytes n x)[i].toNat = (x / 256 ^ i % 256).toNat
  | 0, _, i, h => by simp [rawBytes] at h
  | n + 1, x, 0, h => by
    have : (x % 256).toNat < 256 := by omega
    simp [rawBytes]; omega
  | n + 1, x, i + 1, h => by
    simp only [rawBytes, List.getElem_cons_succ]
    rw [rawBytes_get n (x / 256) i]
    congr 2
    rw [Int.pow_succ, Int.mul_comm, Int.ediv_ediv_of_nonneg (by decide)]

theorem rawBytes_inj : ∀ (n : Nat) (x y : Int), rawBytes n x = rawBytes n y → x % 256 ^ n = y % 256 ^ n
  | 0, x, y, _ => by simp
  | n + 1, x, y, h => by
    simp only [rawBytes, List.cons.injEq] at h
    have h1 := congrArg UInt8.toNat h.1
    have h2 := rawBytes_inj n _ _ h.2
    simp only [UInt8.toNat_ofNat'] at h1
    have hx : x % 256 = y % 256 := by omega
    have e : (256 : Int) ^ (n + 1) = 256 * 256 ^ n := by rw [Int.pow_succ, Int.mul_comm]
    rw [e, ← Int.emod_add_mul_ediv x 256, ← Int.emod_add_mul_ediv y 256, hx]
    have key : ∀ r q : Int, (r + 256 * q) % (256 * 256 ^ n) = (r + 256 * (q % 256 ^ n)) % (256 * 256 ^ n) := by
      intro r q
      rw [Int.add_emod, Int.mul_emod_mul_of_pos _ _ (by decide), Int.add_emod r (256 * (q % 256 ^ n)), Int.mul_emod_mul_of_pos _ _ (by decide), Int.emod_emod]
    rw [key, key _ (y / 256), h2]

/-- A number of 32 bits. -/
def Is32 (n : Int) : Prop := -2 ^ 31 ≤ n ∧ n < 2 ^ 31

/-- **C129.** The default value of a property is read under a key that starts with the bytes of the space and of the tag or edge and ends with the name of
the property; different properties of tags have different keys, and so have those of edges. -/
theorem C129_default_key (space tag : Int) (field : Bytes) :
    (∃ key, (Call.getTagDefaultValue space tag field).wire = ⟨"get", [(1, .text (ascii "__default__")), (2, .text key)]⟩ ∧ IsDefaultKey space tag field key) ∧
    (∃ key, (Call.getEdgeDefaultValue space tag field).wire = ⟨"get", [(1, .text (ascii "__default__")), (2, .text key)]⟩ ∧ IsDefaultKey space tag field key) ∧
    (∀ space' tag' field', Is32 space → Is32 tag → Is32 space' → Is32 tag' → defaultKey space tag field = defaultKey space' tag' field' →
      space = space' ∧ tag = tag' ∧ field = field') := by
  have hk : IsDefaultKey space tag field (defaultKey space tag field) :=
    ⟨_, _, rfl, rawBytes_length .., rawBytes_length .., rawBytes_get _ _, rawBytes_get _ _⟩
  refine ⟨⟨_, rfl, hk⟩, ⟨_, rfl, hk⟩, ?_⟩
  intro space' tag' field' h1 h2 h3 h4 he
  unfold defaultKey at he
  obtain ⟨ha, hf⟩ := List.append_inj he (by simp [rawBytes_length])
  obtain ⟨hb, hc⟩ := List.append_inj ha (by simp [rawBytes_length])
  have e1 := rawBytes_inj _ _ _ hb
  have e2 := rawBytes_inj _ _ _ hc
  simp only [Is32] at h1 h2 h3 h4
  exact ⟨by omega, by omega, hf⟩

/-- **C129, violated.** A tag and an edge of the same number share their default values. -/
theorem C129_default_shared_violated (space n : Int) (field : Bytes) :
    (Call.getTagDefaultValue space n field).wire = (Call.getEdgeDefaultValue space n field).wire := rfl

/-- **C129.** The key-value calls (C123) refuse the segment of default values: no key a client writes can be taken for a default value. -/
theorem C129_default_segment : checkSegment (ascii "__default__") = false := by decide +kernel

/-- A service with zones; two calls on it. -/
example : ∃ srv : Server (List (Bytes × List HostAddr)) Call Resp,
    srv.exec (.addZone (ascii "z") []) [] = some ([(ascii "z", [])], ⟨none, 0, []⟩) ∧ srv.exec (.addZone (ascii "z") []) [(ascii "z", [])] = none :=
  ⟨⟨fun c s => match c with
    | .addZone z hs => if s.any (fun e => e.1 == z) then none else some ((z, hs) :: s, ⟨none, 0, []⟩)
    | _ => none⟩, by decide +kernel, by decide +kernel⟩

end Admin
end Meta
end Nebula
