import Verif.Storage.Client
import Verif.Storage.ClusterProps
import Verif.Storage.CollectProps
/-! # Properties of the storage clients (C72, C73, C74) -/
namespace Nebula
namespace Storage

/-! ## C73: routing by vertex id -/

theorem leNat_length (k n : Nat) : (leNat k n).length = k := by
  induction k generalizing n with
  | zero => rfl
  | succ k ih => simp [leNat, ih]

theorem load_leNat (k : Nat) (hk : k ≤ 8) (n : Nat) : (StdHash.loadBytes (leNat k n)).toNat = n % 256 ^ k := by
  induction k generalizing n with
  | zero => simp [leNat, StdHash.loadBytes, Nat.mod_one]
  | succ k ih =>
    have ih := ih (by omega) (n / 256)
    have hp : 256 ^ k ≤ 256 ^ 7 := Nat.pow_le_pow_right (by omega) (by omega)
    have hlt : n / 256 % 256 ^ k < 256 ^ 7 := Nat.lt_of_lt_of_le (Nat.mod_lt _ (Nat.pow_pos (by omega))) hp
    have e : n % 256 ^ (k + 1) = n % 256 + 256 * (n / 256 % 256 ^ k) := by
      rw [Nat.pow_succ, Nat.mul_comm, Nat.mod_mul]
    rw [e]
    simp only [leNat, StdHash.loadBytes, UInt64.toNat_add, UInt64.toNat_shiftLeft, ih]
    have h1 : (UInt8.ofNat (n % 256)).toUInt64.toNat = n % 256 := by simp
    rw [h1]
    have h2 : (8 : UInt64).toNat % 64 = 8 := rfl
    rw [h2, Nat.shiftLeft_eq]
    omega

/-- C73: in a space with integer ids an id belongs to the part given by its value modulo the number of parts. -/
theorem C73_int_part {n : Int} (h0 : 0 < n) (h1 : n < 2 ^ 31) (i : Int) : partId n (intBytes i) = some (i % 2 ^ 64 % n + 1) := by
  have := C35_eight h0 h1 (StdHash.loadBytes (intBytes i)) (intBytes i) (leNat_length 8 _) rfl
  rw [this]
  unfold intBytes
  rw [load_leNat 8 (by omega)]
  have h2 := Int.emod_nonneg i (show (2 : Int) ^ 64 ≠ 0 by decide)
  have h3 := Int.emod_lt_of_pos i (show (0 : Int) < 2 ^ 64 by decide)
  have : ((i % 2 ^ 64).toNat % 256 ^ 8 : Nat) = (i % 2 ^ 64).toNat := by
    apply Nat.mod_eq_of_lt
    have : (256 ^ 8 : Nat) = 2 ^ 64 := by decide
    rw [this]; omega
  rw [this, Int.toNat_of_nonneg h2]

/-- The ids of an item that are vertex ids of the space's type. -/
def IntIds : Item → Prop
  | .vertex v _ => ∃ i, v = .int i
  | .edge v w _ => (∃ i, v = .int i) ∧ ∃ j, w = .int j

def StrIds : Item → Prop
  | .vertex v _ => ∃ s, v = .str s
  | .edge v _ _ => ∃ s, v = .str s

/-- The vertex id (of the source, for an edge). -/
def Item.src : Item → Value
  | .vertex v _ => v
  | .edge v _ _ => v

/-- The bytes of an id. -/
def vidBytes : Value → Bytes
  | .int i => intBytes i
  | .str s => s
  | _ => []

/-- An item with its integer ids as strings. -/
def Item.stringIds : Item → Item
  | .vertex v r => .vertex (.str (vidBytes v)) r
  | .edge v w r => .edge (.str (vidBytes v)) (.str (vidBytes w)) r

theorem convertAll_map {α : Type} (f : α → Option (Bytes × α)) (g : α → Bytes × α) : ∀ l : List α, (∀ a ∈ l, f a = some (g a)) →
    convertAll f l = some (l.map g)
  | [], _ => rfl
  | a :: l, h => by
    simp only [convertAll, h a List.mem_cons_self, convertAll_map f g l fun x hx => h x (List.mem_cons_of_mem _ hx), List.map_cons]

theorem groupCall_ok {α : Type} {t : VidType} (ht : t ≠ .unsupported) {n : Int} (h0 : 0 < n) (h1 : n < 2 ^ 31) {leader : Int → Option HostAddr}
    (hl : ∀ p, 1 ≤ p → p ≤ n → ∃ h, leader p = some h) {f : VidType → α → Option (Bytes × α)} (g : α → Bytes × α) {items : List α}
    (hf : ∀ a ∈ items, f t a = some (g a)) :
    ∃ m, groupCall (some t) (some n) leader f items = .ok (m, items.map fun a => (g a).2) ∧
      (∀ h p, sentTo m h p = (items.filter fun a => partId n (g a).1 = some p ∧ leader p = some h).map g) ∧ (allSent m).Perm (items.map g) := by
  obtain ⟨m0, e0, _⟩ := C48_partition h0 h1 leader hl Prod.fst ([] : List (Bytes × α))
  obtain ⟨m, e, a, b, _⟩ := C48_partition h0 h1 leader hl Prod.fst (items.map g)
  refine ⟨m, ?_, fun h p => ?_, b⟩
  · cases t with
    | unsupported => exact absurd rfl ht
    | _ => simp [groupCall, e0, convertAll_map _ g items hf, e]
  · rw [a h p, List.filter_map]
    rfl

/-- C73: in a space with integer ids, every item goes to the leader of the part of its (source) id, in the order of the request, each exactly once,
with its ids as strings of eight bytes. -/
theorem C73_int_routing_partial {n : Int} (h0 : 0 < n) (h1 : n < 2 ^ 31) {leader : Int → Option HostAddr}
    (hl : ∀ p, 1 ≤ p → p ≤ n → ∃ h, leader p = some h) {items : List Item} (hi : ∀ a ∈ items, IntIds a) :
    ∃ m after, groupCall (some .int64) (some n) leader idFromItem items = .ok (m, after) ∧
      (∀ h p, (sentTo m h p).map Prod.snd =
        (items.filter fun a => partId n (vidBytes a.src) = some p ∧ leader p = some h).map Item.stringIds) ∧
      ((allSent m).map Prod.snd).Perm (items.map Item.stringIds) := by
  obtain ⟨m, e, a, b⟩ := groupCall_ok (t := .int64) (by simp) h0 h1 hl (f := idFromItem) (fun x => (vidBytes x.src, x.stringIds)) (items := items) (by
    intro x hx
    have := hi x hx
    cases x with
    | vertex v r => obtain ⟨i, rfl⟩ := this; rfl
    | edge v w r => obtain ⟨⟨i, rfl⟩, j, rfl⟩ := this; rfl)
  refine ⟨m, _, e, fun h p => ?_, ?_⟩
  · rw [a h p, List.map_map]; rfl
  · refine (b.map _).trans (.of_eq ?_); rw [List.map_map]; rfl

/-- C73: the same in a space with string ids; the items are sent as they are and the caller's list is left alone. -/
theorem C73_string_routing {n : Int} (h0 : 0 < n) (h1 : n < 2 ^ 31) {leader : Int → Option HostAddr}
    (hl : ∀ p, 1 ≤ p → p ≤ n → ∃ h, leader p = some h) {items : List Item} (hi : ∀ a ∈ items, StrIds a) :
    ∃ m, groupCall (some .fixedString) (some n) leader idFromItem items = .ok (m, items) ∧
      (∀ h p, (sentTo m h p).map Prod.snd = items.filter fun a => partId n (vidBytes a.src) = some p ∧ leader p = some h) ∧
      ((allSent m).map Prod.snd).Perm items := by
  obtain ⟨m, e, a, b⟩ := groupCall_ok (t := .fixedString) (by simp) h0 h1 hl (f := idFromItem) (fun x => (vidBytes x.src, x)) (items := items) (by
    intro x hx
    have := hi x hx
    cases x with
    | vertex v r => obtain ⟨i, rfl⟩ := this; rfl
    | edge v w r => obtain ⟨i, rfl⟩ := this; rfl)
  refine ⟨m, by rw [e]; simp, fun h p => ?_, ?_⟩
  · rw [a h p, List.map_map]; exact List.map_id _
  · refine (b.map _).trans (.of_eq ?_); rw [List.map_map]; exact List.map_id _

/-- C73: rows of `getNeighbors` (the id is the first column) in a space with integer ids. -/
theorem C73_rows_partial {n : Int} (h0 : 0 < n) (h1 : n < 2 ^ 31) {leader : Int → Option HostAddr}
    (hl : ∀ p, 1 ≤ p → p ≤ n → ∃ h, leader p = some h) {rows : List (List Value)} (hi : ∀ r ∈ rows, ∃ i rest, r = .int i :: rest) :
    ∃ m after, groupCall (some .int64) (some n) leader (fun t => idFromRow t false) rows = .ok (m, after) ∧
      (∀ h p, (sentTo m h p).map Prod.snd =
        (rows.filter fun r => partId n (vidBytes (r.headD .empty)) = some p ∧ leader p = some h).map fun r => r.set 0 (.str (vidBytes (r.headD .empty)))) ∧
      after = rows.map fun r => r.set 0 (.str (vidBytes (r.headD .empty))) := by
  obtain ⟨m, e, a, b⟩ := groupCall_ok (t := .int64) (by simp) h0 h1 hl (f := fun t => idFromRow t false)
    (fun x => (vidBytes (x.headD .empty), x.set 0 (.str (vidBytes (x.headD .empty))))) (items := rows) (by
    intro x hx
    obtain ⟨i, rest, rfl⟩ := hi x hx
    rfl)
  refine ⟨m, _, e, fun h p => ?_, rfl⟩
  rw [a h p, List.map_map]; rfl

/-- C73 is violated: a call in a space with integer ids rewrites the rows of the caller (passed as `const`), and repeating it with the same rows
ends the process. -/
theorem C73_repeat_violated {n : Int} (h0 : 0 < n) (h1 : n < 2 ^ 31) {leader : Int → Option HostAddr}
    (hl : ∀ p, 1 ≤ p → p ≤ n → ∃ h, leader p = some h) (i : Int) (rest : List Value) (rows : List (List Value))
    (hi : ∀ r ∈ rows, ∃ i rest, r = .int i :: rest) :
    ∃ m after, groupCall (some .int64) (some n) leader (fun t => idFromRow t false) ((.int i :: rest) :: rows) = .ok (m, after) ∧
      groupCall (some .int64) (some n) leader (fun t => idFromRow t false) after = .abort := by
  obtain ⟨m, after, e, _, ha⟩ := C73_rows_partial h0 h1 hl (rows := (.int i :: rest) :: rows) (by
    intro r hr
    rcases List.mem_cons.1 hr with rfl | hr
    · exact ⟨i, rest, rfl⟩
    · exact hi r hr)
  refine ⟨m, after, e, ?_⟩
  obtain ⟨m0, e0, _⟩ := C48_partition h0 h1 leader hl Prod.fst ([] : List (Bytes × List Value))
  subst ha
  simp [groupCall, e0, convertAll, idFromRow, vidInPlace]

/-- An item whose id is not of the type of the space ends the process. -/
theorem C73_wrong_type_violated (n : Int) (h0 : 0 < n) (h1 : n < 2 ^ 31) {leader : Int → Option HostAddr}
    (hl : ∀ p, 1 ≤ p → p ≤ n → ∃ h, leader p = some h) (s : Bytes) (r : Nat) (items : List Item) :
    groupCall (some .int64) (some n) leader idFromItem (.vertex (.str s) r :: items) = .abort := by
  obtain ⟨m0, e0, _⟩ := C48_partition h0 h1 leader hl Prod.fst ([] : List (Bytes × Item))
  simp [groupCall, e0, convertAll, idFromItem, vidInPlace]

/-- The hypotheses of the routing theorems hold: an edge and a vertex with integer ids, two parts. -/
example : let a : HostAddr := ⟨[97], 1⟩; let b : HostAddr := ⟨[98], 1⟩
    let leader : Int → Option HostAddr := fun p => if p = 1 then some a else if p = 2 then some b else none
    (∀ p, 1 ≤ p → p ≤ 2 → ∃ h, leader p = some h) ∧ (∀ x ∈ [Item.edge (.int 3) (.int 4) 0, .vertex (.int (-2)) 1], IntIds x) ∧
    partId 2 (vidBytes (Item.edge (.int 3) (.int 4) 0).src) = some 2 ∧ partId 2 (vidBytes (Item.vertex (.int (-2)) 1).src) = some 1 := by
  refine ⟨?_, ?_, by decide +kernel, by decide +kernel⟩
  · intro p h1 h2
    by_cases h : p = 1
    · exact ⟨⟨[97], 1⟩, by simp [h]⟩
    · exact ⟨⟨[98], 1⟩, by have : p = 2 := by omega
                           simp [this]⟩
  · intro x hx
    rcases List.mem_cons.1 hx with rfl | hx
    · exact ⟨⟨3, rfl⟩, 4, rfl⟩
    · rw [List.mem_singleton.1 hx]; exact ⟨-2, rfl⟩

/-! ## C72 for single requests -/

/-- The promise is given a value. -/
def SAct.settles : SAct → Bool
  | .fail => true
  | .value _ => true
  | _ => false

theorem singleCall_settles (r : PartResult) : ∀ o ∈ singleCall r, o.settles = false := by
  intro o ho
  unfold singleCall at ho
  split at ho
  · split at ho <;> simp at ho <;> subst ho <;> rfl
  all_goals simp at ho
  all_goals subst ho; rfl

/-- C49 for a request to one host: the promise is settled exactly once, with the response, or as failed if the call failed. -/
theorem C49_single (parts : List Int) (r : Reply) : (singleHandler parts r).filter SAct.settles =
    match r with
    | .exception => [.fail]
    | .answer a => [.value a] := by
  cases r with
  | exception =>
    simp only [singleHandler, List.filter_cons, SAct.settles, if_true]
    congr 1
    rw [List.filter_eq_nil_iff]
    intro o ho
    obtain ⟨p, _, rfl⟩ := List.mem_map.1 ho
    simp [SAct.settles]
  | answer a =>
    simp only [singleHandler, List.filter_append]
    have : (a.failed.flatMap singleCall).filter SAct.settles = [] := by
      rw [List.filter_eq_nil_iff]
      intro o ho
      obtain ⟨x, _, hx⟩ := List.mem_flatMap.1 ho
      simp [singleCall_settles x o hx]
    rw [this]; rfl

/-- C72 for a request to one host that answers: the leader cache is told of every failed part before the caller gets the response. -/
theorem C72_single_partial (parts : List Int) (a : Answer) : ∃ pre, singleHandler parts (.answer a) = pre ++ [.value a] ∧
    (∀ p l, .updateLeader p l ∈ pre ↔ ∃ r ∈ a.failed, r.part = p ∧ r.code = .leaderChanged ∧ r.leader = some l ∧ l.host ≠ [] ∧ l.port ≠ 0) ∧
    (∀ p, .invalidLeader p ∈ pre ↔ ∃ r ∈ a.failed, r.part = p ∧
        ((r.code = .leaderChanged ∧ ∀ l, r.leader = some l → l.host = [] ∨ l.port = 0) ∨ r.code = .partNotFound ∨ r.code = .spaceNotFound)) := by
  have conv : ∀ (r : PartResult), singleCall r = (leaderCall r).filterMap fun o => match o with
      | .updateLeader p l => some (SAct.updateLeader p l)
      | .invalidLeader p => some (SAct.invalidLeader p)
      | _ => none := by
    intro r
    unfold singleCall leaderCall
    cases r.code with
    | leaderChanged => dsimp only; cases validHost r.leader <;> rfl
    | _ => rfl
  have m1 : ∀ r p l, SAct.updateLeader p l ∈ singleCall r ↔ Op.updateLeader p l ∈ leaderCall r := by
    intro r p l
    rw [conv, List.mem_filterMap]
    constructor
    · rintro ⟨o, ho, e⟩
      cases o <;> simp at e
      obtain ⟨rfl, rfl⟩ := e
      exact ho
    · intro ho; exact ⟨_, ho, rfl⟩
  have m2 : ∀ r p, SAct.invalidLeader p ∈ singleCall r ↔ Op.invalidLeader p ∈ leaderCall r := by
    intro r p
    rw [conv, List.mem_filterMap]
    constructor
    · rintro ⟨o, ho, e⟩
      cases o <;> simp at e
      subst e
      exact ho
    · intro ho; exact ⟨_, ho, rfl⟩
  refine ⟨_, rfl, fun p l => ?_, fun p => ?_⟩
  · rw [List.mem_flatMap]
    constructor
    · rintro ⟨r, hr, ho⟩
      rw [m1, mem_leaderCall] at ho
      rcases ho with ⟨l', h1, h2, h3, h4, e⟩ | ⟨_, e⟩
      · cases e; exact ⟨r, hr, rfl, h1, h2, h3, h4⟩
      · cases e
    · rintro ⟨r, hr, rfl, h1, h2, h3, h4⟩
      exact ⟨r, hr, (m1 _ _ _).2 ((mem_leaderCall _ _).2 (.inl ⟨l, h1, h2, h3, h4, rfl⟩))⟩
  · rw [List.mem_flatMap]
    constructor
    · rintro ⟨r, hr, ho⟩
      rw [m2, mem_leaderCall] at ho
      rcases ho with ⟨l', h1, h2, h3, h4, e⟩ | ⟨h1, e⟩
      · cases e
      · cases e; exact ⟨r, hr, rfl, h1⟩
    · rintro ⟨r, hr, rfl, h1⟩
      exact ⟨r, hr, (m2 _ _).2 ((mem_leaderCall _ _).2 (.inr ⟨h1, rfl⟩))⟩

/-- C72 is violated by a request to one host that fails: the caller is told first, the stale leaders are dropped afterwards. -/
theorem C72_single_violated (p : Int) (ps : List Int) :
    ∃ post, singleHandler (p :: ps) .exception = .fail :: post ∧ .invalidLeader p ∈ post := ⟨_, rfl, by simp⟩

/-! ## C74 -/

/-- The attempt `i` was answered by a leader change. -/
def LeaderMoved (w : Option HostAddr × Reply) : Prop := w.1.isSome ∧ ∃ a p ps, w.2 = .answer a ∧ a.failed = p :: ps ∧ p.code = .leaderChanged

theorem extract_moved (r : Reply) : extractCode r = .leaderChanged ↔ ∃ a p ps, r = .answer a ∧ a.failed = p :: ps ∧ p.code = .leaderChanged := by
  cases r with
  | exception => simp [extractCode, singleResult]
  | answer a =>
    cases hf : a.failed with
    | nil => simp [extractCode, singleResult, hf]
    | cons p ps => simp [extractCode, singleResult, hf]

/-- The internal address of a host: two ports below. -/
def internalOf (h : HostAddr) : HostAddr := ⟨h.host, wrapI32 (h.port - 2)⟩

theorem forward_skip (missing : Code) (world : Nat → Option HostAddr × Reply) : ∀ (k i n : Nat),
    (∀ j, i ≤ j → j < i + k → LeaderMoved (world j)) →
    forward missing world i (k + n) = let r := forward missing world (i + k) n
      ⟨r.result, ((List.range' i k).filterMap fun j => (world j).1.map internalOf) ++ r.asked⟩
  | 0, i, n, _ => by simp
  | k + 1, i, n, h => by
    obtain ⟨h1, h2⟩ := h i (by omega) (by omega)
    obtain ⟨x, hx⟩ := Option.isSome_iff_exists.1 h1
    have e : k + 1 + n = (k + n) + 1 := by omega
    rw [e]
    simp only [forward, hx, (extract_moved _).2 h2]
    rw [forward_skip missing world k (i + 1) n fun j h1 h2 => h j (by omega) (by omega)]
    have e2 : i + 1 + k = i + (k + 1) := by omega
    simp [e2, List.range'_succ, hx, internalOf]

/-- C74: the call goes to the cached leader (at its internal address) and is repeated while the leader has moved; the first attempt that is not
answered by a leader change gives the result: the code for a missing leader, success, or the code of the first failed part. -/
theorem C74_forward_partial (missing : Code) (world : Nat → Option HostAddr × Reply) (k n : Nat) (hk : ∀ j, j < k → LeaderMoved (world j))
    (hl : ¬ LeaderMoved (world k)) :
    let r := forward missing world 0 (k + (n + 1))
    r.asked = (List.range (k + 1)).filterMap (fun j => (world j).1.map internalOf) ∧
    ((world k).1 = none → r.result = some missing) ∧
    (∀ h a, world k = (some h, .answer a) → a.failed = [] → r.result = some .succeeded) ∧
    (∀ h a p ps, world k = (some h, .answer a) → a.failed = p :: ps → r.result = some p.code) := by
  intro r
  have e : r = _ := forward_skip missing world k 0 (n + 1) fun j _ h2 => hk j (by omega)
  rw [Nat.zero_add] at e
  cases hw : (world k).1 with
  | none =>
    have e1 : forward missing world k (n + 1) = ⟨some missing, []⟩ := by simp only [forward, hw]
    rw [e1] at e
    refine ⟨?_, fun _ => by rw [e], fun h a hx => by simp [hx] at hw, fun h a p ps hx => by simp [hx] at hw⟩
    rw [e, List.range_succ, List.filterMap_append]
    simp [hw, List.range_eq_range']
  | some x =>
    have hne : extractCode (world k).2 ≠ .leaderChanged := by
      intro h
      exact hl ⟨by rw [hw]; rfl, (extract_moved _).1 h⟩
    have e1 : forward missing world k (n + 1) = ⟨some (extractCode (world k).2), [internalOf x]⟩ := by
      simp only [forward, hw]
      generalize extractCode (world k).2 = c at hne ⊢
      cases c <;> first | rfl | exact absurd rfl hne
    rw [e1] at e
    refine ⟨?_, (by intro h; cases h), fun h a hx hf => ?_, fun h a p ps hx hf => ?_⟩
    · rw [e, List.range_succ, List.filterMap_append]
      simp [hw, List.range_eq_range']
    · rw [e]; simp [hx, extractCode, singleResult, hf]
    · rw [e]; simp [hx, extractCode, singleResult, hf]

/-- C74 is violated by a call that fails (no connection, timeout): the result is not the code for that but `E_UNKNOWN`. -/
theorem C74_rpc_failure_violated (missing : Code) (world : Nat → Option HostAddr × Reply) (h : HostAddr) (n : Nat) (hw : world 0 = (some h, .exception)) :
    (forward missing world 0 (n + 1)).result = some (.other 0) ∧ Code.other 0 ≠ .rpcFailure := by
  simp [forward, hw, extractCode, singleResult]

/-- C74 is violated while the leader keeps moving: there is no result, however often the call is repeated. -/
theorem C74_no_end_violated (missing : Code) (world : Nat → Option HostAddr × Reply) (h : ∀ j, LeaderMoved (world j)) (n : Nat) :
    (forward missing world 0 n).result = none ∧ (forward missing world 0 n).asked.length = n := by
  have := forward_skip missing world n 0 0 fun j _ _ => h j
  rw [Nat.add_zero] at this
  rw [this]
  refine ⟨rfl, ?_⟩
  simp only [forward, List.append_nil]
  have : ∀ (k i : Nat), ((List.range' i k).filterMap fun j => (world j).1.map internalOf).length = k := by
    intro k
    induction k with
    | zero => intro i; rfl
    | succ k ih =>
      intro i
      obtain ⟨x, hx⟩ := Option.isSome_iff_exists.1 (h i).1
      simp [List.range'_succ, hx, ih]
  exact this n 0

theorem findPos_mono (needle : Bytes) : ∀ (s : Bytes) (i : Nat), min i (2 ^ 64 - 1) ≤ findPos needle i s
  | [], i => by unfold findPos; split <;> omega
  | b :: s, i => by
    unfold findPos
    split
    · omega
    · have := findPos_mono needle s (i + 1); omega

/-- C74 is violated by `getValue` in an unknown space: any status whose text does not begin with "partid" is reported as an unknown part. -/
theorem C74_missing_violated (b : UInt8) (s : Bytes) (hb : b ≠ 112) : getValueMissing (b :: s) = .partNotFound := by
  unfold getValueMissing
  rw [if_pos]
  unfold findPos
  rw [if_neg (by simp; intro h; exact absurd h.symm hb)]
  have := findPos_mono [112, 97, 114, 116, 105, 100] s (0 + 1)
  omega

/-- The leader moves once. -/
example : let world : Nat → Option HostAddr × Reply := fun i => if i = 0 then (some ⟨[97], 10⟩, .answer ⟨[⟨1, .leaderChanged, some ⟨[98], 10⟩⟩], 0, 0, 0⟩)
      else (some ⟨[98], 10⟩, .answer ⟨[], 0, 0, 0⟩)
    LeaderMoved (world 0) ∧ ¬ LeaderMoved (world 1) ∧ forward .spaceNotFound world 0 2 = ⟨some .succeeded, [⟨[97], 8⟩, ⟨[98], 8⟩]⟩ := by
  refine ⟨⟨rfl, _, _, _, rfl, rfl, rfl⟩, ?_, by decide +kernel⟩
  rintro ⟨_, a, p, ps, h, h2, _⟩
  cases h; cases h2

end Storage
end Nebula
