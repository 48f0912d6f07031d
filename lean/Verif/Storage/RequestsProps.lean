import Verif.Storage.RequestsSpec
import Verif.Storage.KvProps
/-! # The storage service is asked what the caller asked for (C132) -/
namespace Nebula
namespace Storage
open AMap

/-! ## One request -/

theorem understand_wire : ∀ {k : Kind} (op : GroupOp k) (parts : AMap Int (List k.T)), understand (op.wire parts) = some ⟨k, op, parts⟩
  | _, .getNeighbors space cols types dir stats vs es xs dedup random order limit filter, parts => by
    by_cases ho : order = [] <;> cases filter <;> cases stats <;> cases vs <;> cases es <;> cases xs <;>
      simp [GroupOp.wire, understand, fieldOf, setOpt, setList, setText, ho, optData, listData, textOr, Field.num?, Field.flag?, Field.nums?, Field.texts?,
        Field.data?, Field.rows?, Field.struct?, Field.text?]
  | _, .getProps space vs es xs dedup order limit filter, parts => by
    by_cases ho : order = [] <;> cases filter <;> cases vs <;> cases es <;> cases xs <;>
      simp [GroupOp.wire, understand, fieldOf, setOpt, setList, setText, ho, optData, listData, textOr, Field.num?, Field.flag?, Field.nums?, Field.texts?,
        Field.data?, Field.rows?, Field.struct?, Field.text?]
  | _, .addVertices space names ine, parts => rfl
  | _, .addEdges space names ine toss, parts => by cases toss <;> rfl
  | _, .deleteEdges space, parts => rfl
  | _, .deleteVertices space, parts => rfl
  | _, .deleteTags space, parts => rfl
  | _, .get space partly, parts => rfl
  | _, .put space, parts => rfl
  | _, .remove space, parts => rfl

/-- **C132 (request).** The service understands the call with all its arguments, and the work of every part; different calls send different
requests. -/
theorem C132_request {k : Kind} (op : GroupOp k) (parts : AMap Int (List k.T)) :
    understand (op.wire parts) = some ⟨k, op, parts⟩ ∧
    ∀ {k' : Kind} (op' : GroupOp k') (parts' : AMap Int (List k'.T)), op.wire parts = op'.wire parts' →
      (⟨k, op, parts⟩ : Work) = ⟨k', op', parts'⟩ := by
  refine ⟨understand_wire op parts, fun op' parts' h => ?_⟩
  have := understand_wire op parts
  rw [h, understand_wire] at this
  exact (Option.some.inj this).symm

/-! ## All requests of a call -/

theorem find_mapv {K A B : Type} [DecidableEq K] (f : A → B) : ∀ (m : AMap K A) (x : K), AMap.find (m.map fun c => (c.1, f c.2)) x = (AMap.find m x).map f
  | [], _ => rfl
  | (a, b) :: m, x => by
    simp only [List.map_cons, AMap.find]
    split
    · rfl
    · exact find_mapv f m x

theorem nodup_mapv {K A B : Type} (f : A → B) (m : AMap K A) (h : (m.map Prod.fst).Nodup) : ((m.map fun c => (c.1, f c.2)).map Prod.fst).Nodup := by
  rw [List.map_map]; exact h

theorem dropKeys_find {α : Type} (m : Clusters (Bytes × α)) (h : HostAddr) :
    AMap.find (dropKeys m) h = (AMap.find m h).map fun l => l.map fun p => (p.1, p.2.map Prod.snd) := find_mapv _ m h

theorem dropKeys_noEmpty {α : Type} {m : Clusters (Bytes × α)} (hm : NoEmpty m) : NoEmpty (dropKeys m) := by
  refine ⟨nodup_mapv _ m hm.1, fun h l hl => ?_⟩
  rw [dropKeys_find] at hl
  obtain ⟨l0, h1, rfl⟩ := Option.map_eq_some_iff.1 hl
  obtain ⟨a, b, c⟩ := hm.2 h l0 h1
  refine ⟨nodup_mapv _ l0 a, by simpa using b, fun p v hv => ?_⟩
  rw [find_mapv (fun v : List (Bytes × α) => v.map Prod.snd)] at hv
  obtain ⟨v0, h2, rfl⟩ := Option.map_eq_some_iff.1 hv
  simpa using c p v0 h2

theorem dropKeys_sentTo {α : Type} (m : Clusters (Bytes × α)) (h : HostAddr) (p : Int) : sentTo (dropKeys m) h p = (sentTo m h p).map Prod.snd := by
  unfold sentTo
  rw [dropKeys_find]
  cases AMap.find m h with
  | none => rfl
  | some l =>
    simp only [Option.map_some, Option.getD_some]
    rw [find_mapv (fun v : List (Bytes × α) => v.map Prod.snd)]
    cases AMap.find l p <;> rfl

theorem wires_distributes {k : Kind} (op : GroupOp k) {m : Clusters k.T} (hm : NoEmpty m) {work : HostAddr → Int → List k.T}
    (hs : ∀ h p, sentTo m h p = work h p) : Distributes op work (wires op m) where
  once := by unfold wires; rw [List.map_map]; exact hm.1
  sound := by
    intro x hx
    obtain ⟨⟨h, ps⟩, hc, rfl⟩ := List.mem_map.1 hx
    have f1 := mem_find hm.1 hc
    obtain ⟨a, b, c⟩ := hm.2 h ps f1
    refine ⟨ps, understand_wire op ps, a, b, fun p v hv => ?_⟩
    have f2 := mem_find a hv
    refine ⟨c p v f2, ?_⟩
    rw [← hs]; simp [sentTo, f1, f2]
  complete := by
    intro h p hw
    rw [← hs] at hw ⊢
    unfold sentTo at hw ⊢
    cases f1 : AMap.find m h with
    | none => rw [f1] at hw; exact absurd rfl hw
    | some ps =>
      rw [f1] at hw
      cases f2 : AMap.find ps p with
      | none => rw [Option.getD_some, f2] at hw; exact absurd rfl hw
      | some v =>
        refine ⟨(h, op.wire ps), List.mem_map.2 ⟨(h, ps), find_mem f1, rfl⟩, rfl, ps, understand_wire op ps, ?_⟩
        simpa [f2] using find_mem f2

theorem groupCall_noEmpty {α : Type} {t : VidType} (ht : t ≠ .unsupported) {n : Int} (h0 : 0 < n) (h1 : n < 2 ^ 31) {leader : Int → Option HostAddr}
    (hl : ∀ p, 1 ≤ p → p ≤ n → ∃ h, leader p = some h) {f : VidType → α → Option (Bytes × α)} (g : α → Bytes × α) {items : List α}
    (hf : ∀ a ∈ items, f t a = some (g a)) :
    ∃ m, groupCall (some t) (some n) leader f items = .ok (m, items.map fun a => (g a).2) ∧ NoEmpty m ∧
      ∀ h p, sentTo m h p = (items.filter fun a => partId n (g a).1 = some p ∧ leader p = some h).map g := by
  obtain ⟨m, e, a, _⟩ := groupCall_ok ht h0 h1 hl g hf
  obtain ⟨m', e', b, _⟩ := clusterIds_ok h0 h1 hl Prod.fst (items.map g)
  refine ⟨m, e, ?_, a⟩
  obtain ⟨m0, e0, _⟩ := C48_partition h0 h1 leader hl Prod.fst ([] : List (Bytes × α))
  have : groupCall (some t) (some n) leader f items = .ok (m', items.map fun a => (g a).2) := by
    cases t with
    | unsupported => exact absurd rfl ht
    | _ => simp [groupCall, e0, convertAll_map _ g items hf, e']
  rw [this] at e
  cases e
  exact b

theorem idCall_distributes {k : Kind} {t : VidType} (ht : t ≠ .unsupported) {n : Int} (h0 : 0 < n) (h1 : n < 2 ^ 31) {leader : Int → Option HostAddr}
    (hl : ∀ p, 1 ≤ p → p ≤ n → ∃ h, leader p = some h) (op : GroupOp k) (f : VidType → k.T → Option (Bytes × k.T)) {items : List k.T}
    (hf : ∀ a ∈ items, f t a = some (routeKey a, asStored t op.edgeRows a)) :
    ∃ l, idCall ⟨some t, some n, leader⟩ op f items = .ok l ∧ Distributes op (workOf t n leader op items) l := by
  obtain ⟨m, e, hm, hs⟩ := groupCall_noEmpty ht h0 h1 hl (f := f) (fun a => (routeKey a, asStored t op.edgeRows a)) hf
  refine ⟨_, by simp only [idCall, e], wires_distributes op (dropKeys_noEmpty hm) fun h p => ?_⟩
  rw [dropKeys_sentTo, hs, List.map_map]; rfl

theorem kvCall_distributes {k : Kind} (t : VidType) {n : Int} (h0 : 0 < n) (h1 : n < 2 ^ 31) {leader : Int → Option HostAddr}
    (hl : ∀ p, 1 ≤ p → p ≤ n → ∃ h, leader p = some h) (op : GroupOp k) (items : List k.T) (ha : ∀ i : k.T, asStored t op.edgeRows i = i) :
    ∃ l, kvCall op (clusterIds (some n) leader routeKey items) = .ok l ∧ Distributes op (workOf t n leader op items) l := by
  obtain ⟨m, e, hm, hs⟩ := clusterIds_ok h0 h1 hl (routeKey (k := k)) items
  refine ⟨_, by simp only [kvCall, e], wires_distributes op hm fun h p => ?_⟩
  rw [hs, workOf]
  have : (asStored t op.edgeRows : k.T → k.T) = id := funext ha
  rw [this, List.map_id]

theorem row_id {t : VidType} {b : Bool} {r : List Value} (h : IdsOk (k := .row) t b r) :
    idFromRow t b r = some (routeKey (k := .row) r, asStored t b (k := .row) r) ∧ t ≠ .unsupported := by
  rcases h with ⟨rfl, rfl, i, l, rfl⟩ | ⟨rfl, rfl, i, b, c, j, l, rfl⟩ | ⟨rfl, s, l, rfl⟩
  · refine ⟨?_, by simp⟩
    cases l with
    | nil => rfl
    | cons x l => cases l with
      | nil => rfl
      | cons y l => cases l <;> rfl
  · exact ⟨rfl, by simp⟩
  · cases b <;> exact ⟨rfl, by simp⟩

theorem item_id {t : VidType} {b : Bool} {i : Item} (h : IdsOk (k := .item) t b i) :
    idFromItem t i = some (routeKey (k := .item) i, asStored t b (k := .item) i) := by
  cases i with
  | vertex v x => rcases h with ⟨rfl, i, rfl⟩ | ⟨rfl, s, rfl⟩ <;> rfl
  | edge v w x => rcases h with ⟨rfl, ⟨i, rfl⟩, j, rfl⟩ | ⟨rfl, s, rfl⟩ <;> rfl

/-- **C132 (distribution).** If the space is known and its parts have leaders, a call with ids of the type of the space asks every part, at
its leader, for exactly the work the call has for it, in order: the hosts get one request each, which the service understands as the call with
all its arguments. -/
theorem C132_distributes {k : Kind} {t : VidType} (ht : t ≠ .unsupported) {n : Int} (h0 : 0 < n) (h1 : n < 2 ^ 31) {leader : Int → Option HostAddr}
    (hl : ∀ p, 1 ≤ p → p ≤ n → ∃ h, leader p = some h) (op : GroupOp k) (items : List k.T) (hi : ∀ i ∈ items, IdsOk t op.edgeRows i) :
    ∃ l, op.call ⟨some t, some n, leader⟩ items = .ok l ∧ Distributes op (workOf t n leader op items) l := by
  cases op with
  | getNeighbors => exact idCall_distributes ht h0 h1 hl _ _ fun a ha => (row_id (hi a ha)).1
  | getProps => exact idCall_distributes ht h0 h1 hl _ _ fun a ha => (row_id (hi a ha)).1
  | addVertices => exact idCall_distributes ht h0 h1 hl _ _ fun a ha => item_id (hi a ha)
  | addEdges => exact idCall_distributes ht h0 h1 hl _ _ fun a ha => item_id (hi a ha)
  | deleteEdges => exact idCall_distributes ht h0 h1 hl _ _ fun a ha => item_id (hi a ha)
  | deleteVertices => exact idCall_distributes ht h0 h1 hl _ _ fun a ha => item_id (hi a ha)
  | deleteTags => exact idCall_distributes ht h0 h1 hl _ _ fun a ha => item_id (hi a ha)
  | get => exact kvCall_distributes t h0 h1 hl _ _ fun i => rfl
  | put => exact kvCall_distributes t h0 h1 hl _ _ fun i => rfl
  | remove => exact kvCall_distributes t h0 h1 hl _ _ fun i => rfl

/-- **C132 (refusal).** If the space or the leader of a part is not known, nothing is sent to anybody. -/
theorem C132_refused {k : Kind} (op : GroupOp k) (items : List k.T) (e : Cluster) (h : e.parts = none ∨ ∃ n p, e.parts = some n ∧ 1 ≤ p ∧ p ≤ n ∧ e.leader p = none) :
    op.call e items = .error := by
  obtain ⟨vid, parts, leader⟩ := e
  have hc : ∀ {α : Type} (f : α → Bytes) (l : List α), clusterIds parts leader f l = .error := by
    intro α f l
    rcases h with rfl | ⟨n, p, rfl, h1, h2, h3⟩
    · exact (C48_unknown leader f l).1
    · exact (C48_unknown leader f l).2 n p h1 h2 h3
  have hg : ∀ {k : Kind} (op : GroupOp k) (f : VidType → k.T → Option (Bytes × k.T)) (l : List k.T), idCall ⟨vid, parts, leader⟩ op f l = .error := by
    intro k op f l
    unfold idCall groupCall
    cases vid with
    | none => rfl
    | some t => cases t <;> simp [hc]
  have hk : ∀ {k : Kind} (op : GroupOp k) (f : k.T → Bytes) (l : List k.T), kvCall op (clusterIds parts leader f l) = .error := by
    intro k op f l; rw [hc]; rfl
  cases op with
  | get => exact hk _ _ _
  | put => exact hk _ _ _
  | remove => exact hk _ _ _
  | _ => exact hg _ _ _

/-! ## Calls for one part -/

theorem single_wire (part : Int) (op : SingleOp) : understandSingle (op.wire part) = some (part, op) := by
  cases op with
  | getUUID => rfl
  | updateVertex space id tag props ins ret cond =>
    cases cond <;> simp [SingleOp.wire, understandSingle, fieldOf, setText, textOr, Field.num?, Field.flag?, Field.texts?, Field.data?, Field.text?, Field.value?]
  | updateEdge space key props ins ret cond =>
    cases cond <;> simp [SingleOp.wire, understandSingle, fieldOf, setText, textOr, Field.num?, Field.flag?, Field.texts?, Field.data?, Field.text?, Field.item?]

/-- **C132 (one part).** An update goes to the leader of the part of the vertex or of the source of the edge, and is understood there as the
call with all its arguments. -/
theorem C132_single {t : VidType} (ht : t ≠ .unsupported) {n : Int} (h0 : 0 < n) (h1 : n < 2 ^ 31) {leader : Int → Option HostAddr}
    (hl : ∀ p, 1 ≤ p → p ≤ n → ∃ h, leader p = some h) (op : SingleOp) (hi : op.IdsOk t) :
    ∃ h w p, op.call ⟨some t, some n, leader⟩ = .ok (h, w) ∧ leader p = some h ∧ partId n op.route = some p ∧ understandSingle w = some (p, op.asStored t) := by
  obtain ⟨p, hp, hp1, hp2⟩ := C35_range h0 h1 op.route
  obtain ⟨h, hh⟩ := hl p hp1 hp2
  have hu : ∀ {α : Type} (f : VidType → α → Option (Bytes × α)) (a b : α), f t a = some (op.route, b) →
      updateCall (some t) (some n) leader f a = .ok (h, p, b) := by
    intro α f a b e
    cases t with
    | unsupported => exact absurd rfl ht
    | _ => simp [updateCall, e, hp, hh]
  cases op with
  | getUUID space name =>
    exact ⟨h, SingleOp.wire p (.getUUID space name), p, by
      have hp : partId n name = some p := hp
      simp [SingleOp.call, uuidCall, hp, hh], hh, hp, single_wire _ _⟩
  | updateVertex space id tag props ins ret cond =>
    have e : vidInPlace t id = some (idBytes id, if t = .int64 then stored id else id) := by
      rcases hi with ⟨rfl, i, rfl⟩ | ⟨rfl, s, rfl⟩ <;> rfl
    exact ⟨h, SingleOp.wire p (.updateVertex space (if t = .int64 then stored id else id) tag props ins ret cond), p, by
      simp only [SingleOp.call, hu _ _ _ e], hh, hp, single_wire _ _⟩
  | updateEdge space key props ins ret cond =>
    exact ⟨h, SingleOp.wire p (.updateEdge space (Storage.asStored t false (k := .item) key) props ins ret cond), p, by
      simp only [SingleOp.call, hu _ _ _ (item_id hi)], hh, hp, single_wire _ _⟩

/-- **C132 (scan).** A scan goes to the leader of the part it names in the space it names, as it was given. -/
theorem C132_scan (leader : Int → Int → Option HostAddr) (s : Scan) (h : HostAddr) (w : Wire) :
    s.call leader = .ok (h, w) ↔ leader s.space s.part = some h ∧
      w = ⟨if s.edges then "scanEdge" else "scanVertex", [(1, .num s.space), (2, .num s.part)] ++ s.rest⟩ := by
  unfold Scan.call scanCall
  cases leader s.space s.part with
  | none => simp
  | some a =>
    simp only [Out.ok.injEq, Prod.mk.injEq, Option.some.injEq]
    exact ⟨fun h => ⟨h.1, h.2.symm⟩, fun h => ⟨h.1, h.2.symm⟩⟩

/-! ## Calls for all parts -/

theorem lookup_wire (parts : List Int) (op : LookupOp) : understandLookup (op.wire parts) = some (parts, op) := by cases op <;> rfl

theorem hostParts_nodup (leader : Int → Option HostAddr) : ∀ (n : Nat) (p : Int) (m m' : AMap HostAddr (List Int)), m.NodupKeys →
    hostPartsFrom leader m p n = some m' → m'.NodupKeys
  | 0, p, m, m', hm, e => by cases e; exact hm
  | n + 1, p, m, m', hm, e => by
    simp only [hostPartsFrom] at e
    split at e
    · cases e
    · exact hostParts_nodup leader n _ _ _ (nodup_update hm _ _ _) e

/-- **C132 (lookup).** Every request of a lookup is understood as the call; every part of the space is asked at its leader, exactly once, and
nothing else is. -/
theorem C132_lookup {n : Int} {leader : Int → Option HostAddr} (hl : ∀ p, 1 ≤ p → p ≤ n → ∃ h, leader p = some h) (vid : Option VidType) (op : LookupOp) :
    ∃ l, op.call ⟨vid, some n, leader⟩ = .ok l ∧ (∀ x ∈ l, ∃ parts, understandLookup x.2 = some (parts, op) ∧ parts.Nodup ∧
        ∀ p, p ∈ parts ↔ 1 ≤ p ∧ p ≤ n ∧ leader p = some x.1) ∧
      (l.map Prod.fst).Nodup ∧ ∀ p h, 1 ≤ p → p ≤ n → leader p = some h → h ∈ l.map Prod.fst := by
  obtain ⟨m, e, hm⟩ := C48_host_parts leader hl
  have hn : m.NodupKeys := by
    simp only [hostParts] at e
    split at e
    · cases e
    · next m' e' => cases e; exact hostParts_nodup leader _ _ _ _ nodup_nil e'
  refine ⟨m.map fun c => (c.1, op.wire c.2), by simp only [LookupOp.call, lookupCall, e], fun x hx => ?_, ?_, fun p h h1 h2 hp => ?_⟩
  · obtain ⟨⟨h, ps⟩, hc, rfl⟩ := List.mem_map.1 hx
    have f := mem_find hn hc
    have := hm h
    rw [f, Option.getD_some] at this
    exact ⟨ps, lookup_wire ps op, this.1.imp fun h => Int.ne_of_lt h, this.2⟩
  · rw [List.map_map]; exact hn
  · have := ((hm h).2 p).2 ⟨h1, h2, hp⟩
    rw [List.map_map]
    cases f : AMap.find m h with
    | none => rw [f] at this; cases this
    | some ps => exact List.mem_map.2 ⟨(h, ps), find_mem f, rfl⟩

/-! ## Calls between storage services -/

/-- **C132 (transactions).** The next service finds the data of the caller at its place. -/
theorem C132_forward (txn space part : Int) (data : Bytes) : readTxn (forwardWire txn space part data) = some (txn, space, part, [data]) := rfl

/-- **C132 (value, where the space has as many parts as its number).** The value of a key is asked from the part of the vertex in the key. -/
theorem C132_value_partial {n : Int} (h0 : 0 < n) (h1 : n < 2 ^ 31) (part vid rest : Bytes) (hp : part.length = 4) :
    ∃ p, partId n vid = some p ∧ getValueWire vid.length n (part ++ vid ++ rest) =
      some (p, ⟨"getValue", [(1, .num n), (2, .num p), (3, .text (part ++ vid ++ rest))]⟩) := by
  obtain ⟨p, hk, _, _⟩ := C35_range h0 h1 vid
  refine ⟨p, hk, ?_⟩
  have : subpiece (part ++ vid ++ rest) 4 vid.length = some vid := by
    unfold subpiece
    rw [if_neg (by simp [hp]), List.append_assoc, List.drop_append_of_le_length (by omega), List.drop_of_length_le (by omega), List.nil_append,
      List.take_left']
    rfl
  simp only [getValueWire, this, hk]

/-- **C132 (value, violated).** The number of the space is taken for the number of its parts: in space 1 every key is asked from part 1, and in a
space whose number is greater than its number of parts there are keys that are asked from a part that does not exist. -/
theorem C132_value_violated :
    (∀ (part vid rest : Bytes), part.length = 4 → ∃ w, getValueWire vid.length 1 (part ++ vid ++ rest) = some (1, w)) ∧
    ∀ space n : Int, 0 < n → n < space → space < 2 ^ 31 → ∃ key p w, getValueWire 8 space key = some (p, w) ∧ n < p := by
  constructor
  · intro part vid rest hp
    obtain ⟨p, hk, e⟩ := C132_value_partial (n := 1) (by decide) (by decide) part vid rest hp
    obtain ⟨p', hk', a, b⟩ := C35_range (n := 1) (by decide) (by decide) vid
    rw [hk] at hk'; cases hk'
    have : p = 1 := by omega
    subst this
    exact ⟨_, e⟩
  · intro space n h0 h1 h2
    obtain ⟨p, hk, e⟩ := C132_value_partial (n := space) (by omega) h2 [0, 0, 0, 0] (intBytes (space - 1)) [] rfl
    have : (intBytes (space - 1)).length = 8 := leNat_length 8 _
    rw [this] at e
    rw [C73_int_part (by omega) h2] at hk
    refine ⟨_, p, _, e, ?_⟩
    cases hk
    rw [Int.emod_eq_of_lt (a := space - 1) (b := 2 ^ 64) (by omega) (by omega), Int.emod_eq_of_lt (by omega) (by omega)]
    omega

/-! ## Witnesses -/

/-- Two parts led by two hosts, a space with integer ids. -/
def twoParts : Int → Option HostAddr := fun p => if p = 1 then some ⟨[97], 1⟩ else if p = 2 then some ⟨[98], 1⟩ else none

theorem twoParts_known : ∀ p, 1 ≤ p → p ≤ 2 → ∃ h, twoParts p = some h := by
  intro p h1 h2
  by_cases h : p = 1
  · exact ⟨⟨[97], 1⟩, by simp [h, twoParts]⟩
  · exact ⟨⟨[98], 1⟩, by have : p = 2 := by omega
                         simp [this, twoParts]⟩

/-- Properties of edges are asked at both hosts. -/
example : ∃ l, (GroupOp.getProps 7 none (some [[1]]) none true [] 100 []).call ⟨some .int64, some 2, twoParts⟩
      [[.int 3, .int 1, .int 0, .int 4], [.int 8, .int 1, .int 0, .int 3]] = .ok l ∧ l.length = 2 ∧
    Distributes (GroupOp.getProps 7 none (some [[1]]) none true [] 100 []) (workOf .int64 2 twoParts (GroupOp.getProps 7 none (some [[1]]) none true [] 100 [])
      [[.int 3, .int 1, .int 0, .int 4], [.int 8, .int 1, .int 0, .int 3]]) l := by
  obtain ⟨l, e, d⟩ := C132_distributes (t := .int64) (by simp) (n := 2) (by decide) (by decide) twoParts_known
    (GroupOp.getProps 7 none (some [[1]]) none true [] 100 []) [[.int 3, .int 1, .int 0, .int 4], [.int 8, .int 1, .int 0, .int 3]] (by
      intro i hi
      simp only [List.mem_cons, List.not_mem_nil, or_false] at hi
      rcases hi with rfl | rfl
      · exact .inr (.inl ⟨rfl, rfl, 3, .int 1, .int 0, 4, [], rfl⟩)
      · exact .inr (.inl ⟨rfl, rfl, 8, .int 1, .int 0, 3, [], rfl⟩))
  refine ⟨l, e, ?_, d⟩
  have : (match (GroupOp.getProps 7 none (some [[1]]) none true [] 100 []).call ⟨some .int64, some 2, twoParts⟩
      [[.int 3, .int 1, .int 0, .int 4], [.int 8, .int 1, .int 0, .int 3]] with
    | .ok l => l.length
    | _ => 0) = 2 := by decide +kernel
  rw [e] at this
  exact this

end Storage
end Nebula
