import Verif.Meta.ManagerSpec
/-! # The schema and index managers (C107) -/
namespace Nebula
namespace Meta

section
variable {U F S I L H : Type}

/-- **C107 (which answers).** A refresh that completes makes the client hold its answers, and one that fails leaves it with those it held. -/
theorem C107_holds {a a' : MAnswers U F S I L H} {c c' : MClient U F S I L H} {seen : List (MClient U F S I L H)} :
    (loadData a c = (seen, c', .done) → Holds a c') ∧ (∀ e, Holds a c → loadData a' c = (seen, c', e) → e ≠ .done → Holds a c') := by
  constructor
  · intro h
    have hr := (C80_all_or_nothing a c).2.2
    rw [h] at hr
    exact ⟨hr rfl, c, c', seen, h, rfl⟩
  · rintro e ⟨hr, c0, c1, sn, hd, hs⟩ h he
    have hk := (C80_all_or_nothing a' c).1
    rw [h] at hk
    obtain ⟨k1, k2⟩ := hk he
    exact ⟨k2.trans hr, c0, c1, sn, hd, k1.trans hs⟩

theorem exists_max {α : Type} (f : α → Int) (p : α → Prop) : ∀ l : List α, (∃ x ∈ l, p x) → ∃ x ∈ l, p x ∧ ∀ y ∈ l, p y → f y ≤ f x
  | [], h => by obtain ⟨_, h, _⟩ := h; simp at h
  | a :: l, h => by
    by_cases hl : ∃ x ∈ l, p x
    · obtain ⟨x, hx, hp, hm⟩ := exists_max f p l hl
      by_cases ha : p a ∧ f x < f a
      · refine ⟨a, by simp, ha.1, fun y hy hpy => ?_⟩
        rcases List.mem_cons.1 hy with rfl | hy
        · exact Int.le_refl _
        · exact Int.le_trans (hm y hy hpy) (Int.le_of_lt ha.2)
      · refine ⟨x, by simp [hx], hp, fun y hy hpy => ?_⟩
        rcases List.mem_cons.1 hy with rfl | hy
        · exact Int.not_lt.1 (fun hlt => ha ⟨hpy, hlt⟩)
        · exact hm y hy hpy
    · obtain ⟨x, hx, hp⟩ := h
      rcases List.mem_cons.1 hx with rfl | hx
      · refine ⟨x, by simp, hp, fun y hy hpy => ?_⟩
        rcases List.mem_cons.1 hy with rfl | hy
        · exact Int.le_refl _
        · exact absurd ⟨y, hy, hpy⟩ hl
      · exact absurd ⟨x, hx, hp⟩ hl

theorem getSchema_iff {l : List (SItem S)} {m : Schemas S} (ha : Answered l m) (id v : Int) (s : S) :
    getSchema m id v = some s ↔ ∃ x, IsVersion l id v x ∧ x.schema = s := by
  obtain ⟨h1, h2, h3, h4⟩ := ha
  constructor
  · intro h
    by_cases hid : ∃ x ∈ l, x.id = id
    · by_cases hv : v < 0
      · obtain ⟨x, hx, rfl, hm⟩ := exists_max SItem.ver (fun x => x.id = id) l hid
        rw [h2 x hx hm v hv] at h
        exact ⟨x, ⟨hx, rfl, fun h => by omega, fun _ => hm⟩, Option.some.inj h⟩
      · by_cases hx : ∃ x ∈ l, x.id = id ∧ x.ver = v
        · obtain ⟨x, hx, rfl, rfl⟩ := hx
          rw [h1 x hx] at h
          exact ⟨x, ⟨hx, rfl, fun _ => rfl, fun h => absurd h hv⟩, Option.some.inj h⟩
        · rw [h3 id v (by omega) (fun x hxl e e2 => hx ⟨x, hxl, e, e2⟩)] at h
          cases h
    · rw [h4 id v (fun x hx e => hid ⟨x, hx, e⟩)] at h
      cases h
  · rintro ⟨x, ⟨hx, rfl, hge, hlt⟩, rfl⟩
    by_cases hv : v < 0
    · exact h2 x hx (hlt hv) v hv
    · rw [← hge (by omega)]; exact h1 x hx

/-- What the client knows about a listed space. -/
theorem holds_space {a : MAnswers U F S I L H} {c : MClient U F S I L H} (hc : Holds a c) (hg : GoodServer a) {space : Int} {name : Bytes}
    (hl : ListsSpace a space name) :
    ∃ i, c.snap.spaces.find space = some i ∧ cachedSpace c space = some i ∧ SpaceOk a c.snap space name i ∧ c.snap.byName.find name = some space := by
  obtain ⟨hr, c0, c1, seen, hd, hs⟩ := hc
  obtain ⟨sps, hsp, hm⟩ := hl
  obtain ⟨sps', hsp', hall, _⟩ := C80_complete hd
  rw [hsp] at hsp'; cases hsp'
  obtain ⟨hp, _, hn⟩ := hall (hg.ids _ hsp)
  obtain ⟨i, h1, h2⟩ := hp _ hm
  rw [← hs] at h1 h2 hn
  refine ⟨i, h1, by simp [cachedSpace, hr, h1], h2, ?_⟩
  rw [hn]
  have hnd := hg.names _ hsp
  have : sps.find? (fun sp => sp.2 == name) = some (space, name) := by
    cases hf : sps.find? (fun sp => sp.2 == name) with
    | none => exact absurd (List.find?_eq_none.1 hf _ hm) (by simp)
    | some q =>
      have hq : q.2 = name := by simpa using List.find?_some hf
      have hqm := List.mem_of_find?_eq_some hf
      congr 1
      exact inj_of_nodup hnd hqm hm hq
  rw [this]; rfl
where
  inj_of_nodup {sps : List (Int × Bytes)} (hnd : (sps.map Prod.snd).Nodup) {x y : Int × Bytes} (hx : x ∈ sps) (hy : y ∈ sps) (e : x.2 = y.2) : x = y := by
    induction sps with
    | nil => simp at hx
    | cons z l ih =>
      rw [List.map_cons, List.nodup_cons] at hnd
      rcases List.mem_cons.1 hx with hx | hx <;> rcases List.mem_cons.1 hy with hy | hy
      · rw [hx, hy]
      · exact absurd (List.mem_map.2 ⟨y, hy, by rw [← e, hx]⟩) hnd.1
      · exact absurd (List.mem_map.2 ⟨x, hx, by rw [e, hy]⟩) hnd.1
      · exact ih hnd.2 hx hy

theorem holds_tags {a : MAnswers U F S I L H} {c : MClient U F S I L H} (hc : Holds a c) (hg : GoodServer a) {space : Int} {name : Bytes}
    (hl : ListsSpace a space name) {l : List (SItem S)} (ht : a.tags space = some l) :
    (∀ id v s, tagSchema c space id v = some s ↔ ∃ x, IsVersion l id v x ∧ x.schema = s) ∧
    (∀ id v, latestTag c space id = some v ↔ IsNewest l id v) ∧
    (∀ n, tagId c space n = (l.find? (fun y => y.name == n)).map SItem.id) ∧ (∀ i, tagName c space i = (l.find? (fun y => y.id == i)).map SItem.name) := by
  obtain ⟨i, h1, h2, h3, _⟩ := holds_space hc hg hl
  obtain ⟨l', hl', m0, m1, hf, hld, hn, hnm, hv⟩ := h3.tags
  rw [ht] at hl'; cases hl'
  obtain ⟨m, maps, hld', han⟩ := C57_tags space m0 (hg.tags _ _ ht)
  rw [hld] at hld'
  simp only [Option.some.injEq, Prod.mk.injEq] at hld'
  obtain ⟨rfl, rfl⟩ := hld'
  obtain ⟨t1, t2, t3, _, _⟩ := C57_tag_maps hf hld
  have hr := hc.1
  refine ⟨fun id v s => ?_, fun id v => ?_, fun n => ?_, fun k => ?_⟩
  · rw [tagSchema, h2]; exact getSchema_iff han id v s
  · rw [latestTag, hr, ← t3, ← hv]; rfl
  · rw [tagId, hr, ← t1, ← hn]; rfl
  · rw [tagName, hr, ← t2, ← hnm]; rfl

theorem holds_edges {a : MAnswers U F S I L H} {c : MClient U F S I L H} (hc : Holds a c) (hg : GoodServer a) {space : Int} {name : Bytes}
    (hl : ListsSpace a space name) {l : List (SItem S)} (ht : a.edges space = some l) :
    (∀ id v s, edgeSchema c space id v = some s ↔ ∃ x, IsVersion l id v x ∧ x.schema = s) ∧
    (∀ id v, latestEdge c space id = some v ↔ IsNewest l id v) ∧
    (∀ n, edgeType c space n = (l.find? (fun y => y.name == n)).map SItem.id) ∧ (∀ i, edgeName c space i = (l.find? (fun y => y.id == i)).map SItem.name) := by
  obtain ⟨i, h1, h2, h3, _⟩ := holds_space hc hg hl
  obtain ⟨l', hl', m0, m1, hf, hld, hn, hnm, hv, _⟩ := h3.edges
  rw [ht] at hl'; cases hl'
  obtain ⟨m, maps, hld', han⟩ := C57_edges space m0 (hg.edges _ _ ht)
  rw [hld] at hld'
  simp only [Option.some.injEq, Prod.mk.injEq] at hld'
  obtain ⟨rfl, rfl⟩ := hld'
  obtain ⟨t1, t2, _⟩ := C57_edge_maps hf hld
  have t3 := C57_edge_newest hf (hg.edges _ _ ht) hld
  have hr := hc.1
  refine ⟨fun id v s => ?_, fun id v => ?_, fun n => ?_, fun k => ?_⟩
  · rw [edgeSchema, h2]; exact getSchema_iff han id v s
  · rw [latestEdge, hr, ← t3, ← hv]; rfl
  · rw [edgeType, hr, ← t1, ← hn]; rfl
  · rw [edgeName, hr, ← t2, ← hnm]; rfl

/-! ## Schemas -/

theorem manager_iff {l : List (SItem S)} (hl : Listing l) {latest : Option Int} {get : Int → Option S} {id : Int}
    (h1 : ∀ v s, get v = some s ↔ ∃ x, IsVersion l id v x ∧ x.schema = s) (h2 : ∀ v, latest = some v ↔ IsNewest l id v) (v : Int) (s : S) :
    (if v < 0 then latest.bind get else get v) = some s ↔ ∃ x, IsVersion l id v x ∧ x.schema = s := by
  by_cases hv : v < 0
  · rw [if_pos hv]
    cases hlt : latest with
    | none =>
      rw [Option.bind_none]
      constructor
      · intro h; cases h
      rintro ⟨x, ⟨hx, hid, _, hm⟩, _⟩
      have := (h2 x.ver).2 ⟨⟨x, hx, hid, rfl⟩, hm hv⟩
      rw [hlt] at this; cases this
    | some w =>
      rw [Option.bind_some, h1]
      obtain ⟨⟨y, hy, hyid, hyw⟩, hm⟩ := (h2 w).1 hlt
      have hw : 0 ≤ w := by rw [← hyw]; exact hl.vers y hy
      constructor
      · rintro ⟨x, ⟨hx, hid, he, _⟩, hs⟩
        exact ⟨x, ⟨hx, hid, fun h => by omega, fun _ z hz hzi => by rw [he hw]; exact hm z hz hzi⟩, hs⟩
      · rintro ⟨x, ⟨hx, hid, _, he⟩, hs⟩
        refine ⟨x, ⟨hx, hid, fun _ => ?_, fun h => by omega⟩, hs⟩
        have e1 := hm x hx hid
        have e2 := he hv y hy hyid
        omega
  · rw [if_neg hv]; exact h1 v s

/-- **C107 (tags).** The schema of a tag is the listed one with that version, or the newest for a negative version, and null if there is none. -/
theorem C107_tag_schema {a : MAnswers U F S I L H} {c c' : MClient U F S I L H} (hg : GoodServer a) (hc : Holds a c) (hc' : Holds a c') {space : Int}
    {name : Bytes} (hl : ListsSpace a space name) {l : List (SItem S)} (ht : a.tags space = some l) (tag v : Int) (s : S) :
    managerTagSchema c c' space tag v = some s ↔ ∃ x, IsVersion l tag v x ∧ x.schema = s := by
  rw [← manager_iff (hg.tags _ _ ht) (fun v s => (holds_tags hc' hg hl ht).1 tag v s) (fun v => (holds_tags hc hg hl ht).2.1 tag v) v s, managerTagSchema]
  cases latestTag c space tag <;> exact Iff.rfl

/-- **C107 (edges).** The same for edges. -/
theorem C107_edge_schema {a : MAnswers U F S I L H} {c c' : MClient U F S I L H} (hg : GoodServer a) (hc : Holds a c) (hc' : Holds a c') {space : Int}
    {name : Bytes} (hl : ListsSpace a space name) {l : List (SItem S)} (ht : a.edges space = some l) (edge v : Int) (s : S) :
    managerEdgeSchema c c' space edge v = some s ↔ ∃ x, IsVersion l edge v x ∧ x.schema = s := by
  rw [← manager_iff (hg.edges _ _ ht) (fun v s => (holds_edges hc' hg hl ht).1 edge v s) (fun v => (holds_edges hc hg hl ht).2.1 edge v) v s, managerEdgeSchema]
  cases latestEdge c space edge <;> exact Iff.rfl

/-- **C107 (a refresh in between).** If a refresh completes while the newest schema of a tag is being looked up, and no listed version was dropped, the
answer is the schema that was the newest before. -/
theorem C107_across_refresh {a a' : MAnswers U F S I L H} {c c' : MClient U F S I L H} (hg : GoodServer a) (hg' : GoodServer a') (hc : Holds a c)
    (hc' : Holds a' c') {space : Int} {name name' : Bytes} (hl : ListsSpace a space name) (hl' : ListsSpace a' space name') {l l' : List (SItem S)} :
    (a.tags space = some l → a'.tags space = some l' → (∀ x ∈ l, x ∈ l') → ∀ tag v x, v < 0 → IsVersion l tag v x →
      managerTagSchema c c' space tag v = some x.schema) ∧
    (a.edges space = some l → a'.edges space = some l' → (∀ x ∈ l, x ∈ l') → ∀ edge v x, v < 0 → IsVersion l edge v x →
      managerEdgeSchema c c' space edge v = some x.schema) := by
  constructor
  · intro ht ht' hsub tag v x hv hx
    obtain ⟨hxl, hid, _, hm⟩ := hx
    unfold managerTagSchema
    rw [if_pos hv, ((holds_tags hc hg hl ht).2.1 tag x.ver).2 ⟨⟨x, hxl, hid, rfl⟩, hm hv⟩]
    dsimp only
    have h0 := (hg.tags _ _ ht).vers x hxl
    exact ((holds_tags hc' hg' hl' ht').1 tag x.ver x.schema).2 ⟨x, ⟨hsub x hxl, hid, fun _ => rfl, fun h => by omega⟩, rfl⟩
  · intro ht ht' hsub tag v x hv hx
    obtain ⟨hxl, hid, _, hm⟩ := hx
    unfold managerEdgeSchema
    rw [if_pos hv, ((holds_edges hc hg hl ht).2.1 tag x.ver).2 ⟨⟨x, hxl, hid, rfl⟩, hm hv⟩]
    dsimp only
    have h0 := (hg.edges _ _ ht).vers x hxl
    exact ((holds_edges hc' hg' hl' ht').1 tag x.ver x.schema).2 ⟨x, ⟨hsub x hxl, hid, fun _ => rfl, fun h => by omega⟩, rfl⟩

theorem find_name {l : List (SItem S)} (hn : ∀ x ∈ l, ∀ y ∈ l, (x.name = y.name ↔ x.id = y.id)) (n : Bytes) (i : Int) :
    (l.find? (fun y => y.name == n)).map SItem.id = some i ↔ ∃ x ∈ l, x.name = n ∧ x.id = i := by
  constructor
  · intro h
    obtain ⟨f, hf, rfl⟩ := Option.map_eq_some_iff.1 h
    exact ⟨f, List.mem_of_find?_eq_some hf, by simpa using List.find?_some hf, rfl⟩
  · rintro ⟨x, hx, hxn, rfl⟩
    cases hf : l.find? (fun y => y.name == n) with
    | none => exact absurd (List.find?_eq_none.1 hf x hx) (by simp [hxn])
    | some f =>
      have hfn : f.name = n := by simpa using List.find?_some hf
      rw [Option.map_some, (hn f (List.mem_of_find?_eq_some hf) x hx).1 (hfn.trans hxn.symm)]

theorem find_id {l : List (SItem S)} (hn : ∀ x ∈ l, ∀ y ∈ l, (x.name = y.name ↔ x.id = y.id)) (i : Int) (n : Bytes) :
    (l.find? (fun y => y.id == i)).map SItem.name = some n ↔ ∃ x ∈ l, x.id = i ∧ x.name = n := by
  constructor
  · intro h
    obtain ⟨f, hf, rfl⟩ := Option.map_eq_some_iff.1 h
    exact ⟨f, List.mem_of_find?_eq_some hf, by simpa using List.find?_some hf, rfl⟩
  · rintro ⟨x, hx, hxn, rfl⟩
    cases hf : l.find? (fun y => y.id == i) with
    | none => exact absurd (List.find?_eq_none.1 hf x hx) (by simp [hxn])
    | some f =>
      have hfn : f.id = i := by simpa using List.find?_some hf
      rw [Option.map_some, (hn f (List.mem_of_find?_eq_some hf) x hx).2 (hfn.trans hxn.symm)]

/-- **C107 (names).** Names and ids of tags and edges are translated as listed, in both directions. -/
theorem C107_names {a : MAnswers U F S I L H} {c : MClient U F S I L H} (hg : GoodServer a) (hc : Holds a c) {space : Int} {name : Bytes}
    (hl : ListsSpace a space name) {tags edges : List (SItem S)} (ht : a.tags space = some tags) (he : a.edges space = some edges) (n : Bytes) (i : Int) :
    (tagId c space n = some i ↔ ∃ x ∈ tags, x.name = n ∧ x.id = i) ∧ (tagName c space i = some n ↔ ∃ x ∈ tags, x.id = i ∧ x.name = n) ∧
    (edgeType c space n = some i ↔ ∃ x ∈ edges, x.name = n ∧ x.id = i) ∧ (edgeName c space i = some n ↔ ∃ x ∈ edges, x.id = i ∧ x.name = n) := by
  obtain ⟨_, _, t1, t2⟩ := holds_tags hc hg hl ht
  obtain ⟨_, _, e1, e2⟩ := holds_edges hc hg hl he
  rw [t1, t2, e1, e2]
  exact ⟨find_name (hg.tagNames _ _ ht) n i, find_id (hg.tagNames _ _ ht) i n, find_name (hg.edgeNames _ _ he) n i, find_id (hg.edgeNames _ _ he) i n⟩

/-- **C107 (kind of a name).** A name is first looked for among the edges, then among the tags. -/
theorem C107_schema_id {a : MAnswers U F S I L H} {c c' : MClient U F S I L H} (hg : GoodServer a) (hc : Holds a c) (hc' : Holds a c') {space : Int} {name : Bytes}
    (hl : ListsSpace a space name) {tags edges : List (SItem S)} (ht : a.tags space = some tags) (he : a.edges space = some edges) (n : Bytes) (i : Int) :
    (schemaIdByName c c' space n = some (true, i) ↔ ∃ x ∈ edges, x.name = n ∧ x.id = i) ∧
    (schemaIdByName c c' space n = some (false, i) ↔ (∃ x ∈ tags, x.name = n ∧ x.id = i) ∧ ∀ y ∈ edges, y.name ≠ n) := by
  have hE := fun i => (C107_names hg hc hl ht he n i).2.2.1
  have hT := (C107_names hg hc' hl ht he n i).1
  unfold schemaIdByName
  cases hx : edgeType c space n with
  | some e =>
    dsimp only
    obtain ⟨y, hy, hyn, hyi⟩ := (hE e).1 hx
    refine ⟨?_, ?_⟩
    · rw [← hE i, hx]
      simp
    · simp only [Option.some.injEq, Prod.mk.injEq]
      constructor
      · rintro ⟨h, _⟩; cases h
      · rintro ⟨_, h⟩; exact absurd hyn (h y hy)
  | none =>
    dsimp only
    have hno : ∀ y ∈ edges, y.name ≠ n := by
      intro y hy hyn
      have := (hE y.id).2 ⟨y, hy, hyn, rfl⟩
      rw [hx] at this; cases this
    cases hx2 : tagId c' space n with
    | some t =>
      dsimp only
      rw [hx2] at hT
      refine ⟨?_, ?_⟩
      · constructor
        · intro h; cases h
        · rintro ⟨y, hy, hyn, _⟩; exact absurd hyn (hno y hy)
      · simp only [Option.some.injEq, Prod.mk.injEq, true_and] at hT ⊢
        rw [hT]
        exact ⟨fun h => ⟨h, hno⟩, fun h => h.1⟩
    | none =>
      dsimp only
      rw [hx2] at hT
      refine ⟨?_, ?_⟩
      · constructor
        · intro h; cases h
        · rintro ⟨y, hy, hyn, _⟩; exact absurd hyn (hno y hy)
      · constructor
        · intro h; cases h
        · rintro ⟨h, _⟩; exact absurd (hT.2 h) (by simp)

theorem find_mapped {V W : Type} (f : V → W) : ∀ (m : AMap Int V) (k : Int), AMap.find (m.map fun (i, v) => (i, f v)) k = (m.find k).map f
  | [], _ => rfl
  | (i, v) :: m, k => by
    rw [List.map_cons, AMap.find, AMap.find]
    by_cases e : i = k
    · simp [e]
    · simp only [e, if_false]; exact find_mapped f m k

theorem latest_schemas {l : List (SItem S)} {m : Schemas S} {last : Int} (hl : Listing l) (hi : VInv l m last) (id : Int) :
    (∀ x, IsVersion l id (-1) x → (latestSchemas m).find id = some (some x.schema)) ∧ ((∀ x ∈ l, x.id ≠ id) → (latestSchemas m).find id = none) := by
  have hf : (latestSchemas m).find id = (m.find id).map fun v => v.getLast?.join := find_mapped (fun v : List (Option S) => v.getLast?.join) m id
  rw [hf]
  constructor
  · rintro x ⟨hx, rfl, _, hm⟩
    have ha := (answers hl hi).2.1 x hx (hm (by omega)) (-1) (by omega)
    unfold getSchema at ha
    cases hmf : m.find x.id with
    | none => rw [hmf] at ha; cases ha
    | some v =>
      rw [hmf] at ha
      dsimp only at ha
      split at ha
      · cases ha
      · rw [if_pos (by omega), if_pos (by omega)] at ha
        rw [Option.map_some, ha]
  · intro hno
    rw [hi.absent id (by rw [List.find?_eq_none]; intro x hx; simpa using hno x hx)]
    rfl

/-- **C107 (all newest).** The table of the newest schemas of a space has an entry for every listed tag, its newest version, and no other; the same for
edges. -/
theorem C107_all_latest {a : MAnswers U F S I L H} {c : MClient U F S I L H} (hg : GoodServer a) (hc : Holds a c) {space : Int} {name : Bytes}
    (hl : ListsSpace a space name) {tags edges : List (SItem S)} (ht : a.tags space = some tags) (he : a.edges space = some edges) :
    (∃ r, allLatestTags c space = some r ∧ ∀ id, (∀ x, IsVersion tags id (-1) x → r.find id = some (some x.schema)) ∧
      ((∀ x ∈ tags, x.id ≠ id) → r.find id = none)) ∧
    (∃ r, allLatestEdges c space = some r ∧ ∀ id, (∀ x, IsVersion edges id (-1) x → r.find id = some (some x.schema)) ∧
      ((∀ x ∈ edges, x.id ≠ id) → r.find id = none)) := by
  obtain ⟨i, h1, h2, h3, _⟩ := holds_space hc hg hl
  constructor
  · obtain ⟨l', hl', m0, m1, hf, hld, _⟩ := h3.tags
    rw [ht] at hl'; cases hl'
    obtain ⟨st, g1, g2⟩ := run_inv (tagStep_stores space) tags [] ⟨[], -1, [], m0⟩ (by simpa using hg.tags _ _ ht) start_inv
    unfold loadTags at hld
    rw [g1] at hld
    have : st.schemas = i.tags := congrArg Prod.fst (Option.some.inj hld)
    exact ⟨latestSchemas i.tags, by rw [allLatestTags, h2]; rfl, fun id => by rw [← this]; exact latest_schemas (hg.tags _ _ ht) (by simpa using g2) id⟩
  · obtain ⟨l', hl', m0, m1, hf, hld, _⟩ := h3.edges
    rw [he] at hl'; cases hl'
    obtain ⟨st, g1, g2⟩ := run_inv (edgeStep_stores space) edges [] ⟨[], -1, [], ⟨m0.idOf, m0.nameOf, m0.newest, m0.all.set space []⟩⟩
      (by simpa using hg.edges _ _ he) start_inv
    unfold loadEdges at hld
    rw [g1] at hld
    have : st.schemas = i.edges := congrArg Prod.fst (Option.some.inj hld)
    exact ⟨latestSchemas i.edges, by rw [allLatestEdges, h2]; rfl, fun id => by rw [← this]; exact latest_schemas (hg.edges _ _ he) (by simpa using g2) id⟩

/-! ## Settings of a space -/

/-- **C107 (spaces).** The settings of a space are those of its description: its name, a length of ids only if it is positive, a type of ids only if it
is integer (2 in meta.thrift) or text of fixed length (7), the isolation level or the default, and the terms of its parts or -1. -/
theorem C107_space {a : MAnswers U F S I L H} {c : MClient U F S I L H} (hg : GoodServer a) (hc : Holds a c) {space : Int} {name : Bytes}
    (hl : ListsSpace a space name) {d : SpaceDesc} (hd : a.desc name = some d) {p : PartAnswer} (hp : a.parts space = some p) :
    spaceId c name = some space ∧ spaceName c space = some d.name ∧
    (∀ n, spaceVidLen c space = some n ↔ d.vidLen = some n ∧ 0 < n) ∧
    (∀ t, spaceVidType c space = some t ↔ d.vidType = t ∧ (t = 2 ∨ t = 7)) ∧
    isolationLevel c space = some (match d.isolation with | some x => x | none => 0) ∧
    (∀ part, termOf c space part = match p.terms with
      | none => -1
      | some ts => match ts.find part with | some t => t | none => -1) := by
  obtain ⟨i, h1, h2, h3, h4⟩ := holds_space hc hg hl
  have e := h3.desc; rw [hd] at e
  have e' := Option.some.inj e
  have q := h3.parts; rw [hp] at q
  have q' := Option.some.inj q
  refine ⟨by simp [spaceId, hc.1, h4], by simp [spaceName, h2, ← e'], ?_, ?_, ?_, ?_⟩
  · intro n
    simp only [spaceVidLen, h2, Option.bind_some, ← e']
    cases d.vidLen with
    | none => simp
    | some m =>
      dsimp only
      by_cases hm : m ≤ 0
      · rw [if_pos hm]
        simp only [Option.some.injEq]
        constructor
        · intro h; cases h
        · rintro ⟨rfl, h⟩; omega
      · rw [if_neg hm]
        simp only [Option.some.injEq]
        constructor
        · rintro rfl; exact ⟨rfl, by omega⟩
        · exact fun h => h.1
  · intro t
    simp only [spaceVidType, h2, Option.bind_some, ← e']
    by_cases ht : d.vidType ≠ typeInt64 ∧ d.vidType ≠ typeFixedString
    · rw [if_pos ht]
      constructor
      · intro h; cases h
      · rintro ⟨rfl, h | h⟩
        · exact absurd h ht.1
        · exact absurd h ht.2
    · rw [if_neg ht]
      simp only [Option.some.injEq]
      constructor
      · rintro rfl
        refine ⟨rfl, ?_⟩
        by_cases h : d.vidType = typeInt64
        · exact .inl h
        · exact .inr (Classical.byContradiction fun h' => ht ⟨h, h'⟩)
      · exact fun h => h.1
  · simp only [isolationLevel, h2, Option.map_some, ← e']
    cases d.isolation <;> rfl
  · intro part
    unfold termOf
    rw [h1]
    dsimp only
    rw [← q']
    cases p.terms with
    | none => rfl
    | some ts =>
      dsimp only [Option.getD]
      cases ts.find part <;> rfl

/-! ## Indexes -/

theorem pairs_perm {l : List (Bytes × Int × I)} {m : AMap Int I} (hn : (l.map fun x => x.2.1).Nodup) (hm : m.NodupKeys)
    (h : ∀ k, m.find k = (l.find? (fun x => x.2.1 == k)).map fun x => x.2.2) :
    (∀ k x, m.find k = some x ↔ ∃ n, (n, k, x) ∈ l) ∧ (m.map Prod.snd).Perm (l.map fun x => x.2.2) := by
  have h1 : ∀ k x, m.find k = some x ↔ ∃ n, (n, k, x) ∈ l := by
    intro k x
    rw [h]
    constructor
    · intro he
      obtain ⟨f, hf, rfl⟩ := Option.map_eq_some_iff.1 he
      have hk : f.2.1 = k := by simpa using List.find?_some hf
      exact ⟨f.1, by rw [← hk]; exact List.mem_of_find?_eq_some hf⟩
    · rintro ⟨n, hx⟩
      have : l.find? (fun y => y.2.1 == k) = some (n, k, x) := by
        clear h hm
        induction l with
        | nil => simp at hx
        | cons y l ih =>
          rw [List.map_cons, List.nodup_cons] at hn
          rcases List.mem_cons.1 hx with rfl | hx
          · simp
          · rw [List.find?_cons_of_neg (by
              simp only [beq_iff_eq]
              intro e; exact hn.1 (List.mem_map.2 ⟨_, hx, e.symm⟩))]
            exact ih hn.2 hx
      rw [this]; rfl
  refine ⟨h1, ?_⟩
  have hp : m.Perm (l.map fun x => (x.2.1, x.2.2)) := by
    rw [List.perm_ext_iff_of_nodup]
    · rintro ⟨k, x⟩
      rw [List.mem_map]
      constructor
      · intro hx
        obtain ⟨n, hl⟩ := (h1 k x).1 (AMap.mem_find hm hx)
        exact ⟨_, hl, rfl⟩
      · rintro ⟨⟨n, k', x'⟩, hl, he⟩
        simp only [Prod.mk.injEq] at he
        obtain ⟨rfl, rfl⟩ := he
        exact AMap.find_mem ((h1 _ _).2 ⟨n, hl⟩)
    · have := List.Pairwise.of_map (S := fun a b => a ≠ b) Prod.fst (fun a b hab e => hab (congrArg Prod.fst e)) hm
      exact this
    · have : ((l.map fun x => (x.2.1, x.2.2)).map Prod.fst).Nodup := by rw [List.map_map]; exact hn
      exact List.Pairwise.of_map (S := fun a b => a ≠ b) Prod.fst (fun a b hab e => hab (congrArg Prod.fst e)) this
  have := hp.map Prod.snd
  rw [List.map_map] at this
  exact this

/-- **C107 (indexes).** An index is found by its id exactly as listed, the list of indexes of a space has each listed one once, and the check whether
there is such an index agrees. -/
theorem C107_indexes {a : MAnswers U F S I L H} {c : MClient U F S I L H} (hg : GoodServer a) (hc : Holds a c) {space : Int} {name : Bytes}
    (hl : ListsSpace a space name) {tl el : List (Bytes × Int × I)} (ht : a.tagIndexes space = some tl) (he : a.edgeIndexes space = some el) :
    (∀ k x, tagIndex c space k = some x ↔ ∃ n, (n, k, x) ∈ tl) ∧ (∀ k x, edgeIndex c space k = some x ↔ ∃ n, (n, k, x) ∈ el) ∧
    (∃ r, tagIndexList c space = some r ∧ r.Perm (tl.map fun x => x.2.2)) ∧ (∃ r, edgeIndexList c space = some r ∧ r.Perm (el.map fun x => x.2.2)) ∧
    (∀ k, checkTag c space k = if k ∈ tl.map (fun x => x.2.1) then .ok else .noIndex) ∧
    (∀ k, checkEdge c space k = if k ∈ el.map (fun x => x.2.1) then .ok else .noIndex) := by
  obtain ⟨i, h1, h2, h3, _⟩ := holds_space hc hg hl
  obtain ⟨l, hl', hf⟩ := h3.tagIndexes
  rw [ht] at hl'; cases hl'
  obtain ⟨l, hl', hf'⟩ := h3.edgeIndexes
  rw [he] at hl'; cases hl'
  obtain ⟨t1, t2⟩ := pairs_perm (hg.tagIndexes _ _ ht) h3.tagKeys hf
  obtain ⟨e1, e2⟩ := pairs_perm (hg.edgeIndexes _ _ he) h3.edgeKeys hf'
  refine ⟨fun k x => by rw [tagIndex, h2]; exact t1 k x, fun k x => by rw [edgeIndex, h2]; exact e1 k x, ⟨_, by rw [tagIndexList, h2]; rfl, t2⟩,
    ⟨_, by rw [edgeIndexList, h2]; rfl, e2⟩, fun k => ?_, fun k => ?_⟩
  · unfold checkTag
    rw [h1]
    dsimp only
    cases hk : i.tagIndexes.find k with
    | some x =>
      obtain ⟨n, hm⟩ := (t1 k x).1 hk
      rw [if_pos (List.mem_map.2 ⟨_, hm, rfl⟩)]
    | none =>
      rw [if_neg]
      intro hm
      obtain ⟨⟨n, k', x⟩, hm', rfl⟩ := List.mem_map.1 hm
      rw [(t1 k' x).2 ⟨n, hm'⟩] at hk; cases hk
  · unfold checkEdge
    rw [h1]
    dsimp only
    cases hk : i.edgeIndexes.find k with
    | some x =>
      obtain ⟨n, hm⟩ := (e1 k x).1 hk
      rw [if_pos (List.mem_map.2 ⟨_, hm, rfl⟩)]
    | none =>
      rw [if_neg]
      intro hm
      obtain ⟨⟨n, k', x⟩, hm', rfl⟩ := List.mem_map.1 hm
      rw [(e1 k' x).2 ⟨n, hm'⟩] at hk; cases hk

/-! ## Unknown spaces, and before the first refresh -/

/-- **C107 (unknown space).** Nothing is answered about a space the server does not list. -/
theorem C107_unknown {a : MAnswers U F S I L H} {c c' : MClient U F S I L H} (hg : GoodServer a) (hc : Holds a c) (hc' : Holds a c') {space : Int}
    (hu : ∀ n, ¬ ListsSpace a space n) :
    spaceName c space = none ∧ spaceVidLen c space = none ∧ spaceVidType c space = none ∧ isolationLevel c space = none ∧
    (∀ p, termOf c space p = -1) ∧ (∀ t v, managerTagSchema c c' space t v = none) ∧ (∀ e v, managerEdgeSchema c c' space e v = none) ∧
    (∀ n, schemaIdByName c c' space n = none) ∧ (∀ t, tagName c space t = none) ∧ (∀ e, edgeName c space e = none) ∧
    (∀ k, tagIndex c space k = none) ∧ (∀ k, edgeIndex c space k = none) ∧ tagIndexList c space = none ∧ edgeIndexList c space = none ∧
    (∀ k, checkTag c space k = .noSpace) ∧ (∀ k, checkEdge c space k = .noSpace) ∧ allLatestTags c space = none ∧ allLatestEdges c space = none := by
  have key : ∀ c : MClient U F S I L H, Holds a c → c.snap.spaces.find space = none ∧ (∀ n, idByName c.snap.tagMaps space n = none) ∧
      (∀ n, idByName c.snap.edgeMaps space n = none) ∧ (∀ t, latestVersion c.snap.tagMaps space t = none) ∧
      (∀ t, latestVersion c.snap.edgeMaps space t = none) ∧ (∀ t, nameById c.snap.tagMaps space t = none) ∧ (∀ t, nameById c.snap.edgeMaps space t = none) := by
    rintro c ⟨hr, c0, c1, seen, hd, hs⟩
    obtain ⟨sps, hsp, hall, _⟩ := C80_complete hd
    rw [hs]
    exact (hall (hg.ids _ hsp)).2.1 space (fun sp hm e => hu sp.2 ⟨sps, hsp, by rw [← e]; exact hm⟩)
  obtain ⟨k1, k2, k3, k4, k5, k6, k7⟩ := key c hc
  obtain ⟨k1', k2', _⟩ := key c' hc'
  have r := hc.1
  have r' := hc'.1
  have cs : cachedSpace c space = none := by simp [cachedSpace, k1]
  have cs' : cachedSpace c' space = none := by simp [cachedSpace, k1']
  refine ⟨by simp [spaceName, cs], by simp [spaceVidLen, cs], by simp [spaceVidType, cs], by simp [isolationLevel, cs], fun p => by simp [termOf, k1],
    fun t v => ?_, fun t v => ?_, fun n => by simp [schemaIdByName, edgeType, tagId, k3, k2'], fun t => by simp [tagName, k6],
    fun t => by simp [edgeName, k7], fun t => by simp [tagIndex, cs], fun t => by simp [edgeIndex, cs], by simp [tagIndexList, cs],
    by simp [edgeIndexList, cs], fun t => by simp [checkTag, k1], fun t => by simp [checkEdge, k1], by simp [allLatestTags, cs], by simp [allLatestEdges, cs]⟩
  · unfold managerTagSchema
    split
    · simp [latestTag, k4]
    · simp [tagSchema, cs']
  · unfold managerEdgeSchema
    split
    · simp [latestEdge, k5]
    · simp [edgeSchema, cs']

/-- **C107 (not ready).** Before the first complete refresh the managers answer nothing. -/
theorem C107_not_ready {c : MClient U F S I L H} (hr : c.ready = false) (c' : MClient U F S I L H) (hr' : c'.ready = false) (space : Int) (n : Bytes) :
    spaceId c n = none ∧ spaceName c space = none ∧ spaceVidLen c space = none ∧ spaceVidType c space = none ∧ isolationLevel c space = none ∧
    (∀ t v, managerTagSchema c c' space t v = none) ∧ (∀ e v, managerEdgeSchema c c' space e v = none) ∧ schemaIdByName c c' space n = none ∧
    (∀ k, tagIndex c space k = none) ∧ (∀ k, edgeIndex c space k = none) := by
  have cs : cachedSpace c space = none := by simp [cachedSpace, hr]
  have cs' : cachedSpace c' space = none := by simp [cachedSpace, hr']
  refine ⟨by simp [spaceId, hr], by simp [spaceName, cs], by simp [spaceVidLen, cs], by simp [spaceVidType, cs], by simp [isolationLevel, cs],
    fun t v => ?_, fun t v => ?_, by simp [schemaIdByName, edgeType, tagId, hr, hr'], fun t => by simp [tagIndex, cs], fun t => by simp [edgeIndex, cs]⟩
  · unfold managerTagSchema
    split
    · simp [latestTag, hr]
    · simp [tagSchema, cs']
  · unfold managerEdgeSchema
    split
    · simp [latestEdge, hr]
    · simp [edgeSchema, cs']

end

/-! ## An example -/

/-- A server with one space, a tag with two versions, an edge of the same name as another tag, and an index. -/
def exServer : MAnswers Nat Nat Nat Nat Nat Nat where
  users := some 1
  ftClients := some 1
  ftIndexes := some 1
  spaces := some [(1, ascii "s")]
  parts := fun _ => some ⟨[(1, [])], some [(1, 5)]⟩
  tags := fun _ => some [⟨5, 1, ascii "a", 51⟩, ⟨5, 0, ascii "a", 50⟩, ⟨6, 0, ascii "b", 60⟩]
  edges := fun _ => some [⟨7, 0, ascii "b", 70⟩]
  tagIndexes := fun _ => some [(ascii "i", 9, 90)]
  edgeIndexes := fun _ => some []
  listeners := fun _ => some 1
  desc := fun _ => some ⟨ascii "s", 7, some 8, none⟩
  hosts := some 1

def exClient : MClient Nat Nat Nat Nat Nat Nat := (loadData exServer ⟨none, none, none, [], [], emptySnapshot, false⟩).2.1

example : GoodServer exServer ∧ Holds exServer exClient ∧ ListsSpace exServer 1 (ascii "s") ∧ managerTagSchema exClient exClient 1 5 (-1) = some 51 ∧
    managerTagSchema exClient exClient 1 5 0 = some 50 ∧ managerTagSchema exClient exClient 1 5 2 = none ∧
    schemaIdByName exClient exClient 1 (ascii "b") = some (true, 7) ∧ spaceVidLen exClient 1 = some 8 ∧ termOf exClient 1 1 = 5 ∧ termOf exClient 1 2 = -1 := by
  refine ⟨⟨?_, ?_, ?_, ?_, ?_, ?_, ?_, ?_⟩, ⟨rfl, _, _, _, rfl, rfl⟩, ⟨_, rfl, by simp⟩, by decide +kernel, by decide +kernel, by decide +kernel, by decide +kernel,
    by decide +kernel, by decide +kernel, by decide +kernel⟩
  · intro l h; cases h; decide
  · intro l h; cases h; simp
  · intro s l h; cases h
    refine ⟨by simp, by simp, ?_, ?_⟩
    · intro i j x y hi hj hij e
      match i, j with
      | 0, 0 => omega
      | 0, 1 => simp at hi hj; subst hi hj; decide
      | 0, 2 => simp at hi hj; subst hi hj; cases e
      | 1, 0 => omega
      | 1, 1 => omega
      | 1, 2 => simp at hi hj; subst hi hj; cases e
      | 2, 0 => omega
      | 2, 1 => omega
      | 2, 2 => omega
      | i + 3, _ => simp at hi
      | _, j + 3 => simp at hj
    · intro i j k x y z hi hj hk hij hjk e
      match i, j, k with
      | 0, 1, 2 => simp at hi hj hk; subst hi hj hk; rfl
      | i + 3, _, _ => simp at hi
      | _, j + 3, _ => simp at hj
      | _, _, k + 3 => simp at hk
      | 0, 0, _ => omega
      | 1, 0, _ => omega
      | 1, 1, _ => omega
      | 2, 0, _ => omega
      | 2, 1, _ => omega
      | 2, 2, _ => omega
      | 0, 1, 0 => omega
      | 0, 1, 1 => omega
      | 0, 2, 0 => omega
      | 0, 2, 1 => omega
      | 0, 2, 2 => omega
      | 1, 2, 0 => omega
      | 1, 2, 1 => omega
      | 1, 2, 2 => omega
  · intro s l h; cases h; decide +kernel
  · intro s l h; cases h
    refine ⟨by simp, by simp, ?_, ?_⟩
    · intro i j x y hi hj hij e
      match i, j with
      | 0, 0 => omega
      | i + 1, _ => simp at hi
      | _, j + 1 => simp at hj
    · intro i j k x y z hi hj hk hij hjk e
      match i, j, k with
      | 0, 0, _ => omega
      | i + 1, _, _ => simp at hi
      | _, j + 1, _ => simp at hj
  · intro s l h; cases h; decide +kernel
  · intro s l h; cases h; decide
  · intro s l h; cases h; simp

end Meta
end Nebula
