import Verif.Meta.LoadData
import Verif.Meta.LoadSchemasProps
/-! # C80: a refresh of the cache is all or nothing -/
namespace Nebula
namespace Meta

section
variable {U F P S I L D H : Type}

theorem space_seen (a : Answers U F P S I L D H) (c : Client U F P S I L D H) (s : Snapshot P S I L D H) (sp : Int × Bytes) :
    (∀ x ∈ (loadSpaceData a c s sp).1, x.snap = c.snap ∧ x.ready = c.ready) ∧ (loadSpaceData a c s sp).2.1.snap = c.snap ∧
    (loadSpaceData a c s sp).2.1.ready = c.ready ∧
    ((loadSpaceData a c s sp).2.2.1 = none → (loadSpaceData a c s sp).2.2.2 ≠ .done) := by
  unfold loadSpaceData
  repeat' split
  all_goals refine ⟨?_, rfl, rfl, ?_⟩ <;> simp

theorem spaces_seen (a : Answers U F P S I L D H) : ∀ (sps : List (Int × Bytes)) (c : Client U F P S I L D H) (s : Snapshot P S I L D H),
    (∀ x ∈ (loadSpacesData a c s sps).1, x.snap = c.snap ∧ x.ready = c.ready) ∧ (loadSpacesData a c s sps).2.1.snap = c.snap ∧
    (loadSpacesData a c s sps).2.1.ready = c.ready ∧
    ((loadSpacesData a c s sps).2.2.1 = none → (loadSpacesData a c s sps).2.2.2 ≠ .done)
  | [], c, s => by simp [loadSpacesData]
  | sp :: sps, c, s => by
    rw [loadSpacesData]
    have h := space_seen a c s sp
    generalize hr : loadSpaceData a c s sp = r at h
    obtain ⟨seen, c', o, e⟩ := r
    dsimp only at h
    obtain ⟨h1, h2, h3, h4⟩ := h
    cases o with
    | none => exact ⟨h1, h2, h3, h4⟩
    | some s' =>
      dsimp only
      obtain ⟨i1, i2, i3, i4⟩ := spaces_seen a sps c' s'
      refine ⟨?_, i2.trans h2, i3.trans h3, i4⟩
      intro x hx
      rcases List.mem_append.1 hx with hx | hx
      · exact h1 x hx
      · obtain ⟨j1, j2⟩ := i1 x hx
        exact ⟨j1.trans h2, j2.trans h3⟩

/-- **C80.** A refresh that does not complete leaves everything the cache knows about spaces, parts, schemas, versions, hosts and listeners
as it was, whichever request fails.  While a refresh runs, every reader sees either all of the old or all of the new. -/
theorem C80_all_or_nothing (a : Answers U F P S I L D H) (c : Client U F P S I L D H) :
    ((loadData a c).2.2 ≠ .done → (loadData a c).2.1.snap = c.snap ∧ (loadData a c).2.1.ready = c.ready) ∧
    (∀ x ∈ (loadData a c).1, x.snap = c.snap ∨ ((loadData a c).2.2 = .done ∧ x.snap = (loadData a c).2.1.snap)) ∧
    ((loadData a c).2.2 = .done → (loadData a c).2.1.ready = true) := by
  unfold loadData
  cases a.users with
  | none => simp
  | some u =>
    dsimp only
    cases a.ftClients with
    | none => simp
    | some f =>
      dsimp only
      cases a.ftIndexes with
      | none => simp
      | some g =>
        dsimp only
        cases a.spaces with
        | none => simp
        | some sps =>
          dsimp only
          have h := spaces_seen a sps { c with users := some u, ftClients := some f, ftIndexes := some g } emptySnapshot
          generalize loadSpacesData a { c with users := some u, ftClients := some f, ftIndexes := some g } emptySnapshot sps = r at h
          obtain ⟨seen, c', o, e⟩ := r
          dsimp only at h
          obtain ⟨h1, h2, h3, h4⟩ := h
          cases o with
          | none =>
            dsimp only
            refine ⟨fun _ => ⟨h2, h3⟩, ?_, fun he => absurd he (h4 rfl)⟩
            intro x hx
            rcases List.mem_append.1 hx with hx | hx
            · simp at hx; rcases hx with rfl | rfl | rfl <;> exact .inl rfl
            · exact .inl (h1 x hx).1
          | some s =>
            dsimp only
            cases a.hosts with
            | none =>
              dsimp only
              refine ⟨fun _ => ⟨h2, h3⟩, ?_, fun he => by cases he⟩
              intro x hx
              rcases List.mem_append.1 hx with hx | hx
              · simp at hx; rcases hx with rfl | rfl | rfl <;> exact .inl rfl
              · exact .inl (h1 x hx).1
            | some hs =>
              dsimp only
              refine ⟨fun h => absurd rfl h, ?_, fun _ => rfl⟩
              intro x hx
              rcases List.mem_append.1 hx with hx | hx
              · rcases List.mem_append.1 hx with hx | hx
                · simp at hx; rcases hx with rfl | rfl | rfl <;> exact .inl rfl
                · exact .inl (h1 x hx).1
              · simp at hx; subst hx; exact .inr ⟨rfl, rfl⟩

/-- What a complete refresh must have stored about a space: each answer of the server. -/
structure SpaceOk (a : Answers U F P S I L D H) (s : Snapshot P S I L D H) (id : Int) (name : Bytes) (i : SpaceInfo P S I L D) : Prop where
  parts : a.parts id = some i.parts
  listeners : a.listeners id = some i.listeners
  desc : a.desc name = some i.desc
  tags : ∃ l, a.tags id = some l ∧ ∃ m0 m1, m0.Fresh id ∧ loadTags id m0 l = some (i.tags, m1) ∧
    (∀ n, idByName s.tagMaps id n = idByName m1 id n) ∧ (∀ t, nameById s.tagMaps id t = nameById m1 id t) ∧
    (∀ t, latestVersion s.tagMaps id t = latestVersion m1 id t)
  edges : ∃ l, a.edges id = some l ∧ ∃ m0 m1, m0.Fresh id ∧ loadEdges id m0 l = some (i.edges, m1) ∧
    (∀ n, idByName s.edgeMaps id n = idByName m1 id n) ∧ (∀ t, nameById s.edgeMaps id t = nameById m1 id t) ∧
    (∀ t, latestVersion s.edgeMaps id t = latestVersion m1 id t) ∧ allEdges s.edgeMaps id = allEdges m1 id
  tagIndexes : ∃ l, a.tagIndexes id = some l ∧ ∀ k, i.tagIndexes.find k = (l.find? (fun x => x.2.1 == k)).map fun x => x.2.2
  edgeIndexes : ∃ l, a.edgeIndexes id = some l ∧ ∀ k, i.edgeIndexes.find k = (l.find? (fun x => x.2.1 == k)).map fun x => x.2.2
  tagKeys : i.tagIndexes.NodupKeys
  edgeKeys : i.edgeIndexes.NodupKeys

theorem putIndexes_nodup : ∀ (l : List (Bytes × Int × I)) (m : AMap Int I), m.NodupKeys → (putIndexes m l).NodupKeys
  | [], _, h => h
  | _ :: l, _, h => putIndexes_nodup l _ (AMap.nodup_emplace h _ _)

theorem putIndexes_find : ∀ (l : List (Bytes × Int × I)) (m : AMap Int I) (k : Int),
    (putIndexes m l).find k = (m.find k).or ((l.find? (fun x => x.2.1 == k)).map fun x => x.2.2)
  | [], m, k => by simp [putIndexes]
  | x :: l, m, k => by
    rw [putIndexes, putIndexes_find l, AMap.find_emplace]
    by_cases e : x.2.1 = k
    · subst e
      rw [if_pos rfl]
      cases m.find x.2.1 <;> simp
    · rw [if_neg e]
      congr 2
      rw [List.find?_cons_of_neg (by simpa using e)]

structure Partial (a : Answers U F P S I L D H) (done : List (Int × Bytes)) (s : Snapshot P S I L D H) : Prop where
  absent : ∀ id, (∀ sp ∈ done, sp.1 ≠ id) → s.spaces.find id = none ∧ s.tagMaps.Fresh id ∧ s.edgeMaps.Fresh id
  present : ∀ sp ∈ done, ∃ i, s.spaces.find sp.1 = some i ∧ SpaceOk a s sp.1 sp.2 i
  byName : ∀ n, s.byName.find n = (done.find? (fun sp => sp.2 == n)).map Prod.fst

theorem spaceOk_of_same {a : Answers U F P S I L D H} {s s' : Snapshot P S I L D H} {id : Int} {name : Bytes} {i : SpaceInfo P S I L D}
    (h : SpaceOk a s id name i)
    (h1 : (∀ n, idByName s'.tagMaps id n = idByName s.tagMaps id n) ∧ (∀ t, nameById s'.tagMaps id t = nameById s.tagMaps id t) ∧
      (∀ t, latestVersion s'.tagMaps id t = latestVersion s.tagMaps id t))
    (h2 : (∀ n, idByName s'.edgeMaps id n = idByName s.edgeMaps id n) ∧ (∀ t, nameById s'.edgeMaps id t = nameById s.edgeMaps id t) ∧
      (∀ t, latestVersion s'.edgeMaps id t = latestVersion s.edgeMaps id t) ∧ allEdges s'.edgeMaps id = allEdges s.edgeMaps id) :
    SpaceOk a s' id name i := by
  obtain ⟨l, hl, m0, m1, hf, hld, ha, hb, hc⟩ := h.tags
  obtain ⟨l', hl', m0', m1', hf', hld', ha', hb', hc', hd'⟩ := h.edges
  exact ⟨h.parts, h.listeners, h.desc,
    ⟨l, hl, m0, m1, hf, hld, fun n => (h1.1 n).trans (ha n), fun t => (h1.2.1 t).trans (hb t), fun t => (h1.2.2 t).trans (hc t)⟩,
    ⟨l', hl', m0', m1', hf', hld', fun n => (h2.1 n).trans (ha' n), fun t => (h2.2.1 t).trans (hb' t), fun t => (h2.2.2.1 t).trans (hc' t),
      h2.2.2.2.trans hd'⟩, h.tagIndexes, h.edgeIndexes, h.tagKeys, h.edgeKeys⟩

theorem fresh_of_same {m m' : SMaps} {id : Int} (h : m.Fresh id)
    (h1 : (∀ n, idByName m' id n = idByName m id n) ∧ (∀ t, nameById m' id t = nameById m id t) ∧ (∀ t, latestVersion m' id t = latestVersion m id t)) :
    m'.Fresh id :=
  ⟨fun n => (h1.1 n).trans (h.1 n), fun t => (h1.2.1 t).trans (h.2.1 t), fun t => (h1.2.2 t).trans (h.2.2 t)⟩

theorem space_partial {a : Answers U F P S I L D H} {c c' : Client U F P S I L D H} {s s' : Snapshot P S I L D H} {done : List (Int × Bytes)}
    {sp : Int × Bytes} {seen : List (Client U F P S I L D H)} {e : Ending} (hi : Partial a done s) (hnew : ∀ q ∈ done, q.1 ≠ sp.1)
    (h : loadSpaceData a c s sp = (seen, c', some s', e)) :
    Partial a (done ++ [sp]) s' ∧ (∃ ti, a.tagIndexes sp.1 = some ti ∧ c'.tagIndexByName = putIndexNames sp.1 c.tagIndexByName ti) ∧
    (∃ ei, a.edgeIndexes sp.1 = some ei ∧ c'.edgeIndexByName = putIndexNames sp.1 c.edgeIndexByName ei) := by
  unfold loadSpaceData at h
  split at h
  · simp at h
  rename_i parts hparts
  split at h
  rotate_left
  · simp at h
  rename_i tagItems edgeItems htags hedges
  split at h
  rotate_left
  · simp at h
  rename_i tags tagMaps edges edgeMaps hlt hle
  split at h
  rotate_left
  · simp at h
  rename_i ti ei hti hei
  dsimp only at h
  split at h
  · simp at h
  rename_i ls hls
  split at h
  · simp at h
  rename_i d hd
  simp only [Prod.mk.injEq, Option.some.injEq] at h
  obtain ⟨_, rfl, rfl, _⟩ := h
  obtain ⟨hab, hfT, hfE⟩ := hi.absent sp.1 hnew
  obtain ⟨t1, t2, t3, t4, t5⟩ := C57_tag_maps hfT hlt
  obtain ⟨e1, e2, e3, e4, e5⟩ := C57_edge_maps hfE hle
  refine ⟨⟨?_, ?_, ?_⟩, ⟨ti, hti, rfl⟩, ⟨ei, hei, rfl⟩⟩
  · intro id hid
    have hne : sp.1 ≠ id := hid sp (by simp)
    obtain ⟨g1, g2, g3⟩ := hi.absent id (fun q hq => hid q (by simp [hq]))
    refine ⟨?_, fresh_of_same g2 (t5 id (fun h => hne h.symm)), ?_⟩
    · dsimp only; rw [AMap.find_emplace, if_neg hne]; exact g1
    · obtain ⟨x, y, z, _⟩ := e5 id (fun h => hne h.symm)
      exact fresh_of_same g3 ⟨x, y, z⟩
  · intro q hq
    rcases List.mem_append.1 hq with hq | hq
    · obtain ⟨i, hi1, hi2⟩ := hi.present q hq
      have hne : sp.1 ≠ q.1 := fun h => hnew q hq h.symm
      refine ⟨i, by dsimp only; rw [AMap.find_emplace, if_neg hne]; exact hi1, spaceOk_of_same hi2 ?_ ?_⟩
      · exact t5 q.1 (fun h => hne h.symm)
      · exact e5 q.1 (fun h => hne h.symm)
    · simp at hq; subst hq
      refine ⟨⟨parts, tags, edges, putIndexes [] ti, putIndexes [] ei, ls, d⟩, by dsimp only; rw [AMap.find_emplace, if_pos rfl, hab]; rfl, ?_⟩
      exact ⟨hparts, hls, hd, ⟨tagItems, htags, _, _, hfT, hlt, fun _ => rfl, fun _ => rfl, fun _ => rfl⟩,
        ⟨edgeItems, hedges, _, _, hfE, hle, fun _ => rfl, fun _ => rfl, fun _ => rfl, rfl⟩,
        ⟨ti, hti, fun k => by rw [putIndexes_find]; rfl⟩, ⟨ei, hei, fun k => by rw [putIndexes_find]; rfl⟩,
        putIndexes_nodup _ _ AMap.nodup_nil, putIndexes_nodup _ _ AMap.nodup_nil⟩
  · intro n
    dsimp only
    rw [AMap.find_emplace, hi.byName, hi.byName, List.find?_append]
    by_cases hn : sp.2 = n
    · subst hn
      rw [if_pos rfl]
      cases done.find? (fun q => q.2 == sp.2) <;> simp
    · rw [if_neg hn]
      simp [hn]

theorem spaces_partial {a : Answers U F P S I L D H} : ∀ (sps done : List (Int × Bytes)) (c c' : Client U F P S I L D H)
    (s s' : Snapshot P S I L D H) (seen : List (Client U F P S I L D H)) (e : Ending), Partial a done s →
    ((done ++ sps).map Prod.fst).Nodup → loadSpacesData a c s sps = (seen, c', some s', e) → Partial a (done ++ sps) s'
  | [], done, c, c', s, s', seen, e, hi, _, h => by
    rw [loadSpacesData] at h
    simp only [Prod.mk.injEq, Option.some.injEq] at h
    rw [← h.2.2.1]; simpa using hi
  | sp :: sps, done, c, c', s, s', seen, e, hi, hn, h => by
    rw [loadSpacesData] at h
    generalize hr : loadSpaceData a c s sp = r at h
    obtain ⟨sn, c1, o, e1⟩ := r
    cases o with
    | none => simp at h
    | some s1 =>
      dsimp only at h
      have hnew : ∀ q ∈ done, q.1 ≠ sp.1 := by
        intro q hq heq
        rw [List.map_append, List.nodup_append] at hn
        exact hn.2.2 q.1 (List.mem_map.2 ⟨q, hq, rfl⟩) sp.1 (by simp) heq
      have hp := (space_partial hi hnew hr).1
      generalize hr2 : loadSpacesData a c1 s1 sps = r2 at h
      obtain ⟨sn2, c2, o2, e2⟩ := r2
      simp only [Prod.mk.injEq] at h
      obtain ⟨_, h2, h3, _⟩ := h
      subst h3
      have := spaces_partial sps (done ++ [sp]) c1 c2 s1 s' sn2 e2 hp (by simpa using hn) hr2
      simpa using this

/-- **C80.** After a refresh that completes, the cache holds exactly what the server answered: every listed space with its parts, schemas,
names, versions, indexes, listeners and description, no other space, and the hosts, users and full-text data.  (The spaces listed have
different ids.) -/
theorem C80_complete {a : Answers U F P S I L D H} {c c' : Client U F P S I L D H} {seen : List (Client U F P S I L D H)}
    (h : loadData a c = (seen, c', .done)) :
    ∃ sps, a.spaces = some sps ∧ ((sps.map Prod.fst).Nodup →
      (∀ sp ∈ sps, ∃ i, c'.snap.spaces.find sp.1 = some i ∧ SpaceOk a c'.snap sp.1 sp.2 i) ∧
      (∀ id, (∀ sp ∈ sps, sp.1 ≠ id) → c'.snap.spaces.find id = none ∧ (∀ n, idByName c'.snap.tagMaps id n = none) ∧
        (∀ n, idByName c'.snap.edgeMaps id n = none) ∧ (∀ t, latestVersion c'.snap.tagMaps id t = none) ∧
        (∀ t, latestVersion c'.snap.edgeMaps id t = none) ∧ (∀ t, nameById c'.snap.tagMaps id t = none) ∧ (∀ t, nameById c'.snap.edgeMaps id t = none)) ∧
      (∀ n, c'.snap.byName.find n = (sps.find? (fun sp => sp.2 == n)).map Prod.fst)) ∧
      c'.snap.hosts = a.hosts ∧ a.hosts ≠ none ∧ c'.users = a.users ∧ c'.ftClients = a.ftClients ∧ c'.ftIndexes = a.ftIndexes := by
  unfold loadData at h
  cases hu : a.users with
  | none => rw [hu] at h; simp at h
  | some u =>
  rw [hu] at h; dsimp only at h
  cases hf : a.ftClients with
  | none => rw [hf] at h; simp at h
  | some f =>
  rw [hf] at h; dsimp only at h
  cases hg : a.ftIndexes with
  | none => rw [hg] at h; simp at h
  | some g =>
  rw [hg] at h; dsimp only at h
  cases hs : a.spaces with
  | none => rw [hs] at h; simp at h
  | some sps =>
  rw [hs] at h; dsimp only at h
  have hpart := fun (done : List (Int × Bytes)) c4 s sn e => spaces_partial (a := a) sps [] { c with users := some u, ftClients := some f, ftIndexes := some g } c4 emptySnapshot s sn e
  have hfields := spaces_fields a sps { c with users := some u, ftClients := some f, ftIndexes := some g } emptySnapshot
  have hseen := (spaces_seen a sps { c with users := some u, ftClients := some f, ftIndexes := some g } emptySnapshot).2.2.2
  generalize loadSpacesData a { c with users := some u, ftClients := some f, ftIndexes := some g } emptySnapshot sps = r at h hpart hfields hseen
  obtain ⟨sn, c4, o, e⟩ := r
  cases o with
  | none =>
    simp only [Prod.mk.injEq] at h
    exact absurd h.2.2 (hseen rfl)
  | some s =>
  dsimp only at h hfields
  cases hh : a.hosts with
  | none => rw [hh] at h; simp at h
  | some hs' =>
  rw [hh] at h
  simp only [Prod.mk.injEq] at h
  obtain ⟨_, rfl, _⟩ := h
  refine ⟨sps, rfl, ?_, rfl, by simp, ?_⟩
  · intro hn
    have hp := hpart [] c4 s sn e ⟨fun id _ => ⟨rfl, ⟨fun _ => rfl, fun _ => rfl, fun _ => rfl⟩, ⟨fun _ => rfl, fun _ => rfl, fun _ => rfl⟩⟩,
      by simp, fun n => rfl⟩ (by simpa using hn) rfl
    rw [List.nil_append] at hp
    refine ⟨?_, ?_, hp.byName⟩
    · intro sp hsp
      obtain ⟨i, h1, h2⟩ := hp.present sp hsp
      exact ⟨i, h1, spaceOk_of_same h2 ⟨fun _ => rfl, fun _ => rfl, fun _ => rfl⟩ ⟨fun _ => rfl, fun _ => rfl, fun _ => rfl, rfl⟩⟩
    · intro id hid
      obtain ⟨h1, h2, h3⟩ := hp.absent id hid
      exact ⟨h1, h2.1, h3.1, h2.2.2, h3.2.2, h2.2.1, h3.2.1⟩
  · exact ⟨hfields.1, hfields.2.1, hfields.2.2⟩
where
  spaces_fields (a : Answers U F P S I L D H) : ∀ (sps : List (Int × Bytes)) (c : Client U F P S I L D H) (s : Snapshot P S I L D H),
    (loadSpacesData a c s sps).2.1.users = c.users ∧ (loadSpacesData a c s sps).2.1.ftClients = c.ftClients ∧
    (loadSpacesData a c s sps).2.1.ftIndexes = c.ftIndexes
  | [], c, s => ⟨rfl, rfl, rfl⟩
  | sp :: sps, c, s => by
    rw [loadSpacesData]
    have h : (loadSpaceData a c s sp).2.1.users = c.users ∧ (loadSpaceData a c s sp).2.1.ftClients = c.ftClients ∧
        (loadSpaceData a c s sp).2.1.ftIndexes = c.ftIndexes := by
      unfold loadSpaceData
      repeat' split
      all_goals exact ⟨rfl, rfl, rfl⟩
    generalize loadSpaceData a c s sp = r at h
    obtain ⟨seen, c', o, e⟩ := r
    dsimp only at h
    cases o with
    | none => exact h
    | some s' =>
      dsimp only
      obtain ⟨i1, i2, i3⟩ := spaces_fields a sps c' s'
      exact ⟨i1.trans h.1, i2.trans h.2.1, i3.trans h.2.2⟩

/-! ## Indexes by name -/

theorem putIndexNames_other (space : Int) : ∀ (l : List (Bytes × Int × I)) (m : AMap (Int × Bytes) Int) (s : Int) (n : Bytes), s ≠ space →
    (putIndexNames space m l).find (s, n) = m.find (s, n)
  | [], m, s, n, _ => rfl
  | x :: l, m, s, n, h => by
    rw [putIndexNames, putIndexNames_other space l _ s n h, AMap.find_set, if_neg (by intro e; exact h (Prod.mk.inj e).1.symm)]

theorem putIndexNames_from (space : Int) : ∀ (l : List (Bytes × Int × I)) (m : AMap (Int × Bytes) Int) (s : Int) (n : Bytes) (id : Int),
    (putIndexNames space m l).find (s, n) = some id → m.find (s, n) = some id ∨ (s = space ∧ ∃ x ∈ l, x.1 = n ∧ x.2.1 = id)
  | [], m, s, n, id, h => .inl h
  | x :: l, m, s, n, id, h => by
    rw [putIndexNames] at h
    rcases putIndexNames_from space l _ s n id h with h | ⟨h1, y, h2, h3⟩
    · rw [AMap.find_set] at h
      split at h
      · rename_i e
        obtain ⟨e1, e2⟩ := Prod.mk.inj e
        exact .inr ⟨e1.symm, x, by simp, e2, Option.some.inj h⟩
      · exact .inl h
    · exact .inr ⟨h1, y, by simp [h2], h3⟩

theorem putIndexNames_listed (space : Int) : ∀ (l : List (Bytes × Int × I)) (m : AMap (Int × Bytes) Int), (l.map fun x => x.1).Nodup →
    ∀ x ∈ l, (putIndexNames space m l).find (space, x.1) = some x.2.1
  | y :: l, m, hn, x, hx => by
    rw [putIndexNames]
    rw [List.map_cons, List.nodup_cons] at hn
    rcases List.mem_cons.1 hx with rfl | hx
    · have key : ∀ (l : List (Bytes × Int × I)) (m : AMap (Int × Bytes) Int), x.1 ∉ l.map (fun x => x.1) → m.find (space, x.1) = some x.2.1 →
          (putIndexNames space m l).find (space, x.1) = some x.2.1 := by
        intro l
        induction l with
        | nil => intro m _ h; exact h
        | cons z l ih =>
          intro m h1 h2
          rw [putIndexNames]
          refine ih _ (by intro h; exact h1 (by simp [h])) ?_
          rw [AMap.find_set, if_neg (by intro e; exact h1 (by simp [(Prod.mk.inj e).2]))]
          exact h2
      exact key l _ hn.1 (by rw [AMap.find_set, if_pos rfl])
    · exact putIndexNames_listed space l _ hn.2 x hx

/-- What one step may put into the map from index names. -/
def IndexFrom (a : Answers U F P S I L D H) (c c' : Client U F P S I L D H) : Prop :=
  ∀ s n id, c'.tagIndexByName.find (s, n) = some id → c.tagIndexByName.find (s, n) = some id ∨
    ∃ l, a.tagIndexes s = some l ∧ ∃ x ∈ l, x.1 = n ∧ x.2.1 = id

theorem space_indexFrom (a : Answers U F P S I L D H) (c : Client U F P S I L D H) (s : Snapshot P S I L D H) (sp : Int × Bytes) :
    IndexFrom a c (loadSpaceData a c s sp).2.1 := by
  have same : IndexFrom a c c := fun _ _ _ h => .inl h
  have put : ∀ ti m, a.tagIndexes sp.1 = some ti → IndexFrom a c { c with tagIndexByName := putIndexNames sp.1 c.tagIndexByName ti, edgeIndexByName := m } := by
    intro ti m hti s n id h
    rcases putIndexNames_from sp.1 ti _ s n id h with h | ⟨rfl, h2⟩
    · exact .inl h
    · exact .inr ⟨ti, hti, h2⟩
  unfold loadSpaceData
  split
  · exact same
  split
  rotate_left
  · exact same
  split
  rotate_left
  · exact same
  split
  rotate_left
  · exact same
  rename_i hti _
  dsimp only
  split
  · exact put _ _ hti
  split
  · exact put _ _ hti
  · exact put _ _ hti

theorem spaces_indexFrom (a : Answers U F P S I L D H) : ∀ (sps : List (Int × Bytes)) (c : Client U F P S I L D H) (s : Snapshot P S I L D H),
    IndexFrom a c (loadSpacesData a c s sps).2.1
  | [], c, s => fun _ _ _ h => .inl h
  | sp :: sps, c, s => by
    rw [loadSpacesData]
    have h := space_indexFrom a c s sp
    generalize loadSpaceData a c s sp = r at h
    obtain ⟨seen, c', o, e⟩ := r
    cases o with
    | none => exact h
    | some s' =>
      dsimp only at h ⊢
      intro s1 n id hf
      rcases spaces_indexFrom a sps c' s' s1 n id hf with hf | hf
      · exact h s1 n id hf
      · exact .inr hf

theorem loadData_indexFrom (a : Answers U F P S I L D H) (c : Client U F P S I L D H) : IndexFrom a c (loadData a c).2.1 := by
  have same : ∀ c', c'.tagIndexByName = c.tagIndexByName → IndexFrom a c c' := fun c' h s n id hf => .inl (by rw [← h]; exact hf)
  unfold loadData
  split
  · exact same _ rfl
  split
  · exact same _ rfl
  split
  · exact same _ rfl
  split
  · exact same _ rfl
  rename_i u _ _ f _ _ g _ _ sps _
  dsimp only
  have h := spaces_indexFrom a sps { c with users := some u, ftClients := some f, ftIndexes := some g } emptySnapshot
  generalize loadSpacesData a { c with users := some u, ftClients := some f, ftIndexes := some g } emptySnapshot sps = r at h
  obtain ⟨seen, c', o, e⟩ := r
  cases o with
  | none => exact h
  | some s =>
    dsimp only
    split
    · exact h
    · exact h

theorem spaces_index_listed {a : Answers U F P S I L D H} (hn : ∀ s l, a.tagIndexes s = some l → (l.map fun x => x.1).Nodup) :
    ∀ (sps : List (Int × Bytes)) (c c' : Client U F P S I L D H) (s s' : Snapshot P S I L D H) (seen : List (Client U F P S I L D H)) (e : Ending),
    (sps.map Prod.fst).Nodup → loadSpacesData a c s sps = (seen, c', some s', e) →
    (∀ sp ∈ sps, ∀ l, a.tagIndexes sp.1 = some l → ∀ x ∈ l, c'.tagIndexByName.find (sp.1, x.1) = some x.2.1) ∧
    (∀ id, id ∉ sps.map Prod.fst → ∀ n, c'.tagIndexByName.find (id, n) = c.tagIndexByName.find (id, n))
  | [], c, c', s, s', seen, e, _, h => by
    rw [loadSpacesData] at h
    simp only [Prod.mk.injEq] at h
    refine ⟨by simp, fun id _ n => by rw [h.2.1]⟩
  | sp :: sps, c, c', s, s', seen, e, hnd, h => by
    rw [loadSpacesData] at h
    generalize hr : loadSpaceData a c s sp = r at h
    obtain ⟨sn, c1, o, e1⟩ := r
    cases o with
    | none => simp at h
    | some s1 =>
      dsimp only at h
      obtain ⟨ti, hti, hc1⟩ : ∃ ti, a.tagIndexes sp.1 = some ti ∧ c1.tagIndexByName = putIndexNames sp.1 c.tagIndexByName ti := by
        unfold loadSpaceData at hr
        split at hr
        · simp at hr
        split at hr
        rotate_left
        · simp at hr
        split at hr
        rotate_left
        · simp at hr
        split at hr
        rotate_left
        · simp at hr
        rename_i ti ei hti hei
        dsimp only at hr
        split at hr
        · simp at hr
        split at hr
        · simp at hr
        simp only [Prod.mk.injEq] at hr
        exact ⟨ti, hti, by rw [← hr.2.1]⟩
      generalize hr2 : loadSpacesData a c1 s1 sps = r2 at h
      obtain ⟨sn2, c2, o2, e2⟩ := r2
      simp only [Prod.mk.injEq] at h
      obtain ⟨_, h2, h3, _⟩ := h
      subst h2; subst h3
      rw [List.map_cons, List.nodup_cons] at hnd
      obtain ⟨i1, i2⟩ := spaces_index_listed hn sps c1 c2 s1 s' sn2 e2 hnd.2 hr2
      constructor
      · intro q hq l hl x hx
        rcases List.mem_cons.1 hq with rfl | hq
        · rw [i2 _ hnd.1, hc1]
          rw [hti] at hl; cases hl
          exact putIndexNames_listed _ ti _ (hn _ _ hti) x hx
        · exact i1 q hq l hl x hx
      · intro id hid n
        rw [List.map_cons, List.mem_cons, not_or] at hid
        rw [i2 id hid.2, hc1, putIndexNames_other _ _ _ _ _ hid.1]

/-- A history of refreshes, complete or not, by servers for which an index id of a space never changes its name. -/
inductive Refreshed (nm : Int → Int → Bytes) : Client U F P S I L D H → Prop
  | start (c : Client U F P S I L D H) : c.tagIndexByName = [] → Refreshed nm c
  | load {c : Client U F P S I L D H} (a : Answers U F P S I L D H) :
      Refreshed nm c → (∀ s l, a.tagIndexes s = some l → ∀ x ∈ l, nm s x.2.1 = x.1) → Refreshed nm (loadData a c).2.1

theorem refreshed_inv {nm : Int → Int → Bytes} {c : Client U F P S I L D H} (h : Refreshed nm c) :
    ∀ s n id, c.tagIndexByName.find (s, n) = some id → nm s id = n := by
  induction h with
  | start c h => intro s n id hf; rw [h] at hf; cases hf
  | load a _ hnm ih =>
    intro s n id hf
    rcases loadData_indexFrom a _ s n id hf with hf | ⟨l, hl, x, hx, hxn, hxi⟩
    · exact ih s n id hf
    · rw [← hxi, ← hxn]; exact hnm s l hl x hx

/-- **C80.** After any history of refreshes, the last one complete, looking up an index by name gives the index listed under that name, and
nothing for a name that is not listed, although the map from names keeps those of dropped indexes.  (Indexes of a space have
different names and ids, and an id keeps its name for ever.) -/
theorem C80_index_by_name {nm : Int → Int → Bytes} {a : Answers U F P S I L D H} {c c' : Client U F P S I L D H}
    {seen : List (Client U F P S I L D H)} (hh : Refreshed nm c) (hnm : ∀ s l, a.tagIndexes s = some l → ∀ x ∈ l, nm s x.2.1 = x.1)
    (h : loadData a c = (seen, c', .done)) (hnd : ∀ sps, a.spaces = some sps → (sps.map Prod.fst).Nodup)
    (hn : ∀ s l, a.tagIndexes s = some l → (l.map fun x => x.1).Nodup ∧ (l.map fun x => x.2.1).Nodup)
    {sps : List (Int × Bytes)} (hs : a.spaces = some sps) {sp : Int × Bytes} (hsp : sp ∈ sps) {l : List (Bytes × Int × I)}
    (hl : a.tagIndexes sp.1 = some l) :
    (∀ x ∈ l, tagIndexByName c' sp.1 x.1 = some x.2.2) ∧ (∀ n, (∀ x ∈ l, x.1 ≠ n) → tagIndexByName c' sp.1 n = none) := by
  obtain ⟨sps', hs', hall, _⟩ := C80_complete h
  rw [hs] at hs'; cases hs'
  obtain ⟨hpres, _, _⟩ := hall (hnd _ hs)
  obtain ⟨i, hi1, hi2⟩ := hpres sp hsp
  obtain ⟨l', hl', hidx⟩ := hi2.tagIndexes
  rw [hl] at hl'; cases hl'
  have hc' : c' = (loadData a c).2.1 := by rw [h]
  have hinv : ∀ s n id, c'.tagIndexByName.find (s, n) = some id → nm s id = n := by
    rw [hc']; exact refreshed_inv (.load a hh hnm)
  have hlisted : ∀ x ∈ l, c'.tagIndexByName.find (sp.1, x.1) = some x.2.1 := by
    unfold loadData at h
    cases hu : a.users with
    | none => rw [hu] at h; simp at h
    | some u =>
    rw [hu] at h; dsimp only at h
    cases hf : a.ftClients with
    | none => rw [hf] at h; simp at h
    | some f =>
    rw [hf] at h; dsimp only at h
    cases hg : a.ftIndexes with
    | none => rw [hg] at h; simp at h
    | some g =>
    rw [hg] at h; dsimp only at h
    rw [hs] at h; dsimp only at h
    generalize hr : loadSpacesData a { c with users := some u, ftClients := some f, ftIndexes := some g } emptySnapshot sps = r at h
    obtain ⟨sn, c4, o, e⟩ := r
    cases o with
    | none =>
      have hseen := (spaces_seen a sps { c with users := some u, ftClients := some f, ftIndexes := some g } emptySnapshot).2.2.2
      rw [hr] at hseen
      simp only [Prod.mk.injEq] at h
      exact absurd h.2.2 (hseen rfl)
    | some s =>
    dsimp only at h
    cases hh : a.hosts with
    | none => rw [hh] at h; simp at h
    | some hs' =>
    rw [hh] at h
    simp only [Prod.mk.injEq] at h
    obtain ⟨_, rfl, _⟩ := h
    exact (spaces_index_listed (fun s l h => (hn s l h).1) sps _ c4 emptySnapshot s sn e (hnd _ hs) hr).1 sp hsp l hl
  unfold tagIndexByName
  constructor
  · intro x hx
    rw [hlisted x hx]
    simp only [Option.bind_some]
    rw [hi1]
    simp only [Option.bind_some]
    rw [hidx]
    have : l.find? (fun y => y.2.1 == x.2.1) = some x := by
      have hnid := (hn _ _ hl).2
      clear hidx hlisted hl
      induction l with
      | nil => simp at hx
      | cons y l ih =>
        rw [List.map_cons, List.nodup_cons] at hnid
        rcases List.mem_cons.1 hx with rfl | hx
        · simp
        · have : ¬ y.2.1 = x.2.1 := by
            intro e; exact hnid.1 (List.mem_map.2 ⟨x, hx, e.symm⟩)
          rw [List.find?_cons_of_neg (by simpa using this)]
          exact ih hx hnid.2
    rw [this]; rfl
  · intro n hno
    cases hf : c'.tagIndexByName.find (sp.1, n) with
    | none => rfl
    | some id =>
      have hnid := hinv sp.1 n id hf
      simp only [Option.bind_some]
      rw [hi1]
      simp only [Option.bind_some]
      rw [hidx]
      have : l.find? (fun y => y.2.1 == id) = none := by
        rw [List.find?_eq_none]
        intro y hy hyid
        have hyid : y.2.1 = id := by simpa using hyid
        apply hno y hy
        rw [← hnm sp.1 l hl y hy, hyid, hnid]
      rw [this]; rfl

end

/-! ## Examples and exceptions -/

/-- A server with one space, which has the tag index "i" with some id, and whose other answers are as given. -/
def server (id : Int) (hosts desc : Option Nat) : Answers Nat Nat Nat Nat Nat Nat Nat Nat where
  users := some 1
  ftClients := some 1
  ftIndexes := some 1
  spaces := some [(1, ascii "s")]
  parts := fun _ => some 1
  tags := fun _ => some []
  edges := fun _ => some []
  tagIndexes := fun _ => some [(ascii "i", id, 7)]
  edgeIndexes := fun _ => some []
  listeners := fun _ => some 1
  desc := fun _ => desc
  hosts := hosts

/-- A new client. -/
def newClient : Client Nat Nat Nat Nat Nat Nat Nat Nat := ⟨none, none, none, [], [], emptySnapshot, false⟩

example : ∃ seen c, loadData (server 5 (some 1) (some 1)) newClient = (seen, c, .done) ∧ c.ready = true ∧
    tagIndexByName c 1 (ascii "i") = some 7 := ⟨_, _, rfl, rfl, by decide +kernel⟩

/-- **C80, violated for indexes looked up by name.** A refresh that fails changes the map from index names: an index that was dropped and made
again under the same name was found before the refresh and is not found after it, although it is in the cache and on the server. -/
theorem C80_index_violated : ∃ c, Refreshed (fun _ _ => ascii "i") c ∧ tagIndexByName c 1 (ascii "i") = some 7 ∧
    (loadData (server 6 (some 1) none) c).2.2 = .failed ∧ tagIndexByName (loadData (server 6 (some 1) none) c).2.1 1 (ascii "i") = none :=
  ⟨(loadData (server 5 (some 1) (some 1)) newClient).2.1, .load _ (.start _ rfl) (by
    intro s l h x hx
    have : l = [(ascii "i", 5, 7)] := (Option.some.inj h).symm
    subst this
    simp at hx; subst hx; rfl), by decide +kernel, by decide +kernel, by decide +kernel⟩

/-- **C80, violated when only the hosts cannot be listed.** The failure is not noticed and the value of a failed result is read. -/
theorem C80_hosts_violated : (loadData (server 5 none (some 1)) newClient).2.2 = .crashed := by decide +kernel

end Meta
end Nebula
