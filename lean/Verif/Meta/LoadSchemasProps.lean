import Verif.Meta.LoadSchemas
/-! # C57: the schema cache -/
namespace Nebula
namespace Meta

variable {S : Type}

/-- A listing as the server promises it: no id -1, versions from 0, all versions of an id together and the newest first. -/
structure Listing (l : List (SItem S)) : Prop where
  ids : ∀ x ∈ l, x.id ≠ -1
  vers : ∀ x ∈ l, 0 ≤ x.ver
  newestFirst : ∀ (i j : Nat) (x y : SItem S), l[i]? = some x → l[j]? = some y → i < j → x.id = y.id → y.ver < x.ver
  grouped : ∀ (i j k : Nat) (x y z : SItem S), l[i]? = some x → l[j]? = some y → l[k]? = some z → i < j → j < k → x.id = z.id → y.id = x.id

/-- The maps know nothing about a space. -/
def SMaps.Fresh (m : SMaps) (space : Int) : Prop :=
  (∀ n, m.idOf.find (space, n) = none) ∧ (∀ i, m.nameOf.find (space, i) = none) ∧ (∀ i, m.newest.find (space, i) = none)

theorem resize_nil (n : Nat) : resize ([] : List (Option S)) n = List.replicate n none := by simp [resize]

structure VInv (P : List (SItem S)) (m : Schemas S) (last : Int) : Prop where
  last_eq : last = (P.getLast?.map SItem.id).getD (-1)
  absent : ∀ id, P.find? (fun y => y.id == id) = none → m.find id = none
  present : ∀ id f, P.find? (fun y => y.id == id) = some f → ∃ v, m.find id = some v ∧ v.length = f.ver.toNat + 1 ∧
    ∀ n : Nat, n ≤ f.ver.toNat → v[n]? = some ((P.find? (fun y => y.id == id && y.ver == (n : Int))).map SItem.schema)

theorem put_inv {P R : List (SItem S)} {x : SItem S} {m : Schemas S} {last : Int} (hl : Listing (P ++ x :: R)) (hi : VInv P m last) :
    ∃ m', putSchema m last x = some m' ∧ VInv (P ++ [x]) m' x.id := by
  have hx : (P ++ x :: R)[P.length]? = some x := by simp
  have hxm : x ∈ P ++ x :: R := by simp
  have hid := hl.ids x hxm
  have hv := hl.vers x hxm
  have hmemP : ∀ y ∈ P, ∃ i : Nat, i < P.length ∧ (P ++ x :: R)[i]? = some y := by
    intro y hy
    obtain ⟨i, hlt, rfl⟩ := List.mem_iff_getElem.1 hy
    exact ⟨i, hlt, by rw [List.getElem?_append_left hlt, List.getElem?_eq_getElem hlt]⟩
  have hlower : ∀ y ∈ P, y.id = x.id → x.ver < y.ver := by
    intro y hy e
    obtain ⟨i, hlt, hg⟩ := hmemP y hy
    exact hl.newestFirst i P.length y x hg hx hlt e
  have hfind2 : ∀ id (n : Nat), (P ++ [x]).find? (fun y => y.id == id && y.ver == (n : Int)) =
      if id = x.id ∧ (n : Int) = x.ver then some x else P.find? (fun y => y.id == id && y.ver == (n : Int)) := by
    intro id n
    rw [List.find?_append]
    by_cases e : id = x.id ∧ (n : Int) = x.ver
    · rw [if_pos e]
      have : P.find? (fun y => y.id == id && y.ver == (n : Int)) = none := by
        rw [List.find?_eq_none]
        intro y hy hc
        simp at hc
        have := hlower y hy (hc.1.trans e.1)
        omega
      rw [this]
      simp [e.1, e.2]
    · rw [if_neg e]
      have : ([x] : List (SItem S)).find? (fun y => y.id == id && y.ver == (n : Int)) = none := by
        rw [List.find?_eq_none]
        intro y hy hc
        simp at hy hc
        subst hy
        exact e ⟨hc.1.symm, hc.2.symm⟩
      rw [this]; simp
  by_cases hlast : x.id = last
  · -- the id goes on
    have hP : P ≠ [] := by
      intro e; subst e
      rw [hi.last_eq] at hlast
      exact hid hlast
    obtain ⟨Q, z, rfl⟩ : ∃ Q z, P = Q ++ [z] := ⟨P.dropLast, P.getLast hP, (List.dropLast_concat_getLast hP).symm⟩
    have hz : z.id = x.id := by rw [hlast, hi.last_eq]; simp
    have hsome : ∃ f, (Q ++ [z]).find? (fun y => y.id == x.id) = some f := by
      cases h : (Q ++ [z]).find? (fun y => y.id == x.id) with
      | some f => exact ⟨f, rfl⟩
      | none => exact absurd (List.find?_eq_none.1 h z (by simp)) (by simp [hz])
    obtain ⟨f, hf⟩ := hsome
    obtain ⟨v, hv1, hv2, hv3⟩ := hi.present _ _ hf
    have hfm := List.mem_of_find?_eq_some hf
    have hfid : f.id = x.id := by simpa using List.find?_some hf
    have hlt := hlower f hfm hfid
    unfold putSchema
    rw [if_neg (by omega)]
    dsimp only
    rw [if_neg (fun h : x.id ≠ last => h hlast), hv1]
    dsimp only [Option.getD_some]
    rw [if_pos (by rw [hv2]; omega)]
    refine ⟨_, rfl, ⟨by simp, ?_, ?_⟩⟩
    · intro id hn
      have hne : x.id ≠ id := by
        intro e
        exact absurd (List.find?_eq_none.1 hn x (by simp)) (by simp [e])
      rw [AMap.find_update, if_neg hne]
      apply hi.absent
      rw [List.find?_append] at hn
      exact (Option.or_eq_none_iff.1 hn).1
    · intro id g hg
      rw [AMap.find_update]
      by_cases e : x.id = id
      · subst e
        rw [if_pos rfl, hv1]
        have : g = f := by
          rw [List.find?_append, hf] at hg; simpa using hg.symm
        subst this
        refine ⟨_, rfl, by simp [hv2], ?_⟩
        intro n hn
        dsimp only [Option.getD_some]
        rw [hfind2, List.getElem?_set]
        by_cases en : x.ver.toNat = n
        · rw [if_pos en, if_pos (by rw [hv2]; omega), if_pos ⟨rfl, by omega⟩]; rfl
        · rw [if_neg en, if_neg (by omega)]
          exact hv3 n hn
      · rw [if_neg e]
        rw [List.find?_append] at hg
        have : ([x] : List (SItem S)).find? (fun y => y.id == id) = none := by simp [e]
        rw [this] at hg
        obtain ⟨w, hw1, hw2, hw3⟩ := hi.present id g (by simpa using hg)
        refine ⟨w, hw1, hw2, fun n hn => ?_⟩
        rw [hfind2, if_neg (by intro hh; exact e hh.1.symm)]
        exact hw3 n hn
  · -- another id begins
    have hnot : ∀ y ∈ P, y.id ≠ x.id := by
      intro y hy e
      obtain ⟨i, hlt, hg⟩ := hmemP y hy
      have hP : P ≠ [] := by intro e; subst e; simp at hy
      obtain ⟨Q, z, rfl⟩ : ∃ Q z, P = Q ++ [z] := ⟨P.dropLast, P.getLast hP, (List.dropLast_concat_getLast hP).symm⟩
      have hz : z.id ≠ x.id := by
        intro h; apply hlast; rw [hi.last_eq]; simp [h]
      have hzg : (Q ++ [z] ++ x :: R)[Q.length]? = some z := by simp
      simp at hlt
      by_cases ei : i = Q.length
      · subst ei
        rw [hzg] at hg
        exact hz ((Option.some.inj hg) ▸ e)
      · have := hl.grouped i Q.length (Q ++ [z]).length y z x hg hzg hx (by omega) (by simp) e
        exact hz (this.trans e)
    have hnone : P.find? (fun y => y.id == x.id) = none := by
      rw [List.find?_eq_none]; intro y hy; simpa using hnot y hy
    have hm := hi.absent _ hnone
    unfold putSchema
    rw [if_neg (by omega)]
    dsimp only
    rw [if_pos (show x.id ≠ last from hlast), AMap.find_update, if_pos rfl, hm]
    rw [if_pos (by
      simp only [Option.getD_some, Option.getD_none, resize_nil, List.length_replicate]
      omega)]
    refine ⟨_, rfl, ⟨by simp, ?_, ?_⟩⟩
    · intro id hn
      have hne : x.id ≠ id := by
        intro e
        exact absurd (List.find?_eq_none.1 hn x (by simp)) (by simp [e])
      rw [AMap.find_update, if_neg hne, AMap.find_update, if_neg hne]
      apply hi.absent
      rw [List.find?_append] at hn
      exact (Option.or_eq_none_iff.1 hn).1
    · intro id g hg
      rw [AMap.find_update]
      by_cases e : x.id = id
      · subst e
        rw [if_pos rfl, AMap.find_update, if_pos rfl, hm]
        dsimp only [Option.getD_some, Option.getD_none]
        have : g = x := by
          rw [List.find?_append, hnone] at hg; simpa using hg.symm
        subst this
        refine ⟨_, rfl, by simp [resize]; omega, ?_⟩
        intro n hn
        rw [hfind2, resize_nil, List.getElem?_set]
        by_cases en : g.ver.toNat = n
        · rw [if_pos en, if_pos (by simp; omega), if_pos ⟨rfl, by omega⟩]; rfl
        · rw [if_neg en, if_neg (by omega), List.getElem?_replicate, if_pos (by omega)]
          have : P.find? (fun y => y.id == g.id && y.ver == (n : Int)) = none := by
            rw [List.find?_eq_none]; intro y hy hc
            simp at hc
            exact hnot y hy hc.1
          rw [this]; rfl
      · rw [if_neg e, AMap.find_update, if_neg e]
        rw [List.find?_append] at hg
        have : ([x] : List (SItem S)).find? (fun y => y.id == id) = none := by simp [e]
        rw [this] at hg
        obtain ⟨w, hw1, hw2, hw3⟩ := hi.present id g (by simpa using hg)
        refine ⟨w, hw1, hw2, fun n hn => ?_⟩
        rw [hfind2, if_neg (by intro hh; exact e hh.1.symm)]
        exact hw3 n hn

/-- A step that stores the schema as `putSchema` does and remembers the id. -/
def StoresSchema (step : SState S → SItem S → Option (SState S)) : Prop :=
  ∀ st x m, putSchema st.schemas st.last x = some m → ∃ st', step st x = some st' ∧ st'.schemas = m ∧ st'.last = x.id

theorem tagStep_stores (space : Int) : StoresSchema (S := S) (tagStep space) := by
  intro st x m h; unfold tagStep; rw [h]; exact ⟨_, rfl, rfl, rfl⟩

theorem edgeStep_stores (space : Int) : StoresSchema (S := S) (edgeStep space) := by
  intro st x m h; unfold edgeStep; rw [h]
  dsimp only [Option.map_some]
  refine ⟨_, rfl, ?_⟩
  split <;> exact ⟨rfl, rfl⟩

theorem run_inv {step : SState S → SItem S → Option (SState S)} (hs : StoresSchema step) : ∀ (R P : List (SItem S)) (st : SState S),
    Listing (P ++ R) → VInv P st.schemas st.last → ∃ st', runItems step st R = some st' ∧ VInv (P ++ R) st'.schemas st'.last
  | [], P, st, _, hi => ⟨st, rfl, by simpa using hi⟩
  | x :: R, P, st, hl, hi => by
    obtain ⟨m, hm, hmi⟩ := put_inv hl hi
    obtain ⟨st1, h1, h2, h3⟩ := hs st x m hm
    rw [← h2, ← h3] at hmi
    obtain ⟨st', h4, h5⟩ := run_inv hs R (P ++ [x]) st1 (by simpa using hl) hmi
    refine ⟨st', ?_, by simpa using h5⟩
    rw [runItems, h1]; exact h4

theorem start_inv : VInv ([] : List (SItem S)) [] (-1) := ⟨rfl, fun _ _ => rfl, fun _ _ h => by simp at h⟩

/-- What the cache answers for a listing. -/
def Answered (l : List (SItem S)) (m : Schemas S) : Prop :=
  -- every listed version is returned, exactly as listed
  (∀ x ∈ l, getSchema m x.id x.ver = some x.schema) ∧
  -- a negative version means the newest listed one
  (∀ x ∈ l, (∀ y ∈ l, y.id = x.id → y.ver ≤ x.ver) → ∀ v : Int, v < 0 → getSchema m x.id v = some x.schema) ∧
  -- nothing else is returned
  (∀ id (v : Int), 0 ≤ v → (∀ x ∈ l, x.id = id → x.ver ≠ v) → getSchema m id v = none) ∧
  (∀ id (v : Int), (∀ x ∈ l, x.id ≠ id) → getSchema m id v = none)

theorem answers {l : List (SItem S)} {m : Schemas S} {last : Int} (hl : Listing l) (hi : VInv l m last) : Answered l m := by
  have hmax : ∀ x ∈ l, ∀ f, l.find? (fun y => y.id == x.id) = some f → x.ver ≤ f.ver ∧ (x.ver = f.ver → x = f) := by
    intro x hx f hf
    rw [List.find?_eq_some_iff_getElem] at hf
    obtain ⟨hfid, i, hi', hfe, hbefore⟩ := hf
    obtain ⟨j, hj, hxe⟩ := List.mem_iff_getElem.1 hx
    have hfid' : f.id = x.id := by simpa using hfid
    rcases Nat.lt_trichotomy i j with h | h | h
    · have := hl.newestFirst i j f x (by rw [List.getElem?_eq_getElem hi', hfe]) (by rw [List.getElem?_eq_getElem hj, hxe]) h hfid'
      exact ⟨by omega, by omega⟩
    · subst h
      have : x = f := by rw [← hxe, hfe]
      subst this
      exact ⟨Int.le_refl _, fun _ => rfl⟩
    · have := hbefore j h
      rw [hxe] at this
      simp at this
  have hfindx : ∀ x ∈ l, l.find? (fun y => y.id == x.id && y.ver == x.ver) = some x := by
    intro x hx
    cases h : l.find? (fun y => y.id == x.id && y.ver == x.ver) with
    | none => exact absurd (List.find?_eq_none.1 h x hx) (by simp)
    | some z =>
      have hz := List.mem_of_find?_eq_some h
      have hz2 := List.find?_some h
      simp at hz2
      obtain ⟨i, hi', hze⟩ := List.mem_iff_getElem.1 hz
      obtain ⟨j, hj, hxe⟩ := List.mem_iff_getElem.1 hx
      rcases Nat.lt_trichotomy i j with h | h | h
      · have := hl.newestFirst i j z x (by rw [List.getElem?_eq_getElem hi', hze]) (by rw [List.getElem?_eq_getElem hj, hxe]) h hz2.1
        omega
      · subst h; rw [← hze, hxe]
      · have := hl.newestFirst j i x z (by rw [List.getElem?_eq_getElem hj, hxe]) (by rw [List.getElem?_eq_getElem hi', hze]) h hz2.1.symm
        omega
  have hfirst : ∀ x ∈ l, ∃ f, l.find? (fun y => y.id == x.id) = some f := by
    intro x hx
    cases h : l.find? (fun y => y.id == x.id) with
    | none => exact absurd (List.find?_eq_none.1 h x hx) (by simp)
    | some f => exact ⟨f, rfl⟩
  refine ⟨?_, ?_, ?_, ?_⟩
  · intro x hx
    obtain ⟨f, hf⟩ := hfirst x hx
    obtain ⟨v, hv1, hv2, hv3⟩ := hi.present _ _ hf
    have hxf := (hmax x hx f hf).1
    have hx0 := hl.vers x hx
    unfold getSchema
    rw [hv1]
    dsimp only
    rw [if_neg (by intro e; rw [e] at hv2; simp at hv2), if_pos (by rw [hv2]; omega), if_neg (by omega), hv3 x.ver.toNat (by omega)]
    rw [Int.toNat_of_nonneg hx0, hfindx x hx]
    rfl
  · intro x hx hnewest v hneg
    obtain ⟨f, hf⟩ := hfirst x hx
    obtain ⟨w, hv1, hv2, hv3⟩ := hi.present _ _ hf
    have hfm := List.mem_of_find?_eq_some hf
    have hfid : f.id = x.id := by simpa using List.find?_some hf
    have h1 := hmax x hx f hf
    have h2 := hnewest f hfm hfid
    have hx0 := hl.vers x hx
    have := h1.2 (by omega)
    subst this
    unfold getSchema
    rw [hv1]
    dsimp only
    rw [if_neg (by intro e; rw [e] at hv2; simp at hv2), if_pos (by omega), if_pos hneg, List.getLast?_eq_getElem?, hv2,
      Nat.add_sub_cancel, hv3 x.ver.toNat (Nat.le_refl _), Int.toNat_of_nonneg hx0, hfindx x hx]
    rfl
  · intro id v h0 hno
    unfold getSchema
    cases h : l.find? (fun y => y.id == id) with
    | none => rw [hi.absent _ h]
    | some f =>
      obtain ⟨w, hv1, hv2, hv3⟩ := hi.present _ _ h
      rw [hv1]
      dsimp only
      split
      · rfl
      · split
        · rw [if_neg (by omega)]
          rename_i hgt
          rw [hv3 v.toNat (by omega)]
          have : l.find? (fun y => y.id == id && y.ver == ((v.toNat : Nat) : Int)) = none := by
            rw [List.find?_eq_none]
            intro y hy hc
            simp at hc
            exact hno y hy hc.1 (by omega)
          rw [this]; rfl
        · rfl
  · intro id v hno
    unfold getSchema
    rw [hi.absent id (by rw [List.find?_eq_none]; intro y hy; simpa using hno y hy)]

/-- **C57.** After the tags of a space have been loaded from a listing as promised, the cache returns each listed version and nothing else,
and the newest one for a negative version. -/
theorem C57_tags (space : Int) (maps : SMaps) {l : List (SItem S)} (hl : Listing l) :
    ∃ m maps', loadTags space maps l = some (m, maps') ∧ Answered l m := by
  obtain ⟨st, h1, h2⟩ := run_inv (tagStep_stores space) l [] ⟨[], -1, [], maps⟩ (by simpa using hl) start_inv
  refine ⟨st.schemas, st.maps, ?_, answers hl (by simpa using h2)⟩
  unfold loadTags; rw [h1]; rfl

/-- **C57.** The same for edges. -/
theorem C57_edges (space : Int) (maps : SMaps) {l : List (SItem S)} (hl : Listing l) :
    ∃ m maps', loadEdges space maps l = some (m, maps') ∧ Answered l m := by
  obtain ⟨st, h1, h2⟩ := run_inv (edgeStep_stores space) l [] ⟨[], -1, [], ⟨maps.idOf, maps.nameOf, maps.newest, maps.all.set space []⟩⟩
    (by simpa using hl) start_inv
  refine ⟨st.schemas, st.maps, ?_, answers hl (by simpa using h2)⟩
  unfold loadEdges; rw [h1]; rfl

/-! ## Names, ids and newest versions, for any listing that loads -/

/-- The newest version among the listed ones. -/
def IsNewest (l : List (SItem S)) (id v : Int) : Prop := (∃ x ∈ l, x.id = id ∧ x.ver = v) ∧ ∀ x ∈ l, x.id = id → x.ver ≤ v

structure MInv (space : Int) (m0 : SMaps) (P : List (SItem S)) (m : SMaps) : Prop where
  idOf : ∀ n, m.idOf.find (space, n) = (P.find? (fun y => y.name == n)).map SItem.id
  nameOf : ∀ i, m.nameOf.find (space, i) = (P.find? (fun y => y.id == i)).map SItem.name
  other : ∀ s, s ≠ space → (∀ n, m.idOf.find (s, n) = m0.idOf.find (s, n)) ∧ (∀ i, m.nameOf.find (s, i) = m0.nameOf.find (s, i)) ∧
    (∀ i, m.newest.find (s, i) = m0.newest.find (s, i)) ∧ m.all.find s = m0.all.find s

theorem find_snoc {P : List (SItem S)} {x : SItem S} (p : SItem S → Bool) :
    (P ++ [x]).find? p = (P.find? p).or (if p x then some x else none) := by
  rw [List.find?_append]
  cases h : p x <;> simp [h]

theorem putNames_inv {space : Int} {m0 : SMaps} {P : List (SItem S)} {m : SMaps} {x : SItem S} (hi : MInv space m0 P m) :
    MInv space m0 (P ++ [x]) (putNames m space x) := by
  refine ⟨?_, ?_, ?_⟩
  · intro n
    unfold putNames
    dsimp only
    rw [AMap.find_emplace, hi.idOf, hi.idOf, find_snoc]
    by_cases e : x.name = n
    · subst e
      rw [if_pos rfl]
      cases P.find? (fun y => y.name == x.name) <;> simp
    · have : ¬ (space, x.name) = (space, n) := by intro h; exact e (Prod.mk.inj h).2
      rw [if_neg this]
      simp [e]
  · intro n
    unfold putNames
    dsimp only
    rw [AMap.find_emplace, hi.nameOf, hi.nameOf, find_snoc]
    by_cases e : x.id = n
    · subst e
      rw [if_pos rfl]
      cases P.find? (fun y => y.id == x.id) <;> simp
    · have : ¬ (space, x.id) = (space, n) := by intro h; exact e (Prod.mk.inj h).2
      rw [if_neg this]
      simp [e]
  · intro s hs
    obtain ⟨h1, h2, h3, h4⟩ := hi.other s hs
    refine ⟨?_, ?_, h3, h4⟩
    · intro n
      unfold putNames; dsimp only
      rw [AMap.find_emplace, if_neg (by intro h; exact hs (Prod.mk.inj h).1.symm)]
      exact h1 n
    · intro n
      unfold putNames; dsimp only
      rw [AMap.find_emplace, if_neg (by intro h; exact hs (Prod.mk.inj h).1.symm)]
      exact h2 n

/-- The newer of a version known so far, if any, and another one. -/
def newer : Option Int → Int → Int
  | some v, w => if v < w then w else v
  | none, w => w

/-- What is known of the newest version of an id. -/
def NewestOf (P : List (SItem S)) (i : Int) : Option Int → Prop
  | some v => IsNewest P i v
  | none => ∀ y ∈ P, y.id ≠ i

theorem putNewest_find (m : AMap (Int × Int) Int) (space : Int) (x : SItem S) (s i : Int) :
    (putNewest m space x).find (s, i) = if s = space ∧ i = x.id then some (newer (m.find (space, x.id)) x.ver) else m.find (s, i) := by
  unfold putNewest
  by_cases e : s = space ∧ i = x.id
  · obtain ⟨rfl, rfl⟩ := e
    rw [if_pos ⟨rfl, rfl⟩]
    cases h : m.find (s, x.id) with
    | none => dsimp only; rw [AMap.find_emplace, if_pos rfl, h]; rfl
    | some v =>
      dsimp only
      split
      · rename_i hlt; rw [AMap.find_set, if_pos rfl, newer, if_pos hlt]
      · rename_i hlt; rw [h, newer, if_neg hlt]
  · rw [if_neg e]
    have hne : ¬ (space, x.id) = (s, i) := by intro h; obtain ⟨h1, h2⟩ := Prod.mk.inj h; exact e ⟨h1.symm, h2.symm⟩
    split
    · split
      · rw [AMap.find_set, if_neg hne]
      · rfl
    · rw [AMap.find_emplace, if_neg hne]

theorem newest_snoc {P : List (SItem S)} {x : SItem S} {o : Option Int} {i : Int} (hx : x.id = i)
    (h : NewestOf P i o) : IsNewest (P ++ [x]) i (newer o x.ver) := by
  cases o with
  | none =>
    refine ⟨⟨x, by simp, hx, rfl⟩, ?_⟩
    intro y hy e
    rcases List.mem_append.1 hy with hy | hy
    · exact absurd e (h y hy)
    · simp at hy; subst hy; exact Int.le_refl _
  | some v =>
    obtain ⟨⟨y, hy, hyi, hyv⟩, hmax⟩ := h
    have hn : newer (some v) x.ver = if v < x.ver then x.ver else v := rfl
    rw [hn]
    constructor
    · by_cases hlt : v < x.ver
      · exact ⟨x, by simp, hx, by rw [if_pos hlt]⟩
      · exact ⟨y, by simp [hy], hyi, by rw [if_neg hlt]; exact hyv⟩
    · intro z hz e
      rcases List.mem_append.1 hz with hz | hz
      · have := hmax z hz e; split <;> omega
      · simp at hz; subst hz; split <;> omega

theorem newest_other {P : List (SItem S)} {x : SItem S} {o : Option Int} {i : Int} (hx : x.id ≠ i)
    (h : NewestOf P i o) : NewestOf (P ++ [x]) i o := by
  cases o with
  | none =>
    intro y hy
    rcases List.mem_append.1 hy with hy | hy
    · exact h y hy
    · simp at hy; subst hy; exact hx
  | some v =>
    obtain ⟨⟨y, hy, hyi, hyv⟩, hmax⟩ := h
    refine ⟨⟨y, by simp [hy], hyi, hyv⟩, ?_⟩
    intro z hz e
    rcases List.mem_append.1 hz with hz | hz
    · exact hmax z hz e
    · simp at hz; subst hz; exact absurd e hx

def NewestInv (space : Int) (P : List (SItem S)) (m : SMaps) : Prop :=
  ∀ i, NewestOf P i (m.newest.find (space, i))

theorem tags_maps_inv {space : Int} {m0 : SMaps} : ∀ (R P : List (SItem S)) (st st' : SState S), MInv space m0 P st.maps →
    NewestInv space P st.maps → runItems (tagStep space) st R = some st' → MInv space m0 (P ++ R) st'.maps ∧ NewestInv space (P ++ R) st'.maps
  | [], P, st, st', h1, h2, h => by rw [runItems] at h; cases h; simpa using ⟨h1, h2⟩
  | x :: R, P, st, st', h1, h2, h => by
    rw [runItems] at h
    obtain ⟨s1, hs, hr⟩ := Option.bind_eq_some_iff.1 h
    unfold tagStep at hs
    obtain ⟨m, hm, rfl⟩ := Option.map_eq_some_iff.1 hs
    have hn := putNames_inv (x := x) h1
    have := tags_maps_inv (space := space) (m0 := m0) R (P ++ [x]) _ st' ?_ ?_ hr
    · simpa using this
    · refine ⟨hn.idOf, hn.nameOf, fun s hs => ?_⟩
      obtain ⟨a, b, c, d⟩ := hn.other s hs
      refine ⟨a, b, fun i => ?_, d⟩
      dsimp only
      rw [putNewest_find, if_neg (by intro h; exact hs h.1)]
      exact c i
    · intro i
      dsimp only
      rw [putNewest_find]
      have := h2 i
      by_cases e : x.id = i
      · subst e
        rw [if_pos ⟨rfl, rfl⟩]
        exact newest_snoc rfl this
      · rw [if_neg (by intro h; exact e h.2.symm)]
        exact newest_other e this

/-- **C57.** After loading tags: a name stands for the first tag listed with it, an id for the first name listed with it, the newest version
of an id is the greatest listed one; other spaces are not affected. -/
theorem C57_tag_maps {space : Int} {maps maps' : SMaps} {l : List (SItem S)} {m : Schemas S} (hf : maps.Fresh space)
    (h : loadTags space maps l = some (m, maps')) :
    (∀ n, idByName maps' space n = (l.find? (fun y => y.name == n)).map SItem.id) ∧
    (∀ i, nameById maps' space i = (l.find? (fun y => y.id == i)).map SItem.name) ∧
    (∀ i v, latestVersion maps' space i = some v ↔ IsNewest l i v) ∧
    (∀ i, latestVersion maps' space i = none ↔ ∀ y ∈ l, y.id ≠ i) ∧
    (∀ s, s ≠ space → (∀ n, idByName maps' s n = idByName maps s n) ∧ (∀ i, nameById maps' s i = nameById maps s i) ∧
      (∀ i, latestVersion maps' s i = latestVersion maps s i)) := by
  unfold loadTags at h
  obtain ⟨st, hr, he⟩ := Option.map_eq_some_iff.1 h
  obtain ⟨rfl, rfl⟩ := Prod.mk.inj he
  obtain ⟨h1, h2⟩ := tags_maps_inv (space := space) (m0 := maps) l [] ⟨[], -1, [], maps⟩ st
    ⟨by intro n; simpa using hf.1 n, by intro n; simpa using hf.2.1 n, fun s _ => ⟨fun _ => rfl, fun _ => rfl, fun _ => rfl, rfl⟩⟩
    (by intro i; dsimp only; rw [hf.2.2 i]; simp [NewestOf]) hr
  rw [List.nil_append] at h1 h2
  refine ⟨h1.idOf, h1.nameOf, ?_, ?_, ?_⟩
  · intro i v
    have := h2 i
    unfold latestVersion
    cases hh : st.maps.newest.find (space, i) with
    | none =>
      rw [hh] at this
      constructor
      · intro h; cases h
      · intro hn; obtain ⟨⟨x, hx, hxi, _⟩, _⟩ := hn; exact absurd hxi (this x hx)
    | some w =>
      rw [hh] at this
      constructor
      · intro h; cases h; exact this
      · intro hn
        obtain ⟨⟨x, hx, hxi, hxv⟩, hmx⟩ := hn
        obtain ⟨⟨y, hy, hyi, hyv⟩, hmy⟩ := this
        have a := hmx y hy hyi
        have b := hmy x hx hxi
        congr 1; omega
  · intro i
    have := h2 i
    unfold latestVersion
    cases hh : st.maps.newest.find (space, i) with
    | none => rw [hh] at this; exact ⟨fun _ => this, fun _ => rfl⟩
    | some w =>
      rw [hh] at this
      constructor
      · intro h; cases h
      · intro hn; obtain ⟨⟨x, hx, hxi, _⟩, _⟩ := this; exact absurd hxi (hn x hx)
  · intro s hs
    obtain ⟨a, b, c, _⟩ := h1.other s hs
    exact ⟨a, b, c⟩

/-- The first item of each id. -/
def firsts : List (SItem S) → List (SItem S)
  | [] => []
  | x :: xs => x :: (firsts xs).filter (fun y => y.id != x.id)

theorem firsts_snoc : ∀ (P : List (SItem S)) (x : SItem S), firsts (P ++ [x]) = firsts P ++ (if P.any (fun y => y.id == x.id) then [] else [x])
  | [], x => rfl
  | p :: P, x => by
    rw [List.cons_append, firsts, firsts_snoc P x, firsts, List.filter_append, List.cons_append, List.any_cons]
    by_cases e : p.id = x.id
    · cases hP : P.any (fun y => y.id == x.id) <;> simp [e]
    · have e' : ¬ x.id = p.id := fun h => e h.symm
      cases hP : P.any (fun y => y.id == x.id) <;> simp [e, e']

structure EInv (space : Int) (P : List (SItem S)) (st : SState S) : Prop where
  edges : ∀ i, (space, i) ∈ st.edges ↔ ∃ y ∈ P, y.id = i
  newest : ∀ i, st.maps.newest.find (space, i) = (P.find? (fun y => y.id == i)).map SItem.ver
  all : st.maps.all.find space = some ((firsts P).map SItem.name)

theorem edges_maps_inv {space : Int} {m0 : SMaps} : ∀ (R P : List (SItem S)) (st st' : SState S), MInv space m0 P st.maps →
    EInv space P st → runItems (edgeStep space) st R = some st' → MInv space m0 (P ++ R) st'.maps ∧ EInv space (P ++ R) st'
  | [], P, st, st', h1, h2, h => by rw [runItems] at h; cases h; simpa using ⟨h1, h2⟩
  | x :: R, P, st, st', h1, h2, h => by
    rw [runItems] at h
    obtain ⟨s1, hs, hr⟩ := Option.bind_eq_some_iff.1 h
    unfold edgeStep at hs
    obtain ⟨m, hm, hs1⟩ := Option.map_eq_some_iff.1 hs
    have hn := putNames_inv (x := x) h1
    dsimp only at hs1
    have : MInv space m0 (P ++ [x]) s1.maps ∧ EInv space (P ++ [x]) s1 := by
      by_cases hin : (space, x.id) ∈ st.edges
      · rw [if_pos hin] at hs1
        subst hs1
        obtain ⟨z, hz, hzi⟩ := (h2.edges x.id).1 hin
        refine ⟨hn, ⟨?_, ?_, ?_⟩⟩
        · intro i
          rw [h2.edges]
          constructor
          · rintro ⟨y, hy, e⟩; exact ⟨y, by simp [hy], e⟩
          · rintro ⟨y, hy, e⟩
            rcases List.mem_append.1 hy with hy | hy
            · exact ⟨y, hy, e⟩
            · simp at hy; subst hy; exact ⟨z, hz, hzi.trans e⟩
        · intro i
          rw [find_snoc]
          show st.maps.newest.find (space, i) = _
          rw [h2.newest]
          cases hfi : P.find? (fun y => y.id == i) with
          | some f => rfl
          | none =>
            have : ¬ x.id = i := by
              intro e
              exact absurd (List.find?_eq_none.1 hfi z hz) (by simp [hzi, e])
            simp [this]
        · rw [firsts_snoc, if_pos (by rw [List.any_eq_true]; exact ⟨z, hz, by simp [hzi]⟩), List.append_nil]
          exact h2.all
      · rw [if_neg hin] at hs1
        subst hs1
        have hno : ∀ y ∈ P, y.id ≠ x.id := fun y hy e => hin ((h2.edges x.id).2 ⟨y, hy, e⟩)
        have hnf : P.find? (fun y => y.id == x.id) = none := by
          rw [List.find?_eq_none]; intro y hy; simpa using hno y hy
        constructor
        · refine ⟨hn.idOf, hn.nameOf, fun s hs => ?_⟩
          obtain ⟨a, b, c, d⟩ := hn.other s hs
          refine ⟨a, b, fun i => ?_, ?_⟩
          · dsimp only
            rw [putNewest_find, if_neg (by intro h; exact hs h.1)]
            exact c i
          · dsimp only
            rw [AMap.find_update, if_neg (fun h => hs h.symm)]
            exact d
        · refine ⟨?_, ?_, ?_⟩
          · intro i
            rw [List.mem_cons, h2.edges]
            constructor
            · rintro (h | ⟨y, hy, e⟩)
              · exact ⟨x, by simp, (Prod.mk.inj h).2.symm⟩
              · exact ⟨y, by simp [hy], e⟩
            · rintro ⟨y, hy, e⟩
              rcases List.mem_append.1 hy with hy | hy
              · exact .inr ⟨y, hy, e⟩
              · simp at hy; subst hy; exact .inl (by rw [e])
          · intro i
            dsimp only
            rw [putNewest_find, find_snoc]
            show (if _ then some (newer (st.maps.newest.find (space, x.id)) x.ver) else st.maps.newest.find (space, i)) = _
            rw [h2.newest, h2.newest, hnf]
            by_cases e : x.id = i
            · subst e
              rw [if_pos ⟨rfl, rfl⟩, hnf]; simp [newer]
            · rw [if_neg (by intro h; exact e h.2.symm)]
              simp [e]
          · rw [firsts_snoc, if_neg (by
              rw [Bool.not_eq_true, List.any_eq_false]; intro y hy; simpa using hno y hy)]
            dsimp only
            rw [AMap.find_update, if_pos rfl]
            show some (((st.maps.all.find space).getD []) ++ [x.name]) = _
            rw [h2.all]; simp
    have := edges_maps_inv (space := space) (m0 := m0) R (P ++ [x]) s1 st' this.1 this.2 hr
    simpa using this

/-- **C57.** After loading edges: names and ids as for tags; `getAllEdge` gives each edge type once, in the order of the listing, under its
first listed name; the newest version of an edge type is that of its first listed item. -/
theorem C57_edge_maps {space : Int} {maps maps' : SMaps} {l : List (SItem S)} {m : Schemas S} (hf : maps.Fresh space)
    (h : loadEdges space maps l = some (m, maps')) :
    (∀ n, idByName maps' space n = (l.find? (fun y => y.name == n)).map SItem.id) ∧
    (∀ i, nameById maps' space i = (l.find? (fun y => y.id == i)).map SItem.name) ∧
    (∀ i, latestVersion maps' space i = (l.find? (fun y => y.id == i)).map SItem.ver) ∧
    allEdges maps' space = some ((firsts l).map SItem.name) ∧
    (∀ s, s ≠ space → (∀ n, idByName maps' s n = idByName maps s n) ∧ (∀ i, nameById maps' s i = nameById maps s i) ∧
      (∀ i, latestVersion maps' s i = latestVersion maps s i) ∧ allEdges maps' s = allEdges maps s) := by
  unfold loadEdges at h
  obtain ⟨st, hr, he⟩ := Option.map_eq_some_iff.1 h
  obtain ⟨rfl, rfl⟩ := Prod.mk.inj he
  obtain ⟨h1, h2⟩ := edges_maps_inv (space := space) (m0 := maps) l [] _ st
    ⟨by intro n; simpa using hf.1 n, by intro n; simpa using hf.2.1 n, fun s hs => ⟨fun _ => rfl, fun _ => rfl, fun _ => rfl, by
      dsimp only; rw [AMap.find_set, if_neg (fun h => hs h.symm)]⟩⟩
    ⟨by simp, by intro i; simpa using hf.2.2 i, by dsimp only; rw [AMap.find_set, if_pos rfl]; rfl⟩ hr
  rw [List.nil_append] at h1 h2
  exact ⟨h1.idOf, h1.nameOf, h2.newest, h2.all, h1.other⟩

/-- **C57.** For a listing as promised the newest version of an edge type is the greatest one too. -/
theorem C57_edge_newest {space : Int} {maps maps' : SMaps} {l : List (SItem S)} {m : Schemas S} (hf : maps.Fresh space) (hl : Listing l)
    (h : loadEdges space maps l = some (m, maps')) (i v : Int) : latestVersion maps' space i = some v ↔ IsNewest l i v := by
  rw [(C57_edge_maps hf h).2.2.1]
  constructor
  · intro he
    obtain ⟨f, hf1, rfl⟩ := Option.map_eq_some_iff.1 he
    rw [List.find?_eq_some_iff_getElem] at hf1
    obtain ⟨hfid, k, hk, hfe, hbefore⟩ := hf1
    refine ⟨⟨f, hfe ▸ List.getElem_mem hk, by simpa using hfid, rfl⟩, ?_⟩
    intro x hx hxi
    obtain ⟨j, hj, hxe⟩ := List.mem_iff_getElem.1 hx
    rcases Nat.lt_trichotomy k j with h | h | h
    · have := hl.newestFirst k j f x (by rw [List.getElem?_eq_getElem hk, hfe]) (by rw [List.getElem?_eq_getElem hj, hxe]) h
        ((by simpa using hfid : f.id = i).trans hxi.symm)
      omega
    · subst h; rw [← hxe, hfe]; exact Int.le_refl _
    · have := hbefore j h
      rw [hxe] at this
      simp [hxi] at this
  · rintro ⟨⟨x, hx, hxi, hxv⟩, hmax⟩
    cases hc : l.find? (fun y => y.id == i) with
    | none => exact absurd (List.find?_eq_none.1 hc x hx) (by simp [hxi])
    | some f =>
      have hfm := List.mem_of_find?_eq_some hc
      have hfid : f.id = i := by simpa using List.find?_some hc
      have h1 := hmax f hfm hfid
      rw [List.find?_eq_some_iff_getElem] at hc
      obtain ⟨_, k, hk, hfe, hbefore⟩ := hc
      obtain ⟨j, hj, hxe⟩ := List.mem_iff_getElem.1 hx
      have h2 : x.ver ≤ f.ver := by
        rcases Nat.lt_trichotomy k j with h | h | h
        · have := hl.newestFirst k j f x (by rw [List.getElem?_eq_getElem hk, hfe]) (by rw [List.getElem?_eq_getElem hj, hxe]) h
            (hfid.trans hxi.symm)
          omega
        · subst h; rw [← hxe, hfe]; exact Int.le_refl _
        · have := hbefore j h
          rw [hxe] at this
          simp [hxi] at this
      show some f.ver = some v
      congr 1; omega

/-- Two tags, one with three versions (version 1 is missing), listed as promised. -/
def sampleListing : List (SItem Nat) := [⟨5, 3, ascii "a", 53⟩, ⟨5, 2, ascii "a", 52⟩, ⟨5, 0, ascii "a", 50⟩, ⟨2, 0, ascii "b", 20⟩]

theorem listing_of_check {l : List (SItem S)} (h1 : l.all (fun x => x.id != -1 && decide (0 ≤ x.ver)) = true)
    (h2 : (List.range l.length).all (fun i => (List.range l.length).all fun j => match l[i]?, l[j]? with
      | some x, some y => !(decide (i < j) && x.id == y.id) || decide (y.ver < x.ver)
      | _, _ => true) = true)
    (h3 : (List.range l.length).all (fun i => (List.range l.length).all fun j => (List.range l.length).all fun k => match l[i]?, l[j]?, l[k]? with
      | some x, some y, some z => !(decide (i < j) && decide (j < k) && x.id == z.id) || y.id == x.id
      | _, _, _ => true) = true) : Listing l := by
  rw [List.all_eq_true] at h1 h2 h3
  refine ⟨?_, ?_, ?_, ?_⟩
  · intro x hx; have := h1 x hx; simp at this; exact this.1
  · intro x hx; have := h1 x hx; simp at this; exact this.2
  · intro i j x y hi hj hij e
    have := h2 i (List.mem_range.2 (List.getElem?_eq_some_iff.1 hi).1)
    rw [List.all_eq_true] at this
    have := this j (List.mem_range.2 (List.getElem?_eq_some_iff.1 hj).1)
    rw [hi, hj] at this
    simpa [hij, e] using this
  · intro i j k x y z hi hj hk hij hjk e
    have := h3 i (List.mem_range.2 (List.getElem?_eq_some_iff.1 hi).1)
    rw [List.all_eq_true] at this
    have := this j (List.mem_range.2 (List.getElem?_eq_some_iff.1 hj).1)
    rw [List.all_eq_true] at this
    have := this k (List.mem_range.2 (List.getElem?_eq_some_iff.1 hk).1)
    rw [hi, hj, hk] at this
    simpa [hij, hjk, e] using this

example : Listing sampleListing := listing_of_check (by decide +kernel) (by decide +kernel) (by decide +kernel)

example : ∃ m maps', loadTags 1 ⟨[], [], [], []⟩ sampleListing = some (m, maps') ∧ getSchema m 5 (-1) = some 53 ∧ getSchema m 5 0 = some 50 ∧
    getSchema m 5 1 = none ∧ latestVersion maps' 1 5 = some 3 ∧ idByName maps' 1 (ascii "b") = some 2 :=
  ⟨_, _, rfl, by decide +kernel, by decide +kernel, by decide +kernel, by decide +kernel, by decide +kernel⟩

/-- **C57, what the promise about the listing is needed for.** Listed oldest first the load writes outside the vector; listed with the
versions of a tag apart the newest schema is forgotten while its version is still reported as the newest. -/
theorem C57_order_needed :
    loadTags 1 ⟨[], [], [], []⟩ [⟨5, 0, ascii "a", 50⟩, ⟨5, 1, ascii "a", 51⟩] = none ∧
    (∃ m maps', loadTags 1 ⟨[], [], [], []⟩ [⟨5, 1, ascii "a", 51⟩, ⟨2, 0, ascii "b", 20⟩, ⟨5, 0, ascii "a", 50⟩] = some (m, maps') ∧
      latestVersion maps' 1 5 = some 1 ∧ getSchema m 5 1 = none ∧ getSchema m 5 (-1) = some 50) ∧
    (∃ m maps', loadEdges 1 ⟨[], [], [], []⟩ [⟨5, 0, ascii "a", 50⟩, ⟨2, 0, ascii "b", 20⟩, ⟨5, 1, ascii "a", 51⟩] = some (m, maps') ∧
      latestVersion maps' 1 5 = some 0 ∧ getSchema m 5 1 = some 51) :=
  ⟨by rfl, ⟨_, _, rfl, by decide +kernel, by decide +kernel, by decide +kernel⟩, ⟨_, _, rfl, by decide +kernel, by decide +kernel⟩⟩

end Meta
end Nebula
