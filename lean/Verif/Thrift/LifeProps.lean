import Verif.Thrift.Life
import Verif.Thrift.Props
/-! # C156: connections are closed when nobody has them any more, and once -/
namespace Nebula
namespace Thrift
namespace Life

/-- Some caller has the connection. -/
def Had (s : St) (l : Link) : Prop := l ∈ s.held

/-- The thread that made the connection would give it to a later call. -/
def Kept (s : St) (l : Link) : Prop := ∃ k, (s.mgr l.1).map.find k = some l.2

theorem any_find {m : AMap (Host × Nat) Conn} (h : m.NodupKeys) (x : Conn) : (m.any fun e => e.2 == x) = true ↔ ∃ k, m.find k = some x := by
  rw [List.any_eq_true]
  constructor
  · rintro ⟨⟨k, y⟩, hm, he⟩
    have : y = x := by simpa using he
    subst this
    exact ⟨k, AMap.mem_find h hm⟩
  · rintro ⟨k, hk⟩
    exact ⟨(k, x), AMap.find_mem hk, by simp⟩

theorem owned_iff {s : St} (h : ∀ t, (s.mgr t).map.NodupKeys) (l : Link) : s.owned l = true ↔ Had s l ∨ Kept s l := by
  unfold St.owned Had Kept
  rw [Bool.or_eq_true, any_find (h _)]
  simp

structure Inv (s : St) : Prop where
  ok : ∀ t, Ok (s.mgr t)
  madeLt : ∀ l ∈ s.made, l.2.id < (s.mgr l.1).next
  ids : (s.made.map fun l => (l.1, l.2.id)).Nodup
  held : ∀ l ∈ s.held, l ∈ s.made
  kept : ∀ t k x, (s.mgr t).map.find k = some x → (t, x) ∈ s.made
  nodup : s.closed.Nodup
  closed : ∀ l, l ∈ s.closed ↔ l ∈ s.made ∧ ¬ Had s l ∧ ¬ Kept s l

/-- What holds between the loss of a pointer to `l` and the check whether it was the last. -/
structure Mid (s : St) (l : Link) : Prop where
  ok : ∀ t, Ok (s.mgr t)
  madeLt : ∀ l ∈ s.made, l.2.id < (s.mgr l.1).next
  ids : (s.made.map fun l => (l.1, l.2.id)).Nodup
  held : ∀ l ∈ s.held, l ∈ s.made
  kept : ∀ t k x, (s.mgr t).map.find k = some x → (t, x) ∈ s.made
  nodup : s.closed.Nodup
  here : l ∈ s.made
  open_ : l ∉ s.closed
  closed : ∀ l', l' ≠ l → (l' ∈ s.closed ↔ l' ∈ s.made ∧ ¬ Had s l' ∧ ¬ Kept s l')

theorem inv_release {s : St} {l : Link} (h : Mid s l) : Inv (s.release l) := by
  unfold St.release
  have ho := owned_iff (fun t => (h.ok t).nodup) l
  split
  · next hs =>
    have hs := ho.1 hs
    refine ⟨h.ok, h.madeLt, h.ids, h.held, h.kept, h.nodup, fun l' => ?_⟩
    by_cases e : l' = l
    · subst e
      constructor
      · intro hc; exact absurd hc h.open_
      · rintro ⟨_, h1, h2⟩; rcases hs with hs | hs
        · exact absurd hs h1
        · exact absurd hs h2
    · exact h.closed l' e
  · next hs =>
    have hs : ¬ (Had s l ∨ Kept s l) := fun x => hs (ho.2 x)
    refine ⟨h.ok, h.madeLt, h.ids, h.held, h.kept, ?_, fun l' => ?_⟩
    · refine List.nodup_append.2 ⟨h.nodup, by simp, ?_⟩
      intro a ha b hb
      simp at hb
      subst hb
      rintro rfl
      exact h.open_ ha
    · rw [List.mem_append]
      by_cases e : l' = l
      · subst e
        exact iff_of_true (.inr (by simp)) ⟨h.here, fun x => hs (.inl x), fun x => hs (.inr x)⟩
      · rw [h.closed l' e]
        simp [e, Had, Kept]

theorem setMgr_same (s : St) (t : Nat) (g : Mgr) : (s.setMgr t g).mgr t = g := by simp [St.setMgr]

theorem setMgr_other (s : St) (t i : Nat) (g : Mgr) (h : i ≠ t) : (s.setMgr t g).mgr i = s.mgr i := by simp [St.setMgr, h]

theorem find_emplace_mono {m : AMap (Host × Nat) Conn} {k key : Host × Nat} {x n : Conn} (h : m.find k = some x) : (m.emplace key n).find k = some x := by
  rw [AMap.find_emplace]
  split
  · next hk => subst hk; rw [h]; rfl
  · exact h

theorem find_emplace_cases {m : AMap (Host × Nat) Conn} {k key : Host × Nat} {x n : Conn} (h : (m.emplace key n).find k = some x) :
    m.find k = some x ∨ x = n := by
  rw [AMap.find_emplace] at h
  split at h
  · next hk =>
    subst hk
    cases hm : m.find key with
    | some y => rw [hm] at h; exact .inl h
    | none => rw [hm] at h; exact .inr (Option.some.inj h).symm
  · exact .inl h

/-- A call that makes a connection `n`; `m` is what is left of the map of the thread, `old` what was taken out of it. -/
theorem call_new {s : St} (hi : Inv s) (t : Nat) (m : AMap (Host × Nat) Conn) (key : Host × Nat) (n : Conn) (old : Option Conn)
    (hnid : n.id = (s.mgr t).next) (hok : Ok ⟨m.emplace key n, (s.mgr t).next + 1⟩)
    (hm : ∀ k x, m.find k = some x → (s.mgr t).map.find k = some x)
    (hlost : ∀ k x, (s.mgr t).map.find k = some x → m.find k = some x ∨ old = some x)
    (hold : ∀ x, old = some x → ∃ k, (s.mgr t).map.find k = some x) :
    Inv (match old with
      | some x => ({ s.setMgr t ⟨m.emplace key n, (s.mgr t).next + 1⟩ with made := s.made ++ [(t, n)], held := (t, n) :: s.held } : St).release (t, x)
      | none => { s.setMgr t ⟨m.emplace key n, (s.mgr t).next + 1⟩ with made := s.made ++ [(t, n)], held := (t, n) :: s.held }) := by
  generalize hs2 : ({ s.setMgr t ⟨m.emplace key n, (s.mgr t).next + 1⟩ with made := s.made ++ [(t, n)], held := (t, n) :: s.held } : St) = s2
  have e1 : s2.mgr t = ⟨m.emplace key n, (s.mgr t).next + 1⟩ := by rw [← hs2]; exact setMgr_same _ _ _
  have e2 : ∀ i, i ≠ t → s2.mgr i = s.mgr i := by intro i h; rw [← hs2]; exact setMgr_other _ _ _ _ h
  have e3 : s2.made = s.made ++ [(t, n)] := by rw [← hs2]
  have e4 : s2.held = (t, n) :: s.held := by rw [← hs2]
  have e5 : s2.closed = s.closed := by rw [← hs2]; rfl
  have hnew : (t, n) ∉ s.made := fun h => by have := hi.madeLt _ h; simp [hnid] at this
  have a1 : ∀ i, Ok (s2.mgr i) := by
    intro i
    by_cases h : i = t
    · subst h; rw [e1]; exact hok
    · rw [e2 i h]; exact hi.ok i
  have a2 : ∀ l ∈ s2.made, l.2.id < (s2.mgr l.1).next := by
    intro l hl
    rw [e3] at hl
    rcases List.mem_append.1 hl with hl | hl
    · have := hi.madeLt l hl
      by_cases h : l.1 = t
      · rw [h, e1]; rw [h] at this; dsimp only; omega
      · rw [e2 _ h]; exact this
    · simp at hl; subst hl; rw [e1]; dsimp only; omega
  have a3 : (s2.made.map fun l => (l.1, l.2.id)).Nodup := by
    rw [e3, List.map_append, List.nodup_append]
    refine ⟨hi.ids, by simp, ?_⟩
    intro a ha b hb
    obtain ⟨l, hl, rfl⟩ := List.mem_map.1 ha
    simp at hb
    subst hb
    intro he
    have h := hi.madeLt l hl
    simp only [Prod.mk.injEq] at he
    rw [he.1, he.2, hnid] at h
    exact Nat.lt_irrefl _ h
  have a4 : ∀ l ∈ s2.held, l ∈ s2.made := by
    intro l hl
    rw [e4] at hl
    rw [e3]
    rcases List.mem_cons.1 hl with rfl | hl
    · simp
    · exact List.mem_append_left _ (hi.held l hl)
  have a5 : ∀ i k x, (s2.mgr i).map.find k = some x → (i, x) ∈ s2.made := by
    intro i k x h
    rw [e3]
    by_cases hit : i = t
    · subst hit
      rw [e1] at h
      rcases find_emplace_cases h with h | rfl
      · exact List.mem_append_left _ (hi.kept i k x (hm k x h))
      · simp
    · rw [e2 i hit] at h
      exact List.mem_append_left _ (hi.kept i k x h)
  have a6 : s2.closed.Nodup := by rw [e5]; exact hi.nodup
  have a7 : ∀ l, (∀ x, old = some x → l ≠ (t, x)) → (l ∈ s2.closed ↔ l ∈ s2.made ∧ ¬ Had s2 l ∧ ¬ Kept s2 l) := by
    intro l hl
    rw [e5, hi.closed, e3]
    unfold Had
    rw [e4]
    constructor
    · rintro ⟨b1, b2, b3⟩
      have hne : l ≠ (t, n) := by rintro rfl; exact hnew b1
      refine ⟨List.mem_append_left _ b1, ?_, ?_⟩
      · intro h
        rcases List.mem_cons.1 h with h | h
        · exact hne h
        · exact b2 h
      · rintro ⟨k, hk⟩
        by_cases h : l.1 = t
        · rw [h, e1] at hk
          rcases find_emplace_cases hk with hk | hk
          · exact b3 ⟨k, by rw [h]; exact hm _ _ hk⟩
          · exact hne (Prod.ext h hk)
        · rw [e2 _ h] at hk; exact b3 ⟨k, hk⟩
    · rintro ⟨b1, b2, b3⟩
      have hne : l ≠ (t, n) := by rintro rfl; exact b2 List.mem_cons_self
      refine ⟨?_, fun h => b2 (List.mem_cons_of_mem _ h), ?_⟩
      · rcases List.mem_append.1 b1 with h | h
        · exact h
        · exact absurd (by simpa using h) hne
      · rintro ⟨k, hk⟩
        by_cases h : l.1 = t
        · rw [h] at hk
          rcases hlost k _ hk with hk | hk
          · exact b3 ⟨k, by rw [h, e1]; exact find_emplace_mono hk⟩
          · exact hl _ hk (Prod.ext h rfl)
        · exact b3 ⟨k, by rw [e2 _ h]; exact hk⟩
  cases old with
  | none => exact ⟨a1, a2, a3, a4, a5, a6, fun l => a7 l fun x h => by cases h⟩
  | some x =>
    obtain ⟨k, hk⟩ := hold x rfl
    have hx := hi.kept t k x hk
    refine inv_release ⟨a1, a2, a3, a4, a5, a6, by rw [e3]; exact List.mem_append_left _ hx, ?_, fun l hl => a7 l fun y hy => by cases hy; exact hl⟩
    rw [e5, hi.closed]
    exact fun h => h.2.2 ⟨k, hk⟩

theorem inv_call {s : St} (hi : Inv s) (t : Nat) (c : Call) : Inv (s.call t c).2 := by
  have hg := hi.ok t
  unfold St.call erased
  dsimp only
  generalize he : c.evb.getD c.w.ownEvb = e
  have hok := ok_client c.w hg c.host c.evb c.compat c.timeout
  rcases lookup_cases c.w (s.mgr t).map c.host e with ⟨x, h1, _, h3⟩ | ⟨h1, h3⟩ | ⟨x, h1, _, h3⟩
  · -- found
    have hc : client c.w (s.mgr t) c.host c.evb c.compat c.timeout = (x, s.mgr t) := by
      unfold client; dsimp only; rw [he, h3]
    rw [h3, hc]
    dsimp only
    rw [if_neg (Nat.lt_irrefl _)]
    have hm : ∀ i, (s.setMgr t (s.mgr t)).mgr i = s.mgr i := by
      intro i; by_cases h : i = t
      · subst h; exact setMgr_same _ _ _
      · exact setMgr_other _ _ _ _ h
    have hk : (t, x) ∈ s.made := hi.kept t _ x h1
    refine ⟨fun i => by rw [hm]; exact hi.ok i, fun l hl => by rw [hm]; exact hi.madeLt l hl, hi.ids, ?_, fun i k y hy => ?_, hi.nodup, fun l => ?_⟩
    · intro l hl
      rcases List.mem_cons.1 hl with rfl | hl
      · exact hk
      · exact hi.held l hl
    · rw [hm] at hy; exact hi.kept i k y hy
    · have hkl : Kept s (t, x) := ⟨_, h1⟩
      show l ∈ s.closed ↔ l ∈ s.made ∧ ¬ (l ∈ (t, x) :: s.held) ∧ ¬ ∃ k, ((s.setMgr t (s.mgr t)).mgr l.1).map.find k = some l.2
      rw [hi.closed, hm]
      constructor
      · rintro ⟨a, b, d⟩
        refine ⟨a, ?_, d⟩
        intro hx
        rcases List.mem_cons.1 hx with rfl | hx
        · exact d hkl
        · exact b hx
      · rintro ⟨a, b, d⟩
        exact ⟨a, fun hx => b (List.mem_cons_of_mem _ hx), d⟩
  · have hc : client c.w (s.mgr t) c.host c.evb c.compat c.timeout = (⟨(s.mgr t).next, resolved c.w c.host, e, c.compat, c.timeout⟩,
        ⟨(s.mgr t).map.emplace (resolved c.w c.host, e) ⟨(s.mgr t).next, resolved c.w c.host, e, c.compat, c.timeout⟩, (s.mgr t).next + 1⟩) := by
      unfold client; dsimp only; rw [he, h3]
    rw [hc] at hok
    rw [h3, h1, hc]
    dsimp only at hok ⊢
    rw [if_pos (Nat.lt_succ_self _)]
    exact call_new hi t _ _ _ none rfl hok (fun _ _ h => h) (fun _ _ h => .inl h) (fun _ h => by cases h)
  · have hc : client c.w (s.mgr t) c.host c.evb c.compat c.timeout = (⟨(s.mgr t).next, resolved c.w c.host, e, c.compat, c.timeout⟩,
        ⟨((s.mgr t).map.erase (c.host, e)).emplace (resolved c.w c.host, e) ⟨(s.mgr t).next, resolved c.w c.host, e, c.compat, c.timeout⟩, (s.mgr t).next + 1⟩) := by
      unfold client; dsimp only; rw [he, h3]
    rw [hc] at hok
    rw [h3, h1, hc]
    dsimp only at hok ⊢
    rw [if_pos (Nat.lt_succ_self _)]
    refine call_new hi t _ _ _ (some x) rfl hok (fun k y h => ?_) (fun k y h => ?_) (fun y h => by cases h; exact ⟨_, h1⟩)
    · rw [AMap.find_erase hg.nodup] at h
      split at h
      · cases h
      · exact h
    · rw [AMap.find_erase hg.nodup]
      split
      · next hk => subst hk; rw [h1] at h; exact .inr h
      · exact .inl h

theorem inv_step {s s' : St} {e : Ev} (hi : Inv s) (st : Step s e s') : Inv s' := by
  cases st with
  | call => exact inv_call hi _ _
  | copy hl =>
    rename_i l
    refine ⟨hi.ok, hi.madeLt, hi.ids, ?_, hi.kept, hi.nodup, fun l' => ?_⟩
    · intro l' h
      rcases List.mem_cons.1 h with rfl | h
      · exact hi.held _ hl
      · exact hi.held _ h
    · show l' ∈ s.closed ↔ l' ∈ s.made ∧ ¬ (l' ∈ l :: s.held) ∧ ¬ Kept s l'
      rw [hi.closed]
      have : l' ∈ l :: s.held ↔ Had s l' := by
        constructor
        · intro h
          rcases List.mem_cons.1 h with rfl | h
          · exact hl
          · exact h
        · exact List.mem_cons_of_mem _
      rw [this]
  | drop hl =>
    rename_i l
    refine inv_release ⟨hi.ok, hi.madeLt, hi.ids, fun l' h => hi.held l' (List.mem_of_mem_erase h), hi.kept, hi.nodup, hi.held l hl, ?_, fun l' hne => ?_⟩
    · intro h; exact ((hi.closed l).1 h).2.1 hl
    · show l' ∈ s.closed ↔ l' ∈ s.made ∧ ¬ (l' ∈ s.held.erase l) ∧ ¬ Kept s l'
      rw [hi.closed, List.mem_erase_of_ne hne]
      rfl
  | evict hk =>
    rename_i t k x
    have hfe : ∀ k', ((s.mgr t).map.erase k).find k' = if k = k' then none else (s.mgr t).map.find k' := fun k' => AMap.find_erase (hi.ok t).nodup k k'
    have hsub : ∀ k' y, ((s.mgr t).map.erase k).find k' = some y → (s.mgr t).map.find k' = some y := by
      intro k' y h
      rw [hfe] at h
      split at h
      · cases h
      · exact h
    refine inv_release ⟨?_, ?_, hi.ids, hi.held, ?_, hi.nodup, hi.kept t k x hk, ?_, fun l' hne => ?_⟩
    · intro i
      by_cases h : i = t
      · subst h; rw [setMgr_same]
        exact ⟨AMap.nodup_erase (hi.ok i).nodup _, fun k' c hc => (hi.ok i).entry k' c (hsub k' c hc)⟩
      · rw [setMgr_other _ _ _ _ h]; exact hi.ok i
    · intro l hl
      have := hi.madeLt l hl
      by_cases h : l.1 = t
      · rw [h, setMgr_same]; rw [h] at this; exact this
      · rw [setMgr_other _ _ _ _ h]; exact this
    · intro i k' y h
      by_cases hit : i = t
      · subst hit; rw [setMgr_same] at h; exact hi.kept i k' y (hsub k' y h)
      · rw [setMgr_other _ _ _ _ hit] at h; exact hi.kept i k' y h
    · intro h; exact ((hi.closed _).1 h).2.2 ⟨k, hk⟩
    · show l' ∈ s.closed ↔ l' ∈ s.made ∧ ¬ Had s l' ∧ ¬ Kept _ l'
      rw [hi.closed]
      have : Kept s l' ↔ Kept (s.setMgr t { s.mgr t with map := (s.mgr t).map.erase k }) l' := by
        unfold Kept
        by_cases h : l'.1 = t
        · rw [h, setMgr_same]
          constructor
          · rintro ⟨k', h'⟩
            refine ⟨k', ?_⟩
            dsimp only
            rw [hfe]
            split
            · next hkk =>
              subst hkk
              rw [hk] at h'
              exact absurd (Prod.ext h (Option.some.inj h').symm) hne
            · exact h'
          · rintro ⟨k', h'⟩
            exact ⟨k', hsub k' _ h'⟩
        · rw [setMgr_other _ _ _ _ h]
      rw [this]

theorem inv_exec {hist : List Ev} {s : St} (h : Exec Step {} hist s) : Inv s := by
  refine Exec.invariant (P := fun _ s => Inv s) ?_ (fun _ _ _ _ _ hi st => inv_step hi st) h
  refine ⟨fun _ => ok_new, ?_, ?_, ?_, ?_, ?_, ?_⟩ <;> simp [Mgr.new, AMap.find]

/-! ## C156 -/

/-- C156: however threads ask for connections, copy and drop them, and maps are destroyed: the connections closed are those that no caller has and no thread
would give away again, and none is closed twice. -/
theorem C156_closed {hist : List Ev} {s : St} (h : Exec Step {} hist s) :
    s.closed.Nodup ∧ ∀ l, l ∈ s.closed ↔ l ∈ s.made ∧ ¬ Had s l ∧ ¬ Kept s l :=
  ⟨(inv_exec h).nodup, (inv_exec h).closed⟩

/-- C156: connections made are told apart, also those of different threads. -/
theorem C156_distinct {hist : List Ev} {s : St} (h : Exec Step {} hist s) : (s.made.map fun l => (l.1, l.2.id)).Nodup := (inv_exec h).ids

theorem release_keeps (s : St) (l : Link) : (s.release l).held = s.held ∧ (s.release l).mgr = s.mgr ∧ (s.release l).made = s.made := by
  unfold St.release; split <;> exact ⟨rfl, rfl, rfl⟩

theorem call_had (s : St) (t : Nat) (c : Call) : Had (s.call t c).2 (t, (s.call t c).1) := by
  unfold St.call Had
  dsimp only
  split
  · rw [(release_keeps _ _).1]; exact List.mem_cons_self
  · exact List.mem_cons_self

/-- C156: a connection given to a caller is open, and stays open for as long as the caller has it. -/
theorem C156_given {hist later : List Ev} {s s' : St} {t : Nat} {c : Call} {x : Conn} (h : Exec Step {} (hist ++ [.call t c x]) s)
    (hl : Exec Step s later s') (hd : .drop (t, x) ∉ later) : (t, x) ∉ s'.closed := by
  have hx : Had s (t, x) := by
    obtain ⟨s1, _, h2⟩ := h.split
    cases h2.single with
    | call => exact call_had _ _ _
  have hx' : Had s' (t, x) := by
    refine Exec.preserved (P := fun s => Had s (t, x)) (Q := fun e => e ≠ .drop (t, x)) ?_ hl (fun e he hq => hd (hq ▸ he)) hx
    intro a e b ha hq st
    cases st with
    | call =>
      unfold St.call Had
      dsimp only
      split
      · rw [(release_keeps _ _).1]; exact List.mem_cons_of_mem _ ha
      · exact List.mem_cons_of_mem _ ha
    | copy _ => exact List.mem_cons_of_mem _ ha
    | drop _ =>
      unfold Had
      rw [(release_keeps _ _).1]
      refine (List.mem_erase_of_ne ?_).2 ha
      intro h; exact hq (by rw [h])
    | evict _ =>
      unfold Had
      rw [(release_keeps _ _).1]
      exact ha
  intro hc
  exact (((inv_exec (h.append hl)).closed _).1 hc).2.1 hx'

/-- C156: when the callers have dropped all their pointers and the maps are gone, exactly the connections that were made have been closed. -/
theorem C156_all {hist : List Ev} {s : St} (h : Exec Step {} hist s) (h1 : s.held = []) (h2 : ∀ t, (s.mgr t).map = []) : s.closed.Perm s.made := by
  have hi := inv_exec h
  have hn : s.made.Nodup := by
    have := hi.ids
    rw [List.nodup_iff_pairwise_ne, List.pairwise_map] at this
    exact this.imp fun h e => h (by rw [e])
  refine (List.perm_ext_iff_of_nodup hi.nodup hn).2 fun l => ?_
  rw [hi.closed]
  constructor
  · exact fun x => x.1
  · intro hl
    refine ⟨hl, ?_, ?_⟩
    · unfold Had; rw [h1]; simp
    · rintro ⟨k, hk⟩; rw [h2] at hk; cases hk

/-- C156: a connection to a host name whose address the thread has a connection for already is closed as soon as its caller drops it. -/
theorem C156_name {hist : List Ev} {s : St} (h : Exec Step {} hist s) (t : Nat) (c : Call) (old : Conn)
    (hn : (s.mgr t).map.find (c.host, c.evb.getD c.w.ownEvb) = none)
    (hr : (s.mgr t).map.find (resolved c.w c.host, c.evb.getD c.w.ownEvb) = some old) :
    ∃ s', Exec Step s [.call t c (s.call t c).1, .drop (t, (s.call t c).1)] s' ∧ (t, (s.call t c).1) ∈ s'.closed := by
  refine ⟨_, .cons .call (.cons (.drop (call_had s t c)) .nil), ?_⟩
  have hex := h.append (.cons .call (.cons (.drop (call_had s t c)) .nil))
  have hi := inv_exec h
  rw [(inv_exec hex).closed]
  have hc : s.call t c = (⟨(s.mgr t).next, resolved c.w c.host, c.evb.getD c.w.ownEvb, c.compat, c.timeout⟩,
      { s.setMgr t ⟨(s.mgr t).map, (s.mgr t).next + 1⟩ with
        made := s.made ++ [(t, ⟨(s.mgr t).next, resolved c.w c.host, c.evb.getD c.w.ownEvb, c.compat, c.timeout⟩)]
        held := (t, ⟨(s.mgr t).next, resolved c.w c.host, c.evb.getD c.w.ownEvb, c.compat, c.timeout⟩) :: s.held }) := by
    simp [St.call, erased, client, lookup, hn, AMap.emplace, hr, St.setMgr]
  rw [hc]
  generalize hx : (⟨(s.mgr t).next, resolved c.w c.host, c.evb.getD c.w.ownEvb, c.compat, c.timeout⟩ : Conn) = n
  have hnid : n.id = (s.mgr t).next := by rw [← hx]
  have hnew : (t, n) ∉ s.made := fun h => by have := hi.madeLt _ h; simp [hnid] at this
  dsimp only
  refine ⟨?_, ?_, ?_⟩
  · rw [(release_keeps _ _).2.2]; simp
  · unfold Had
    rw [(release_keeps _ _).1]
    simp only [List.erase_cons_head]
    exact fun h => hnew (hi.held _ h)
  · rintro ⟨k, hk⟩
    rw [(release_keeps _ _).2.1] at hk
    dsimp only at hk
    rw [setMgr_same] at hk
    exact hnew (hi.kept t k n hk)

/-- Two calls for an address on one thread share a connection; when it is hung up a third call takes it out of the map, but it is closed only when the last
caller has dropped it. -/
example : ∃ hist s x y, Exec Step {} hist s ∧ s.made = [(1, x), (1, y)] ∧ s.closed = [(1, x)] ∧ Kept s (1, y) ∧ s.held = [(1, y)] := by
  let up : World := exWorld
  let down : World := { exWorld with up := fun _ => false }
  let c : Call := ⟨up, ⟨ascii "10.0.0.1", 45500⟩, none, false, 100⟩
  let d : Call := { c with w := down }
  let x : Conn := ⟨0, ⟨ascii "10.0.0.1", 45500⟩, 7, false, 100⟩
  let y : Conn := ⟨1, ⟨ascii "10.0.0.1", 45500⟩, 7, false, 100⟩
  let s0 : St := {}
  let s1 := (s0.call 1 c).2
  let s2 := (s1.call 1 c).2
  let s3 := (s2.call 1 d).2
  have e : Exec Step s0 [.call 1 c _, .call 1 c _, .call 1 d _, .drop (1, x), .drop (1, x)] _ :=
    .cons .call (.cons .call (.cons (s := s2) .call (.cons (s := s3) (.drop (l := (1, x)) (by decide +kernel)) (.cons (.drop (l := (1, x)) (by decide +kernel)) .nil))))
  exact ⟨_, _, x, y, e, by decide +kernel, by decide +kernel, ⟨(⟨ascii "10.0.0.1", 45500⟩, 7), by decide +kernel⟩, by decide +kernel⟩

/-- The case of `C156_name`: a thread with a connection to the address of `meta` is asked for one to `meta`.  And one of `C156_all`: the callers drop what they
have and the map is destroyed. -/
example : ∃ hist s, Exec Step {} hist s ∧ (s.mgr 1).map.find (⟨ascii "meta", 45500⟩, 7) = none ∧
    (s.mgr 1).map.find (resolved exWorld ⟨ascii "meta", 45500⟩, 7) ≠ none ∧
    ∃ more s', Exec Step s more s' ∧ s'.held = [] ∧ (s'.mgr 1).map = [] ∧ s'.made.length = 2 ∧ s'.closed = s'.made.reverse := by
  let c : Call := ⟨exWorld, ⟨ascii "10.0.0.1", 45500⟩, none, false, 100⟩
  let d : Call := { c with host := ⟨ascii "meta", 45500⟩ }
  let x : Conn := ⟨0, ⟨ascii "10.0.0.1", 45500⟩, 7, false, 100⟩
  let y : Conn := ⟨1, ⟨ascii "10.0.0.1", 45500⟩, 7, false, 100⟩
  let s0 : St := {}
  let s1 := (s0.call 1 c).2
  let s2 := (s1.call 1 d).2
  have e1 : Exec Step s0 [.call 1 c _] s1 := .cons .call .nil
  have e2 : Exec Step s1 [.call 1 d _, .drop (1, y), .drop (1, x), .evict 1 (⟨ascii "10.0.0.1", 45500⟩, 7)] _ :=
    .cons .call (.cons (s := s2) (.drop (l := (1, y)) (by decide +kernel)) (.cons (.drop (l := (1, x)) (by decide +kernel))
      (.cons (.evict (x := x) (by decide +kernel)) .nil)))
  exact ⟨_, _, e1, by decide +kernel, by decide +kernel, _, _, e2, by decide +kernel, by decide +kernel, by decide +kernel, by decide +kernel⟩

end Life
end Thrift
end Nebula
