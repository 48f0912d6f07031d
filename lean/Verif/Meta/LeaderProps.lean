import Verif.Meta.LeaderSpec
/-! # Properties of the leader cache (C51) -/
namespace Nebula
namespace Meta
open AMap

theorem reportedFrom_append (k : PartKey) : ∀ (a b : List LEv) (r), reportedFrom k r (a ++ b) = reportedFrom k (reportedFrom k r a) b
  | [], _, _ => rfl
  | e :: a, b, r => by cases e <;> simp only [List.cons_append, reportedFrom] <;> exact reportedFrom_append k a b _

/-- A leader chosen from the hosts of the part. -/
def Chosen (h : List LEv) (k : PartKey) (x : HostAddr) : Prop := ∃ t hosts, LEv.miss t k hosts ∈ h ∧ x ∈ hosts

theorem pick_mem {i i' : LeaderInfo} {k hosts x} (h : leaderPick i k hosts = some (i', x)) :
    x ∈ hosts ∧ i'.leaderMap = i.leaderMap.set k x ∧ ∃ n, n = ((i.picked.find k).getD 0 + 1) % hosts.length ∧ hosts[n]? = some x ∧ i'.picked = i.picked.set k n := by
  unfold leaderPick at h
  cases hg : hosts[((i.picked.find k).getD 0 + 1) % hosts.length]? with
  | none => rw [hg] at h; cases h
  | some y =>
    rw [hg] at h
    cases h
    exact ⟨List.mem_of_getElem? hg, rfl, _, rfl, hg, rfl⟩

structure LInv (h : List LEv) (s : LState) : Prop where
  nodup : s.info.leaderMap.NodupKeys
  waiting : ∀ t k hosts, s.waiting t = some (k, hosts) → LEv.miss t k hosts ∈ h

theorem linv {h : List LEv} {s : LState} (r : Exec LStep {} h s) (hp : ProperLoads h) : LInv h s := by
  refine Exec.invariant (P := fun h s => ProperLoads h → LInv h s) (fun _ => ⟨nodup_nil, by intro t k hosts h; cases h⟩) ?_ r hp
  intro h s e s' _ ih st hp
  have hp' : ProperLoads h := fun i hi => hp i (by simp [hi])
  obtain ⟨a, b⟩ := ih hp'
  have b' : ∀ t k hosts, s.waiting t = some (k, hosts) → LEv.miss t k hosts ∈ h ++ [e] := fun t k hosts hw => by simp [b t k hosts hw]
  cases st with
  | update => exact ⟨nodup_set a _ _, b'⟩
  | invalidate => exact ⟨nodup_erase a _, b'⟩
  | load => exact ⟨hp _ (by simp), b'⟩
  | hit => exact ⟨a, b'⟩
  | miss h1 h2 =>
    refine ⟨a, fun t' k' hosts' hw => ?_⟩
    dsimp only at hw
    split at hw
    · rename_i e; subst e; cases hw; simp
    · exact b' t' k' hosts' hw
  | pick h1 h2 =>
    refine ⟨by rw [(pick_mem h2).2.1]; exact nodup_set a _ _, fun t' k' hosts' hw => ?_⟩
    dsimp only at hw
    split at hw
    · cases hw
    · exact b' t' k' hosts' hw

/-- What a look-up finds after an uninterrupted history. -/
theorem lookup_word {h : List LEv} {s : LState} (r : Exec LStep {} h s) (hp : ProperLoads h) (ha : AtomicGets h) (k : PartKey) :
    (∀ x, reported k h = some x → leaderLookup s.info k = some x) ∧
    (∀ x, reported k h = none → leaderLookup s.info k = some x → Chosen h k x) := by
  refine Exec.invariant (P := fun h s => ProperLoads h → AtomicGets h →
    (∀ x, reported k h = some x → leaderLookup s.info k = some x) ∧
    (∀ x, reported k h = none → leaderLookup s.info k = some x → Chosen h k x)) ?_ ?_ r hp ha
  · intro _ _; refine ⟨?_, ?_⟩
    · intro x h; cases h
    · intro x _ h; cases h
  intro h s e s' hr ih st hp ha
  have hp' : ProperLoads h := fun i hi => hp i (by simp [hi])
  have ha' : AtomicGets h := by
    intro a b t k x hx
    exact ha a (b ++ [e]) t k x (by rw [hx]; simp)
  obtain ⟨p1, p2⟩ := ih hp' ha'
  have inv := linv hr hp'
  have hc : ∀ x, Chosen h k x → Chosen (h ++ [e]) k x := by
    rintro x ⟨t, hosts, h1, h2⟩; exact ⟨t, hosts, by simp [h1], h2⟩
  have hrep : ∀ e, reported k (h ++ [e]) = reportedFrom k (reported k h) [e] := fun e => reportedFrom_append k h [e] none
  rw [hrep]
  cases st with
  | update =>
    rename_i k' x'
    simp only [reportedFrom, leaderLookup, leaderUpdate, find_set]
    by_cases e : k' = k
    · simp [e]
    · simp only [e, if_false]; exact ⟨p1, fun x h1 h2 => hc x (p2 x h1 h2)⟩
  | invalidate =>
    rename_i k'
    simp only [reportedFrom, leaderLookup, leaderInvalidate, find_erase inv.nodup]
    by_cases e : k' = k
    · simp [e]
    · simp only [e, if_false]; exact ⟨p1, fun x h1 h2 => hc x (p2 x h1 h2)⟩
  | load =>
    simp only [reportedFrom, leaderLookup]
    exact ⟨fun _ h => h, fun x h1 h2 => by rw [h1] at h2; cases h2⟩
  | hit => simp only [reportedFrom]; exact ⟨p1, fun x h1 h2 => hc x (p2 x h1 h2)⟩
  | miss => simp only [reportedFrom]; exact ⟨p1, fun x h1 h2 => hc x (p2 x h1 h2)⟩
  | pick h1 h2 =>
    rename_i t k' hosts i x'
    obtain ⟨m1, m2, _⟩ := pick_mem h2
    obtain ⟨a', hosts', rfl⟩ := ha h [] t k' x' rfl
    simp only [reportedFrom, leaderLookup, m2, find_set]
    by_cases e : k' = k
    · subst e
      obtain ⟨s1, r1, r2⟩ := hr.split
      have st1 := r2.single
      cases st1 with
      | miss g1 g2 =>
        have ih1 := p1
        simp only [if_true]
        have hw : (PartKey × List HostAddr) := (k', hosts)
        refine ⟨fun x hx => ?_, fun x _ hx => ?_⟩
        · have := ih1 x hx
          rw [leaderLookup] at g1 this
          rw [g1] at this; cases this
        · cases hx
          refine ⟨t, hosts', by simp, ?_⟩
          simp only [if_true, Option.some.injEq, Prod.mk.injEq] at h1
          rw [h1.2]; exact m1
    · simp only [e, if_false]; exact ⟨p1, fun x h1 h2 => hc x (p2 x h1 h2)⟩

/-- C51 (part): as long as gets are not interrupted, the leader returned for a part is the one last reported since the last
invalidation or, without one, one of the hosts of the part chosen by an earlier get.  Missing: interrupted gets, where the code goes
wrong (`C51_get_violated`). -/
theorem C51_get_partial {h : List LEv} {s s' : LState} (r : Exec LStep {} h s) (hp : ProperLoads h) (ha : AtomicGets h)
    {k : PartKey} {x : HostAddr} (st : LStep s (.hit k x) s') :
    reported k h = some x ∨ (reported k h = none ∧ ∃ t hosts, LEv.miss t k hosts ∈ h ∧ x ∈ hosts) := by
  obtain ⟨p1, p2⟩ := lookup_word r hp ha k
  cases st with
  | hit hl =>
    cases hr : reported k h with
    | none => exact .inr ⟨rfl, p2 x hr hl⟩
    | some y => have := p1 y hr; rw [hl] at this; cases this; exact .inl rfl

/-- C51: for every schedule, a get that has to choose returns one of the hosts of the part, and only a part without hosts is not
served. -/
theorem C51_pick {h : List LEv} {s s' : LState} (r : Exec LStep {} h s) (hp : ProperLoads h) {t : Nat} {k : PartKey} {x : HostAddr}
    (st : LStep s (.pick t k x) s') : ∃ hosts, LEv.miss t k hosts ∈ h ∧ x ∈ hosts := by
  cases st with
  | pick h1 h2 => exact ⟨_, (linv r hp).waiting _ _ _ h1, (pick_mem h2).1⟩

theorem C51_pick_defined (i : LeaderInfo) (k : PartKey) (hosts : List HostAddr) : leaderPick i k hosts = none ↔ hosts = [] := by
  unfold leaderPick
  cases hosts with
  | nil => simp
  | cons a l =>
    have : ((i.picked.find k).getD 0 + 1) % (a :: l).length < (a :: l).length := Nat.mod_lt _ (by simp)
    rw [List.getElem?_eq_getElem this]
    simp

/-- Rounds of invalidation and choice. -/
def rounds (t : Nat) (k : PartKey) (hosts xs : List HostAddr) : List LEv := xs.flatMap fun x => [.invalidate k, .miss t k hosts, .pick t k x]

/-- C51: repeated invalidation goes through the hosts of the part in order, starting after the one chosen last. -/
theorem C51_round_robin (t : Nat) (k : PartKey) (hosts : List HostAddr) : ∀ (xs : List HostAddr) (s s' : LState),
    Exec LStep s (rounds t k hosts xs) s' → ∀ j x, xs[j]? = some x → hosts[((s.info.picked.find k).getD 0 + 1 + j) % hosts.length]? = some x := by
  intro xs
  induction xs with
  | nil => intro s s' _ j x h; simp at h
  | cons y xs ih =>
    intro s s' r j x hj
    have e : rounds t k hosts (y :: xs) = .invalidate k :: .miss t k hosts :: .pick t k y :: rounds t k hosts xs := by simp [rounds, List.flatMap_cons]
    rw [e] at r
    cases r with
    | cons st1 r =>
      cases r with
      | cons st2 r =>
        cases r with
        | cons st3 r =>
          cases st1; cases st2 with
          | miss g1 g2 =>
            cases st3 with
            | pick h1 h2 =>
              simp only [if_true, Option.some.injEq, Prod.mk.injEq, true_and] at h1
              subst h1
              obtain ⟨_, _, n, hn, hg, hpk⟩ := pick_mem h2
              simp only [leaderInvalidate] at hn
              cases j with
              | zero =>
                simp only [List.getElem?_cons_zero, Option.some.injEq] at hj
                subst hj
                rw [Nat.add_zero, ← hn]; exact hg
              | succ j =>
                simp only [List.getElem?_cons_succ] at hj
                have := ih _ _ r j x hj
                simp only [hpk, find_set, if_true, Option.getD_some] at this
                rw [← this, hn]
                congr 1
                generalize (s.info.picked.find k).getD 0 + 1 = c
                rw [Nat.add_assoc, Nat.mod_add_mod, Nat.add_comm 1 j]

/-- C51: as many invalidations as the part has hosts try every host. -/
theorem C51_every_host (t : Nat) (k : PartKey) (hosts xs : List HostAddr) (s s' : LState)
    (r : Exec LStep s (rounds t k hosts xs) s') (hl : hosts.length ≤ xs.length) : ∀ y ∈ hosts, y ∈ xs := by
  intro y hy
  have hrr := C51_round_robin t k hosts xs s s' r
  obtain ⟨m, hm, he⟩ := List.mem_iff_getElem.1 hy
  generalize hc : (s.info.picked.find k).getD 0 + 1 = c at hrr
  have hn : 0 < hosts.length := by omega
  have hcm : c % hosts.length < hosts.length := Nat.mod_lt _ hn
  have key : ∃ j, j < hosts.length ∧ (c + j) % hosts.length = m := by
    by_cases h : c % hosts.length ≤ m
    · refine ⟨m - c % hosts.length, by omega, ?_⟩
      rw [Nat.add_mod, Nat.mod_eq_of_lt (show m - c % hosts.length < hosts.length by omega),
        show c % hosts.length + (m - c % hosts.length) = m by omega, Nat.mod_eq_of_lt hm]
    · refine ⟨m + hosts.length - c % hosts.length, by omega, ?_⟩
      rw [Nat.add_mod, Nat.mod_eq_of_lt (show m + hosts.length - c % hosts.length < hosts.length by omega),
        show c % hosts.length + (m + hosts.length - c % hosts.length) = m + hosts.length by omega, Nat.add_mod_right, Nat.mod_eq_of_lt hm]
  obtain ⟨j, hj, hjm⟩ := key
  have hjx : j < xs.length := by omega
  have := hrr j xs[j] (List.getElem?_eq_getElem hjx)
  rw [hjm, List.getElem?_eq_getElem hm, he] at this
  cases this
  exact List.getElem_mem hjx

/-! ## Loading -/

theorem loadParts_find (peers) (h : HostAddr) (s : Int) (k : PartKey) : ∀ (ps : List Int) (i : LeaderInfo), i.leaderMap.NodupKeys →
    (loadParts peers h s i ps).leaderMap.NodupKeys ∧
    (loadParts peers h s i ps).leaderMap.find k = if s = k.1 ∧ k.2 ∈ ps then some h else i.leaderMap.find k
  | [], i, hn => by simp [loadParts, hn]
  | p :: ps, i, hn => by
    obtain ⟨a, b⟩ := loadParts_find peers h s k ps ⟨i.leaderMap.set (s, p) h, i.picked.set (s, p) (leaderIndex h ((peers (s, p)).getD []))⟩ (nodup_set hn _ _)
    refine ⟨a, ?_⟩
    rw [loadParts, b]
    obtain ⟨k1, k2⟩ := k
    simp only [find_set, Prod.mk.injEq, List.mem_cons]
    by_cases h1 : s = k1
    · by_cases h2 : k2 ∈ ps
      · simp [h1, h2]
      · by_cases h3 : p = k2
        · simp [h1, h3]
        · have h4 : ¬ k2 = p := fun e => h3 e.symm
          simp [h1, h2, h3, h4]
    · simp [h1]

theorem loadSpaces_find (peers) (names : AMap Bytes Int) (h : HostAddr) (k : PartKey) : ∀ (es : List (Bytes × List Int)) (i : LeaderInfo),
    i.leaderMap.NodupKeys → (loadSpaces peers names h i es).leaderMap.NodupKeys ∧
    ((∃ n ps, (n, ps) ∈ es ∧ names.find n = some k.1 ∧ k.2 ∈ ps) → (loadSpaces peers names h i es).leaderMap.find k = some h) ∧
    (¬ (∃ n ps, (n, ps) ∈ es ∧ names.find n = some k.1 ∧ k.2 ∈ ps) → (loadSpaces peers names h i es).leaderMap.find k = i.leaderMap.find k)
  | [], i, hn => by simp [loadSpaces, hn]
  | (n, ps) :: es, i, hn => by
    rw [loadSpaces]
    cases hf : names.find n with
    | none =>
      obtain ⟨a, b, c⟩ := loadSpaces_find peers names h k es i hn
      refine ⟨a, ?_, ?_⟩
      · rintro ⟨n', ps', h1, h2, h3⟩
        rcases List.mem_cons.1 h1 with e | h1
        · cases e; rw [hf] at h2; cases h2
        · exact b ⟨n', ps', h1, h2, h3⟩
      · intro hne
        exact c fun ⟨n', ps', h1, h2, h3⟩ => hne ⟨n', ps', by simp [h1], h2, h3⟩
    | some s =>
      obtain ⟨a0, b0⟩ := loadParts_find peers h s k ps i hn
      obtain ⟨a, b, c⟩ := loadSpaces_find peers names h k es (loadParts peers h s i ps) a0
      refine ⟨a, ?_, ?_⟩
      · rintro ⟨n', ps', h1, h2, h3⟩
        by_cases hes : ∃ n ps, (n, ps) ∈ es ∧ names.find n = some k.1 ∧ k.2 ∈ ps
        · exact b hes
        · dsimp only
          rw [c hes, b0]
          rcases List.mem_cons.1 h1 with e | h1
          · cases e; rw [hf] at h2; cases h2; simp [h3]
          · exact absurd ⟨n', ps', h1, h2, h3⟩ hes
      · intro hne
        dsimp only
        rw [c fun ⟨n', ps', h1, h2, h3⟩ => hne ⟨n', ps', by simp [h1], h2, h3⟩, b0]
        rw [if_neg]
        rintro ⟨rfl, h2⟩
        exact hne ⟨n, ps, by simp, hf, h2⟩

theorem loadLeaderFrom_find (peers) (names : AMap Bytes Int) (k : PartKey) : ∀ (its : List HostItem) (i : LeaderInfo), i.leaderMap.NodupKeys →
    (loadLeaderFrom peers names i its).leaderMap.NodupKeys ∧
    (∀ a it b, its = a ++ it :: b → Leads names k it → (∀ x ∈ b, ¬ Leads names k x) → (loadLeaderFrom peers names i its).leaderMap.find k = some it.addr) ∧
    ((∀ x ∈ its, ¬ Leads names k x) → (loadLeaderFrom peers names i its).leaderMap.find k = i.leaderMap.find k)
  | [], i, hn => by
    refine ⟨hn, ?_, fun _ => rfl⟩
    intro a it b h; cases a <;> cases h
  | it0 :: its, i, hn => by
    obtain ⟨a0, b0, c0⟩ := loadSpaces_find peers names it0.addr k it0.leaderParts i hn
    obtain ⟨a1, b1, c1⟩ := loadLeaderFrom_find peers names k its _ a0
    refine ⟨a1, ?_, ?_⟩
    · intro a it b h hl hb
      cases a with
      | nil =>
        simp only [List.nil_append, List.cons.injEq] at h
        obtain ⟨rfl, rfl⟩ := h
        rw [loadLeaderFrom, c1 hb, b0 hl]
      | cons a0 a =>
        simp only [List.cons_append, List.cons.injEq] at h
        exact b1 a it b h.2 hl hb
    · intro hne
      rw [loadLeaderFrom, c1 (fun x hx => hne x (by simp [hx])), c0 (hne it0 (by simp))]

/-- C51: after loading, the leader of a part is the last listed host that says it leads it; parts nobody leads have no leader. -/
theorem C51_load (peers : PartKey → Option (List HostAddr)) (names : AMap Bytes Int) (items : List HostItem) (k : PartKey) :
    (∀ a it b, items = a ++ it :: b → Leads names k it → (∀ x ∈ b, ¬ Leads names k x) →
      leaderLookup (loadLeader peers names items) k = some it.addr) ∧
    ((∀ x ∈ items, ¬ Leads names k x) → leaderLookup (loadLeader peers names items) k = none) ∧
    (loadLeader peers names items).leaderMap.NodupKeys := by
  obtain ⟨a, b, c⟩ := loadLeaderFrom_find peers names k items {} nodup_nil
  exact ⟨b, c, a⟩

/-! ## The host after the loaded leader -/

/-- The recorded index is that of the recorded leader. -/
def Indexed (peers : PartKey → Option (List HostAddr)) (i : LeaderInfo) : Prop :=
  ∀ k x, i.leaderMap.find k = some x → i.picked.find k = some (leaderIndex x ((peers k).getD []))

theorem indexed_loadParts (peers) (h : HostAddr) (s : Int) : ∀ (ps : List Int) (i : LeaderInfo), Indexed peers i →
    Indexed peers (loadParts peers h s i ps)
  | [], _, hi => hi
  | p :: ps, i, hi => by
    refine indexed_loadParts peers h s ps _ ?_
    intro k x hx
    simp only [find_set] at hx ⊢
    split
    · rename_i e
      rw [if_pos e] at hx; injection hx with hx
      rw [hx, e]
    · rename_i e
      rw [if_neg e] at hx
      exact hi k x hx

theorem indexed_loadSpaces (peers) (names : AMap Bytes Int) (h : HostAddr) : ∀ (es : List (Bytes × List Int)) (i : LeaderInfo),
    Indexed peers i → Indexed peers (loadSpaces peers names h i es)
  | [], _, hi => hi
  | (n, ps) :: es, i, hi => by
    rw [loadSpaces]
    cases names.find n with
    | none => exact indexed_loadSpaces peers names h es i hi
    | some s => exact indexed_loadSpaces peers names h es _ (indexed_loadParts peers h s ps i hi)

theorem indexed_loadLeaderFrom (peers) (names : AMap Bytes Int) : ∀ (its : List HostItem) (i : LeaderInfo),
    Indexed peers i → Indexed peers (loadLeaderFrom peers names i its)
  | [], _, hi => hi
  | it :: its, i, hi => indexed_loadLeaderFrom peers names its _ (indexed_loadSpaces peers names it.addr it.leaderParts i hi)

theorem leaderIndex_eq (x : HostAddr) (a b : List HostAddr) (h : x ∉ a) : leaderIndex x (a ++ x :: b) = a.length := by
  induction a with
  | nil => simp [leaderIndex]
  | cons y a ih =>
    rw [List.mem_cons, not_or] at h
    rw [List.cons_append, leaderIndex, if_neg (fun e => h.1 e.symm), if_pos (by simp), ih h.2]; rfl

/-- C51: after a loaded leader has been found dead, the host tried next is the one after it among the hosts of
the part, from the last host on to the first. -/
theorem C51_load_next (peers : PartKey → Option (List HostAddr)) (names : AMap Bytes Int) (items : List HostItem) (k : PartKey)
    (x : HostAddr) (a b : List HostAddr) (hx : leaderLookup (loadLeader peers names items) k = some x)
    (hp : peers k = some (a ++ x :: b)) (ha : x ∉ a) :
    (leaderPick (leaderInvalidate (loadLeader peers names items) k) k (a ++ x :: b)).map Prod.snd =
      (b ++ (a ++ [x])).head? := by
  have hi : Indexed peers (loadLeader peers names items) :=
    indexed_loadLeaderFrom peers names items {} (by intro k x h; cases h)
  have h1 := hi k x hx
  rw [hp, Option.getD_some, leaderIndex_eq x a b ha] at h1
  unfold leaderPick leaderInvalidate
  simp only [h1, Option.getD_some]
  have e : (a ++ x :: b)[(a.length + 1) % (a ++ x :: b).length]? = (b ++ (a ++ [x])).head? := by
    cases b with
    | nil =>
      simp only [List.length_append, List.length_cons, List.length_nil, Nat.zero_add, Nat.mod_self, List.nil_append]
      cases a <;> rfl
    | cons y b =>
      rw [Nat.mod_eq_of_lt (by simp), List.getElem?_append_right (by omega)]
      simp
  rw [e]
  cases hh : (b ++ (a ++ [x])).head? <;> rfl

example (a b c : HostAddr) (n : Bytes) :
    leaderLookup (loadLeader (fun _ => some [a, b, c]) [(n, 1)] [⟨b, [(n, [5])]⟩]) (1, 5) = some b := by
  simp [loadLeader, loadLeaderFrom, loadSpaces, AMap.find, loadParts, leaderLookup, AMap.set]

/-! ## Violation and examples -/

/-- C51 is violated: a leader that is reported while a get is between its look-up and its choice is overwritten by the choice;
the next get returns a host although another one was reported last and nothing was invalidated. -/
theorem C51_get_violated (k : PartKey) (a b c : HostAddr) (hbc : b ≠ c) :
    ∃ (h : List LEv) (s s' : LState), Exec LStep {} h s ∧ ProperLoads h ∧ LStep s (.hit k b) s' ∧ reported k h = some c ∧ b ≠ c := by
  have e : Exec LStep {} [.miss 0 k [a, b], .update k c, .pick 0 k b] _ :=
    .cons (.miss rfl rfl) (.cons .update (.cons (.pick (hosts := [a, b])
      (i := ⟨AMap.set [(k, c)] k b, [(k, 1)]⟩) (by simp) rfl) .nil))
  refine ⟨_, _, _, e, ?_, .hit ?_, ?_, hbc⟩
  · intro i hi; simp at hi
  · simp [leaderLookup, find_set]
  · simp [reported, reportedFrom]

/-- The hypotheses of `C51_get_partial` are met: a choice, a report, an invalidation and another choice. -/
example (k : PartKey) (a b : HostAddr) :
    ∃ h s s', Exec LStep {} h s ∧ ProperLoads h ∧ AtomicGets h ∧ LStep s (.hit k b) s' ∧
      h = [.miss 0 k [a, b], .pick 0 k b, .invalidate k, .miss 0 k [a, b], .pick 0 k a, .update k b] := by
  have e : Exec LStep {} [.miss 0 k [a, b], .pick 0 k b, .invalidate k, .miss 0 k [a, b], .pick 0 k a, .update k b] _ :=
    .cons (.miss rfl rfl) (.cons (.pick (hosts := [a, b]) (i := ⟨[(k, b)], [(k, 1)]⟩) (by simp) rfl) (.cons .invalidate
      (.cons (.miss (by simp [leaderLookup, leaderInvalidate, find, AMap.erase]) (by simp)) (.cons (.pick (hosts := [a, b])
        (i := ⟨[(k, a)], [(k, 0)]⟩) (by simp) (by simp [leaderInvalidate, AMap.erase, leaderPick, find, AMap.set])) (.cons .update .nil)))))
  refine ⟨_, _, _, e, ?_, ?_, .hit ?_, rfl⟩
  · intro i hi; simp at hi
  · intro p q t k' x hx
    match p, hx with
    | [_], hx =>
      simp only [List.cons_append, List.nil_append, List.cons.injEq, LEv.pick.injEq] at hx
      obtain ⟨rfl, ⟨rfl, rfl, rfl⟩, _⟩ := hx
      exact ⟨[], [a, b], rfl⟩
    | [_, _, _, _], hx =>
      simp only [List.cons_append, List.nil_append, List.cons.injEq, LEv.pick.injEq] at hx
      obtain ⟨rfl, rfl, rfl, rfl, ⟨rfl, rfl, rfl⟩, _⟩ := hx
      exact ⟨[_, _, _], [a, b], rfl⟩
    | [], hx => simp at hx
    | [_, _], hx => simp at hx
    | [_, _, _], hx => simp at hx
    | [_, _, _, _, _], hx => simp at hx
    | _ :: _ :: _ :: _ :: _ :: _ :: l, hx => simp at hx
  · simp [leaderLookup, leaderUpdate, find_set]

end Meta
end Nebula
