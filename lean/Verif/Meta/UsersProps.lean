import Verif.Meta.UsersSpec
import Verif.Meta.LoadDataProps
/-! # C103: logins and roles follow the last complete answer of the server -/
namespace Nebula
namespace Meta

section
variable {R F P S I L D H : Type}

theorem userLoop_spec (roles : Bytes → Option (List R)) : ∀ (l : List (Bytes × Bytes)) (u : Users R), (l.map Prod.fst).Nodup →
    ((∃ x ∈ l, roles x.1 = none) → userLoop roles u l = none) ∧
    ((∀ x ∈ l, roles x.1 ≠ none) → ∃ u', userLoop roles u l = some u' ∧
      (∀ n, u'.passwords.find n = (match l.find? fun x => x.1 == n with | some x => some x.2 | none => u.passwords.find n)) ∧
      (∀ n, u'.roles.find n = (match l.find? fun x => x.1 == n with | some x => roles x.1 | none => u.roles.find n)))
  | [], u, _ => by
    refine ⟨fun ⟨x, hx, _⟩ => by simp at hx, fun _ => ⟨u, rfl, fun n => rfl, fun n => rfl⟩⟩
  | x :: l, u, hn => by
    rw [List.map_cons, List.nodup_cons] at hn
    cases hr : roles x.1 with
    | none =>
      refine ⟨fun _ => by rw [userLoop, hr], fun h => absurd hr (h x (by simp))⟩
    | some r =>
      obtain ⟨h1, h2⟩ := userLoop_spec roles l ⟨u.roles.set x.1 r, u.passwords.set x.1 x.2⟩ hn.2
      constructor
      · rintro ⟨y, hy, hyn⟩
        rw [userLoop, hr]
        rcases List.mem_cons.1 hy with e | hy
        · subst e; rw [hr] at hyn; cases hyn
        · exact h1 ⟨y, hy, hyn⟩
      · intro h
        obtain ⟨u', e, hp, hro⟩ := h2 fun y hy => h y (List.mem_cons_of_mem _ hy)
        refine ⟨u', by rw [userLoop, hr]; exact e, fun n => ?_, fun n => ?_⟩
        · rw [hp n, List.find?_cons]
          by_cases hx : x.1 = n
          · subst hx
            have : l.find? (fun y => y.1 == x.1) = none := by
              rw [List.find?_eq_none]; intro y hy e
              exact hn.1 (by simp at e; rw [← e]; exact List.mem_map_of_mem hy)
            rw [this]; simp [AMap.find_set]
          · have : (x.1 == n) = false := by simp [hx]
            rw [this]
            cases l.find? fun y => y.1 == n <;> simp [AMap.find_set, hx]
        · rw [hro n, List.find?_cons]
          by_cases hx : x.1 = n
          · subst hx
            have : l.find? (fun y => y.1 == x.1) = none := by
              rw [List.find?_eq_none]; intro y hy e
              exact hn.1 (by simp at e; rw [← e]; exact List.mem_map_of_mem hy)
            rw [this]; simp [AMap.find_set, hr]
          · have : (x.1 == n) = false := by simp [hx]
            rw [this]
            cases l.find? fun y => y.1 == n <;> simp [AMap.find_set, hx]

/-- The users of a client are those of one complete answer. -/
def UsersOf (a : UserAnswers R) (l : List (Bytes × Bytes)) (u : Users R) : Prop :=
  (∀ n, u.passwords.find n = ((l.find? fun x => x.1 == n).map Prod.snd)) ∧
  (∀ n, u.roles.find n = (l.find? fun x => x.1 == n).bind fun x => a.roles x.1)

theorem loadUsers_some {a : UserAnswers R} {l : List (Bytes × Bytes)} (hl : a.list = some l) (hn : (l.map Prod.fst).Nodup)
    (h : ∀ x ∈ l, a.roles x.1 ≠ none) : ∃ u, loadUsers a = some u ∧ UsersOf a l u := by
  obtain ⟨u, e, hp, hr⟩ := (userLoop_spec a.roles l ⟨[], []⟩ hn).2 h
  refine ⟨u, by rw [loadUsers, hl]; exact e, fun n => ?_, fun n => ?_⟩
  · rw [hp n]; cases l.find? fun x => x.1 == n <;> simp [AMap.find]
  · rw [hr n]; cases l.find? fun x => x.1 == n <;> simp [AMap.find]

theorem loadUsers_none {a : UserAnswers R} (hn : ∀ l, a.list = some l → (l.map Prod.fst).Nodup)
    (h : ∀ l, a.list = some l → ∃ x ∈ l, a.roles x.1 = none) : loadUsers a = none := by
  rw [loadUsers]
  cases e : a.list with
  | none => rfl
  | some l => exact (userLoop_spec a.roles l ⟨[], []⟩ (hn l e)).1 (h l e)

theorem space_users {U : Type} (a : Answers U F P S I L D H) (c : Client U F P S I L D H) (s : Snapshot P S I L D H) (sp : Int × Bytes) :
    (∀ x ∈ (loadSpaceData a c s sp).1, x.users = c.users) ∧ (loadSpaceData a c s sp).2.1.users = c.users := by
  unfold loadSpaceData
  repeat' split
  all_goals refine ⟨?_, rfl⟩ <;> simp

theorem spaces_users {U : Type} (a : Answers U F P S I L D H) : ∀ (sps : List (Int × Bytes)) (c : Client U F P S I L D H) (s : Snapshot P S I L D H),
    (∀ x ∈ (loadSpacesData a c s sps).1, x.users = c.users) ∧ (loadSpacesData a c s sps).2.1.users = c.users
  | [], c, s => by simp [loadSpacesData]
  | sp :: sps, c, s => by
    rw [loadSpacesData]
    have h := space_users a c s sp
    generalize hr : loadSpaceData a c s sp = r at h
    obtain ⟨seen, c', o, e⟩ := r
    dsimp only at h
    obtain ⟨h1, h2⟩ := h
    cases o with
    | none => exact ⟨h1, h2⟩
    | some s' =>
      dsimp only
      obtain ⟨i1, i2⟩ := spaces_users a sps c' s'
      refine ⟨?_, i2.trans h2⟩
      intro x hx
      rcases List.mem_append.1 hx with hx | hx
      · exact h1 x hx
      · exact (i1 x hx).trans h2

/-- Every state seen during a refresh, and the last, has the new users; if they could not be loaded, there is none but the old. -/
theorem loadData_users {U : Type} (a : Answers U F P S I L D H) (c : Client U F P S I L D H) :
    (∀ u, a.users = some u → (∀ x ∈ (loadData a c).1, x.users = some u) ∧ (loadData a c).2.1.users = some u) ∧
    (a.users = none → (loadData a c).1 = [] ∧ (loadData a c).2.1 = c) := by
  unfold loadData
  refine ⟨fun u hu => ?_, fun hu => by rw [hu]; exact ⟨rfl, rfl⟩⟩
  rw [hu]
  dsimp only
  cases a.ftClients with
  | none => simp
  | some f =>
    dsimp only
    cases a.ftIndexes with
    | none => simp
    | some g =>
      dsimp only
      cases a.spaces with
      | none => simp
      | some sps =>
        dsimp only
        have h := spaces_users a sps { c with users := some u, ftClients := some f, ftIndexes := some g } emptySnapshot
        generalize loadSpacesData a { c with users := some u, ftClients := some f, ftIndexes := some g } emptySnapshot sps = r at h
        obtain ⟨seen, c', o, e⟩ := r
        dsimp only at h
        obtain ⟨h1, h2⟩ := h
        have h3 : ∀ x ∈ [({ c with users := some u } : Client U F P S I L D H), { c with users := some u, ftClients := some f },
            { c with users := some u, ftClients := some f, ftIndexes := some g }] ++ seen, x.users = some u := by
          intro x hx
          rcases List.mem_append.1 hx with hx | hx
          · simp at hx; rcases hx with rfl | rfl | rfl <;> rfl
          · exact h1 x hx
        cases o with
        | none => exact ⟨h3, h2⟩
        | some s =>
          dsimp only
          cases a.hosts with
          | none => exact ⟨h3, h2⟩
          | some hs =>
            dsimp only
            refine ⟨?_, h2⟩
            intro x hx
            rcases List.mem_append.1 hx with hx | hx
            · exact h3 x hx
            · simp at hx; subst hx; exact h2

theorem not_told {e : CEvent R F P S I L D H} (ha : e.Asks) (hd : ∀ l, e.answers.list = some l → (l.map Prod.fst).Nodup)
    (h : ∀ l, ¬ e.Told l) : loadUsers e.answers = none := by
  refine loadUsers_none hd fun l hl => ?_
  apply Classical.byContradiction
  intro hx
  exact h l ⟨ha, hl, fun x hm he => hx ⟨x, hm, he⟩⟩

/-- One event: with a complete answer the users are the new ones from the first visible state on, otherwise they stay. -/
theorem cstep_users (c : UClient R F P S I L D H) (e : CEvent R F P S I L D H) (hd : ∀ l, e.answers.list = some l → (l.map Prod.fst).Nodup) :
    (∀ l, e.Told l → ∃ u, UsersOf e.answers l u ∧ (∀ x ∈ (cstep c e).1, x.users = some u) ∧ (cstep c e).2.1.users = some u) ∧
    ((∀ l, ¬ e.Told l) → (cstep c e).1 = [] ∧ (cstep c e).2.1.users = c.users) := by
  have load : ∀ (u : UserAnswers R) (a : Answers (Users R) F P S I L D H), e.answers = u → e.Asks → cstep c e = loadAll u a c →
      (∀ l, e.Told l → ∃ u, UsersOf e.answers l u ∧ (∀ x ∈ (cstep c e).1, x.users = some u) ∧ (cstep c e).2.1.users = some u) ∧
      ((∀ l, ¬ e.Told l) → (cstep c e).1 = [] ∧ (cstep c e).2.1.users = c.users) := by
    intro ua a hu hask he
    rw [he, loadAll]
    have hl := loadData_users { a with users := loadUsers ua } c
    constructor
    · intro l hT
      obtain ⟨u, hu1, hu2⟩ := loadUsers_some hT.2.1 (hd l hT.2.1) hT.2.2
      rw [hu] at hu1
      exact ⟨u, hu2, hl.1 u hu1⟩
    · intro hT
      have hn := not_told hask hd hT
      rw [hu] at hn
      obtain ⟨h1, h2⟩ := hl.2 hn
      exact ⟨h1, by rw [h2]⟩
  cases e with
  | ready b u a =>
    cases b with
    | failed => exact ⟨fun l h => absurd rfl h.1, fun _ => ⟨rfl, rfl⟩⟩
    | ok => exact load u a rfl (by simp [CEvent.Asks]) rfl
    | leaderChanged => exact load u a rfl (by simp [CEvent.Asks]) rfl
  | beat b newer u a =>
    cases b with
    | failed => exact ⟨fun l h => (by cases h.1.1), fun _ => ⟨rfl, rfl⟩⟩
    | leaderChanged => exact ⟨fun l h => (by cases h.1.1), fun _ => ⟨rfl, rfl⟩⟩
    | ok =>
      cases newer with
      | false => exact ⟨fun l h => (by cases h.1.2), fun _ => ⟨rfl, rfl⟩⟩
      | true => exact load u a rfl ⟨rfl, rfl⟩ rfl
  | refresh u a => exact load u a rfl trivial rfl

/-- What the users of a client have to do with its history. -/
def UsersInv (h : List (CEvent R F P S I L D H)) (o : Option (Users R)) : Prop :=
  (∃ e l u, LastTold h e l ∧ o = some u ∧ UsersOf e.answers l u) ∨ ((∀ e ∈ h, ∀ l, ¬ e.Told l) ∧ o = none)

theorem inv_snoc {h : List (CEvent R F P S I L D H)} {c x : UClient R F P S I L D H} {e : CEvent R F P S I L D H} (hi : UsersInv h c.users)
    (hx : (∃ l u, e.Told l ∧ UsersOf e.answers l u ∧ x.users = some u) ∨ ((∀ l, ¬ e.Told l) ∧ x.users = c.users)) : UsersInv (h ++ [e]) x.users := by
  rcases hx with ⟨l, u, ht, hu, hxu⟩ | ⟨hnt, hxu⟩
  · exact .inl ⟨e, l, u, ⟨h, [], rfl, ht, fun y hy => by simp at hy⟩, hxu, hu⟩
  · rw [hxu]
    rcases hi with ⟨e', l, u, ⟨b, a, rfl, ht, ha⟩, ho, hu⟩ | ⟨hn, ho⟩
    · refine .inl ⟨e', l, u, ⟨b, a ++ [e], by simp, ht, ?_⟩, ho, hu⟩
      intro y hy
      rcases List.mem_append.1 hy with hy | hy
      · exact ha y hy
      · simp at hy; subst hy; exact hnt
    · refine .inr ⟨?_, ho⟩
      intro y hy
      rcases List.mem_append.1 hy with hy | hy
      · exact hn y hy
      · simp at hy; subst hy; exact hnt

theorem step_case {c : UClient R F P S I L D H} {e : CEvent R F P S I L D H} (hd : ∀ l, e.answers.list = some l → (l.map Prod.fst).Nodup) :
    (∀ x, x ∈ (cstep c e).1 ∨ x = (cstep c e).2.1 →
      (∃ l u, e.Told l ∧ UsersOf e.answers l u ∧ x.users = some u) ∨ ((∀ l, ¬ e.Told l) ∧ x.users = c.users)) := by
  obtain ⟨h1, h2⟩ := cstep_users c e hd
  intro x hx
  rcases Classical.em (∃ l, e.Told l) with ⟨l, hl⟩ | hn
  · obtain ⟨u, hu, ha, hb⟩ := h1 l hl
    refine .inl ⟨l, u, hl, hu, ?_⟩
    rcases hx with hx | rfl
    · exact ha x hx
    · exact hb
  · obtain ⟨ha, hb⟩ := h2 fun l hl => hn ⟨l, hl⟩
    refine .inr ⟨fun l hl => hn ⟨l, hl⟩, ?_⟩
    rcases hx with hx | rfl
    · rw [ha] at hx; simp at hx
    · exact hb

theorem lives_inv {h : List (CEvent R F P S I L D H)} {c : UClient R F P S I L D H} (hl : Lives h c) : Distinct h → UsersInv h c.users := by
  induction hl with
  | new => exact fun _ => .inr ⟨fun e he => by simp at he, rfl⟩
  | @step h c c' e seen en _ hs _ ih =>
    intro hd
    have hi := ih fun x hx => hd x (by simp [hx])
    exact inv_snoc hi (step_case (hd e (by simp)) c' (.inr (by rw [hs])))

theorem sees_inv {h : List (CEvent R F P S I L D H)} {c : UClient R F P S I L D H} (hl : Sees h c) (hd : Distinct h) : UsersInv h c.users := by
  cases hl with
  | after hl => exact lives_inv hl hd
  | @during h c x c' e seen en hl hs hx =>
    have hi := lives_inv hl fun x hx => hd x (by simp [hx])
    exact inv_snoc hi (step_case (hd e (by simp)) _ (.inl (by rw [hs]; exact hx)))

theorem find_iff {l : List (Bytes × Bytes)} (hn : (l.map Prod.fst).Nodup) (a p : Bytes) :
    (l.find? fun x => x.1 == a).map Prod.snd = some p ↔ (a, p) ∈ l := by
  induction l with
  | nil => simp
  | cons x l ih =>
    rw [List.map_cons, List.nodup_cons] at hn
    rw [List.find?_cons]
    by_cases e : x.1 = a
    · subst e
      simp only [beq_self_eq_true, Option.map_some, Option.some.injEq, List.mem_cons]
      constructor
      · rintro rfl; exact .inl rfl
      · rintro (h | h)
        · rw [← h]
        · exact absurd (List.mem_map_of_mem (f := Prod.fst) h) hn.1
    · have : (x.1 == a) = false := by simp [e]
      rw [this]
      simp only [ih hn.2, List.mem_cons]
      constructor
      · exact .inr
      · rintro (h | h)
        · exact absurd (by rw [← h]) e
        · exact h

theorem lastTold_nodup {h : List (CEvent R F P S I L D H)} {e : CEvent R F P S I L D H} {l} (hd : Distinct h) (ht : LastTold h e l) :
    (l.map Prod.fst).Nodup := by
  obtain ⟨b, a, rfl, t, _⟩ := ht
  exact hd e (by simp) l t.2.1

theorem lastTold_unique {h : List (CEvent R F P S I L D H)} {e e' : CEvent R F P S I L D H} {l l' : List (Bytes × Bytes)} (ht : LastTold h e l)
    (ht' : LastTold h e' l') : e'.answers = e.answers ∧ l' = l := by
  obtain ⟨b', a', hh', t', n'⟩ := ht'
  obtain ⟨b, a, hh, t, n⟩ := ht
  rw [hh] at hh'
  rcases List.append_eq_append_iff.1 hh' with ⟨z, h1, h2⟩ | ⟨z, h1, h2⟩
  · cases z with
    | nil =>
      simp at h2
      have := h2.1; subst this
      have := t.2.1; rw [t'.2.1] at this; exact ⟨rfl, Option.some.inj this⟩
    | cons y z =>
      simp at h2
      exact absurd t' (n _ (by rw [h2.2]; simp) _)
  · cases z with
    | nil =>
      simp at h2
      have := h2.1; subst this
      have := t.2.1; rw [t'.2.1] at this; exact ⟨rfl, Option.some.inj this⟩
    | cons y z =>
      simp at h2
      exact absurd t (n' _ (by rw [h2.2]; simp) _)

/-- **C103 (logins).** At every moment a login is accepted iff the client is ready and the account is listed with that password in the last
complete answer of the server about the users. -/
theorem C103_login {h : List (CEvent R F P S I L D H)} {c : UClient R F P S I L D H} (hl : Sees h c) (hd : Distinct h) (account password : Bytes) :
    authCheck c account password = true ↔ c.ready = true ∧ ∃ e l, LastTold h e l ∧ (account, password) ∈ l := by
  have hi := sees_inv hl hd
  unfold authCheck
  cases c.ready with
  | false => simp
  | true =>
    simp only [Bool.not_true, Bool.false_eq_true, if_false, true_and]
    rcases hi with ⟨e, l, u, ht, ho, hu⟩ | ⟨hn, ho⟩
    · rw [ho]
      dsimp only
      have hnd := lastTold_nodup hd ht
      have key : ∀ e' l', LastTold h e' l' → l' = l := fun e' l' h' => (lastTold_unique ht h').2
      rw [hu.1 account]
      rw [show (∃ e l, LastTold h e l ∧ (account, password) ∈ l) ↔ (account, password) ∈ l from
        ⟨fun ⟨e', l', h1, h2⟩ => key e' l' h1 ▸ h2, fun hm => ⟨e, l, ht, hm⟩⟩, ← find_iff hnd]
      cases l.find? fun x => x.1 == account with
      | none => simp
      | some x => simp
    · rw [ho]
      simp only [Bool.false_eq_true, false_iff, not_exists]
      rintro e l ⟨⟨b, a, rfl, t, _⟩, _⟩
      exact hn e (by simp) l t

theorem shadow_auth (c : UClient R F P S I L D H) (account : Bytes) :
    shadowCheck c account = true ↔ ∃ password, authCheck c account password = true := by
  unfold shadowCheck authCheck
  cases c.ready with
  | false => simp
  | true =>
    simp only [Bool.not_true, Bool.false_eq_true, if_false]
    cases c.users with
    | none => simp
    | some u =>
      dsimp only
      cases u.passwords.find account with
      | none => simp
      | some p => simp

/-- **C103 (accounts).** The check for an account alone accepts exactly the accounts listed in the last complete answer. -/
theorem C103_account {h : List (CEvent R F P S I L D H)} {c : UClient R F P S I L D H} (hl : Sees h c) (hd : Distinct h) (account : Bytes) :
    shadowCheck c account = true ↔ c.ready = true ∧ ∃ e l, LastTold h e l ∧ account ∈ l.map Prod.fst := by
  rw [shadow_auth]
  constructor
  · rintro ⟨p, hp⟩
    obtain ⟨hr, e, l, ht, hm⟩ := (C103_login hl hd account p).1 hp
    exact ⟨hr, e, l, ht, List.mem_map.2 ⟨_, hm, rfl⟩⟩
  · rintro ⟨hr, e, l, ht, hm⟩
    obtain ⟨⟨_, p⟩, hm', rfl⟩ := List.mem_map.1 hm
    exact ⟨p, (C103_login hl hd _ p).2 ⟨hr, e, l, ht, hm'⟩⟩

/-- **C103 (roles).** The roles given for a user are those of the last complete answer, taken together with the passwords; a user not listed, and
every user before the client is ready, has none. -/
theorem C103_roles {h : List (CEvent R F P S I L D H)} {c : UClient R F P S I L D H} (hl : Sees h c) (hd : Distinct h) (user : Bytes) :
    (c.ready = true → ∀ e l, LastTold h e l → (user ∈ l.map Prod.fst → e.answers.roles user = some (rolesOf c user)) ∧
      (user ∉ l.map Prod.fst → rolesOf c user = [])) ∧
    ((c.ready = false ∨ ∀ e ∈ h, ∀ l, ¬ e.Told l) → rolesOf c user = []) := by
  have hi := sees_inv hl hd
  unfold rolesOf
  cases c.ready with
  | false => simp
  | true =>
    simp only [Bool.not_true, Bool.false_eq_true, if_false, Bool.true_eq_false, false_or]
    rcases hi with ⟨e, l, u, ht, ho, hu⟩ | ⟨hn, ho⟩
    · rw [ho]
      dsimp only
      refine ⟨fun _ e' l' ht' => ?_, fun hn => ?_⟩
      · have key : e'.answers = e.answers ∧ l' = l := lastTold_unique ht ht'
        obtain ⟨ka, kl⟩ := key
        rw [ka, kl, hu.2 user]
        obtain ⟨_, _, _, t, _⟩ := ht
        constructor
        · intro hm
          cases hf : l.find? fun x => x.1 == user with
          | none =>
            rw [List.find?_eq_none] at hf
            obtain ⟨x, hx, rfl⟩ := List.mem_map.1 hm
            exact absurd (by simp) (hf x hx)
          | some x =>
            have hx := List.find?_some hf
            simp at hx; subst hx
            rw [Option.bind_some]
            cases hr : e.answers.roles x.1 with
            | none => exact absurd hr (t.2.2 x (List.mem_of_find?_eq_some hf))
            | some r => rfl
        · intro hm
          have hf : l.find? (fun x => x.1 == user) = none := by
            rw [List.find?_eq_none]; intro x hx e
            simp at e; subst e; exact hm (List.mem_map_of_mem hx)
          rw [hf]; rfl
      · obtain ⟨_, _, rfl, t, _⟩ := ht
        exact absurd t (hn e (by simp) l)
    · rw [ho]
      refine ⟨fun _ e l => ?_, fun _ => rfl⟩
      rintro ⟨_, _, rfl, t, _⟩
      exact absurd t (hn e (by simp) l)

/-- **C103 (not ready).** Before the first complete refresh, and after a failed first contact, nobody can log in. -/
theorem C103_not_ready {c : UClient R F P S I L D H} (hr : c.ready = false) (account password : Bytes) :
    authCheck c account password = false ∧ shadowCheck c account = false ∧ rolesOf c account = [] := by
  simp [authCheck, shadowCheck, rolesOf, hr]

/-- **C103 (ready).** A client that has never completed a refresh is not ready. -/
theorem C103_ready {h : List (CEvent R F P S I L D H)} {c : UClient R F P S I L D H} (hl : Lives h c) (hr : c.ready = true) :
    ∃ b e a c0 c1 seen, h = b ++ e :: a ∧ Lives b c0 ∧ cstep c0 e = (seen, c1, .done) ∧ c1.ready = true ∧ e.Asks := by
  induction hl with
  | new => cases hr
  | @step h c c' e seen en hc hs hne ih =>
    by_cases hcr : c.ready = true
    · obtain ⟨b, e', a, c0, c1, sn, rfl, h1, h2⟩ := ih hcr
      exact ⟨b, e', a ++ [e], c0, c1, sn, by simp, h1, h2⟩
    · refine ⟨h, e, [], c, c', seen, by simp, hc, ?_⟩
      have load : ∀ (u : UserAnswers R) (a : Answers (Users R) F P S I L D H), cstep c e = loadAll u a c → e.Asks →
          cstep c e = (seen, c', .done) ∧ c'.ready = true ∧ e.Asks := by
        intro u a he hask
        refine ⟨?_, hr, hask⟩
        have h80 := C80_all_or_nothing { a with users := loadUsers u } c
        rw [he, loadAll] at hs
        rw [hs] at h80
        dsimp only at h80
        rw [he, loadAll, hs]
        by_cases hd : en = .done
        · rw [hd]
        · exact absurd ((h80.1 hd).2 ▸ hr) hcr
      cases e with
      | ready b u a =>
        cases b with
        | failed => simp [cstep] at hs; rw [← hs.2.1] at hr; cases hr
        | ok => exact load u a rfl (by simp [CEvent.Asks])
        | leaderChanged => exact load u a rfl (by simp [CEvent.Asks])
      | beat b newer u a =>
        cases b with
        | failed => simp [cstep] at hs; rw [← hs.2.1] at hr; exact absurd hr hcr
        | leaderChanged => simp [cstep] at hs; rw [← hs.2.1] at hr; exact absurd hr hcr
        | ok =>
          cases newer with
          | false => simp [cstep] at hs; rw [← hs.2.1] at hr; exact absurd hr hcr
          | true => exact load u a rfl ⟨rfl, rfl⟩
      | refresh u a => exact load u a rfl trivial

end

/-! ## A history -/

def sampleUsers : UserAnswers Nat := ⟨some [(ascii "root", ascii "x"), (ascii "ann", ascii "y")], fun n => if n = ascii "root" then some [1, 2] else some [3]⟩
def changedUsers : UserAnswers Nat := ⟨some [(ascii "root", ascii "z")], fun _ => some [4]⟩
def brokenUsers : UserAnswers Nat := ⟨some [(ascii "bob", ascii "b"), (ascii "eve", ascii "e")], fun n => if n = ascii "eve" then none else some []⟩
def sampleRest (desc : Option Nat) : Answers (Users Nat) Nat Nat Nat Nat Nat Nat Nat where
  users := none
  ftClients := some 0
  ftIndexes := some 0
  spaces := some [(1, ascii "s")]
  parts := fun _ => some 0
  tags := fun _ => some []
  edges := fun _ => some []
  tagIndexes := fun _ => some []
  edgeIndexes := fun _ => some []
  listeners := fun _ => some 0
  desc := fun _ => desc
  hosts := some 0

def sampleEvents : List (CEvent Nat Nat Nat Nat Nat Nat Nat Nat) :=
  [.ready .failed sampleUsers (sampleRest none), .ready .ok sampleUsers (sampleRest (some 1)), .beat .ok true brokenUsers (sampleRest (some 1)),
   .beat .ok true changedUsers (sampleRest none)]

def runEvents (c : UClient Nat Nat Nat Nat Nat Nat Nat Nat) : List (CEvent Nat Nat Nat Nat Nat Nat Nat Nat) → UClient Nat Nat Nat Nat Nat Nat Nat Nat
  | [] => c
  | e :: es => runEvents (cstep c e).2.1 es

/-- After the first three events, `ann` may log in; a listing that could not be completed changes nothing; a later complete one does, although the rest
of that refresh failed. -/
example :
    let c2 := runEvents freshClient (sampleEvents.take 2)
    let c3 := runEvents freshClient (sampleEvents.take 3)
    let c4 := runEvents freshClient sampleEvents
    authCheck c2 (ascii "ann") (ascii "y") = true ∧ authCheck c2 (ascii "ann") (ascii "x") = false ∧ rolesOf c2 (ascii "root") = [1, 2] ∧
    authCheck c3 (ascii "ann") (ascii "y") = true ∧ authCheck c3 (ascii "bob") (ascii "b") = false ∧
    authCheck c4 (ascii "ann") (ascii "y") = false ∧ authCheck c4 (ascii "root") (ascii "z") = true ∧ rolesOf c4 (ascii "root") = [4] := by
  decide +kernel

def noCrash (c : UClient Nat Nat Nat Nat Nat Nat Nat Nat) : List (CEvent Nat Nat Nat Nat Nat Nat Nat Nat) → Bool
  | [] => true
  | e :: es => decide ((cstep c e).2.2 ≠ .crashed) && noCrash (cstep c e).2.1 es

theorem lives_run : ∀ (es h : List (CEvent Nat Nat Nat Nat Nat Nat Nat Nat)) (c : UClient Nat Nat Nat Nat Nat Nat Nat Nat), Lives h c → noCrash c es = true →
    Lives (h ++ es) (runEvents c es)
  | [], h, c, hl, _ => by rw [List.append_nil]; exact hl
  | e :: es, h, c, hl, hn => by
    rw [noCrash, Bool.and_eq_true, decide_eq_true_eq] at hn
    have := lives_run es (h ++ [e]) (cstep c e).2.1 (Lives.step hl rfl hn.1) hn.2
    rw [List.append_assoc] at this
    exact this

example : Lives sampleEvents (runEvents freshClient sampleEvents) ∧ Distinct sampleEvents := by
  constructor
  · exact lives_run sampleEvents [] freshClient Lives.new (by decide +kernel)
  · intro e he l hl
    simp only [sampleEvents, List.mem_cons, List.not_mem_nil, or_false] at he
    rcases he with rfl | rfl | rfl | rfl <;>
      (simp only [CEvent.answers, sampleUsers, brokenUsers, changedUsers, Option.some.injEq] at hl; subst hl; decide +kernel)

end Meta
end Nebula
