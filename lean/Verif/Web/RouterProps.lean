import Verif.Web.RouterSpec
/-! # C61: routing -/
namespace Nebula
namespace Web

/-! ## The search -/

theorem tryLens_sound {f : Bytes → Option (List Bytes × Bytes)} {s : Bytes} :
    ∀ {k : Nat} {gs r}, tryLens f s k = some (gs, r) →
      ∃ j gs', 0 < j ∧ j ≤ k ∧ f (s.drop j) = some (gs', r) ∧ gs = s.take j :: gs'
  | 0, _, _, h => by simp [tryLens] at h
  | k + 1, gs, r, h => by
    rw [tryLens] at h
    split at h
    · rename_i gs' r' hf
      cases h
      exact ⟨k + 1, gs', by omega, Nat.le_refl _, hf, rfl⟩
    · obtain ⟨j, gs', h1, h2, h3⟩ := tryLens_sound h
      exact ⟨j, gs', h1, by omega, h3⟩

theorem tryLens_complete {f : Bytes → Option (List Bytes × Bytes)} {s : Bytes} :
    ∀ {k j : Nat}, 0 < j → j ≤ k → (f (s.drop j)).isSome → (tryLens f s k).isSome
  | 0, j, h1, h2, _ => by omega
  | k + 1, j, h1, h2, h3 => by
    rw [tryLens]
    split
    · rfl
    · rename_i hf
      by_cases hj : j = k + 1
      · subst hj; rw [hf] at h3; cases h3
      · exact tryLens_complete h1 (by omega) h3

theorem takeWhile_take (s : Bytes) (j : Nat) (h : j ≤ (s.takeWhile (· ≠ 47)).length) : (47 : UInt8) ∉ s.take j := by
  intro hm
  have e : s.take j = (s.takeWhile (· ≠ 47)).take j := by
    have : s = s.takeWhile (· ≠ 47) ++ s.dropWhile (· ≠ 47) := (List.takeWhile_append_dropWhile).symm
    conv => lhs; rw [this]
    rw [List.take_append_of_le_length h]
  rw [e] at hm
  have := List.mem_of_mem_take hm
  have h2 : ∀ (l : Bytes), ∀ c ∈ l.takeWhile (· ≠ 47), c ≠ 47 := by
    intro l
    induction l with
    | nil => simp
    | cons a l ih =>
      intro c hc
      rw [List.takeWhile_cons] at hc
      split at hc
      · rename_i ha
        rcases List.mem_cons.1 hc with rfl | hc
        · simpa using ha
        · exact ih c hc
      · simp at hc
  exact h2 s _ this rfl

theorem takeWhile_value {v : Bytes} (hv : (47 : UInt8) ∉ v) (t : Bytes) : v.length ≤ ((v ++ t).takeWhile (· ≠ 47)).length := by
  induction v with
  | nil => simp
  | cons c v ih =>
    have hc : c ≠ 47 := by rintro rfl; exact hv (by simp)
    have := ih (fun h => hv (by simp [h]))
    rw [List.cons_append, List.takeWhile_cons, if_pos (by simpa using hc), List.length_cons, List.length_cons]
    omega

theorem matchAt_sound : ∀ (is : List Item) (s : Bytes) (gs : List Bytes) (r : Bytes),
    matchAt is s = some (gs, r) → ∃ t, s = t ++ r ∧ Inst is gs t
  | [], s, gs, r, h => by
    rw [matchAt] at h; cases h; exact ⟨[], rfl, .nil⟩
  | .lit c :: is, [], gs, r, h => by simp [matchAt] at h
  | .lit c :: is, d :: s, gs, r, h => by
    rw [matchAt] at h
    split at h
    · rename_i hc; subst hc
      obtain ⟨t, rfl, hi⟩ := matchAt_sound is s gs r h
      exact ⟨c :: t, rfl, .lit hi⟩
    · cases h
  | .any :: is, [], gs, r, h => by simp [matchAt] at h
  | .any :: is, d :: s, gs, r, h => by
    rw [matchAt] at h
    split at h
    · cases h
    · rename_i hc
      obtain ⟨t, rfl, hi⟩ := matchAt_sound is s gs r h
      exact ⟨d :: t, rfl, .any (fun e => hc (.inl e)) (fun e => hc (.inr e)) hi⟩
  | .group :: is, s, gs, r, h => by
    rw [matchAt] at h
    obtain ⟨j, gs', h1, h2, h3, rfl⟩ := tryLens_sound h
    obtain ⟨t, ht, hi⟩ := matchAt_sound is _ gs' r h3
    refine ⟨s.take j ++ t, ?_, .group ⟨?_, takeWhile_take s j h2⟩ hi⟩
    · rw [List.append_assoc, ← ht, List.take_append_drop]
    · intro e
      have hl : (s.takeWhile (· ≠ 47)).length ≤ s.length := (List.takeWhile_prefix _).length_le
      have := congrArg List.length e
      simp only [List.length_take, List.length_nil] at this
      omega

theorem matchAt_complete {is : List Item} {gs : List Bytes} {t : Bytes} (h : Inst is gs t) :
    ∀ r, (matchAt is (t ++ r)).isSome := by
  induction h with
  | nil => intro r; rfl
  | lit _ ih => intro r; simpa [matchAt] using ih r
  | any h1 h2 _ ih => intro r; simpa [matchAt, h1, h2] using ih r
  | @group v is gs t hv _ ih =>
    intro r
    rw [matchAt]
    have hlen : 0 < v.length := List.length_pos_iff.2 hv.1
    refine tryLens_complete hlen ?_ ?_
    · rw [List.append_assoc]; exact takeWhile_value hv.2 _
    · rw [List.append_assoc, List.drop_left]; exact ih r

theorem search_sound {is : List Item} : ∀ {s : Bytes} {gs : List Bytes}, search is s = some gs →
    ∃ a t b, s = a ++ t ++ b ∧ Inst is gs t
  | [], gs, h => by
    rw [search] at h
    obtain ⟨⟨g, r⟩, hr, rfl⟩ := Option.map_eq_some_iff.1 h
    obtain ⟨t, ht, hi⟩ := matchAt_sound is _ _ _ hr
    exact ⟨[], t, r, by simpa using ht, hi⟩
  | c :: s, gs, h => by
    rw [search] at h
    split at h
    · rename_i r hr
      cases h
      obtain ⟨t, ht, hi⟩ := matchAt_sound is _ r.1 r.2 hr
      exact ⟨[], t, r.2, by simpa using ht, hi⟩
    · obtain ⟨a, t, b, rfl, hi⟩ := search_sound h
      exact ⟨c :: a, t, b, by simp, hi⟩

theorem search_complete {is : List Item} {gs : List Bytes} {t : Bytes} (h : Inst is gs t) (b : Bytes) :
    ∀ a : Bytes, (search is (a ++ t ++ b)).isSome
  | [] => by
    have := matchAt_complete h b
    show (search is (t ++ b)).isSome
    cases e : t ++ b with
    | nil => rw [e] at this; simpa [search] using this
    | cons c s =>
      rw [e] at this
      rw [search]
      split
      · rfl
      · rename_i hn; rw [hn] at this; cases this
  | c :: a => by
    show (search is (c :: (a ++ t ++ b))).isSome
    rw [search]
    split
    · rfl
    · exact search_complete h b a

theorem inst_length {is : List Item} {gs : List Bytes} {t : Bytes} (h : Inst is gs t) :
    gs.length = (is.filter (· = .group)).length := by
  induction h with
  | nil => rfl
  | lit _ ih => simpa using ih
  | any _ _ _ ih => simpa using ih
  | group _ _ ih => simpa using ih

/-- A compiled expression has as many groups as names, and an item that is no slash. -/
theorem scan_groups : ∀ (s : Bytes) (k : Nat) (is : List Item) (ns : List Bytes), scan k s = some (is, ns) →
    ns.length = (is.filter (· = .group)).length
  | [], k, is, ns, h => by
    cases k <;> (rw [scan] at h; cases h; rfl)
  | c :: s, k + 1, is, ns, h => by rw [scan] at h; exact scan_groups s k is ns h
  | c :: s, 0, is, ns, h => by
    rw [scan] at h
    split at h
    · obtain ⟨⟨i, n⟩, hr, e⟩ := Option.map_eq_some_iff.1 h
      cases e
      have := scan_groups s _ i n hr
      simpa using this
    · split at h
      · cases h
      · obtain ⟨⟨i, n⟩, hr, e⟩ := Option.map_eq_some_iff.1 h
        cases e
        have := scan_groups s 0 i n hr
        split <;> simpa using this


theorem scan_colon : ∀ (s : Bytes) (k : Nat) (is : List Item) (ns : List Bytes), scan k s = some (is, ns) →
    (58 : UInt8) ∈ s.drop k → .group ∈ is ∨ .lit 58 ∈ is
  | [], k, is, ns, h, hc => by simp at hc
  | c :: s, k + 1, is, ns, h, hc => by rw [scan] at h; exact scan_colon s k is ns h (by simpa using hc)
  | c :: s, 0, is, ns, h, hc => by
    rw [scan] at h
    split at h
    · obtain ⟨⟨i, n⟩, hr, e⟩ := Option.map_eq_some_iff.1 h
      cases e
      exact .inl (by simp)
    · split at h
      · cases h
      · obtain ⟨⟨i, n⟩, hr, e⟩ := Option.map_eq_some_iff.1 h
        cases e
        rcases List.mem_cons.1 (by simpa using hc : (58 : UInt8) ∈ c :: s) with hc | hc
        · subst hc; exact .inr (by simp)
        · rcases scan_colon s 0 i n hr (by simpa using hc) with h | h
          · exact .inl (by simp [h])
          · exact .inr (by simp [h])

theorem inst_nonslash {is : List Item} {gs : List Bytes} {t : Bytes} (h : Inst is gs t) :
    .group ∈ is ∨ .lit 58 ∈ is → ∃ c ∈ t, c ≠ 47 := by
  induction h with
  | nil => rintro (h | h) <;> simp at h
  | @lit c is gs t _ ih =>
    intro h
    by_cases hc : c = 47
    · have : .group ∈ is ∨ .lit 58 ∈ is := by
        rcases h with h | h
        · exact .inl (by simpa using h)
        · subst hc; exact .inr (by simpa using h)
      obtain ⟨d, hd, hn⟩ := ih this
      exact ⟨d, by simp [hd], hn⟩
    · exact ⟨c, by simp, hc⟩
  | @any c is gs t _ _ _ ih =>
    intro h
    have : .group ∈ is ∨ .lit 58 ∈ is := by
      rcases h with h | h
      · exact .inl (by simpa using h)
      · exact .inr (by simpa using h)
    obtain ⟨d, hd, hn⟩ := ih this
    exact ⟨d, by simp [hd], hn⟩
  | @group v is gs t hv _ _ =>
    intro _
    cases v with
    | nil => exact absurd rfl hv.1
    | cons c v => exact ⟨c, by simp, by rintro rfl; exact hv.2 (by simp)⟩

theorem normPath_cases (path : Bytes) :
    (path = [] ∧ normPath path = [47]) ∨ path = normPath path ∨ path = normPath path ++ [47] := by
  unfold normPath
  split
  · rename_i h; exact .inl ⟨h, rfl⟩
  · split
    · rename_i h
      right; right
      obtain ⟨h0, h1, h2⟩ := h, ‹path.length > 1 ∧ path.getLast? = some 47›
      have hne : path ≠ [] := ‹¬path = []›
      rw [List.getLast?_eq_some_getLast hne] at h2
      have := List.dropLast_concat_getLast hne
      rw [Option.some.inj h2] at this
      exact this.symm
    · exact .inr (.inl rfl)

/-- Routes as `Router::route` makes them. -/
inductive Built : List Route → Prop
  | nil : Built []
  | add {pre rs method path h rs'} : Built rs → addRoute pre rs method path h = some rs' → Built rs'

theorem built_patterns {rs : List Route} (h : Built rs) : ∀ r ∈ rs, ∃ path, compile path = some r.pattern := by
  induction h with
  | nil => simp
  | add _ ha ih =>
    unfold addRoute at ha
    dsimp only at ha
    split at ha
    · cases ha
    · rename_i p hp
      cases ha
      intro r hr
      rcases List.mem_append.1 hr with hr | hr
      · exact ih r hr
      · rw [List.mem_singleton.1 hr]; exact ⟨_, hp⟩

theorem compile_regex {path : Bytes} {items : List Item} {groups : List Bytes} (h : compile path = some (.regex items groups)) :
    (58 : UInt8) ∈ path ∧ scan 0 path = some (items, groups) ∧ distinct groups = true := by
  unfold compile at h
  split at h
  · cases h
  · split at h
    · rename_i hc
      split at h
      · cases h
      · rename_i i g hs
        split at h
        · rename_i hd; cases h; exact ⟨hc, hs, hd⟩
        · cases h
    · split at h <;> cases h

theorem matches_generate {r : Route} (hb : ∃ path, compile path = some r.pattern) {m : Nat} {path : Bytes}
    (hm : r.matches m path = true) : ∃ ps, r.generate path = some (.handler r.h ps) := by
  obtain ⟨p0, hp⟩ := hb
  unfold Route.matches at hm
  unfold Route.generate
  cases hpat : r.pattern with
  | exact p => exact ⟨[], rfl⟩
  | regex items groups =>
    rw [hpat] at hm hp
    obtain ⟨hc, hs, _⟩ := compile_regex hp
    split at hm
    · cases hm
    · dsimp only at hm ⊢
      have hsome : (search items path).isSome := by
        cases hn : search items (normPath path) with
        | none => rw [hn] at hm; cases hm
        | some gs =>
          obtain ⟨a, t, b, hab, hi⟩ := search_sound hn
          rcases normPath_cases path with ⟨_, h2⟩ | h2 | h2
          · exfalso
            rw [h2] at hab
            obtain ⟨c, hct, hc47⟩ := inst_nonslash hi (scan_colon _ _ _ _ hs (by simpa using hc))
            have : c ∈ ([47] : Bytes) := by rw [hab]; simp [hct]
            exact hc47 (by simpa using this)
          · rw [h2, hn]; rfl
          · rw [h2, hab, List.append_assoc]
            exact search_complete hi _ _
      cases hs' : search items path with
      | none => rw [hs'] at hsome; cases hsome
      | some gs =>
        obtain ⟨a, t, b, _, hi⟩ := search_sound hs'
        have h1 := inst_length hi
        have h2 := scan_groups _ _ _ _ hs
        exact ⟨groups.zip gs, by simp [h1, h2]⟩

/-! ## C61 -/

/-- **C61.** Dispatching never fails a check for a known method, whatever the routes and the path are. -/
theorem C61_total {rs : List Route} (hb : Built rs) (m : Nat) (path : Bytes) : (dispatch rs (some m) path).isSome := by
  have hp := built_patterns hb
  clear hb
  induction rs with
  | nil => rfl
  | cons r rs ih =>
    rw [dispatch]
    split
    · rename_i hm
      obtain ⟨ps, h⟩ := matches_generate (hp r (by simp)) hm
      rw [h]; rfl
    · exact ih (fun r hr => hp r (by simp [hr]))

/-- **C61.** The handler called is that of the first route, in the order they were added, that matches;
404 exactly if none matches. -/
theorem C61_first {rs : List Route} (hb : Built rs) (m : Nat) (path : Bytes) :
    (∀ h, (∃ ps, dispatch rs (some m) path = some (.handler h ps)) ↔
      ∃ before r after, rs = before ++ r :: after ∧ (∀ x ∈ before, ¬Answers x m path) ∧ Answers r m path ∧ r.h = h) ∧
    (dispatch rs (some m) path = some .notFound ↔ ∀ r ∈ rs, ¬Answers r m path) := by
  have hp := built_patterns hb
  clear hb
  induction rs with
  | nil =>
    refine ⟨fun h => ⟨fun ⟨ps, e⟩ => (by simp [dispatch] at e), ?_⟩, by simp [dispatch]⟩
    rintro ⟨b, r, a, e, _⟩
    simp at e
  | cons r rs ih =>
    have ih := ih (fun r hr => hp r (by simp [hr]))
    rw [dispatch]
    by_cases hm : r.matches m path = true
    · obtain ⟨ps, hg⟩ := matches_generate (hp r (by simp)) hm
      rw [if_pos hm, hg]
      refine ⟨fun h => ⟨?_, ?_⟩, ?_⟩
      · rintro ⟨ps', e⟩
        cases e
        exact ⟨[], r, rs, rfl, by simp, hm, rfl⟩
      · rintro ⟨b, r', a, e, hb, hr', rfl⟩
        cases b with
        | nil => simp at e; obtain ⟨rfl, _⟩ := e; exact ⟨ps, rfl⟩
        | cons x b => simp at e; obtain ⟨rfl, _⟩ := e; exact absurd hm (hb r (by simp))
      · constructor
        · intro e; cases e
        · intro e; exact absurd hm (e r (by simp))
    · rw [if_neg hm]
      refine ⟨fun h => ?_, ?_⟩
      · rw [ih.1 h]
        constructor
        · rintro ⟨b, r', a, rfl, hb, hr'⟩
          exact ⟨r :: b, r', a, rfl, fun x hx => by
            rcases List.mem_cons.1 hx with rfl | hx
            · exact hm
            · exact hb x hx, hr'⟩
        · rintro ⟨b, r', a, e, hb, hr', hh⟩
          cases b with
          | nil => simp at e; obtain ⟨rfl, _⟩ := e; exact absurd hr' hm
          | cons x b => simp at e; exact ⟨b, r', a, e.2, fun y hy => hb y (by simp [hy]), hr', hh⟩
      · rw [ih.2]
        constructor
        · intro h x hx
          rcases List.mem_cons.1 hx with rfl | hx
          · exact hm
          · exact h x hx
        · intro h x hx; exact h x (by simp [hx])

/-- **C61.** Routes added later do not change the answer to a request that already has a handler. -/
theorem C61_stable (rs more : List Route) (m : Option Nat) (path : Bytes) (h : Nat) (ps : List (Bytes × Bytes))
    (hd : dispatch rs m path = some (.handler h ps)) : dispatch (rs ++ more) m path = some (.handler h ps) := by
  induction rs with
  | nil => simp [dispatch] at hd
  | cons r rs ih =>
    cases m with
    | none => cases hd
    | some m =>
      show dispatch (r :: (rs ++ more)) (some m) path = _
      rw [dispatch] at hd ⊢
      split
      · rename_i hm; rw [if_pos hm] at hd; exact hd
      · rename_i hm; rw [if_neg hm] at hd; exact ih hd

/-- **C61.** A route without parameters matches its path and no other, but for one slash at the end. -/
theorem C61_exact {text : Bytes} (hc : (58 : UInt8) ∉ text) {p : Pattern} (hp : compile text = some p) (m h m' : Nat) (path : Bytes) :
    Answers ⟨m, p, h⟩ m' path ↔ m = m' ∧ normPath path = normPath text := by
  have he : p = .exact (normPath text) := by
    unfold compile at hp
    rw [if_neg hc] at hp
    split at hp
    · cases hp
    · rename_i hh
      have hne : text ≠ [] := by rintro rfl; simp at hh
      unfold normPath
      rw [if_neg hne]
      split at hp
      · rename_i h; rw [if_pos h]; exact (Option.some.inj hp).symm
      · rename_i h; rw [if_neg h]; exact (Option.some.inj hp).symm
  subst he
  unfold Answers Route.matches
  dsimp only
  by_cases hm : m = m'
  · subst hm
    simp only [ne_eq, not_true_eq_false, if_false, beq_iff_eq, true_and]
    exact eq_comm
  · simp [hm]

/-- **C61.** A route with parameters matches exactly the paths that contain an instance of it. -/
theorem C61_pattern {items : List Item} {groups : List Bytes} (m h m' : Nat) (path : Bytes) :
    Answers ⟨m, .regex items groups, h⟩ m' path ↔
      m = m' ∧ ∃ a t b gs, normPath path = a ++ t ++ b ∧ Inst items gs t := by
  unfold Answers Route.matches
  dsimp only
  by_cases hm : m = m'
  · simp only [hm, ne_eq, not_true_eq_false, if_false, true_and]
    constructor
    · intro e
      cases hs : search items (normPath path) with
      | none => rw [hs] at e; cases e
      | some gs => obtain ⟨a, t, b, h1, h2⟩ := search_sound hs; exact ⟨a, t, b, gs, h1, h2⟩
    · rintro ⟨a, t, b, gs, h1, h2⟩
      rw [h1]; exact search_complete h2 b a
  · simp [hm]

/-! ### Parameters -/

/-- The items of a route given by segments. -/
def itemsOf : List Seg → List Item
  | [] => []
  | .lit t :: ss => .lit 47 :: t.map .lit ++ itemsOf ss
  | .param _ :: ss => .lit 47 :: .group :: itemsOf ss

/-- Nothing, or a slash first. -/
def SlashFirst (r : Bytes) : Prop := r = [] ∨ r.head? = some 47

theorem routeText_slash (ss : List Seg) : SlashFirst (routeText ss) := by
  cases ss with
  | nil => exact .inl rfl
  | cons s ss => cases s <;> exact .inr rfl

theorem takeWhile_all {p : UInt8 → Bool} {n r : Bytes} (hn : ∀ c ∈ n, p c = true) (hr : r = [] ∨ r.head?.map p = some false) :
    (n ++ r).takeWhile p = n := by
  induction n with
  | nil =>
    cases r with
    | nil => rfl
    | cons d r =>
      rcases hr with hr | hr
      · cases hr
      · simp at hr; simp [hr]
  | cons c n ih =>
    rw [List.cons_append, List.takeWhile_cons, if_pos (hn c (by simp)), ih (fun d hd => hn d (by simp [hd]))]

theorem scan_skip : ∀ (n r : Bytes), scan n.length (n ++ r) = scan 0 r
  | [], r => rfl
  | c :: n, r => by
    show scan (n.length + 1) (c :: (n ++ r)) = _
    rw [scan]; exact scan_skip n r

theorem scan_lits (t r : Bytes) (ht : ∀ c ∈ t, c ≠ 58 ∧ c ≠ 46 ∧ isMeta c = false) {is : List Item} {ns : List Bytes}
    (hr : scan 0 r = some (is, ns)) : scan 0 (t ++ r) = some (t.map .lit ++ is, ns) := by
  induction t with
  | nil => exact hr
  | cons c t ih =>
    obtain ⟨h1, h2, h3⟩ := ht c (by simp)
    show scan 0 (c :: (t ++ r)) = _
    rw [scan, if_neg (fun h => h1 h.1), if_neg (by simp [h3]), ih (fun d hd => ht d (by simp [hd]))]
    simp [h2]

theorem letter_alpha {c : UInt8} (h : Letter c) : isAlpha c = true := by simpa [isAlpha, Letter] using h

theorem ident_word {c : UInt8} (h : IdentByte c) : isWord c = true := by
  rcases h with h | h | h
  · simp [isWord, letter_alpha h]
  · simp [isWord, isDigit, h.1, h.2]
  · simp [isWord, h]

theorem scan_route : ∀ (ss : List Seg), (∀ s ∈ ss, s.Ok) → scan 0 (routeText ss) = some (itemsOf ss, names ss)
  | [], _ => rfl
  | .lit t :: ss, h => by
    have ht := h (.lit t) (by simp)
    have ih := scan_route ss (fun s hs => h s (by simp [hs]))
    have h2 : ∀ c ∈ 47 :: t, c ≠ 58 ∧ c ≠ 46 ∧ isMeta c = false := by
      intro c hc
      rcases List.mem_cons.1 hc with rfl | hc
      · decide
      · obtain ⟨_, h1, h2, h3⟩ := ht.2 c hc
        exact ⟨h1, h2, by simpa [isMeta] using h3⟩
    exact scan_lits (47 :: t) _ h2 ih
  | .param n :: ss, h => by
    obtain ⟨⟨c, m, rfl, hc⟩, hw⟩ := h (.param n) (by simp)
    have ih := scan_route ss (fun s hs => h s (by simp [hs]))
    have htw : ((c :: m) ++ routeText ss).takeWhile isWord = c :: m := by
      apply takeWhile_all (fun x hx => ident_word (hw x hx))
      rcases routeText_slash ss with e | e
      · exact .inl e
      · right; rw [e]; decide
    have htok : scan 0 (58 :: ((c :: m) ++ routeText ss)) = some (.group :: itemsOf ss, (c :: m) :: names ss) := by
      rw [scan, if_pos ⟨rfl, by simp [letter_alpha hc]⟩, htw, scan_skip, ih]
      rfl
    exact scan_lits [47] _ (by decide) htok

theorem matchAt_lits (t s : Bytes) (is : List Item) : matchAt (t.map .lit ++ is) (t ++ s) = matchAt is s := by
  induction t with
  | nil => rfl
  | cons c t ih => simpa [matchAt] using ih

theorem fill_slash {ss : List Seg} {vs : List Bytes} : SlashFirst (fill ss vs) := by
  cases ss with
  | nil => exact .inl rfl
  | cons s ss =>
    cases s with
    | lit t => exact .inr rfl
    | param n => cases vs with
      | nil => exact .inl rfl
      | cons v vs => exact .inr rfl

theorem matchAt_fill : ∀ (ss : List Seg) (vs : List Bytes), vs.length = (names ss).length → (∀ v ∈ vs, ValueOk v) →
    ∀ r, SlashFirst r → matchAt (itemsOf ss) (fill ss vs ++ r) = some (vs, r)
  | [], vs, hl, _, r, _ => by
    cases vs with
    | nil => rfl
    | cons v vs => simp [names] at hl
  | .lit t :: ss, vs, hl, hv, r, hr => by
    have ih := matchAt_fill ss vs hl hv r hr
    show matchAt (.lit 47 :: (t.map .lit ++ itemsOf ss)) (47 :: (t ++ fill ss vs ++ r)) = _
    rw [matchAt, if_pos rfl, List.append_assoc, matchAt_lits, ih]
  | .param n :: ss, [], hl, _, r, _ => by simp [names] at hl
  | .param n :: ss, v :: vs, hl, hv, r, hr => by
    have ih := matchAt_fill ss vs (by simpa [names] using hl) (fun x hx => hv x (by simp [hx])) r hr
    have hvo := hv v (by simp)
    show matchAt (.lit 47 :: .group :: itemsOf ss) (47 :: (v ++ fill ss vs ++ r)) = _
    rw [matchAt, if_pos rfl, matchAt, List.append_assoc]
    have hrun : (v ++ (fill ss vs ++ r)).takeWhile (· ≠ 47) = v := by
      apply takeWhile_all
      · intro c hc; simp; rintro rfl; exact hvo.2 hc
      · rcases @fill_slash ss vs with e | e
        · rw [e]
          rcases hr with e | e
          · exact .inl e
          · right
            show Option.map _ r.head? = _
            rw [e]; decide
        · right
          cases hf : fill ss vs with
          | nil => rw [hf] at e; cases e
          | cons d f => rw [hf] at e; simp at e; subst e; rfl
    rw [hrun]
    have hlen : 0 < v.length := List.length_pos_iff.2 hvo.1
    obtain ⟨k, hk⟩ : ∃ k, v.length = k + 1 := ⟨v.length - 1, by omega⟩
    rw [hk, tryLens, ← hk, List.drop_left, ih, List.take_left]

theorem search_of_matchAt {is : List Item} {s : Bytes} {x : List Bytes × Bytes} (h : matchAt is s = some x) : search is s = some x.1 := by
  cases s with
  | nil => simp [search, h]
  | cons c s => simp [search, h]

theorem fill_last : ∀ (ss : List Seg) (vs : List Bytes), (∀ s ∈ ss, s.Ok) → vs.length = (names ss).length → (∀ v ∈ vs, ValueOk v) →
    ss ≠ [] → ∃ x c, fill ss vs = 47 :: x ++ [c] ∧ c ≠ 47
  | [], _, _, _, _, h => absurd rfl h
  | .param n :: ss, [], _, hl, _, _ => by simp [names] at hl
  | .lit t :: ss, vs, ho, hl, hv, _ => by
    by_cases hs : ss = []
    · subst hs
      obtain ⟨h1, h2⟩ := ho (.lit t) (by simp)
      refine ⟨t.dropLast, t.getLast h1, ?_, (h2 _ (List.getLast_mem h1)).1⟩
      rw [List.cons_append, List.dropLast_concat_getLast h1]
      simp [fill]
    · obtain ⟨x, c, h1, h2⟩ := fill_last ss vs (fun s hs => ho s (by simp [hs])) hl hv hs
      exact ⟨t ++ 47 :: x, c, by simp [fill, h1], h2⟩
  | .param n :: ss, v :: vs, ho, hl, hv, _ => by
    have hvo := hv v (by simp)
    by_cases hs : ss = []
    · subst hs
      refine ⟨v.dropLast, v.getLast hvo.1, ?_, ?_⟩
      · rw [List.cons_append, List.dropLast_concat_getLast hvo.1]
        simp [fill]
      · intro e; exact hvo.2 (by rw [← e]; exact List.getLast_mem hvo.1)
    · obtain ⟨x, c, h1, h2⟩ := fill_last ss vs (fun s hs => ho s (by simp [hs])) (by simpa [names] using hl) (fun x hx => hv x (by simp [hx])) hs
      exact ⟨v ++ 47 :: x, c, by simp [fill, h1], h2⟩

theorem distinct_iff : ∀ ns : List Bytes, distinct ns = true ↔ ns.Nodup
  | [] => by simp [distinct]
  | n :: ns => by simp [distinct, distinct_iff ns]

theorem route_colon {ss : List Seg} (hn : names ss ≠ []) : (58 : UInt8) ∈ routeText ss := by
  induction ss with
  | nil => exact absurd rfl hn
  | cons s ss ih =>
    cases s with
    | lit t => have := ih hn; simp [routeText, this]
    | param n => simp [routeText]

theorem route_head {ss : List Seg} (hn : names ss ≠ []) : (routeText ss).head? = some 47 := by
  cases ss with
  | nil => exact absurd rfl hn
  | cons s ss => cases s <;> rfl

theorem alpha_letter {c : UInt8} : isAlpha c = true ↔ Letter c := by simp [isAlpha, Letter]

theorem word_ident {c : UInt8} : isWord c = true ↔ IdentByte c := by
  simp only [isWord, IdentByte, Bool.or_eq_true, alpha_letter, isDigit, Bool.and_eq_true, decide_eq_true_eq, beq_iff_eq, or_assoc]

theorem reads_scan {s : Bytes} {is : List Item} {ns : List Bytes} (h : Reads s is ns) : scan 0 s = some (is, ns) := by
  induction h with
  | nil => rfl
  | @byte c s is ns h1 h2 h3 _ ih =>
    rw [scan, if_neg ?_, if_neg (by simpa [isMeta] using h2), ih]
    · simp [h1]
    · rintro ⟨e, h⟩
      cases s with
      | nil => simp at h
      | cons d r => exact h3 e d r rfl (alpha_letter.mp (by simpa using h))
  | @dot s is ns _ ih =>
    rw [scan, if_neg (fun h => absurd h.1 (by decide)), if_neg (by decide), ih]
    rfl
  | @param c n s is ns h1 h2 h3 _ ih =>
    have htw : ((c :: n) ++ s).takeWhile isWord = c :: n := by
      apply takeWhile_all
      · intro x hx
        rcases List.mem_cons.mp hx with rfl | hx
        · exact word_ident.mpr (.inl h1)
        · exact word_ident.mpr (h2 x hx)
      · cases s with
        | nil => exact .inl rfl
        | cons d r =>
          right
          have := h3 d r rfl
          rw [← word_ident] at this
          simpa using this
    show scan 0 (58 :: ((c :: n) ++ s)) = _
    rw [scan, if_pos ⟨rfl, by simp [alpha_letter.mpr h1]⟩, htw, scan_skip, ih]
    rfl

theorem scan_reads : ∀ (n : Nat) (s : Bytes), s.length ≤ n → ∀ {is : List Item} {ns : List Bytes}, scan 0 s = some (is, ns) → Reads s is ns
  | _, [], _, is, ns, h => by
    rw [scan] at h
    cases h
    exact .nil
  | n + 1, c :: s, hl, is, ns, h => by
    rw [scan] at h
    split at h
    · rename_i hc
      obtain ⟨⟨i, m⟩, hr, e⟩ := Option.map_eq_some_iff.1 h
      cases e
      obtain ⟨rfl, ha⟩ := hc
      cases s with
      | nil => simp at ha
      | cons d r =>
        have hd : Letter d := alpha_letter.mp (by simpa using ha)
        have hw : isWord d = true := word_ident.mpr (.inl hd)
        have htw : (d :: r).takeWhile isWord = d :: r.takeWhile isWord := by rw [List.takeWhile_cons, if_pos hw]
        rw [htw] at hr ⊢
        have hsplit : d :: r = (d :: r.takeWhile isWord) ++ r.dropWhile isWord := by rw [List.cons_append, List.takeWhile_append_dropWhile]
        have hlen : (r.dropWhile isWord).length ≤ n := by
          have h1 : (r.dropWhile isWord).length ≤ r.length := (List.dropWhile_sublist isWord).length_le
          simp at hl
          omega
        rw [hsplit, scan_skip] at hr
        have ih := scan_reads n _ hlen hr
        rw [hsplit]
        refine .param (n := r.takeWhile isWord) hd (fun x hx => ?_) (fun x y hx => ?_) ih
        · have := List.all_takeWhile (p := isWord) (l := r)
          rw [List.all_eq_true] at this
          exact word_ident.mp (this x hx)
        · intro hxi
          have := List.head?_dropWhile_not isWord r
          rw [hx] at this
          simp [word_ident.mpr hxi] at this
    · rename_i hc
      split at h
      · cases h
      · rename_i hm
        obtain ⟨⟨i, m⟩, hr, e⟩ := Option.map_eq_some_iff.1 h
        cases e
        have ih := scan_reads n s (by simpa using hl) hr
        by_cases hd : c = 46
        · subst hd
          exact .dot ih
        · rw [if_neg hd]
          refine .byte hd (by simpa [isMeta] using hm) (fun e d r hs hlet => ?_) ih
          subst hs
          exact hc ⟨e, by simp [alpha_letter.mpr hlet]⟩

/-- **C61.** Which texts are routes, and what they stand for: a text that begins with a slash is, without a colon, the path itself but for one slash at the end; with a colon it is
the pattern it reads as, provided no parameter occurs twice. -/
theorem C61_route (path : Bytes) (p : Pattern) :
    compile path = some p ↔ path.head? = some 47 ∧
      (((58 : UInt8) ∉ path ∧ p = .exact (normPath path)) ∨
       ((58 : UInt8) ∈ path ∧ ∃ is ns, Reads path is ns ∧ ns.Nodup ∧ p = .regex is ns)) := by
  unfold compile
  by_cases hh : path.head? = some 47
  · rw [if_neg (by simp [hh])]
    by_cases hc : (58 : UInt8) ∈ path
    · rw [if_pos hc]
      simp only [hh, hc, not_true_eq_false, false_and, false_or, true_and]
      constructor
      · intro h
        cases hs : scan 0 path with
        | none => rw [hs] at h; cases h
        | some r =>
          rw [hs] at h
          obtain ⟨is, ns⟩ := r
          dsimp only at h
          split at h
          · rename_i hd
            cases h
            exact ⟨is, ns, scan_reads _ path (Nat.le_refl _) hs, (distinct_iff _).mp hd, rfl⟩
          · cases h
      · rintro ⟨is, ns, hr, hn, rfl⟩
        rw [reads_scan hr]
        simp [(distinct_iff _).mpr hn]
    · rw [if_neg hc]
      have hne : path ≠ [] := by rintro rfl; simp at hh
      simp only [hh, hc, not_false_eq_true, true_and, false_and, or_false]
      unfold normPath
      rw [if_neg hne]
      split <;> simp [eq_comm]
  · simp [hh]

/-- A parameter behind a letter, a colon that stands for itself, a dot. -/
example : Reads (ascii "/v:ersion.:1") [.lit 47, .lit 118, .group, .any, .lit 58, .lit 49] [ascii "ersion"] :=
  scan_reads _ _ (Nat.le_refl _) (by decide +kernel)

/-- **C61.** A route in which a parameter occurs twice is refused (a check fails). -/
theorem C61_twice (ss : List Seg) (hss : ∀ s ∈ ss, s.Ok) (hd : ¬ (names ss).Nodup) : compile (routeText ss) = none := by
  have hn : names ss ≠ [] := by intro e; rw [e] at hd; exact hd List.nodup_nil
  unfold compile
  rw [if_neg (by simp [route_head hn]), if_pos (route_colon hn), scan_route ss hss]
  simp [mt (distinct_iff _).1 hd]

/-- **C61.** A route with parameters answers the paths that give its parameters values, with or without
a slash at the end, and its handler gets exactly those values. -/
theorem C61_params (ss : List Seg) (hss : ∀ s ∈ ss, s.Ok) (hn : names ss ≠ []) (hd : (names ss).Nodup)
    (vs : List Bytes) (hl : vs.length = (names ss).length) (hv : ∀ v ∈ vs, ValueOk v) (m h : Nat) :
    ∃ p, compile (routeText ss) = some p ∧
      ∀ path, path = fill ss vs ∨ path = fill ss vs ++ [47] →
        Answers ⟨m, p, h⟩ m path ∧ Route.generate ⟨m, p, h⟩ path = some (.handler h ((names ss).zip vs)) := by
  have hne : ss ≠ [] := by rintro rfl; exact hn rfl
  have hcolon := route_colon hn
  have hhead := route_head hn
  refine ⟨.regex (itemsOf ss) (names ss), ?_, ?_⟩
  · unfold compile
    rw [if_neg (by simp [hhead]), if_pos hcolon, scan_route ss hss]
    simp [(distinct_iff _).2 hd]
  · intro path hp
    obtain ⟨x, c, hx, hc⟩ := fill_last ss vs hss hl hv hne
    have hnorm : normPath path = fill ss vs := by
      rcases hp with rfl | rfl
      · unfold normPath
        rw [if_neg (by simp [hx]), if_neg (by rw [hx, List.getLast?_append]; simp [hc])]
      · unfold normPath
        rw [if_neg (by simp), if_pos ⟨by simp [hx], by simp⟩]
        simp
    have h0 : search (itemsOf ss) (fill ss vs) = some vs := by
      have := search_of_matchAt (matchAt_fill ss vs hl hv [] (.inl rfl))
      simpa using this
    have h1 : search (itemsOf ss) (fill ss vs ++ [47]) = some vs := search_of_matchAt (matchAt_fill ss vs hl hv [47] (.inr rfl))
    constructor
    · simp [Answers, Route.matches, hnorm, h0]
    · rcases hp with rfl | rfl
      · simp [Route.generate, h0, hl]
      · simp [Route.generate, h1, hl]

instance (c : UInt8) : Decidable (Letter c) := by unfold Letter; infer_instance
instance (c : UInt8) : Decidable (IdentByte c) := by unfold IdentByte; infer_instance

/-- A case that meets the hypotheses: `/space/:name/tag/:tag`; and one with a name twice. -/
example : (∀ s ∈ [Seg.lit (ascii "space"), .param (ascii "name"), .lit (ascii "tag"), .param (ascii "tag")], s.Ok) ∧
    (names [Seg.lit (ascii "space"), .param (ascii "name"), .lit (ascii "tag"), .param (ascii "tag")]).Nodup ∧
    ¬ (names [Seg.param (ascii "a"), .param (ascii "b"), .param (ascii "a")]).Nodup ∧ (∀ s ∈ [Seg.param (ascii "a"), .param (ascii "b"), .param (ascii "a")], s.Ok) := by
  refine ⟨?_, by decide +kernel, by decide +kernel, ?_⟩ <;> intro s hs <;> simp only [List.mem_cons, List.not_mem_nil, or_false] at hs
  · rcases hs with rfl | rfl | rfl | rfl
    · exact ⟨by decide +kernel, by decide +kernel⟩
    · exact ⟨⟨110, ascii "ame", by decide +kernel, by decide +kernel⟩, by decide +kernel⟩
    · exact ⟨by decide +kernel, by decide +kernel⟩
    · exact ⟨⟨116, ascii "ag", by decide +kernel, by decide +kernel⟩, by decide +kernel⟩
  · rcases hs with rfl | rfl | rfl
    · exact ⟨⟨97, [], by decide +kernel, by decide +kernel⟩, by decide +kernel⟩
    · exact ⟨⟨98, [], by decide +kernel, by decide +kernel⟩, by decide +kernel⟩
    · exact ⟨⟨97, [], by decide +kernel, by decide +kernel⟩, by decide +kernel⟩

/-- Three routes: `/status`, `/space/:name/tag/:tag`, `/:any`. -/
def sampleRoutes : List Route :=
  [⟨0, .exact (ascii "/status"), 1⟩,
   ⟨0, .regex (itemsOf [.lit (ascii "space"), .param (ascii "name"), .lit (ascii "tag"), .param (ascii "tag")]) [ascii "name", ascii "tag"], 2⟩,
   ⟨0, .regex (itemsOf [.param (ascii "any")]) [ascii "any"], 3⟩]

example : Built sampleRoutes :=
  .add (.add (.add .nil (by decide +kernel : addRoute [] [] 0 (ascii "/status/") 1 = some (sampleRoutes.take 1)))
    (by decide +kernel : addRoute [] (sampleRoutes.take 1) 0 (ascii "/space/:name/tag/:tag") 2 = some (sampleRoutes.take 2)))
    (by decide +kernel : addRoute [] (sampleRoutes.take 2) 0 (ascii "/:any") 3 = some sampleRoutes)

example : dispatch sampleRoutes (some 0) (ascii "/space/s1/tag/t1/") = some (.handler 2 [(ascii "name", ascii "s1"), (ascii "tag", ascii "t1")]) ∧
    dispatch sampleRoutes (some 0) (ascii "/status/") = some (.handler 1 []) ∧
    dispatch sampleRoutes (some 1) (ascii "/status") = some .notFound ∧
    dispatch sampleRoutes (some 0) [] = some .notFound := by decide +kernel

/-- **C61 violated**: the patterns are not anchored, so that a route with parameters also takes paths that
merely contain an instance of it, with parameters from the middle of the path. -/
theorem C61_anchor_violated :
    ∃ rs, Built rs ∧ compile (ascii "/tag/:id") = some (.regex (itemsOf [.lit (ascii "tag"), .param (ascii "id")]) [ascii "id"]) ∧
      dispatch rs (some 0) (ascii "/other/tag/7/delete") = some (.handler 1 [(ascii "id", ascii "7")]) :=
  ⟨[⟨0, .regex (itemsOf [.lit (ascii "tag"), .param (ascii "id")]) [ascii "id"], 1⟩],
    .add .nil (by decide +kernel : addRoute [] [] 0 (ascii "/tag/:id") 1 = some _), by decide +kernel, by decide +kernel⟩

/-- **C61 violated**: a request with a method the HTTP library does not know is not answered by 404: an
exception is thrown. -/
theorem C61_method_violated (r : Route) (rs : List Route) (path : Bytes) : dispatch (r :: rs) none path = none := rfl

end Web
end Nebula
