import Verif.Value.MemLemmas
/-! # The calls, one by one, on memory that holds the values of the variables -/
namespace Nebula.VMem

/-! ## Values inside values -/

/-- The `i`-th of some values, and what happens when it is replaced. -/
theorem HoldsAll.at {m : Mem} : ∀ (i : Nat) {S : List Val} {E F : List Addr} {v : Val}, HoldsAll m S E F → S[i]? = some v →
    ∃ l f rest, E[i]? = some l ∧ Holds m v l f ∧ F.Perm (f ++ rest) ∧
      HoldsAll m (S.eraseIdx i) (E.eraseIdx i) rest ∧
      ∀ m' w f', Agree m m' rest → Holds m' w l f' → ∃ F', HoldsAll m' (S.set i w) E F' ∧ F'.Perm (f' ++ rest)
  | i, [], E, F, v, h, hi => by simp at hi
  | 0, u :: S, E, F, v, h, hi => by
    unfold HoldsAll at h
    obtain ⟨l, E', f, g, rfl, h1, h2, rfl⟩ := h
    simp only [List.getElem?_cons_zero, Option.some.injEq] at hi
    subst hi
    refine ⟨l, f, g, rfl, h1, List.Perm.refl _, by simpa using h2, ?_⟩
    intro m' w f' ha hw
    refine ⟨f' ++ g, ?_, List.Perm.refl _⟩
    simp only [List.set_cons_zero]
    unfold HoldsAll
    exact ⟨l, E', f', g, rfl, hw, h2.congr ha, rfl⟩
  | i + 1, u :: S, E, F, v, h, hi => by
    unfold HoldsAll at h
    obtain ⟨l0, E', f0, g, rfl, h1, h2, rfl⟩ := h
    simp only [List.getElem?_cons_succ] at hi
    obtain ⟨l, f, rest, e, hv, hp, her, hw⟩ := HoldsAll.at i h2 hi
    refine ⟨l, f, f0 ++ rest, by simpa using e, hv, ?_, ?_, ?_⟩
    · refine (List.Perm.append_left f0 hp).trans ?_
      rw [← List.append_assoc, ← List.append_assoc]
      exact List.perm_append_comm.append_right rest
    · simp only [List.eraseIdx_cons_succ]
      unfold HoldsAll
      exact ⟨l0, _, f0, rest, rfl, h1, her, rfl⟩
    · intro m' w f' ha hwv
      obtain ⟨F', hF', hp'⟩ := hw m' w f' (fun a h => ha a (by simp [h])) hwv
      refine ⟨f0 ++ F', ?_, ?_⟩
      · simp only [List.set_cons_succ]
        unfold HoldsAll
        exact ⟨l0, E', f0, F', rfl, h1.congr (fun a h => ha a (by simp [h])), hF', rfl⟩
      · refine (List.Perm.append_left f0 hp').trans ?_
        rw [← List.append_assoc, ← List.append_assoc]
        exact List.perm_append_comm.append_right rest

/-- Two of some values. -/
theorem HoldsAll.at2 {m : Mem} : ∀ (i j : Nat) {S : List Val} {E F : List Addr} {v w : Val}, i ≠ j → HoldsAll m S E F →
    S[i]? = some v → S[j]? = some w →
    ∃ l k f g rest, E[i]? = some l ∧ E[j]? = some k ∧ Holds m v l f ∧ Holds m w k g ∧ F.Perm (f ++ (g ++ rest)) ∧
      ∀ m' v' w' f' g', Agree m m' rest → Holds m' v' l f' → Holds m' w' k g' →
        ∃ F', HoldsAll m' ((S.set i v').set j w') E F' ∧ F'.Perm (f' ++ (g' ++ rest))
  | i, j, [], E, F, v, w, hij, h, hi, hj => by simp at hi
  | 0, 0, u :: S, E, F, v, w, hij, h, hi, hj => absurd rfl hij
  | 0, j + 1, u :: S, E, F, v, w, hij, h, hi, hj => by
    unfold HoldsAll at h
    obtain ⟨l, E', f, g, rfl, h1, h2, rfl⟩ := h
    simp only [List.getElem?_cons_zero, Option.some.injEq, List.getElem?_cons_succ] at hi hj
    subst hi
    obtain ⟨k, f2, rest, e, hv, hp, _, hw⟩ := HoldsAll.at j h2 hj
    refine ⟨l, k, f, f2, rest, rfl, by simpa using e, h1, hv, List.Perm.append_left f hp, ?_⟩
    intro m' v' w' f' g' ha hv' hw'
    obtain ⟨F', hF', hp'⟩ := hw m' w' g' ha hw'
    refine ⟨f' ++ F', ?_, List.Perm.append_left f' hp'⟩
    simp only [List.set_cons_zero, List.set_cons_succ]
    unfold HoldsAll
    exact ⟨l, E', f', F', rfl, hv', hF', rfl⟩
  | i + 1, 0, u :: S, E, F, v, w, hij, h, hi, hj => by
    unfold HoldsAll at h
    obtain ⟨l, E', f, g, rfl, h1, h2, rfl⟩ := h
    simp only [List.getElem?_cons_zero, Option.some.injEq, List.getElem?_cons_succ] at hi hj
    subst hj
    obtain ⟨k, f2, rest, e, hv, hp, _, hw⟩ := HoldsAll.at i h2 hi
    have hsw : ∀ x y : List Addr, (x ++ (y ++ rest)).Perm (y ++ (x ++ rest)) := by
      intro x y
      rw [← List.append_assoc, ← List.append_assoc]
      exact List.perm_append_comm.append_right rest
    refine ⟨k, l, f2, f, rest, by simpa using e, rfl, hv, h1, (List.Perm.append_left f hp).trans (hsw _ _), ?_⟩
    intro m' v' w' f' g' ha hv' hw'
    obtain ⟨F', hF', hp'⟩ := hw m' v' f' ha hv'
    refine ⟨g' ++ F', ?_, (List.Perm.append_left g' hp').trans (hsw _ _)⟩
    simp only [List.set_cons_zero, List.set_cons_succ]
    unfold HoldsAll
    exact ⟨l, E', g', F', rfl, hw', hF', rfl⟩
  | i + 1, j + 1, u :: S, E, F, v, w, hij, h, hi, hj => by
    unfold HoldsAll at h
    obtain ⟨l0, E', f0, g0, rfl, h1, h2, rfl⟩ := h
    simp only [List.getElem?_cons_succ] at hi hj
    obtain ⟨l, k, f, g, rest, e1, e2, hv, hw, hp, hwand⟩ := HoldsAll.at2 i j (by omega) h2 hi hj
    have hsw : ∀ x y : List Addr, (f0 ++ (x ++ (y ++ rest))).Perm (x ++ (y ++ (f0 ++ rest))) := by
      intro x y
      rw [List.perm_iff_count]; intro a; simp only [List.count_append]; omega
    refine ⟨l, k, f, g, f0 ++ rest, by simpa using e1, by simpa using e2, hv, hw, (List.Perm.append_left f0 hp).trans (hsw _ _), ?_⟩
    intro m' v' w' f' g' ha hv' hw'
    obtain ⟨F', hF', hp'⟩ := hwand m' v' w' f' g' (fun a h => ha a (by simp [h])) hv' hw'
    refine ⟨f0 ++ F', ?_, (List.Perm.append_left f0 hp').trans (hsw _ _)⟩
    simp only [List.set_cons_succ]
    unfold HoldsAll
    exact ⟨l0, E', f0, F', rfl, h1.congr (fun a h => ha a (by simp [h])), hF', rfl⟩

theorem descend_box {m : Mem} {l p : Addr} {t : Ty} {k : Mb} {c : Cell} (h1 : m.obj l = some ⟨t, .ptr k (some p)⟩)
    (h2 : m.cell p = some c) (j : Nat) (is : List Nat) : descend m l (j :: is) = locate m c.kids (j :: is) := by
  simp only [descend, h1, h2, locate]

/-- The value at a reference, and what happens when it is replaced. -/
theorem HoldsAll.focus {m : Mem} : ∀ (r : Ref) {S : List Val} {E F : List Addr} {v : Val}, HoldsAll m S E F → look S r = some v →
    ∃ l f rest, locate m E r = some l ∧ Holds m v l f ∧ F.Perm (f ++ rest) ∧
      ∀ m' w f', Agree m m' rest → Holds m' w l f' → ∃ F', HoldsAll m' (upd S r w) E F' ∧ F'.Perm (f' ++ rest)
  | [], S, E, F, v, h, hl => by simp [look] at hl
  | [i], S, E, F, v, h, hl => by
    obtain ⟨l, f, rest, e, hv, hp, _, hw⟩ := HoldsAll.at i h hl
    exact ⟨l, f, rest, by simp [locate, e, descend], hv, hp, hw⟩
  | i :: j :: is, S, E, F, v, h, hl => by
    rw [look] at hl
    split at hl
    case h_2 => simp at hl
    case h_1 k d ks hS =>
    obtain ⟨l, f, rest, e, hv, hp, _, hw⟩ := HoldsAll.at i h hS
    have hv0 := hv
    unfold Holds at hv
    obtain ⟨hk, p, ls, f, h1, h2, h3, h4, h5, rfl⟩ := hv
    obtain ⟨l', f', rest', e', hv', hp', hw'⟩ := HoldsAll.focus (j :: is) h5 hl
    refine ⟨l', f', l :: p :: (rest' ++ rest), ?_, hv', ?_, ?_⟩
    · simp only [locate, e]
      rw [descend_box h1 h3]; exact e'
    · refine hp.trans ?_
      rw [List.perm_iff_count]; intro a
      have := hp'.count_eq a
      simp only [List.count_append, List.count_cons] at this ⊢; omega
    · intro m' w f1 ha hwv
      obtain ⟨F1, hF1, hp1⟩ := hw' m' w f1 (fun a h => ha a (by simp [h])) hwv
      have hal := ha l (by simp)
      have hap := ha p (by simp)
      have hbox : Holds m' (.box k d (upd ks (j :: is) w)) l (l :: p :: F1) := by
        unfold Holds
        exact ⟨hk, p, ls, F1, hal.1.trans h1, hal.2.trans h2, hap.2.trans h3, hap.1.trans h4, hF1, rfl⟩
      obtain ⟨F', hF', hp2⟩ := hw m' _ _ (fun a h => ha a (by simp [h])) hbox
      refine ⟨F', by rw [upd, hS]; exact hF', hp2.trans ?_⟩
      rw [List.perm_iff_count]; intro a
      have := hp1.count_eq a
      simp only [List.count_append, List.count_cons] at this ⊢; omega

theorem Apart.symm {r s : Ref} (h : Apart r s) : Apart s r := ⟨h.2, h.1⟩

/-- Two values of which neither contains the other. -/
theorem HoldsAll.focus2 {m : Mem} : ∀ (r s : Ref) {S : List Val} {E F : List Addr} {v w : Val}, Apart r s → HoldsAll m S E F →
    look S r = some v → look S s = some w →
    ∃ l k f g rest, locate m E r = some l ∧ locate m E s = some k ∧ Holds m v l f ∧ Holds m w k g ∧ F.Perm (f ++ (g ++ rest)) ∧
      ∀ m' v' w' f' g', Agree m m' rest → Holds m' v' l f' → Holds m' w' k g' →
        ∃ F', HoldsAll m' (upd (upd S r v') s w') E F' ∧ F'.Perm (f' ++ (g' ++ rest))
  | [], s, S, E, F, v, w, ha, h, hv, hw => by simp [look] at hv
  | i :: is, [], S, E, F, v, w, ha, h, hv, hw => by simp [look] at hw
  | i :: is, j :: js, S, E, F, v, w, ha, h, hv, hw => by
    by_cases hij : i = j
    · subst hij
      have ha' : Apart is js := by
        constructor
        · intro hp; exact ha.1 ((List.prefix_cons_inj i).2 hp)
        · intro hp; exact ha.2 ((List.prefix_cons_inj i).2 hp)
      obtain ⟨i', is, rfl⟩ : ∃ a b, is = a :: b := by
        cases is with
        | nil => exact absurd (List.nil_prefix) ha'.1
        | cons a b => exact ⟨a, b, rfl⟩
      obtain ⟨j', js, rfl⟩ : ∃ a b, js = a :: b := by
        cases js with
        | nil => exact absurd (List.nil_prefix) ha'.2
        | cons a b => exact ⟨a, b, rfl⟩
      rw [look] at hv
      split at hv
      case h_2 => simp at hv
      case h_1 k d ks hS =>
      rw [look, hS] at hw
      simp only at hw
      obtain ⟨l, f, rest, e, hb, hp, _, hwand⟩ := HoldsAll.at i h hS
      unfold Holds at hb
      obtain ⟨hk, p, ls, f, h1, h2, h3, h4, h5, rfl⟩ := hb
      obtain ⟨l1, l2, f1, f2, rest', e1, e2, H1, H2, hp', hwand'⟩ := HoldsAll.focus2 (i' :: is) (j' :: js) ha' h5 hv hw
      refine ⟨l1, l2, f1, f2, l :: p :: (rest' ++ rest), ?_, ?_, H1, H2, ?_, ?_⟩
      · simp only [locate, e]; rw [descend_box h1 h3]; exact e1
      · simp only [locate, e]; rw [descend_box h1 h3]; exact e2
      · refine hp.trans ?_
        rw [List.perm_iff_count]; intro a
        have := hp'.count_eq a
        simp only [List.count_append, List.count_cons] at this ⊢; omega
      · intro m' v' w' f' g' hag hv' hw'
        obtain ⟨F1, hF1, hp1⟩ := hwand' m' v' w' f' g' (fun a h => hag a (by simp [h])) hv' hw'
        have hal := hag l (by simp)
        have hap := hag p (by simp)
        have hbox : Holds m' (.box k d (upd (upd ks (i' :: is) v') (j' :: js) w')) l (l :: p :: F1) := by
          unfold Holds
          exact ⟨hk, p, ls, F1, hal.1.trans h1, hal.2.trans h2, hap.2.trans h3, hap.1.trans h4, hF1, rfl⟩
        obtain ⟨F', hF', hp2⟩ := hwand m' _ _ (fun a h => hag a (by simp [h])) hbox
        refine ⟨F', ?_, hp2.trans ?_⟩
        · have hlt : i < S.length := by
            rcases List.getElem?_eq_some_iff.1 hS with ⟨hh, _⟩; exact hh
          have hs2 : (S.set i (.box k d (upd ks (i' :: is) v')))[i]? = some (.box k d (upd ks (i' :: is) v')) := by
            simp [hlt]
          have hu : upd S (i :: i' :: is) v' = S.set i (.box k d (upd ks (i' :: is) v')) := by rw [upd, hS]
          rw [hu, upd, hs2]; simp only
          rw [List.set_set]; exact hF'
        · rw [List.perm_iff_count]; intro a
          have := hp1.count_eq a
          simp only [List.count_append, List.count_cons] at this ⊢; omega
    · -- different variables or elements
      have hSi : ∃ u, S[i]? = some u := by
        cases is with
        | nil => exact ⟨v, hv⟩
        | cons a b =>
          rw [look] at hv
          split at hv
          · exact ⟨_, by assumption⟩
          · simp at hv
      have hSj : ∃ u, S[j]? = some u := by
        cases js with
        | nil => exact ⟨w, hw⟩
        | cons a b =>
          rw [look] at hw
          split at hw
          · exact ⟨_, by assumption⟩
          · simp at hw
      obtain ⟨u, hSi⟩ := hSi
      obtain ⟨t, hSj⟩ := hSj
      obtain ⟨l, k, f, g, rest, e1, e2, H1, H2, hp, hwand⟩ := HoldsAll.at2 i j hij h hSi hSj
      -- the two parts separately
      have part : ∀ (x : Nat) (xs : List Nat) (u : Val) (l : Addr) (f : List Addr) (v : Val), S[x]? = some u → E[x]? = some l →
          Holds m u l f → look S (x :: xs) = some v →
          ∃ l1 f1 rest1, locate m E (x :: xs) = some l1 ∧ Holds m v l1 f1 ∧ f.Perm (f1 ++ rest1) ∧
            ∀ m' v' f', Agree m m' rest1 → Holds m' v' l1 f' → ∃ u' F', (∀ T : List Val, T[x]? = some u → upd T (x :: xs) v' = T.set x u') ∧
              Holds m' u' l F' ∧ F'.Perm (f' ++ rest1) := by
        intro x xs u l f v hS hE H hl
        cases xs with
        | nil =>
          rw [look] at hl
          rw [hS] at hl
          simp only [Option.some.injEq] at hl
          subst hl
          refine ⟨l, f, [], by simp [locate, hE, descend], H, by simp, ?_⟩
          intro m' v' f' _ hv'
          exact ⟨v', f', fun T _ => rfl, hv', by simp⟩
        | cons a b =>
          rw [look, hS] at hl
          split at hl
          case h_2 => simp at hl
          case h_1 kk d ks he =>
          simp only [Option.some.injEq] at he
          subst he
          unfold Holds at H
          obtain ⟨hk, p, ls, f, h1, h2, h3, h4, h5, rfl⟩ := H
          obtain ⟨l1, f1, rest1, e1, hv1, hp1, hw1⟩ := HoldsAll.focus (a :: b) h5 hl
          refine ⟨l1, f1, l :: p :: rest1, ?_, hv1, ?_, ?_⟩
          · simp only [locate, hE]; rw [descend_box h1 h3]; exact e1
          · rw [List.perm_iff_count]; intro a
            have := hp1.count_eq a
            simp only [List.count_append, List.count_cons] at this ⊢; omega
          · intro m' v' f' hag hv'
            obtain ⟨F1, hF1, hpF⟩ := hw1 m' v' f' (fun a h => hag a (by simp [h])) hv'
            have hal := hag l (by simp)
            have hap := hag p (by simp)
            refine ⟨.box kk d (upd ks (a :: b) v'), l :: p :: F1, ?_, ?_, ?_⟩
            · intro T hT; rw [upd, hT]
            · unfold Holds
              exact ⟨hk, p, ls, F1, hal.1.trans h1, hal.2.trans h2, hap.2.trans h3, hap.1.trans h4, hF1, rfl⟩
            · rw [List.perm_iff_count]; intro a
              have := hpF.count_eq a
              simp only [List.count_append, List.count_cons] at this ⊢; omega
      obtain ⟨l1, f1, r1, el1, Hl1, hp1, hw1⟩ := part i is u l f v hSi e1 H1 hv
      obtain ⟨l2, f2, r2, el2, Hl2, hp2, hw2⟩ := part j js t k g w hSj e2 H2 hw
      refine ⟨l1, l2, f1, f2, r1 ++ (r2 ++ rest), el1, el2, Hl1, Hl2, ?_, ?_⟩
      · refine hp.trans ?_
        rw [List.perm_iff_count]; intro a
        have := hp1.count_eq a
        have := hp2.count_eq a
        simp only [List.count_append] at *; omega
      · intro m' v' w' f' g' hag hv' hw'
        obtain ⟨u', F1, hu1, hu2, hu3⟩ := hw1 m' v' f' (fun a h => hag a (by simp [h])) hv'
        obtain ⟨t', F2, ht1, ht2, ht3⟩ := hw2 m' w' g' (fun a h => hag a (by simp [h])) hw'
        obtain ⟨F', hF', hpF⟩ := hwand m' u' t' F1 F2 (fun a h => hag a (by simp [h])) hu2 ht2
        refine ⟨F', ?_, hpF.trans ?_⟩
        · rw [hu1 S hSi, ht1 (S.set i u') (by rw [List.getElem?_set_ne hij]; exact hSj)]
          exact hF'
        · rw [List.perm_iff_count]; intro a
          have := hu3.count_eq a
          have := ht3.count_eq a
          simp only [List.count_append] at *; omega

/-! ## Keeping `Owned` -/

theorem owned_of {m m' : Mem} {E' F F' f g rest : List Addr} {S' : List Val} (hF : F.Nodup) (hl : ∀ a, m.Live a ↔ a ∈ F)
    (L : Local m m' f g) (hp : F.Perm (f ++ rest)) (hb : ∀ a ∈ F, a < m.next)
    (H : HoldsAll m' S' E' F') (hp' : F'.Perm (g ++ rest)) : Owned m' E' S' := by
  have hB : m.Bounded := fun a ha h => by have := hb a ((hl a).1 h); omega
  have R := (Local.refl hB hF (fun a ha => (hl a).2 ha)).step (e := rest) L hp
  refine ⟨F', H, hp'.nodup_iff.2 R.nodup, ?_, fun a ha => R.bound a (hp'.mem_iff.1 ha)⟩
  intro a
  rw [hp'.mem_iff]
  by_cases h : a ∈ F ∨ m.next ≤ a
  · exact R.live a h
  · have h1 : a ∉ F := fun x => h (Or.inl x)
    have h2 : a < m.next := by
      rcases Nat.lt_or_ge a m.next with x | x
      · exact x
      · exact absurd (Or.inr x) h
    have hfr := R.frame a h1 h2
    have : m'.Live a ↔ m.Live a := by unfold Mem.Live; rw [hfr.1, hfr.2]
    rw [this, hl]
    constructor
    · intro x; exact absurd x h1
    · intro x; exact absurd (R.sub a x) h

/-! ## The calls on objects -/

theorem copyAssign_spec {va vb : Val} {m : Mem} {a b : Addr} {fa fb : List Addr} (ha : Holds m va a fa) (hb : Holds m vb b fb)
    (hn : (fa ++ fb).Nodup) (hB : m.Bounded) : ∃ m' g, copyAssign m a b = some m' ∧ Holds m' vb a g ∧ Local m m' fa g := by
  have hn' := List.nodup_append.1 hn
  have hne : a ≠ b := fun e => hn'.2.2 a ha.mem b hb.mem e
  obtain ⟨m1, e1, H1, L1⟩ := clear_spec ha hn'.1 hB
  have hb1 : Holds m1 vb b fb := hb.congr (L1.agree (fun x hx hf => hn'.2.2 x hf x hx rfl) (hb.bound hB))
  have hab : a ∉ fb := fun h => hn'.2.2 a ha.mem a h rfl
  obtain ⟨o, ho, hty⟩ := hb1.ty
  cases hk : vb.kind with
  | none =>
    refine ⟨m1, [a], ?_, ?_, L1⟩
    · simp [copyAssign, hne, e1, ho, hty, hk, assignArm]
    · cases vb with
      | empty => exact H1
      | plain k d => simp [Val.kind] at hk
      | box k d ks => simp [Val.kind] at hk
  | some k =>
    obtain ⟨m2, g, e2, H2, L2⟩ := setCopy_spec vb m1 a b fb k hk hb1 hab (H1.bound L1.bounded a (by simp)) H1.cell L1.bounded
    have hb2 : Holds m2 vb b fb := hb1.congr (L2.agree (fun x hx hf => hab (by simp at hf; exact hf ▸ hx)) (hb1.bound L1.bounded))
    obtain ⟨o2, ho2, hty2⟩ := hb2.ty
    obtain ⟨o3, ho3, hty3⟩ := H2.ty
    have hsame : m2.putObj a ⟨o2.ty, o3.word⟩ = m2 := by
      have : o2.ty = o3.ty := by rw [hty2, hty3]
      unfold Mem.putObj
      congr 1
      funext x
      by_cases hx : x = a
      · subst hx; simp [ho3, this]
      · simp [hx]
    refine ⟨m2, g, ?_, H2, L1.trans L2⟩
    simp [copyAssign, hne, e1, ho, hty, hk, assignArm_typeOf, e2, ho2, ho3, hsame]

theorem moveAssign_spec {va vb : Val} {m : Mem} {a b : Addr} {fa fb : List Addr} (ha : Holds m va a fa) (hb : Holds m vb b fb)
    (hn : (fa ++ fb).Nodup) (hB : m.Bounded) :
    ∃ m' g, moveAssign m a b = some m' ∧ Holds m' vb a g ∧ Holds m' .empty b [b] ∧ Local m m' (fa ++ fb) (g ++ [b]) := by
  have hn' := List.nodup_append.1 hn
  have hne : a ≠ b := fun e => hn'.2.2 a ha.mem b hb.mem e
  obtain ⟨m1, e1, H1, L1⟩ := clear_spec ha hn'.1 hB
  have hb1 : Holds m1 vb b fb := hb.congr (L1.agree (fun x hx hf => hn'.2.2 x hf x hx rfl) (hb.bound hB))
  have hab : a ∉ fb := fun h => hn'.2.2 a ha.mem a h rfl
  obtain ⟨m2, g, e2, H2, H2', L2⟩ := moveInto_spec (arm := moveAssignArm) rfl moveAssignArm_typeOf hb1 hn'.2.1 hab H1 L1.bounded
  have R := (Local.refl hB hn (fun x hx => by
    rcases List.mem_append.1 hx with hx | hx
    · exact ha.live x hx
    · exact hb.live x hx)).step (e := fb) L1 (List.Perm.refl _)
  exact ⟨m2, g, by simp [moveAssign, hne, e1, e2], H2, H2', R.trans L2⟩

theorem swap_spec {va vb : Val} {m : Mem} {a b : Addr} {fa fb : List Addr} (ha : Holds m va a fa) (hb : Holds m vb b fb)
    (hn : (fa ++ fb).Nodup) (hB : m.Bounded) :
    ∃ m' f g, swap m a b = some m' ∧ Holds m' vb a f ∧ Holds m' va b g ∧ Local m m' (fa ++ fb) (f ++ g) := by
  have hn' := List.nodup_append.1 hn
  have R : Local m m (fa ++ fb) (fa ++ fb) := Local.refl hB hn (fun x hx => by
    rcases List.mem_append.1 hx with hx | hx
    · exact ha.live x hx
    · exact hb.live x hx)
  obtain ⟨m1, ft, e1, Ht1, Ha1, L1⟩ := moveCtor_spec ha hn'.1 hB
  have R1 := R.step (e := fb) L1 (List.Perm.refl _)
  have hb1 : Holds m1 vb b fb := hb.congr (L1.agree (fun x hx hf => hn'.2.2 x hf x hx rfl) (hb.bound hB))
  have hnd1 := R1.nodup
  rw [List.append_assoc, List.nodup_append] at hnd1
  obtain ⟨m2, g2, e2, Ha2, Hb2, L2⟩ := moveAssign_spec Ha1 hb1 hnd1.2.1 R1.bounded
  have R2 := R1.step (e := ft) L2 (by rw [List.append_assoc]; exact List.perm_append_comm)
  have Ht2 : Holds m2 va m.next ft := Ht1.congr (L2.agree (fun x hx hf => hnd1.2.2 x hx x hf rfl) (Ht1.bound R1.bounded))
  have hnd2 := R2.nodup
  rw [List.append_assoc, List.nodup_append] at hnd2
  obtain ⟨m3, g3, e3, Hb3, Ht3, L3⟩ := moveAssign_spec Hb2 Ht2 hnd2.2.1 R2.bounded
  have R3 := R2.step (e := g2) L3 (by rw [List.append_assoc]; exact List.perm_append_comm)
  have Ha3 : Holds m3 vb a g2 := Ha2.congr (L3.agree (fun x hx hf => hnd2.2.2 x hx x hf rfl) (Ha2.bound R2.bounded))
  have hT : HoldsAll m3 [.empty] [m.next] [m.next] := by
    unfold HoldsAll
    exact ⟨m.next, [], [m.next], [], rfl, Ht3, by unfold HoldsAll; exact ⟨rfl, rfl⟩, rfl⟩
  obtain ⟨m4, e4, L4⟩ := destroyAll_spec hT (by simp) R3.bounded
  have R4 := R3.step (e := g3 ++ g2) L4 (by
    rw [List.perm_iff_count]; intro x; simp only [List.count_append]; omega)
  have hnd3 := R3.nodup
  have hag : Agree m3 m4 (g3 ++ g2) := by
    refine L4.agree ?_ (fun x hx => R3.bound x (by
      rcases List.mem_append.1 hx with hx | hx
      · simp [hx]
      · simp [hx]))
    intro x hx hf
    have hx' : x = m.next := by simpa using hf
    subst hx'
    rw [List.append_assoc, List.nodup_append] at hnd3
    rcases List.mem_append.1 hx with hx | hx
    · exact hnd3.2.2 _ hx _ (by simp) rfl
    · have := (List.nodup_append.1 hnd3.2.1).2.2 m.next (by simp) m.next hx
      exact this rfl
  refine ⟨m4, g2, g3, ?_, Ha3.congr (fun x hx => hag x (by simp [hx])), Hb3.congr (fun x hx => hag x (by simp [hx])),
    R4.perm (List.Perm.refl _) (by simpa using List.perm_append_comm)⟩
  simp [swap, e1, e2, e3, e4]

theorem swap_self_spec {va : Val} {m : Mem} {a : Addr} {fa : List Addr} (ha : Holds m va a fa) (hn : fa.Nodup) (hB : m.Bounded) :
    ∃ m' f, swap m a a = some m' ∧ Holds m' va a f ∧ Local m m' fa f := by
  obtain ⟨m1, ft, e1, Ht1, Ha1, L1⟩ := moveCtor_spec ha hn hB
  have e2 : moveAssign m1 a a = some m1 := by simp [moveAssign]
  obtain ⟨m3, g3, e3, Hb3, Ht3, L3⟩ := moveAssign_spec Ha1 Ht1 (List.perm_append_comm.nodup_iff.1 L1.nodup) L1.bounded
  have R3 := L1.step (e := []) L3 (by simpa using List.perm_append_comm)
  have hT : HoldsAll m3 [.empty] [m.next] [m.next] := by
    unfold HoldsAll
    exact ⟨m.next, [], [m.next], [], rfl, Ht3, by unfold HoldsAll; exact ⟨rfl, rfl⟩, rfl⟩
  obtain ⟨m4, e4, L4⟩ := destroyAll_spec hT (by simp) R3.bounded
  have R4 := R3.step (e := g3) L4 (by simpa using List.perm_append_comm)
  refine ⟨m4, g3, by simp [swap, e1, e2, e3, e4], ?_, by simpa using R4⟩
  refine Hb3.congr (L4.agree ?_ (fun x hx => R3.bound x (by simp [hx])))
  intro x hx hf
  have hx' : x = m.next := by simpa using hf
  subst hx'
  have := L3.nodup
  exact (List.nodup_append.1 this).2.2 _ hx _ (by simp) rfl

theorem setPlain_spec {va : Val} {m : Mem} {a : Addr} {fa : List Addr} (ha : Holds m va a fa) (hn : fa.Nodup) (hB : m.Bounded)
    {k : Mb} (hk : k.boxed = false) (d : Plain) :
    ∃ m', setPlain m a k d = some m' ∧ Holds m' (.plain k d) a [a] ∧ Local m m' fa [a] := by
  obtain ⟨m1, e1, H1, L1⟩ := clear_spec ha hn hB
  refine ⟨m1.putObj a ⟨setTy k, .plain k d⟩, by simp [setPlain, e1], ?_,
    L1.trans (Local.putObj L1.bounded (H1.bound L1.bounded a (by simp)))⟩
  unfold Holds
  exact ⟨hk, by rw [putObj_obj, setTy_eq], H1.cell, rfl⟩

theorem setCopy_ptr {m : Mem} {l r p : Addr} {k : Mb} {t : Ty} (hk : k.boxed = true) (hr : r ≠ l)
    (h : m.obj r = some ⟨t, .ptr k (some p)⟩) :
    setCopy m l k r = (do
      let (m2, q) ← copyPayload (m.putObj l ⟨setTy k, .none⟩) p
      some (m2.putObj l ⟨setTy k, .ptr k (some q)⟩)) := by
  rw [setCopy]; simp [putObj_obj_ne _ _ hr, h, hk]

theorem payloadOf_box {m : Mem} {k : Mb} {d : Plain} {ks : List Val} {r : Addr} {f : List Addr} (h : Holds m (.box k d ks) r f) :
    k.boxed = true ∧ ∃ p, m.obj r = some ⟨typeOf k, .ptr k (some p)⟩ ∧ payloadOf m k r = some p ∧ p ∈ f ∧ p ≠ r := by
  unfold Holds at h
  obtain ⟨hk, p, ls, f, h1, h2, h3, h4, h5, rfl⟩ := h
  exact ⟨hk, p, h1, by simp [payloadOf, h1, setTy_eq], by simp, fun e => by subst e; rw [h2] at h3; simp at h3⟩

theorem setPayload_spec {va : Val} {k : Mb} {d : Plain} {ks : List Val} {m : Mem} {a b : Addr} {fa fb : List Addr} (ha : Holds m va a fa)
    (hb : Holds m (.box k d ks) b fb) (hn : (fa ++ fb).Nodup) (hB : m.Bounded) :
    ∃ p m' g, payloadOf m k b = some p ∧ setPayload m a k p = some m' ∧ Holds m' (.box k d ks) a g ∧ Local m m' fa g := by
  have hn' := List.nodup_append.1 hn
  have hne : b ≠ a := fun e => hn'.2.2 a ha.mem b hb.mem e.symm
  obtain ⟨hk, p, hp, hpo, _, _⟩ := payloadOf_box hb
  obtain ⟨m1, e1, H1, L1⟩ := clear_spec ha hn'.1 hB
  have hb1 : Holds m1 (.box k d ks) b fb := hb.congr (L1.agree (fun x hx hf => hn'.2.2 x hf x hx rfl) (hb.bound hB))
  have hab : a ∉ fb := fun h => hn'.2.2 a ha.mem a h rfl
  have hp1 : m1.obj b = some ⟨typeOf k, .ptr k (some p)⟩ := by
    rw [(L1.frame b (fun h => hn'.2.2 b h b hb.mem rfl) (hb.bound hB b hb.mem)).1, hp]
  obtain ⟨m2, g, e2, H2, L2⟩ := setCopy_spec (.box k d ks) m1 a b fb k rfl hb1 hab (H1.bound L1.bounded a (by simp)) H1.cell L1.bounded
  rw [setCopy_ptr hk hne hp1] at e2
  exact ⟨p, m2, g, hpo, by simp only [setPayload, e1, Option.bind_eq_bind, Option.bind_some]; exact e2, H2, L1.trans L2⟩

/-- A new variable that copies a payload. -/
theorem payloadCtor_spec {k : Mb} {d : Plain} {ks : List Val} {m : Mem} {b : Addr} {fb : List Addr}
    (hb : Holds m (.box k d ks) b fb) (hB : m.Bounded) :
    ∃ p m' g, payloadOf m k b = some p ∧ payloadCtor m.alloc m.next k p = some m' ∧ Holds m' (.box k d ks) m.next g ∧
      Local m m' [] g := by
  obtain ⟨hk, p, hp, hpo, _, _⟩ := payloadOf_box hb
  have hnf : m.next ∉ fb := fun hm => by have := hb.bound hB _ hm; omega
  obtain ⟨m1, f1, e1, H1, L1⟩ := setCopy_spec (.box k d ks) m.alloc m.next b fb k rfl
    (hb.congr (fun a _ => ⟨rfl, rfl⟩)) hnf (Nat.lt_succ_self _) (Bounded.next hB).2 (Bounded.alloc hB)
  have hne : b ≠ m.next := fun e => hnf (e ▸ hb.mem)
  rw [setCopy_ptr hk hne (show m.alloc.obj b = _ from hp)] at e1
  exact ⟨p, m1, f1, hpo, e1, H1, L1.ofAlloc⟩

theorem setPayloadMove_spec {va : Val} {k : Mb} {d : Plain} {ks : List Val} {m : Mem} {a b : Addr} {fa fb : List Addr}
    (ha : Holds m va a fa) (hb : Holds m (.box k d ks) b fb) (hn : (fa ++ fb).Nodup) (hB : m.Bounded) :
    ∃ p m' g h, payloadOf m k b = some p ∧ setPayloadMove m a k p = some m' ∧ Holds m' (.box k d ks) a g ∧
      Holds m' (husk (.box k d ks)) b h ∧ Local m m' (fa ++ fb) (g ++ h) := by
  have hn' := List.nodup_append.1 hn
  have hdis : ∀ x ∈ fb, x ∉ fa := fun x hx hf => hn'.2.2 x hf x hx rfl
  have hne : b ≠ a := fun e => hn'.2.2 a ha.mem b hb.mem e.symm
  have hab : a ∉ fb := fun h => hn'.2.2 a ha.mem a h rfl
  obtain ⟨hk, p, hp, hpo, _, _⟩ := payloadOf_box hb
  have R : Local m m (fa ++ fb) (fa ++ fb) := Local.refl hB hn (fun x hx => by
    rcases List.mem_append.1 hx with hx | hx
    · exact ha.live x hx
    · exact hb.live x hx)
  obtain ⟨m1, e1, H1, L1⟩ := clear_spec ha hn'.1 hB
  have R1 := R.step (e := fb) L1 (List.Perm.refl _)
  have hat := H1.bound L1.bounded a (by simp)
  have L2 : Local m1 (m1.putObj a ⟨setTy k, .none⟩) [a] [a] := Local.putObj L1.bounded hat
  have R2 := R1.step (e := fb) L2 (List.Perm.refl _)
  have hb1 : Holds m1 (.box k d ks) b fb := hb.congr (L1.agree hdis (hb.bound hB))
  have hb2 := hb1.congr (L2.agree (r := fb) (fun x hx hf => hab (by simp at hf; exact hf ▸ hx)) (hb1.bound L1.bounded))
  obtain ⟨p', m3, q, fh, ls, g, hp', e3, Hh, hq1, hq2, Hk, L3⟩ := movePayload_spec hb2 hn'.2.1 R2.bounded
  have hpp : p' = p := by
    rw [putObj_obj_ne _ _ hne, (L1.frame b (hdis b hb.mem) (hb.bound hB b hb.mem)).1, hp] at hp'
    simpa using hp'.symm
  subst hpp
  have R3 := R2.step (e := [a]) L3 List.perm_append_comm
  have L4 := Local.putObj (l := a) (o := ⟨setTy k, .ptr k (some q)⟩) R3.bounded (R3.bound a (by simp))
  have R4 := R3.step (e := fh ++ q :: g) L4 List.perm_append_comm
  have hnd := List.nodup_append.1 R3.nodup
  have hag : Agree m3 (m3.putObj a ⟨setTy k, .ptr k (some q)⟩) (fh ++ q :: g) :=
    L4.agree (fun x hx hf => hnd.2.2 x hx x hf rfl) (fun x hx => R3.bound x (List.mem_append.2 (Or.inl hx)))
  refine ⟨p', _, a :: q :: g, fh, hpo, ?_, ?_, Hh.congr (fun x hx => hag x (by simp [hx])), R4.perm (List.Perm.refl _) ?_⟩
  · simp only [setPayloadMove, e1, Option.bind_eq_bind, Option.bind_some, e3]
  · have haq := hag q (by simp)
    have hac : m3.cell a = none := by
      rw [(L3.frame a hab hat).2]; exact H1.cell
    unfold Holds
    exact ⟨hk, q, ls, g, by rw [putObj_obj, setTy_eq], hac, haq.2.trans hq1, haq.1.trans hq2,
      Hk.congr (fun x hx => hag x (by simp [hx])), rfl⟩
  · rw [List.perm_iff_count]; intro x; simp only [List.count_append, List.count_cons, List.count_nil]; omega

/-- An object at an address that was set aside before. -/
theorem Local.lateObj {m m' : Mem} {f g : List Addr} {o : Obj} (h : Local m.alloc m' f g) (hf : ∀ a ∈ f, a < m.next) :
    Local m (m'.putObj m.next o) f (m.next :: g) where
  next := Nat.le_trans (Nat.le_succ _) h.next
  frame := by
    intro a ha hb
    have hne : a ≠ m.next := by omega
    have := h.frame a ha (Nat.lt_succ_of_lt hb)
    rw [putObj_obj_ne _ _ hne]
    exact this
  live := by
    intro a ha
    rw [live_putObj, List.mem_cons]
    by_cases he : a = m.next
    · simp [he]
    · have : a ∈ f ∨ m.alloc.next ≤ a := by
        rcases ha with ha | ha
        · exact Or.inl ha
        · right; show m.next + 1 ≤ a; omega
      rw [h.live a this]
  nodup := by
    refine List.nodup_cons.2 ⟨fun hm => ?_, h.nodup⟩
    rcases h.sub _ hm with x | x
    · have := hf _ x; omega
    · have : m.next + 1 ≤ m.next := x
      omega
  sub := by
    intro a ha
    rcases List.mem_cons.1 ha with ha | ha
    · right; omega
    · rcases h.sub a ha with x | x
      · exact Or.inl x
      · have : m.next + 1 ≤ a := x
        right; omega
  bound := by
    intro a ha
    rcases List.mem_cons.1 ha with ha | ha
    · have : m.next + 1 ≤ m'.next := h.next
      show a < m'.next
      omega
    · exact h.bound a ha

/-- A new variable that takes a payload. -/
theorem payloadMoveCtor_spec {k : Mb} {d : Plain} {ks : List Val} {m : Mem} {b : Addr} {fb : List Addr}
    (hb : Holds m (.box k d ks) b fb) (hn : fb.Nodup) (hB : m.Bounded) :
    ∃ p m' g h, payloadOf m k b = some p ∧ payloadMoveCtor m.alloc m.next k p = some m' ∧ Holds m' (.box k d ks) m.next g ∧
      Holds m' (husk (.box k d ks)) b h ∧ Local m m' fb (g ++ h) := by
  obtain ⟨hk, p, hp, hpo, _, _⟩ := payloadOf_box hb
  have hnf : m.next ∉ fb := fun hm => by have := hb.bound hB _ hm; omega
  have hne : b ≠ m.next := fun e => hnf (e ▸ hb.mem)
  have L1 : Local m (m.alloc.putObj m.next ⟨setTy k, .none⟩) [] [m.next] := Local.newObj hB
  have R1 := (Local.refl hB hn hb.live).step (e := fb) L1 (by simp)
  have hb1 := hb.congr (L1.agree (r := fb) (by simp) (hb.bound hB))
  obtain ⟨p', m3, q, fh, ls, g, hp', e3, Hh, hq1, hq2, Hk, L3⟩ := movePayload_spec hb1 hn R1.bounded
  have hpp : p' = p := by
    rw [putObj_obj_ne _ _ hne] at hp'
    rw [show m.alloc.obj b = m.obj b from rfl, hp] at hp'
    simpa using hp'.symm
  subst hpp
  have R3 := R1.step (e := [m.next]) L3 List.perm_append_comm
  have L4 := Local.putObj (l := m.next) (o := ⟨setTy k, .ptr k (some q)⟩) R3.bounded (R3.bound m.next (by simp))
  have R4 := R3.step (e := fh ++ q :: g) L4 List.perm_append_comm
  have hnd := List.nodup_append.1 R3.nodup
  have hag : Agree m3 (m3.putObj m.next ⟨setTy k, .ptr k (some q)⟩) (fh ++ q :: g) :=
    L4.agree (fun x hx hf => hnd.2.2 x hx x hf rfl) (fun x hx => R3.bound x (List.mem_append.2 (Or.inl hx)))
  refine ⟨p', _, m.next :: q :: g, fh, hpo, ?_, ?_, Hh.congr (fun x hx => hag x (by simp [hx])), R4.perm (List.Perm.refl _) ?_⟩
  · simp only [payloadMoveCtor, Option.bind_eq_bind, e3, Option.bind_some]
  · have haq := hag q (by simp)
    have hac : m3.cell m.next = none := by
      rw [(L3.frame m.next hnf (Nat.lt_succ_self _)).2]; exact (Bounded.next hB).2
    unfold Holds
    exact ⟨hk, q, ls, g, by rw [putObj_obj, setTy_eq], hac, haq.2.trans hq1, haq.1.trans hq2,
      Hk.congr (fun x hx => hag x (by simp [hx])), rfl⟩
  · rw [List.perm_iff_count]; intro x; simp only [List.count_append, List.count_cons, List.count_nil]; omega

/-- A new local that takes the payload of a value, which is cleared. -/
theorem moveOut_spec {k : Mb} {d : Plain} {ks : List Val} {m : Mem} {b : Addr} {fb : List Addr}
    (hb : Holds m (.box k d ks) b fb) (hn : fb.Nodup) (hB : m.Bounded) :
    ∃ m' g, moveOut m.alloc m.next k b = some m' ∧ Holds m' (.box k d ks) m.next g ∧ Holds m' .empty b [b] ∧
      Local m m' fb (g ++ [b]) := by
  have hb1 : Holds m.alloc (.box k d ks) b fb := hb.congr (fun a _ => ⟨rfl, rfl⟩)
  obtain ⟨hk, p, hp, hpo, _, _⟩ := payloadOf_box hb1
  have hnf : ∀ a ∈ fb, a < m.next := hb.bound hB
  obtain ⟨p', m3, q, fh, ls, g, hp', e3, Hh, hq1, hq2, Hk, L3⟩ := movePayload_spec hb1 hn (Bounded.alloc hB)
  have hpp : p' = p := by rw [hp] at hp'; simpa using hp'.symm
  subst hpp
  have hnd := List.nodup_append.1 L3.nodup
  obtain ⟨m4, e4, H4, L4⟩ := clear_spec Hh hnd.1 L3.bounded
  have R4 := L3.step (e := q :: g) L4 (List.Perm.refl _)
  have hag : Agree m3 m4 (q :: g) :=
    L4.agree (fun x hx hf => hnd.2.2 x hf x hx rfl) (fun x hx => L3.bound x (List.mem_append.2 (Or.inr hx)))
  have R5 := R4.lateObj (o := ⟨setTy k, .ptr k (some q)⟩) hnf
  have hnd5 := List.nodup_cons.1 R5.nodup
  have hag2 : Agree m4 (m4.putObj m.next ⟨setTy k, .ptr k (some q)⟩) ([b] ++ q :: g) := by
    intro x hx
    have : x ≠ m.next := fun e => hnd5.1 (e ▸ hx)
    exact ⟨putObj_obj_ne _ _ this, rfl⟩
  refine ⟨_, m.next :: q :: g, ?_, ?_, H4.congr (fun x hx => hag2 x (by simp at hx; simp [hx])), R5.perm (List.Perm.refl _) ?_⟩
  · simp only [moveOut, hpo, Option.bind_eq_bind, Option.bind_some, e3, e4]
  · have haq := hag q (by simp)
    have haq2 := hag2 q (by simp)
    have hac : m4.cell m.next = none := by
      have h1 : m.next ∉ fb := fun h => by have := hnf _ h; omega
      rw [(R4.frame m.next h1 (Nat.lt_succ_self _)).2]
      exact (Bounded.next hB).2
    unfold Holds
    exact ⟨hk, q, ls, g, by rw [putObj_obj, setTy_eq], hac, haq2.2.trans (haq.2.trans hq1), haq2.1.trans (haq.1.trans hq2),
      (Hk.congr (fun x hx => hag x (by simp [hx]))).congr (fun x hx => hag2 x (by simp [hx])), rfl⟩
  · rw [List.perm_iff_count]; intro x; simp only [List.count_append, List.count_cons, List.count_nil]; omega

/-- A new payload made of copies. -/
theorem makePayload_spec {k : Mb} (hk : k.boxed = true) (d : Plain) {vs : List Val} {m : Mem} {rs f : List Addr}
    (h : HoldsAll m vs rs f) (hB : m.Bounded) :
    ∃ m' g, makePayload m.alloc m.next k d rs = some m' ∧ Holds m' (.box k d vs) m.next g ∧ Local m m' [] g := by
  obtain ⟨m1, ls, f1, e1, H1, L1⟩ := copyAll_spec vs m.alloc rs f (h.congr (fun a _ => ⟨rfl, rfl⟩)) (Bounded.alloc hB)
  have R2 := L1.step (e := f1) (Local.newCell (c := ⟨k, d, ls⟩) L1.bounded) (by simp)
  have R3 := R2.lateObj (o := ⟨setTy k, .ptr k (some m1.next)⟩) (by simp)
  have hnd := List.nodup_cons.1 R3.nodup
  have hqn : m1.next ≠ m.next := by
    have : m.next + 1 ≤ m1.next := L1.next
    omega
  refine ⟨_, m.next :: m1.next :: f1, ?_, ?_, R3⟩
  · simp only [makePayload, e1, Option.bind_eq_bind, Option.bind_some]
  · unfold Holds
    refine ⟨hk, m1.next, ls, f1, by rw [putObj_obj, setTy_eq], ?_, ?_, ?_, ?_, rfl⟩
    · have : m1.cell m.next = none := by
        rw [(L1.frame m.next (by simp) (Nat.lt_succ_self _)).2]; exact (Bounded.next hB).2
      simp [putObj_cell, Mem.putCell, Mem.alloc, Ne.symm hqn, this]
    · simp [putObj_cell, Mem.putCell]
    · rw [putObj_obj_ne _ _ hqn]
      exact (Bounded.next L1.bounded).1
    · refine H1.congr (fun x hx => ?_)
      have h1 : x ≠ m.next := fun e => hnd.1 (by simp [← e, hx])
      have h2 : x ≠ m1.next := by have := L1.bound x hx; omega
      simp [Mem.putObj, Mem.putCell, Mem.alloc, h1, h2]

end Nebula.VMem
