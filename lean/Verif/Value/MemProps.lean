import Verif.Value.MemOps
/-! # C127: variables of type `Value` behave like values -/
namespace Nebula.VMem

theorem Owned.bounded {m : Mem} {E : List Nat} {S : List Val} (h : Owned m E S) : m.Bounded := by
  obtain ⟨F, _, _, hl, hb⟩ := h
  intro a ha h
  have := hb a ((hl a).1 h); omega

/-- One more variable. -/
theorem HoldsAll.snoc {m : Mem} {S : List Val} {E F f : List Nat} {v : Val} {l : Nat} (h : HoldsAll m S E F) (hv : Holds m v l f) :
    HoldsAll m (S ++ [v]) (E ++ [l]) (F ++ f) := by
  refine h.append ?_
  unfold HoldsAll
  exact ⟨l, [], f, [], rfl, hv, by unfold HoldsAll; exact ⟨rfl, rfl⟩, by simp⟩

/-- A call that makes a variable and leaves the others alone. -/
theorem owned_snoc {m m' : Mem} {E g : List Nat} {S : List Val} {v : Val} (h : Owned m E S) (L : Local m m' [] g)
    (hv : Holds m' v m.next g) : Owned m' (E ++ [m.next]) (S ++ [v]) := by
  obtain ⟨F, H, hn, hl, hb⟩ := h
  refine owned_of hn hl L (f := []) (rest := F) (by simp) hb ((H.congr (L.agree (by simp) hb)).snoc hv) List.perm_append_comm

/-- A call that changes one value in place. -/
theorem owned_upd {m : Mem} {E : List Nat} {S : List Val} {r : Ref} {v : Val} (h : Owned m E S) (hl : look S r = some v) :
    ∃ l f, locate m E r = some l ∧ Holds m v l f ∧ f.Nodup ∧
      (∀ m' w g, Local m m' f g → Holds m' w l g → Owned m' E (upd S r w)) ∧
      (∀ m' w u k g, Local m m' f (k ++ g) → Holds m' w l g → Holds m' u m.next k → Owned m' (E ++ [m.next]) (upd S r w ++ [u])) := by
  obtain ⟨F, H, hn, hlive, hb⟩ := h
  obtain ⟨l, f, rest, e, hv, hp, hw⟩ := H.focus r hl
  have hnd := List.nodup_append.1 (hp.nodup_iff.1 hn)
  have hrb : ∀ a ∈ rest, a < m.next := fun a ha => hb a (hp.mem_iff.2 (List.mem_append.2 (Or.inr ha)))
  have hrd : ∀ a ∈ rest, a ∉ f := fun a ha hf => hnd.2.2 a hf a ha rfl
  refine ⟨l, f, e, hv, hnd.1, ?_, ?_⟩
  · intro m' w g L hw'
    obtain ⟨F', hF', hp'⟩ := hw m' w g (L.agree hrd hrb) hw'
    exact owned_of hn hlive L hp hb hF' hp'
  · intro m' w u k g L hw' hu
    obtain ⟨F', hF', hp'⟩ := hw m' w g (L.agree hrd hrb) hw'
    refine owned_of hn hlive L hp hb (hF'.snoc hu) ?_
    rw [List.perm_iff_count]; intro a
    have := hp'.count_eq a
    simp only [List.count_append] at *; omega

/-- A call that changes two values in place. -/
theorem owned_upd2 {m : Mem} {E : List Nat} {S : List Val} {r s : Ref} {v w : Val} (h : Owned m E S) (ha : Apart r s)
    (hr : look S r = some v) (hs : look S s = some w) :
    ∃ l k f g, locate m E r = some l ∧ locate m E s = some k ∧ Holds m v l f ∧ Holds m w k g ∧ (f ++ g).Nodup ∧
      (∀ m' v' w' f' g', Local m m' (f ++ g) (f' ++ g') → Holds m' v' l f' → Holds m' w' k g' → Owned m' E (upd (upd S r v') s w')) ∧
      (∀ m' v' f', Local m m' f f' → Holds m' v' l f' → Owned m' E (upd S r v')) := by
  have h0 := h
  obtain ⟨F, H, hn, hlive, hb⟩ := h
  obtain ⟨l, k, f, g, rest, e1, e2, h1, h2, hp, hw⟩ := H.focus2 r s ha hr hs
  rw [← List.append_assoc] at hp
  have hnd := List.nodup_append.1 (hp.nodup_iff.1 hn)
  have hrb : ∀ a ∈ rest, a < m.next := fun a ha => hb a (hp.mem_iff.2 (List.mem_append.2 (Or.inr ha)))
  have hrd : ∀ a ∈ rest, a ∉ f ++ g := fun a ha hf => hnd.2.2 a hf a ha rfl
  refine ⟨l, k, f, g, e1, e2, h1, h2, hnd.1, ?_, ?_⟩
  · intro m' v' w' f' g' L hv' hw'
    obtain ⟨F', hF', hp'⟩ := hw m' v' w' f' g' (L.agree hrd hrb) hv' hw'
    rw [← List.append_assoc] at hp'
    exact owned_of hn hlive L hp hb hF' hp'
  · intro m' v' f' L hv'
    obtain ⟨l', f1, rest', e', hv1, hp1, hw1⟩ := H.focus r hr
    have hll : l' = l := by rw [e1] at e'; exact (Option.some.inj e').symm
    subst hll
    -- the footprint of a value is determined by the memory
    have hff : f1 = f := by
      have := @Holds.fp_unique
      exact this hv1 h1
    subst hff
    have hnd1 := List.nodup_append.1 (hp1.nodup_iff.1 hn)
    obtain ⟨F', hF', hp'⟩ := hw1 m' v' f' (L.agree (fun a ha hf => hnd1.2.2 a hf a ha rfl)
      (fun a ha => hb a (hp1.mem_iff.2 (List.mem_append.2 (Or.inr ha))))) hv'
    exact owned_of hn hlive L hp1 hb hF' hp'

theorem IsBox.box {v : Val} {k : Mb} (h : v.IsBox k) : ∃ d ks, v = .box k d ks := by
  cases v with
  | empty => simp [Val.IsBox] at h
  | plain k d => simp [Val.IsBox] at h
  | box k' d ks => simp only [Val.IsBox] at h; subst h; exact ⟨d, ks, rfl⟩

theorem upd_self : ∀ {S : List Val} {r : Ref} {v : Val}, look S r = some v → upd S r v = S
  | S, [], v, h => rfl
  | S, [i], v, h => by
    rw [look] at h
    rw [upd]
    obtain ⟨hi, he⟩ := List.getElem?_eq_some_iff.1 h
    subst he; exact List.set_getElem_self hi
  | S, i :: j :: is, v, h => by
    rw [look] at h
    split at h
    case h_2 => simp at h
    case h_1 k d ks hS =>
    rw [upd, hS]
    simp only [upd_self h]
    obtain ⟨hi, he⟩ := List.getElem?_eq_some_iff.1 hS
    rw [← he]; exact List.set_getElem_self hi

theorem upd_length : ∀ (S : List Val) (r : Ref) (v : Val), (upd S r v).length = S.length
  | S, [], v => rfl
  | S, [i], v => by simp [upd]
  | S, i :: j :: is, v => by
    rw [upd]
    split <;> simp

/-- The end of a variable. -/
theorem owned_drop {m : Mem} {E : List Nat} {S : List Val} {i : Nat} (h : Owned m E S) (hi : i < S.length) :
    ∃ l m', E[i]? = some l ∧ destroyAll m [l] = some m' ∧ Owned m' (E.eraseIdx i) (S.eraseIdx i) := by
  obtain ⟨F, H, hn, hlive, hb⟩ := h
  have hB : m.Bounded := Owned.bounded ⟨F, H, hn, hlive, hb⟩
  obtain ⟨l, f, rest, e, hv, hp, her, _⟩ := HoldsAll.at i H (List.getElem?_eq_getElem hi)
  have hnd := List.nodup_append.1 (hp.nodup_iff.1 hn)
  have hT : HoldsAll m [S[i]] [l] f := by
    unfold HoldsAll
    exact ⟨l, [], f, [], rfl, hv, by unfold HoldsAll; exact ⟨rfl, rfl⟩, by simp⟩
  obtain ⟨m', e', L⟩ := destroyAll_spec hT hnd.1 hB
  refine ⟨l, m', e, e', owned_of hn hlive L hp hb (her.congr (L.agree (fun a ha hf => hnd.2.2 a hf a ha rfl)
    (fun a ha => hb a (hp.mem_iff.2 (List.mem_append.2 (Or.inr ha)))))) (by simp)⟩

theorem locate_all {m : Mem} {E : List Nat} {S : List Val} {F : List Nat} (H : HoldsAll m S E F) :
    ∀ rs : List Ref, (∀ r ∈ rs, ∃ v, look S r = some v) →
      ∃ as f, rs.mapM (locate m E) = some as ∧ HoldsAll m (rs.filterMap (look S)) as f
  | [], _ => ⟨[], [], rfl, by simp [HoldsAll]⟩
  | r :: rs, h => by
    obtain ⟨v, hv⟩ := h r (by simp)
    obtain ⟨l, f, rest, e, hh, _, _⟩ := H.focus r hv
    obtain ⟨as, g, e', hh'⟩ := locate_all H rs (fun r hr => h r (by simp [hr]))
    refine ⟨l :: as, f ++ g, by simp [List.mapM_cons, e, e'], ?_⟩
    rw [List.filterMap_cons_some hv]
    unfold HoldsAll
    exact ⟨l, as, f, g, rfl, hh, hh', rfl⟩

/-- **C127.** Every legal call succeeds — no dead object is touched — and does to the variables what `run` says:
copies are separate values, a value moved from is empty, an assignment replaces just its destination.  Afterwards the
memory again holds exactly the values of the variables: nothing leaks, nothing is shared. -/
theorem C127_calls {m : Mem} {E : List Nat} {S : List Val} (h : Owned m E S) (op : Op) (hl : Legal S op) :
    ∃ m' E', exec m E op = some (m', E') ∧ Owned m' E' (run S op) := by
  have hB := h.bounded
  cases op with
  | fresh =>
    refine ⟨_, _, rfl, owned_snoc h (Local.newObj hB) ?_⟩
    unfold Holds
    exact ⟨putObj_obj .., (Bounded.next hB).2, rfl⟩
  | ofPlain k d =>
    refine ⟨_, _, rfl, owned_snoc h (Local.newObj hB) ?_⟩
    unfold Holds
    exact ⟨hl, by rw [plainCtor, putObj_obj, setTy_eq], (Bounded.next hB).2, rfl⟩
  | copy r =>
    obtain ⟨v, hv⟩ := hl
    obtain ⟨l, f, e, hh, hn, _, _⟩ := owned_upd h hv
    obtain ⟨m', g, e', H', L⟩ := copyCtor_spec hh hB
    refine ⟨m', E ++ [m.next], by simp [exec, e, e'], ?_⟩
    simp only [run, hv, Option.getD_some]
    exact owned_snoc h L H'
  | move r =>
    obtain ⟨v, hv⟩ := hl
    obtain ⟨l, f, e, hh, hn, _, hw⟩ := owned_upd h hv
    obtain ⟨m', g, e', H', H'', L⟩ := moveCtor_spec hh hn hB
    refine ⟨m', E ++ [m.next], by simp [exec, e, e'], ?_⟩
    simp only [run, hv, Option.getD_some]
    exact hw m' .empty v g [l] L H'' H'
  | assign d s =>
    obtain ⟨⟨v, hv⟩, ⟨w, hw⟩, hds⟩ := hl
    rcases hds with rfl | hap
    · obtain ⟨l, f, e, hh, hn, hu, _⟩ := owned_upd h hv
      refine ⟨m, E, by simp [exec, e, copyAssign], ?_⟩
      simp only [run, hv, Option.getD_some, upd_self hv]
      exact h
    · obtain ⟨l, k, f, g, e1, e2, h1, h2, hn, _, hu⟩ := owned_upd2 h hap hv hw
      obtain ⟨m', g', e', H', L⟩ := copyAssign_spec h1 h2 hn hB
      refine ⟨m', E, by simp [exec, e1, e2, e'], ?_⟩
      simp only [run, hw, Option.getD_some]
      exact hu m' w g' L H'
  | moveAssign d s =>
    obtain ⟨⟨v, hv⟩, ⟨w, hw⟩, hds⟩ := hl
    rcases hds with rfl | hap
    · obtain ⟨l, f, e, hh, hn, hu, _⟩ := owned_upd h hv
      exact ⟨m, E, by simp [exec, e, moveAssign], by simpa [run] using h⟩
    · obtain ⟨l, k, f, g, e1, e2, h1, h2, hn, hu, _⟩ := owned_upd2 h hap hv hw
      obtain ⟨m', g', e', H', H'', L⟩ := moveAssign_spec h1 h2 hn hB
      have hne : d ≠ s := fun e => hap.1 (e ▸ List.prefix_refl _)
      refine ⟨m', E, by simp [exec, e1, e2, e'], ?_⟩
      simp only [run, hne, if_false, hw, Option.getD_some]
      exact hu m' w .empty g' [k] L H' H''
  | setPlain d k x =>
    obtain ⟨⟨v, hv⟩, hk⟩ := hl
    obtain ⟨l, f, e, hh, hn, hu, _⟩ := owned_upd h hv
    obtain ⟨m', e', H', L⟩ := setPlain_spec hh hn hB hk x
    exact ⟨m', E, by simp [exec, e, e'], hu m' _ _ L H'⟩
  | clear d =>
    obtain ⟨v, hv⟩ := hl
    obtain ⟨l, f, e, hh, hn, hu, _⟩ := owned_upd h hv
    obtain ⟨m', e', H', L⟩ := clear_spec hh hn hB
    exact ⟨m', E, by simp [exec, e, e'], hu m' _ _ L H'⟩
  | swap a b =>
    obtain ⟨⟨v, hv⟩, ⟨w, hw⟩, hds⟩ := hl
    rcases hds with rfl | hap
    · obtain ⟨l, f, e, hh, hn, hu, _⟩ := owned_upd h hv
      obtain ⟨m', g', e', H', L⟩ := swap_self_spec hh hn hB
      refine ⟨m', E, by simp [exec, e, e'], ?_⟩
      simp only [run, if_true]
      have := hu m' v g' L H'
      rwa [upd_self hv] at this
    · obtain ⟨l, k, f, g, e1, e2, h1, h2, hn, hu, _⟩ := owned_upd2 h hap hv hw
      obtain ⟨m', f', g', e', H', H'', L⟩ := swap_spec h1 h2 hn hB
      have hne : a ≠ b := fun e => hap.1 (e ▸ List.prefix_refl _)
      refine ⟨m', E, by simp [exec, e1, e2, e'], ?_⟩
      simp only [run, hne, if_false, hw, hv, Option.getD_some]
      exact hu m' w v f' g' L H' H''
  | make k x rs =>
    obtain ⟨hk, hrs⟩ := hl
    obtain ⟨F, H, _⟩ := id h
    obtain ⟨as, f, e, hh⟩ := locate_all H rs hrs
    obtain ⟨m', g, e', H', L⟩ := makePayload_spec hk x hh hB
    exact ⟨m', E ++ [m.next], by simp [exec, e, e'], owned_snoc h L H'⟩
  | ofPayload k s =>
    obtain ⟨v, hv, hbx⟩ := hl
    obtain ⟨d, ks, rfl⟩ := IsBox.box hbx
    obtain ⟨l, f, e, hh, hn, _, _⟩ := owned_upd h hv
    obtain ⟨p, m', g, hp, e', H', L⟩ := payloadCtor_spec hh hB
    refine ⟨m', E ++ [m.next], by simp [exec, e, hp, e'], ?_⟩
    simp only [run, hv, Option.getD_some]
    exact owned_snoc h L H'
  | ofPayloadMove k s =>
    obtain ⟨v, hv, hbx⟩ := hl
    obtain ⟨d, ks, rfl⟩ := IsBox.box hbx
    obtain ⟨l, f, e, hh, hn, _, hw⟩ := owned_upd h hv
    obtain ⟨p, m', g, g', hp, e', H', H'', L⟩ := payloadMoveCtor_spec hh hn hB
    refine ⟨m', E ++ [m.next], by simp [exec, e, hp, e'], ?_⟩
    simp only [run, hv, Option.getD_some]
    exact hw m' _ _ g g' L H'' H'
  | setPayload d k s =>
    obtain ⟨⟨v, hv⟩, ⟨w, hw, hbx⟩, hap⟩ := hl
    obtain ⟨x, ks, rfl⟩ := IsBox.box hbx
    obtain ⟨l, b, f, g, e1, e2, h1, h2, hn, _, hu⟩ := owned_upd2 h hap hv hw
    obtain ⟨p, m', g', hp, e', H', L⟩ := setPayload_spec h1 h2 hn hB
    refine ⟨m', E, by simp [exec, e1, e2, hp, e'], ?_⟩
    simp only [run, hw, Option.getD_some]
    exact hu m' _ g' L H'
  | setPayloadMove d k s =>
    obtain ⟨⟨v, hv⟩, ⟨w, hw, hbx⟩, hap⟩ := hl
    obtain ⟨x, ks, rfl⟩ := IsBox.box hbx
    obtain ⟨l, b, f, g, e1, e2, h1, h2, hn, hu, _⟩ := owned_upd2 h hap hv hw
    obtain ⟨p, m', g', g'', hp, e', H', H'', L⟩ := setPayloadMove_spec h1 h2 hn hB
    refine ⟨m', E, by simp [exec, e1, e2, hp, e'], ?_⟩
    simp only [run, hw, Option.getD_some]
    exact hu m' _ _ g' g'' L H' H''
  | setPayloadPtr d k i =>
    obtain ⟨⟨v, hv⟩, ⟨w, hw, hbx⟩, hap⟩ := hl
    obtain ⟨x, ks, rfl⟩ := IsBox.box hbx
    obtain ⟨l, b, f, g, e1, e2, h1, h2, hn, hu, _⟩ := owned_upd2 h hap hv (s := [i]) hw
    have hEi : E[i]? = some b := by
      rw [locate] at e2
      split at e2
      · rename_i l' hl'; rw [hl']; simpa [descend] using e2
      · simp at e2
    have hn' := List.nodup_append.1 hn
    have hne : l ≠ b := fun e => hn'.2.2 l h1.mem b h2.mem e
    obtain ⟨hk, p, hp, hpo, _, _⟩ := payloadOf_box h2
    obtain ⟨m1, c1, H1, L1⟩ := clear_spec h1 hn'.1 hB
    -- as if the holder were left empty, and then dropped
    have R1 := (Local.refl hB hn (fun x hx => by
      rcases List.mem_append.1 hx with hx | hx
      · exact h1.live x hx
      · exact h2.live x hx)).step (e := g) L1 (List.Perm.refl _)
    have h2' : Holds m1 (.box k x ks) b g := h2.congr (L1.agree (fun a ha hf => hn'.2.2 a hf a ha rfl) (h2.bound hB))
    have hp1 : m1.obj b = some ⟨typeOf k, .ptr k (some p)⟩ := by
      rw [(L1.frame b (fun hb => hn'.2.2 b hb b h2.mem rfl) (h2.bound hB b h2.mem)).1, hp]
    obtain ⟨m2, g2, c2, H2, H2', L2⟩ := moveInto_spec (arm := moveAssignArm) rfl moveAssignArm_typeOf h2' hn'.2.1
      (fun hm => hn'.2.2 l h1.mem l hm rfl) H1 L1.bounded
    have hm2 : m2 = ((m1.putObj l ⟨setTy k, .ptr k (some p)⟩).putObj b ⟨typeOf k, .ptr k none⟩).putObj b ⟨.empty, .none⟩ := by
      have : moveInto moveAssignArm m1 l b =
          some (((m1.putObj l ⟨setTy k, .ptr k (some p)⟩).putObj b ⟨typeOf k, .ptr k none⟩).putObj b ⟨.empty, .none⟩) := by
        simp only [moveInto, hp1, Option.bind_eq_bind, Option.bind_some, moveAssignArm_typeOf, hk, and_self, if_true]
        rw [clear]
        simp only [putObj_obj, Option.bind_eq_bind, Option.bind_some, clearArm_typeOf]
        rw [destruct]; simp [hk, putObj_obj]
      rw [this] at c2
      exact (Option.some.inj c2).symm
    have hO := hu m2 _ _ g2 [b] (R1.trans L2) H2 H2'
    have hiS : i < S.length := (List.getElem?_eq_some_iff.1 hw).1
    obtain ⟨b', m3, hb', c3, hO3⟩ := owned_drop (i := i) hO (by rw [upd_length, upd_length]; exact hiS)
    rw [hEi] at hb'
    obtain rfl := Option.some.inj hb'
    have hm3 : m3 = (m1.putObj l ⟨setTy k, .ptr k (some p)⟩).dropObj b := by
      have : destroyAll m2 [b] = some (m2.dropObj b) := by
        rw [destroyAll, clear]
        unfold Holds at H2'
        simp only [H2'.1, Option.bind_eq_bind, Option.bind_some, clearArm]
        rw [destroyAll]
      rw [this] at c3
      rw [← Option.some.inj c3, hm2]
      unfold Mem.dropObj Mem.putObj
      congr 1
      funext a
      by_cases ha : a = b <;> simp [ha]
    refine ⟨m3, E.eraseIdx i, ?_, ?_⟩
    · simp [exec, e1, hEi, hpo, setPayloadPtr, c1, hm3]
    · simp only [run, hw, Option.getD_some]
      have he : (upd (upd S d (.box k x ks)) [i] .empty).eraseIdx i = (upd S d (.box k x ks)).eraseIdx i := by
        rw [upd]; exact List.eraseIdx_set_eq
      rw [he] at hO3
      exact hO3
  | moveOut k s =>
    obtain ⟨v, hv, hbx⟩ := hl
    obtain ⟨d, ks, rfl⟩ := IsBox.box hbx
    obtain ⟨l, f, e, hh, hn, _, hw⟩ := owned_upd h hv
    obtain ⟨m', g, e', H', H'', L⟩ := moveOut_spec hh hn hB
    refine ⟨m', E ++ [m.next], by simp [exec, e, e'], ?_⟩
    simp only [run, hv, Option.getD_some]
    exact hw m' _ _ g [l] L H'' H'
  | drop i =>
    obtain ⟨l, m', e, e', hO⟩ := owned_drop h hl
    exact ⟨m', E.eraseIdx i, by simp [exec, e, e'], hO⟩

/-- No variables: nothing is alive. -/
theorem owned_start : Owned Mem.start [] [] :=
  ⟨[], by simp [HoldsAll], by simp, by simp [Mem.Live, Mem.start], by simp⟩

theorem programs {m : Mem} {E : List Nat} {S : List Val} (h : Owned m E S) (ops : List Op) (hl : LegalAll S ops) :
    ∃ m' E', execAll m E ops = some (m', E') ∧ Owned m' E' (runAll S ops) := by
  induction ops generalizing m E S with
  | nil => exact ⟨m, E, rfl, h⟩
  | cons op ops ih =>
    obtain ⟨m1, E1, e1, h1⟩ := C127_calls h op hl.1
    obtain ⟨m2, E2, e2, h2⟩ := ih h1 hl.2
    exact ⟨m2, E2, by simp [execAll, e1, e2], h2⟩

/-- **C127.** Every program of legal calls runs to its end, with the variables as `run` says; and when all variables
have ended, no memory is left. -/
theorem C127_programs (ops : List Op) (hl : LegalAll [] ops) :
    ∃ m E, execAll Mem.start [] ops = some (m, E) ∧ Owned m E (runAll [] ops) ∧
      (runAll [] ops = [] → ∀ a, ¬ m.Live a) := by
  obtain ⟨m, E, e, h⟩ := programs owned_start ops hl
  refine ⟨m, E, e, h, ?_⟩
  intro h0 a ha
  rw [h0] at h
  obtain ⟨F, H, _, hlv, _⟩ := h
  unfold HoldsAll at H
  have := (hlv a).1 ha
  rw [H.2] at this
  simp at this

/-- A program that meets the hypotheses: a list made of copies of an integer, copied, one copy changed inside, swapped,
an element moved out, and everything ended. -/
def sample : List Op :=
  [.ofPlain .iVal ⟨[5], []⟩, .make .lVal ⟨[], []⟩ [[0], [0]], .copy [1], .assign [2, 1] [1], .swap [1] [2, 1], .move [2, 0],
    .setPayload [0] .lVal [1], .moveOut .lVal [0], .moveAssign [0] [4], .setPlain [3] .bVal ⟨[1], []⟩, .clear [2],
    .drop 0, .drop 0, .drop 0, .drop 0, .drop 0]

set_option linter.unusedSimpArgs false in
example : LegalAll [] sample ∧ runAll [] sample = [] := by
  simp [sample, LegalAll, Legal, run, runAll, look, upd, Mb.boxed, Val.IsBox, Apart]

theorem look_upd_apart : ∀ {S : List Val} {d s : Ref} (w : Val), Apart d s → look (upd S d w) s = look S s
  | S, [], s, w, h => absurd List.nil_prefix h.1
  | S, i :: is, [], w, h => absurd List.nil_prefix h.2
  | S, i :: is, j :: js, w, h => by
    by_cases hij : i = j
    · subst hij
      have h' : Apart is js :=
        ⟨fun hp => h.1 ((List.prefix_cons_inj i).2 hp), fun hp => h.2 ((List.prefix_cons_inj i).2 hp)⟩
      cases is with
      | nil => exact absurd List.nil_prefix h'.1
      | cons a b =>
        cases js with
        | nil => exact absurd List.nil_prefix h'.2
        | cons c e =>
          rw [upd]
          split
          · rename_i k d ks hS
            have hi := (List.getElem?_eq_some_iff.1 hS).1
            rw [look, look, hS]
            simp only [List.getElem?_set_self hi]
            exact look_upd_apart w h'
          · rfl
    · have key : ∀ (T : List Val), T[j]? = S[j]? → look T (j :: js) = look S (j :: js) := by
        intro T hT
        cases js with
        | nil => simpa [look] using hT
        | cons c e => rw [look, look, hT]
      apply key
      cases is with
      | nil => rw [upd, List.getElem?_set_ne hij]
      | cons a b =>
        rw [upd]
        split
        · rw [List.getElem?_set_ne hij]
        · rfl

/-- **C127.** A call that writes to one value leaves all values alone that neither contain it nor are part of it — among
them every copy that was made of it. -/
theorem C127_others_unchanged {m : Mem} {E : List Nat} {S : List Val} (h : Owned m E S) (d r : Ref) (v : Val) (hr : look S r = some v)
    (ha : Apart d r) (op : Op)
    (hop : (∃ s, op = .assign d s) ∨ (∃ k x, op = .setPlain d k x) ∨ op = .clear d ∨ (∃ k s, op = .setPayload d k s)) (hl : Legal S op) :
    ∃ m' l f, exec m E op = some (m', E) ∧ locate m' E r = some l ∧ Holds m' v l f := by
  obtain ⟨m', E', e, hO⟩ := C127_calls h op hl
  have hE : E' = E := by
    rcases hop with ⟨s, rfl⟩ | ⟨k, x, rfl⟩ | rfl | ⟨k, s, rfl⟩ <;>
    · simp only [exec, Option.bind_eq_bind, Option.bind_eq_some_iff, Option.some.injEq, Prod.mk.injEq] at e
      grind
  subst hE
  have hlook : look (run S op) r = some v := by
    rcases hop with ⟨s, rfl⟩ | ⟨k, x, rfl⟩ | rfl | ⟨k, s, rfl⟩ <;> simp only [run] <;> rw [look_upd_apart _ ha, hr]
  obtain ⟨F, H, _⟩ := hO
  obtain ⟨l, f, _, e', hh, _⟩ := H.focus r hlook
  exact ⟨m', l, f, e, e', hh⟩

/-! ## Values inside the destination, or around it -/

theorem descend_append {m : Mem} : ∀ (l l' : Nat) (xs t : List Nat), descend m l xs = some l' → descend m l (xs ++ t) = descend m l' t
  | l, l', [], t, h => by simp [descend] at h; simp [h]
  | l, l', i :: is, t, h => by
    rw [descend] at h
    rw [List.cons_append, descend]
    split at h
    · split at h
      · split at h
        · exact descend_append _ l' is t h
        · simp at h
      · simp at h
    · simp at h

theorem locate_append {m : Mem} {E : List Nat} {d t : Ref} {l : Nat} (h : locate m E d = some l) : locate m E (d ++ t) = descend m l t := by
  cases d with
  | nil => simp [locate] at h
  | cons i is =>
    rw [locate] at h
    rw [List.cons_append, locate]
    cases hE : E[i]? with
    | none => simp [hE] at h
    | some a =>
      simp only [hE] at h ⊢
      exact descend_append _ l is t h

theorem look_append : ∀ {S : List Val} {d : Ref} {v w : Val} (j : Nat) (js : List Nat), look S d = some v → look S (d ++ j :: js) = some w →
    ∃ k x ks, v = .box k x ks ∧ look ks (j :: js) = some w
  | S, [], v, w, j, js, h, h' => by simp [look] at h
  | S, [i], v, w, j, js, h, h' => by
    rw [look] at h
    rw [List.singleton_append, look, h] at h'
    split at h'
    case h_2 => simp at h'
    case h_1 k x ks he =>
    simp only [Option.some.injEq] at he
    exact ⟨k, x, ks, he, h'⟩
  | S, i :: i' :: is, v, w, j, js, h, h' => by
    rw [look] at h
    rw [List.cons_append, List.cons_append, look] at h'
    split at h
    case h_2 => simp at h
    case h_1 k x ks hS =>
    rw [hS] at h'
    exact look_append (d := i' :: is) j js h h'

/-- What is inside a value uses addresses of the value, other than that of its object. -/
theorem inside {m : Mem} {v w : Val} {l : Nat} {f : List Nat} (h : Holds m v l f) (hn : f.Nodup) {S : List Val} {d : Ref} {j : Nat} {js : List Nat}
    (hd : look S d = some v) (hs : look S (d ++ j :: js) = some w) :
    ∃ b g, descend m l (j :: js) = some b ∧ Holds m w b g ∧ (∀ a ∈ g, a ∈ f ∧ a ≠ l) := by
  obtain ⟨k, x, ks, rfl, hk⟩ := look_append j js hd hs
  unfold Holds at h
  obtain ⟨_, p, ls, f, h1, h2, h3, h4, h5, rfl⟩ := h
  obtain ⟨b, g, rest, e, hb, hp, _⟩ := h5.focus (j :: js) hk
  refine ⟨b, g, by rw [descend_box h1 h3]; exact e, hb, ?_⟩
  intro a ha
  have haf : a ∈ f := hp.mem_iff.2 (List.mem_append.2 (Or.inl ha))
  refine ⟨by simp [haf], ?_⟩
  intro e
  subst e
  exact (List.nodup_cons.1 hn).1 (by simp [haf])

theorem dead_of {m m1 : Mem} {f : List Nat} {l a : Nat} (L : Local m m1 f [l]) (ha : a ∈ f) (hne : a ≠ l) :
    m1.obj a = none ∧ m1.cell a = none := by
  have : ¬ m1.Live a := fun h => hne (by simpa using (L.live a (Or.inl ha)).1 h)
  simpa only [Mem.Live, not_or, Decidable.not_not] using this

/-- **C127, violated.** Assigning a part of a value to the value (`v = v.getList().values[0]`), by copy or by move, always uses
the part after it was destroyed. -/
theorem C127_assign_part_violated {m : Mem} {E : List Nat} {S : List Val} (h : Owned m E S) {d : Ref} {j : Nat} {js : List Nat} {v w : Val}
    (hd : look S d = some v) (hs : look S (d ++ j :: js) = some w) :
    exec m E (.assign d (d ++ j :: js)) = none ∧ exec m E (.moveAssign d (d ++ j :: js)) = none := by
  have hB := h.bounded
  obtain ⟨l, f, e, hh, hn, _, _⟩ := owned_upd h hd
  obtain ⟨b, g, eb, hb, hsub⟩ := inside hh hn hd hs
  have es : locate m E (d ++ j :: js) = some b := by rw [locate_append e]; exact eb
  obtain ⟨m1, c1, H1, L1⟩ := clear_spec hh hn hB
  have hbl := hsub b hb.mem
  have hdead := (dead_of L1 hbl.1 hbl.2).1
  constructor
  · simp [exec, e, es, copyAssign, Ne.symm hbl.2, c1, hdead]
  · simp [exec, e, es, moveAssign, Ne.symm hbl.2, c1, hdead, moveInto]

/-- **C127, violated.** Setting a value from its own payload or from a payload inside it (`v.setStr(v.getStr())`), by copy or by
move, always uses the payload after it was destroyed. -/
theorem C127_set_own_payload_violated {m : Mem} {E : List Nat} {S : List Val} (h : Owned m E S) {d t : Ref} {v w : Val} {k : Mb}
    (hd : look S d = some v) (hs : look S (d ++ t) = some w) (hk : w.IsBox k) :
    exec m E (.setPayload d k (d ++ t)) = none ∧ exec m E (.setPayloadMove d k (d ++ t)) = none := by
  have hB := h.bounded
  obtain ⟨x, ks, rfl⟩ := IsBox.box hk
  obtain ⟨l, f, e, hh, hn, _, _⟩ := owned_upd h hd
  obtain ⟨m1, c1, H1, L1⟩ := clear_spec hh hn hB
  have main : ∃ b p, locate m E (d ++ t) = some b ∧ payloadOf m k b = some p ∧ p ∈ f ∧ p ≠ l := by
    cases t with
    | nil =>
      rw [List.append_nil] at hs ⊢
      rw [hd] at hs
      obtain rfl := Option.some.inj hs
      obtain ⟨_, p, hp, hpo, hpf, hpn⟩ := payloadOf_box hh
      exact ⟨l, p, e, hpo, hpf, hpn⟩
    | cons j js =>
      obtain ⟨b, g, eb, hb, hsub⟩ := inside hh hn hd hs
      obtain ⟨_, p, hp, hpo, hpf, hpn⟩ := payloadOf_box hb
      exact ⟨b, p, by rw [locate_append e]; exact eb, hpo, (hsub p hpf).1, (hsub p hpf).2⟩
  obtain ⟨b, p, eb, hpo, hpf, hpl⟩ := main
  have hdead := (dead_of L1 hpf hpl).2
  constructor
  · simp only [exec, e, eb, hpo, setPayload, c1, Option.bind_eq_bind, Option.bind_some]
    rw [copyPayload]
    simp [putObj_cell, hdead]
  · simp only [exec, e, eb, hpo, setPayloadMove, c1, Option.bind_eq_bind, Option.bind_some, movePayload]
    simp [putObj_cell, hdead]

/-- A variable that holds a list with one empty element. -/
def loopMem : Mem where
  obj := fun a => if a = 0 then some ⟨.list, .ptr .lVal (some 1)⟩ else if a = 2 then some ⟨.empty, .none⟩ else none
  cell := fun a => if a = 1 then some ⟨.lVal, ⟨[], []⟩, [2]⟩ else none
  next := 3

theorem loopMem_owned : Owned loopMem [0] [.box .lVal ⟨[], []⟩ [.empty]] := by
  refine ⟨[0, 1, 2], ?_, by simp, ?_, by simp [loopMem]⟩
  · unfold HoldsAll
    refine ⟨0, [], [0, 1, 2], [], rfl, ?_, by unfold HoldsAll; exact ⟨rfl, rfl⟩, rfl⟩
    unfold Holds
    refine ⟨rfl, 1, [2], [2], rfl, rfl, rfl, rfl, ?_, rfl⟩
    unfold HoldsAll
    refine ⟨2, [], [2], [], rfl, ?_, by unfold HoldsAll; exact ⟨rfl, rfl⟩, rfl⟩
    unfold Holds
    exact ⟨rfl, rfl, rfl⟩
  · intro a
    by_cases h0 : a = 0
    · simp [h0, Mem.Live, loopMem]
    · by_cases h1 : a = 1
      · simp [h1, Mem.Live, loopMem]
      · by_cases h2 : a = 2 <;> simp [h0, h1, h2, Mem.Live, loopMem]

/-- **C127, violated.** Assigning a value to a part of it (`v.mutableList().values[0] = v`) is undefined behaviour when copied: the
type of the part is written before the value, with the part, is copied. -/
theorem C127_assign_whole_violated :
    ∃ (m : Mem) (E : List Nat) (S : List Val), Owned m E S ∧ (∃ v, look S [0] = some v) ∧ (∃ v, look S [0, 0] = some v) ∧
      exec m E (.assign [0, 0] [0]) = none := by
  refine ⟨loopMem, [0], _, loopMem_owned, ⟨_, rfl⟩, ⟨_, rfl⟩, ?_⟩
  have hc : clear loopMem 2 = some loopMem := by rw [clear]; simp [loopMem, clearArm]
  have e0 : locate loopMem [0] [0] = some 0 := rfl
  have e1 : locate loopMem [0] [0, 0] = some 2 := rfl
  have o0 : loopMem.obj 0 = some ⟨.list, .ptr .lVal (some 1)⟩ := rfl
  simp only [exec, e0, e1, Option.bind_eq_bind, Option.bind_some, copyAssign, hc, o0, assignArm]
  rw [setCopy_ptr (m := loopMem) (l := 2) (r := 0) (p := 1) (k := .lVal) rfl (by decide) o0, copyPayload]
  have c1 : (loopMem.putObj 2 ⟨setTy .lVal, .none⟩).cell 1 = some ⟨.lVal, ⟨[], []⟩, [2]⟩ := rfl
  simp only [c1, Option.bind_eq_bind, Option.bind_some]
  have hall : copyAll (loopMem.putObj 2 ⟨setTy .lVal, .none⟩) [2] = none := by
    rw [copyAll, copyCtor]
    have hne : ¬ ((loopMem.putObj 2 ⟨setTy .lVal, .none⟩).next = 2) := by decide
    have o2 : (((loopMem.putObj 2 ⟨setTy .lVal, .none⟩).alloc.putObj (loopMem.putObj 2 ⟨setTy .lVal, .none⟩).next ⟨.empty, .none⟩)).obj 2 =
        some ⟨.list, .none⟩ := rfl
    simp only [hne, if_false, o2, Option.bind_eq_bind, Option.bind_some, copyArm]
    rw [setCopy]
    rfl
  simp [hall]

/-- **C127, violated.** Moving a value into a part of it (`v.mutableList().values[0] = std::move(v)`) leaves `v` empty and loses the
list, which then contains itself: it is never given back. -/
theorem C127_move_whole_leaks_violated :
    ∃ (m : Mem) (E : List Nat) (S : List Val), Owned m E S ∧ (∃ v, look S [0] = some v) ∧ (∃ v, look S [0, 0] = some v) ∧
      ∃ m', exec m E (.moveAssign [0, 0] [0]) = some (m', E) ∧ ∀ S', ¬ Owned m' E S' := by
  refine ⟨loopMem, [0], _, loopMem_owned, ⟨_, rfl⟩, ⟨_, rfl⟩, ?_⟩
  have hc : clear loopMem 2 = some loopMem := by rw [clear]; simp [loopMem, clearArm]
  have e0 : locate loopMem [0] [0] = some 0 := rfl
  have e1 : locate loopMem [0] [0, 0] = some 2 := rfl
  have o0 : loopMem.obj 0 = some ⟨.list, .ptr .lVal (some 1)⟩ := rfl
  refine ⟨((loopMem.putObj 2 ⟨.list, .ptr .lVal (some 1)⟩).putObj 0 ⟨.list, .ptr .lVal none⟩).putObj 0 ⟨.empty, .none⟩, ?_, ?_⟩
  · simp only [exec, e0, e1, Option.bind_eq_bind, Option.bind_some, moveAssign, hc, moveInto, o0, moveAssignArm, Mb.boxed, and_self, if_true]
    rw [clear]
    simp only [putObj_obj, Option.bind_eq_bind, Option.bind_some, clearArm]
    rw [destruct]
    simp [Mb.boxed, putObj_obj, setTy]
  · rintro S' ⟨F, H, _, hl, _⟩
    have h1 : (1 : Nat) ∈ F := (hl 1).1 (by simp [Mem.Live, Mem.putObj, loopMem])
    cases S' with
    | nil => unfold HoldsAll at H; simp at H
    | cons v vs =>
      unfold HoldsAll at H
      obtain ⟨l, ls', f, g, he, hv, hvs, rfl⟩ := H
      simp only [List.cons.injEq] at he
      obtain ⟨rfl, rfl⟩ := he
      have hg : g = [] := by
        cases vs with
        | nil => unfold HoldsAll at hvs; exact hvs.2
        | cons => unfold HoldsAll at hvs; obtain ⟨_, _, _, _, h, _⟩ := hvs; simp at h
      have hf : f = [0] := by
        cases v with
        | empty => unfold Holds at hv; exact hv.2.2
        | plain k d => unfold Holds at hv; exact hv.2.2.2
        | box k d ks =>
          unfold Holds at hv
          obtain ⟨_, p, ls, f, h1, _⟩ := hv
          rw [putObj_obj] at h1
          cases k <;> simp [typeOf] at h1
      rw [hg, hf] at h1
      simp at h1

end Nebula.VMem
