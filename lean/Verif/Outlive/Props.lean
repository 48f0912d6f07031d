import Verif.Outlive.Spec
import Verif.Storage.CollectProps
/-! # C155: a client can be destroyed once its requests are answered -/
namespace Nebula
namespace Outlive

open Storage Meta

/-! ## One request -/

def Shape (rest : List PAct) : Prop :=
  (∀ a ∈ rest, a = .leader) ∨ ∃ l x l', rest = l ++ x :: l' ∧ (∀ a ∈ l, a = .leader) ∧ x ≠ .leader ∧ (∀ a ∈ l', a = .leader) ∧ (x = .again → l' = [])

def CalmRest (rest : List PAct) : Prop :=
  rest = [] ∨ ∃ l x, rest = l ++ [x] ∧ (∀ a ∈ l, a = .leader) ∧ x ≠ .leader

def MShape (rest : List MAct) : Prop :=
  rest = [] ∨ ∃ l x, rest = l ++ [x] ∧ (∀ a ∈ l, a ≠ .settle ∧ a ≠ .again) ∧ (x = .settle ∨ x = .again)

def RInv : Req → Prop
  | .pRun _ _ rest => Shape rest
  | .coll ps q c => (∃ hosts hist, hosts.Nodup ∧ Exec (CStep ps) (CState.init hosts) hist c) ∧ ∀ h ∈ q, h ∈ c.awaiting
  | .mRun _ _ rest => MShape rest
  | _ => True

def Over : Req → Prop
  | .pRun _ _ rest => ∀ a ∈ rest, a = .leader
  | .coll _ _ c => c.delivered ≠ []
  | .mRun _ _ rest => rest = []
  | _ => False

def Calm : Req → Prop
  | .pRun _ _ rest => CalmRest rest
  | _ => True

theorem calls_leader (i : Bool) (rs : List PartResult) : ∀ a ∈ (rs.flatMap singleCall).map (stepOf i), a = .leader := by
  intro a ha
  obtain ⟨x, hx, rfl⟩ := List.mem_map.1 ha
  obtain ⟨r, _, hr⟩ := List.mem_flatMap.1 hx
  unfold singleCall at hr
  split at hr
  · split at hr <;> simp at hr <;> subst hr <;> rfl
  · simp at hr; subst hr; rfl
  · simp at hr; subst hr; rfl
  · simp at hr

theorem value_step (i : Bool) (a : Answer) : stepOf i (.value a) ≠ .leader := by
  simp only [stepOf]; split <;> simp

theorem calm_handler (i : Bool) (ps : List Int) (a : Answer) : CalmRest ((singleHandler ps (.answer a)).map (stepOf i)) := by
  refine .inr ⟨(a.failed.flatMap singleCall).map (stepOf i), stepOf i (.value a), by simp [singleHandler], calls_leader i _, value_step i a⟩

theorem shape_handler (i : Bool) (ps : List Int) (r : Reply) : Shape ((singleHandler ps r).map (stepOf i)) := by
  cases r with
  | exception =>
    refine .inr ⟨[], .settle, ps.map fun _ => .leader, by simp [singleHandler, stepOf, Function.comp_def], by simp, by simp, by simp, by simp⟩
  | answer a =>
    refine .inr ⟨(a.failed.flatMap singleCall).map (stepOf i), stepOf i (.value a), [], by simp [singleHandler], calls_leader i _,
      value_step i a, by simp, by simp⟩

theorem handler_not_over (i : Bool) (ps : List Int) (r : Reply) : ¬ ∀ a ∈ (singleHandler ps r).map (stepOf i), a = .leader := by
  intro h
  cases r with
  | exception => exact absurd (h (stepOf i .fail) (by simp [singleHandler])) (by simp [stepOf])
  | answer a => exact value_step i a (h (stepOf i (.value a)) (by simp [singleHandler]))

theorem mshape_handler (k : Nat) (l : Int) (o : RpcOutcome Unit) : MShape (metaHandler k l o) ∧ metaHandler k l o ≠ [] := by
  cases o with
  | exception =>
    simp only [metaHandler]
    split
    · exact ⟨.inr ⟨[.update], .again, rfl, by simp, .inr rfl⟩, by simp⟩
    · exact ⟨.inr ⟨[.update], .settle, rfl, by simp, .inl rfl⟩, by simp⟩
  | response c le p =>
    cases c with
    | succeeded => exact ⟨.inr ⟨[.generate], .settle, rfl, by simp, .inl rfl⟩, by simp [metaHandler]⟩
    | leaderChanged =>
      simp only [metaHandler]
      split
      · exact ⟨.inr ⟨[.update], .again, rfl, by simp, .inr rfl⟩, by simp⟩
      · exact ⟨.inr ⟨[.update, .generate], .settle, rfl, by simp, .inl rfl⟩, by simp⟩
    | other c => exact ⟨.inr ⟨[.generate], .settle, rfl, by simp, .inl rfl⟩, by simp [metaHandler]⟩

theorem shape_tail {a : PAct} {rest : List PAct} (h : Shape (a :: rest)) : Shape rest := by
  rcases h with h | ⟨l, x, l', e, h1, h2, h3, h4⟩
  · exact .inl fun b hb => h b (List.mem_cons_of_mem _ hb)
  · cases l with
    | nil => simp at e; obtain ⟨rfl, rfl⟩ := e; exact .inl h3
    | cons b l => simp at e; obtain ⟨rfl, rfl⟩ := e; exact .inr ⟨l, x, l', rfl, fun c hc => h1 c (List.mem_cons_of_mem _ hc), h2, h3, h4⟩

theorem calm_tail {a : PAct} {rest : List PAct} (h : CalmRest (a :: rest)) : CalmRest rest := by
  rcases h with h | ⟨l, x, e, h1, h2⟩
  · cases h
  · cases l with
    | nil => simp at e; exact .inl e.2
    | cons b l => simp at e; obtain ⟨rfl, rfl⟩ := e; exact .inr ⟨l, x, rfl, fun c hc => h1 c (List.mem_cons_of_mem _ hc), h2⟩

theorem mshape_tail {a : MAct} {rest : List MAct} (h : MShape (a :: rest)) : MShape rest := by
  rcases h with h | ⟨l, x, e, h1, h2⟩
  · cases h
  · cases l with
    | nil => simp at e; exact .inl e.2
    | cons b l => simp at e; obtain ⟨rfl, rfl⟩ := e; exact .inr ⟨l, x, rfl, fun c hc => h1 c (List.mem_cons_of_mem _ hc), h2⟩

theorem shape_settle {a : PAct} {rest : List PAct} (h : Shape (a :: rest)) (ha : a ≠ .leader) : ∀ b ∈ rest, b = .leader := by
  rcases h with h | ⟨l, x, l', e, h1, h2, h3, h4⟩
  · exact absurd (h a List.mem_cons_self) ha
  · cases l with
    | nil => simp at e; obtain ⟨rfl, rfl⟩ := e; exact h3
    | cons b l => simp at e; obtain ⟨rfl, rfl⟩ := e; exact absurd (h1 _ List.mem_cons_self) ha

theorem mshape_settle {rest : List MAct} (h : MShape (.settle :: rest)) : rest = [] := by
  rcases h with h | ⟨l, x, e, h1, h2⟩
  · cases h
  · cases l with
    | nil => simp at e; exact e.2
    | cons b l => simp at e; obtain ⟨rfl, rfl⟩ := e; exact absurd rfl (h1 _ List.mem_cons_self).1

theorem coll_stuck {ps : HostAddr → List Int} {q : List HostAddr} {c : CState} (hi : RInv (.coll ps q c)) (ho : c.delivered ≠ []) :
    q = [] ∧ ∀ e c', ¬ CStep ps c e c' := by
  obtain ⟨⟨hosts, hist, hn, hx⟩, hq⟩ := hi
  have inv := inv_exec hn hx
  have hc := inv.count
  have hlen : 1 ≤ c.delivered.length := List.length_pos_iff.2 ho
  have hf : c.fulfilled = true := by
    cases hff : c.fulfilled with
    | true => rfl
    | false => rw [hff] at hc; simp at hc; exact absurd hc.1 ho
  have hdue : c.due = 0 := by rw [hf] at hc; simp at hc; omega
  obtain ⟨h1, h2, h3, _⟩ := done_of_fulfilled hn inv hf
  have hfin := (inv.fulfilled.1 hf).1
  refine ⟨?_, ?_⟩
  · cases q with
    | nil => rfl
    | cons a l => have := hq a List.mem_cons_self; rw [h1] at this; cases this
  · intro e c' st
    cases st with
    | send hu => rw [h2] at hu; cases hu
    | reply hm => rw [h1] at hm; cases hm
    | op hr => rw [h3] at hr; cases hr
    | remove hr => rw [h3] at hr; cases hr
    | finish _ hf' => rw [hfin] at hf'; cases hf'
    | deliver hd => rw [hdue] at hd; cases hd

theorem inv_rstep {r r' : Req} {e : REv} (hi : RInv r) (st : RStep r e r') : RInv r' := by
  cases st with
  | task => trivial
  | reply => exact shape_handler _ _ _
  | act _ => exact shape_tail hi
  | again => trivial
  | lost => exact .inl (by simp)
  | found => trivial
  | cSend st =>
    obtain ⟨⟨hosts, hist, hn, hx⟩, hq⟩ := hi
    refine ⟨⟨hosts, _, hn, hx.append (.one st)⟩, ?_⟩
    cases st with
    | send hu =>
      intro h hh
      rcases List.mem_append.1 hh with hh | hh
      · exact List.mem_append_left _ (hq h hh)
      · exact List.mem_append_right _ hh
  | cTask hm => exact ⟨hi.1, fun h hh => hi.2 h (List.mem_of_mem_erase hh)⟩
  | cReply hm st =>
    obtain ⟨⟨hosts, hist, hn, hx⟩, hq⟩ := hi
    refine ⟨⟨hosts, _, hn, hx.append (.one st)⟩, ?_⟩
    cases st with
    | reply _ =>
      intro h hh
      refine (List.mem_erase_of_ne ?_).2 (hq h hh)
      rintro rfl
      exact hm hh
  | cElse n1 n2 st =>
    obtain ⟨⟨hosts, hist, hn, hx⟩, hq⟩ := hi
    refine ⟨⟨hosts, _, hn, hx.append (.one st)⟩, ?_⟩
    cases st with
    | send _ => exact absurd rfl (n1 _)
    | reply _ => exact absurd rfl (n2 _ _)
    | op _ => exact hq
    | remove _ => exact hq
    | finish _ _ => exact hq
    | deliver _ => exact hq
  | mTask => trivial
  | mReply => exact (mshape_handler _ _ _).1
  | mAct _ => exact mshape_tail hi
  | mAgain => trivial
  | fire => trivial

theorem over_step {r r' : Req} {e : REv} (hi : RInv r) (ho : Over r) (st : RStep r e r') : Over r' ∧ e.settles = false := by
  cases st with
  | task => exact ho.elim
  | reply => exact ho.elim
  | act _ =>
    have h : ∀ b ∈ _, b = PAct.leader := ho
    have := h _ List.mem_cons_self
    subst this
    exact ⟨fun b hb => h b (List.mem_cons_of_mem _ hb), rfl⟩
  | again => exact absurd (ho .again List.mem_cons_self) (by simp)
  | lost => exact ho.elim
  | found => exact ho.elim
  | cSend st => exact absurd st ((coll_stuck hi ho).2 _ _)
  | cTask hm => rw [(coll_stuck hi ho).1] at hm; cases hm
  | cReply _ st => exact absurd st ((coll_stuck hi ho).2 _ _)
  | cElse _ _ st => exact absurd st ((coll_stuck hi ho).2 _ _)
  | mTask => exact ho.elim
  | mReply => exact ho.elim
  | mAct _ => cases (show _ :: _ = [] from ho)
  | mAgain => cases (show _ :: _ = [] from ho)
  | fire => exact ho.elim

theorem settle_over {r r' : Req} {e : REv} (hi : RInv r) (st : RStep r e r') (hs : e.settles = true) : Over r' := by
  cases st with
  | act _ =>
    rename_i a _ _
    cases a with
    | settle => exact shape_settle hi (by simp)
    | leader => cases hs
    | again => cases hs
  | lost => intro a ha; cases ha
  | cElse _ _ st =>
    cases st with
    | deliver _ => simp [Over]
    | _ => cases hs
  | mAct _ =>
    rename_i a _ _
    cases a with
    | settle => exact mshape_settle hi
    | _ => cases hs
  | _ => cases hs

theorem not_over {r r' : Req} {e : REv} (hi : RInv r) (ho : ¬ Over r) (st : RStep r e r') (hs : e.settles = false) : ¬ Over r' := by
  cases st with
  | task => exact id
  | reply => exact handler_not_over _ _ _
  | act hne =>
    rename_i a _
    cases a with
    | settle => cases hs
    | leader =>
      intro h
      exact ho fun b hb => by
        rcases List.mem_cons.1 hb with rfl | hb
        · rfl
        · exact h b hb
    | again => exact absurd rfl hne
  | again => exact id
  | lost => cases hs
  | found => exact id
  | cSend st => cases st with | send _ => exact ho
  | cTask _ => exact ho
  | cReply _ st => cases st with | reply _ => exact ho
  | cElse _ _ st =>
    cases st with
    | deliver _ => cases hs
    | send _ => exact ho
    | reply _ => exact ho
    | op _ => exact ho
    | remove _ => exact ho
    | finish _ _ => exact ho
  | mTask => exact id
  | mReply => exact (mshape_handler _ _ _).2
  | mAct hne =>
    rename_i a _
    intro h
    have h : _ = [] := h
    subst h
    rcases hi with hi | ⟨l, x, e, h1, h2⟩
    · cases hi
    · cases l with
      | nil =>
        simp at e; subst e
        rcases h2 with rfl | rfl
        · cases hs
        · exact hne rfl
      | cons b l => simp at e
  | mAgain => exact id
  | fire => exact id

theorem calm_step {r r' : Req} {e : REv} (hc : Calm r) (st : RStep r e r') (hx : e ≠ .reply .exception) : Calm r' := by
  cases st with
  | reply =>
    rename_i r
    cases r with
    | exception => exact absurd rfl hx
    | answer a => exact calm_handler _ _ _
  | act _ => exact calm_tail hc
  | lost => exact .inl rfl
  | _ => trivial

theorem quiet {r r' : Req} {e : REv} (hi : RInv r) (hc : Calm r) (ho : Over r) (st : RStep r e r') : False := by
  cases st with
  | task => exact ho.elim
  | reply => exact ho.elim
  | act _ =>
    rcases hc with hc | ⟨l, x, e, h1, h2⟩
    · cases hc
    · have : ∀ b ∈ _, b = PAct.leader := ho
      exact h2 (this x (by rw [e]; simp))
  | again => exact absurd (ho .again List.mem_cons_self) (by simp)
  | lost => exact ho.elim
  | found => exact ho.elim
  | cSend st => exact (coll_stuck hi ho).2 _ _ st
  | cTask hm => rw [(coll_stuck hi ho).1] at hm; cases hm
  | cReply _ st => exact (coll_stuck hi ho).2 _ _ st
  | cElse _ _ st => exact (coll_stuck hi ho).2 _ _ st
  | mTask => exact ho.elim
  | mReply => exact ho.elim
  | mAct _ => cases (show _ :: _ = [] from ho)
  | mAgain => cases (show _ :: _ = [] from ho)
  | fire => exact ho.elim

theorem needs_step {r r' : Req} {e : REv} (st : RStep r e r') : r'.needs = r.needs ∧ ∀ o ∈ e.uses, o ∈ r.needs := by
  cases st <;> refine ⟨rfl, ?_⟩
  case act a _ _ => cases a <;> simp [REv.uses, Req.needs]
  case cElse e _ _ _ _ =>
    cases e with
    | op h o => cases o <;> simp [REv.uses, Req.needs]
    | _ => simp [REv.uses, Req.needs]
  case mAct a _ _ => cases a <;> simp [REv.uses, Req.needs]
  all_goals simp [REv.uses, Req.needs]

/-! ## All requests -/

structure Good (hist : List Ev) (s : Sys) : Prop where
  len : s.reqs.length = (submits hist).length
  needs : ∀ (i : Nat) (r0 r : Req), (submits hist)[i]? = some r0 → s.reqs[i]? = some r → r.needs = r0.needs
  gone : ∀ o, o ∈ s.gone ↔ .destroy o ∈ hist
  inv : ∀ (i : Nat) r, s.reqs[i]? = some r → RInv r
  over : ∀ (i : Nat) r, s.reqs[i]? = some r → (Over r ↔ Settled hist i)
  calm : (∀ i, .run i (.reply .exception) ∉ hist) → ∀ (i : Nat) r, s.reqs[i]? = some r → Calm r
  ran : ∀ i e, .run i e ∈ hist → i < s.reqs.length

theorem fresh_inv {r : Req} (h : r.Fresh) : RInv r ∧ ¬ Over r ∧ Calm r := by
  cases h with
  | single i ps => exact ⟨trivial, id, trivial⟩
  | many ps hosts hn => exact ⟨⟨⟨hosts, [], hn, .nil⟩, by simp⟩, by simp [Over, CState.init], trivial⟩
  | toMeta l => exact ⟨trivial, id, trivial⟩

theorem submits_append (h : List Ev) (e : Ev) : submits (h ++ [e]) = submits h ++ submits [e] := by simp [submits]

theorem settled_append (h : List Ev) (e : Ev) (i : Nat) :
    Settled (h ++ [e]) i ↔ Settled h i ∨ ∃ x, e = .run i x ∧ x.settles = true := by
  constructor
  · rintro ⟨x, hx, hs⟩
    rcases List.mem_append.1 hx with hx | hx
    · exact .inl ⟨x, hx, hs⟩
    · exact .inr ⟨x, (List.mem_singleton.1 hx).symm, hs⟩
  · rintro (⟨x, hx, hs⟩ | ⟨x, rfl, hs⟩)
    · exact ⟨x, List.mem_append_left _ hx, hs⟩
    · exact ⟨x, by simp, hs⟩

theorem good_step {hist : List Ev} {s s' : Sys} {e : Ev} (g : Good hist s) (st : Step s e s') : Good (hist ++ [e]) s' := by
  cases st with
  | submit hf hg =>
    rename_i r
    obtain ⟨f1, f2, f3⟩ := fresh_inv hf
    have hset : ∀ i, Settled (hist ++ [.submit r]) i ↔ Settled hist i := by
      intro i; rw [settled_append]; simp
    have hsub : submits (hist ++ [.submit r]) = submits hist ++ [r] := by rw [submits_append]; rfl
    have hfresh : ¬ Settled hist s.reqs.length := by
      rintro ⟨x, hx, _⟩; exact absurd (g.ran _ _ hx) (by omega)
    have hnew : ∀ i r', (s.reqs ++ [r])[i]? = some r' → s.reqs[i]? = some r' ∨ (i = s.reqs.length ∧ r' = r) := by
      intro i r' h
      rcases Nat.lt_trichotomy i s.reqs.length with hl | hl | hl
      · rw [List.getElem?_append_left hl] at h; exact .inl h
      · subst hl; rw [List.getElem?_append_right (by omega)] at h; simp at h; exact .inr ⟨rfl, h.symm⟩
      · rw [List.getElem?_append_right (by omega), List.getElem?_eq_none (by simp; omega)] at h; cases h
    refine ⟨?_, ?_, ?_, ?_, ?_, ?_, ?_⟩
    · rw [hsub]; simp [g.len]
    · intro i r0 r' h0 h
      rw [hsub] at h0
      rcases hnew i r' h with h | ⟨rfl, rfl⟩
      · have hl : i < (submits hist).length := by rw [← g.len]; exact (List.getElem?_eq_some_iff.1 h).1
        rw [List.getElem?_append_left hl] at h0
        exact g.needs i r0 r' h0 h
      · rw [List.getElem?_append_right (by rw [g.len]; exact Nat.le_refl _), g.len] at h0
        simp at h0; rw [h0]
    · intro o; rw [g.gone]; simp
    · intro i r' h
      rcases hnew i r' h with h | ⟨rfl, rfl⟩
      · exact g.inv i r' h
      · exact f1
    · intro i r' h
      rw [hset]
      rcases hnew i r' h with h | ⟨rfl, rfl⟩
      · exact g.over i r' h
      · exact iff_of_false f2 hfresh
    · intro hx i r' h
      rcases hnew i r' h with h | ⟨rfl, rfl⟩
      · exact g.calm (fun j hj => hx j (List.mem_append_left _ hj)) i r' h
      · exact f3
    · intro i x hx
      have hx : .run i x ∈ hist := by simpa using hx
      have := g.ran i x hx
      simp; omega
  | run hr st =>
    rename_i i r r' e
    have hl : i < s.reqs.length := (List.getElem?_eq_some_iff.1 hr).1
    have hsub : submits (hist ++ [.run i e]) = submits hist := by rw [submits_append]; simp [submits]
    have hnew : ∀ j q, (s.reqs.set i r')[j]? = some q → (j ≠ i ∧ s.reqs[j]? = some q) ∨ (j = i ∧ q = r') := by
      intro j q h
      rw [List.getElem?_set] at h
      split at h
      · rename_i hij
        subst hij
        simp [hl] at h
        exact .inr ⟨rfl, h.symm⟩
      · rename_i hij
        exact .inl ⟨fun e => hij e.symm, h⟩
    refine ⟨?_, ?_, ?_, ?_, ?_, ?_, ?_⟩
    · rw [hsub]; simp [g.len]
    · intro j r0 q h0 h
      rw [hsub] at h0
      rcases hnew j q h with ⟨_, h⟩ | ⟨rfl, rfl⟩
      · exact g.needs j r0 q h0 h
      · rw [(needs_step st).1]; exact g.needs j r0 r h0 hr
    · intro o; rw [g.gone]; simp
    · intro j q h
      rcases hnew j q h with ⟨_, h⟩ | ⟨rfl, rfl⟩
      · exact g.inv j q h
      · exact inv_rstep (g.inv j r hr) st
    · intro j q h
      rw [settled_append]
      rcases hnew j q h with ⟨hne, h⟩ | ⟨rfl, rfl⟩
      · rw [g.over j q h]
        constructor
        · exact .inl
        · rintro (h | ⟨x, hx, _⟩)
          · exact h
          · cases hx; exact absurd rfl hne
      · have hi := g.inv j r hr
        constructor
        · intro ho
          cases hs : e.settles with
          | true => exact .inr ⟨e, rfl, hs⟩
          | false =>
            refine .inl ((g.over j r hr).1 (Classical.byContradiction fun hn => not_over hi hn st hs ho))
        · rintro (h | ⟨x, hx, hs⟩)
          · exact (over_step hi ((g.over j r hr).2 h) st).1
          · cases hx; exact settle_over hi st hs
    · intro hx j q h
      have hx' := g.calm (fun j hj => hx j (List.mem_append_left _ hj))
      rcases hnew j q h with ⟨_, h⟩ | ⟨rfl, rfl⟩
      · exact hx' j q h
      · refine calm_step (hx' j r hr) st ?_
        rintro rfl
        exact hx j (by simp)
    · intro j x hx
      rw [List.length_set]
      rcases List.mem_append.1 hx with hx | hx
      · exact g.ran j x hx
      · simp at hx; rw [hx.1]; exact hl
  | destroy ho =>
    rename_i o
    have hsub : submits (hist ++ [.destroy o]) = submits hist := by rw [submits_append]; simp [submits]
    refine ⟨by rw [hsub]; exact g.len, by rw [hsub]; exact g.needs, ?_, g.inv, ?_, ?_, ?_⟩
    · intro o'
      simp only [List.mem_cons, g.gone, List.mem_append, List.not_mem_nil, or_false, Ev.destroy.injEq]
      exact Or.comm
    · intro i r h; rw [settled_append, g.over i r h]; simp
    · intro hx; exact g.calm fun j hj => hx j (List.mem_append_left _ hj)
    · intro i x hx; exact g.ran i x (by simpa using hx)

theorem good_exec {hist : List Ev} {s : Sys} (h : Exec Step Sys.init hist s) : Good hist s := by
  refine Exec.invariant (P := Good) ?_ (fun h s e s' _ hi st => good_step hi st) h
  refine ⟨rfl, ?_, ?_, ?_, ?_, ?_, ?_⟩ <;> simp [Sys.init, submits]

/-- A request made after a client was destroyed does not need it. -/
theorem late_submit {hist : List Ev} {s : Sys} (h : Exec Step Sys.init hist s) {pre mid : List Ev} {o : Obj}
    (e : hist = pre ++ .destroy o :: mid) {i : Nat} {r : Req} (hr : (submits hist)[i]? = some r) (hn : o ∈ r.needs) :
    (submits pre)[i]? = some r := by
  have hsub : submits hist = submits pre ++ submits mid := by rw [e]; simp [submits]
  rcases Nat.lt_or_ge i (submits pre).length with hl | hl
  · rw [hsub, List.getElem?_append_left hl] at hr; exact hr
  · exfalso
    rw [hsub, List.getElem?_append_right hl] at hr
    have hm : r ∈ submits mid := List.mem_of_getElem? hr
    obtain ⟨x, hx, hxr⟩ := List.mem_filterMap.1 hm
    cases x with
    | submit r' =>
      simp at hxr; subst hxr
      obtain ⟨m1, m2, rfl⟩ := List.append_of_mem hx
      have h' : Exec Step Sys.init ((pre ++ .destroy o :: m1) ++ .submit r' :: m2) s := by
        have : hist = (pre ++ .destroy o :: m1) ++ .submit r' :: m2 := by rw [e]; simp
        exact this ▸ h
      obtain ⟨s1, h1, h2⟩ := h'.split
      cases h2 with
      | cons st _ =>
        cases st with
        | submit _ hg => exact hg o hn ((good_exec h1).gone o |>.2 (by simp))
    | run _ _ => cases hxr
    | destroy _ => cases hxr

/-! ## C155 -/

/-- C155: if no request to a single storage host failed on its way, then a client that is destroyed after the answers to the requests that need
it have come is used by nothing afterwards, whatever the IO threads do.
(Missing: a request to a single storage host that failed; `C155_single_violated`.) -/
theorem C155_waited_partial {hist : List Ev} {s : Sys} (h : Exec Step Sys.init hist s) (hw : Waited hist)
    (hx : ∀ i, .run i (.reply .exception) ∉ hist) : ¬ UsedAfter hist := by
  rintro ⟨pre, o, mid, i, e, post, he, ho⟩
  have he' : hist = (pre ++ .destroy o :: mid) ++ .run i e :: post := by rw [he]; simp
  rw [he'] at h
  obtain ⟨s1, h1, h2⟩ := h.split
  cases h2 with
  | cons st _ =>
    cases st with
    | run hr st =>
      rename_i r _ _
      have g := good_exec h1
      have hl : i < (submits (pre ++ .destroy o :: mid)).length := by
        rw [← g.len]; exact (List.getElem?_eq_some_iff.1 hr).1
      have h0 : (submits (pre ++ .destroy o :: mid))[i]? = some _ := List.getElem?_eq_getElem hl
      have hn := g.needs i _ r h0 hr
      have hno := (needs_step st).2 o ho
      rw [hn] at hno
      have hp := late_submit h1 rfl h0 hno
      obtain ⟨x, hx1, hx2⟩ := hw pre o (mid ++ .run i e :: post) he i _ hp hno
      have hs : Settled (pre ++ .destroy o :: mid) i := ⟨x, List.mem_append_left _ hx1, hx2⟩
      refine quiet (g.inv i r hr) (g.calm ?_ i r hr) ((g.over i r hr).2 hs) st
      intro j hj
      exact hx j (by rw [he']; exact List.mem_append_left _ hj)

/-- The requests to one storage host of a history. -/
theorem single_reply {hist : List Ev} {s : Sys} (h : Exec Step Sys.init hist s) (hs : ∀ r ∈ submits hist, ¬ r.Single) :
    ∀ i r, .run i (.reply r) ∉ hist := by
  have key : (∀ r ∈ submits hist, ¬ r.Single) → (∀ i r, .run i (.reply r) ∉ hist) ∧
      ∀ r ∈ s.reqs, (∃ a b c, r = .coll a b c) ∨ r.needs = [.metaClient] := by
    refine Exec.invariant (P := fun hist s => (∀ r ∈ submits hist, ¬ r.Single) → (∀ i r, .run i (.reply r) ∉ hist) ∧
      ∀ r ∈ s.reqs, (∃ a b c, r = .coll a b c) ∨ r.needs = [.metaClient]) ?_ ?_ h
    · intro _; exact ⟨by simp, by simp [Sys.init]⟩
    · intro h s e s' _ ih st hs
      rw [submits_append] at hs
      obtain ⟨i1, i2⟩ := ih fun r hr => hs r (List.mem_append_left _ hr)
      cases st with
      | submit hf hg =>
        rename_i r
        refine ⟨by simpa using i1, ?_⟩
        intro q hq
        rcases List.mem_append.1 hq with hq | hq
        · exact i2 q hq
        · simp at hq; subst hq
          cases hf with
          | single i ps => exact absurd trivial (hs (.pQueued i ps) (List.mem_append_right _ (by simp [submits])))
          | many ps hosts hn => exact .inl ⟨_, _, _, rfl⟩
          | toMeta l => exact .inr rfl
      | run hr st =>
        have hk := i2 _ (List.mem_of_getElem? hr)
        refine ⟨?_, ?_⟩
        · intro j r hj
          rcases List.mem_append.1 hj with hj | hj
          · exact i1 j r hj
          · simp at hj
            obtain ⟨rfl, rfl⟩ := hj
            cases st
            rcases hk with ⟨_, _, _, hk⟩ | hk <;> cases hk
        · intro q hq
          rcases List.mem_or_eq_of_mem_set hq with hq | rfl
          · exact i2 q hq
          · rcases hk with ⟨a, b, c, rfl⟩ | hk
            · left; cases st <;> exact ⟨_, _, _, rfl⟩
            · right; rw [(needs_step st).1]; exact hk
      | destroy _ => exact ⟨by simpa using i1, i2⟩
  exact (key hs).1

/-- C155: for requests to several storage hosts and requests to the meta server, waiting for the answers is enough, however they end. -/
theorem C155_waited {hist : List Ev} {s : Sys} (h : Exec Step Sys.init hist s) (hw : Waited hist)
    (hs : ∀ r ∈ submits hist, ¬ r.Single) : ¬ UsedAfter hist :=
  C155_waited_partial h hw fun i => single_reply h hs i .exception

/-- C155: no request is answered twice. -/
theorem C155_once {hist : List Ev} {s : Sys} (h : Exec Step Sys.init hist s) (i : Nat) (pre mid post : List Ev) (e e' : REv)
    (he : hist = pre ++ .run i e :: (mid ++ .run i e' :: post)) : ¬ (e.settles = true ∧ e'.settles = true) := by
  rintro ⟨h1, h2⟩
  have he' : hist = (pre ++ .run i e :: mid) ++ .run i e' :: post := by rw [he]; simp
  rw [he'] at h
  obtain ⟨s1, x1, x2⟩ := h.split
  cases x2 with
  | cons st _ =>
    cases st with
    | run hr st =>
      have g := good_exec x1
      have := (over_step (g.inv i _ hr) ((g.over i _ hr).2 ⟨e, by simp, h1⟩) st).2
      rw [h2] at this; cases this

/-- C155: a request that has not been answered can go on, whether or not the clients are there. -/
theorem C155_goes_on {hist : List Ev} {s : Sys} (h : Exec Step Sys.init hist s) {i : Nat} (hi : i < (submits hist).length)
    (hs : ¬ Settled hist i) : ∃ e s', Step s (.run i e) s' := by
  have g := good_exec h
  rw [← g.len] at hi
  have hr : s.reqs[i]? = some s.reqs[i] := List.getElem?_eq_getElem hi
  have hno : ¬ Over s.reqs[i] := fun ho => hs ((g.over i _ hr).1 ho)
  have hinv := g.inv i _ hr
  suffices ∃ e r', RStep s.reqs[i] e r' by
    obtain ⟨e, r', st⟩ := this
    exact ⟨e, _, .run hr st⟩
  generalize s.reqs[i] = r at hno hinv
  cases r with
  | pQueued _ _ => exact ⟨_, _, .task⟩
  | pSent _ _ => exact ⟨.reply .exception, _, .reply⟩
  | pRun _ _ rest =>
    cases rest with
    | nil => exact absurd (fun a ha => by cases ha) hno
    | cons a rest =>
      by_cases ha : a = .again
      · subst ha; exact ⟨_, _, .again⟩
      · exact ⟨_, _, .act ha⟩
  | pAgain _ _ => exact ⟨_, _, .found⟩
  | coll ps q c =>
    cases q with
    | cons a q => exact ⟨_, _, .cTask List.mem_cons_self⟩
    | nil =>
      obtain ⟨⟨hosts, hist, hn, hx⟩, _⟩ := hinv
      refine Classical.byContradiction fun hcon => hno ?_
      have := C49_exactly_once hn hx ?_
      · intro hd; rw [hd] at this; cases this
      · intro e c' st
        apply hcon
        cases e with
        | send h => exact ⟨_, _, .cSend st⟩
        | reply h r => exact ⟨_, _, .cReply (by simp) st⟩
        | op h o => exact ⟨_, _, .cElse (by simp) (by simp) st⟩
        | remove h => exact ⟨_, _, .cElse (by simp) (by simp) st⟩
        | finish => exact ⟨_, _, .cElse (by simp) (by simp) st⟩
        | deliver r => exact ⟨_, _, .cElse (by simp) (by simp) st⟩
  | mQueued _ _ => exact ⟨_, _, .mTask⟩
  | mSent _ _ => exact ⟨.mReply .exception, _, .mReply⟩
  | mRun _ _ rest =>
    cases rest with
    | nil => exact absurd rfl hno
    | cons a rest =>
      by_cases ha : a = .again
      · subst ha; exact ⟨_, _, .mAgain⟩
      · exact ⟨_, _, .mAct ha⟩
  | mTimer _ _ => exact ⟨_, _, .fire⟩

/-- C155 (violated): a request to a single storage host that fails on its way is answered before its continuation has done with the client.
The owner who waits for that answer and destroys either client has it used afterwards; for every request with a part, of the graph client or
the internal one. -/
theorem C155_single_violated (internal : Bool) (p : Int) (ps : List Int) (o : Obj) :
    ∃ hist s, Exec Step Sys.init hist s ∧ submits hist = [.pQueued internal (p :: ps)] ∧ Waited hist ∧ UsedAfter hist := by
  have hh : (singleHandler (p :: ps) .exception).map (stepOf internal) = .settle :: .leader :: ps.map fun _ => .leader := by
    simp [singleHandler, stepOf, Function.comp_def]
  have hrep : RStep (.pSent internal (p :: ps)) (.reply .exception) (.pRun internal (p :: ps) (.settle :: .leader :: ps.map fun _ => .leader)) := by
    have := @RStep.reply internal (p :: ps) .exception
    rwa [hh] at this
  refine ⟨[.submit (.pQueued internal (p :: ps)), .run 0 .task, .run 0 (.reply .exception), .run 0 (.act .settle), .destroy o, .run 0 (.act .leader)], _,
    .cons (.submit (.single _ _) (by simp [Sys.init])) (.cons (.run (i := 0) rfl .task) (.cons (.run (i := 0) rfl hrep)
      (.cons (.run (i := 0) rfl (.act (by simp))) (.cons (.destroy (by simp [Sys.init])) (.cons (.run (i := 0) rfl (.act (by simp))) .nil))))), rfl, ?_, ?_⟩
  · intro pre o' post he i r hr hn
    have hp : pre = [.submit (.pQueued internal (p :: ps)), .run 0 .task, .run 0 (.reply .exception), .run 0 (.act .settle)] := by
      rcases pre with _ | ⟨a, _ | ⟨b, _ | ⟨c, _ | ⟨d, _ | ⟨e, _ | ⟨f, _ | ⟨g, pre⟩⟩⟩⟩⟩⟩⟩ <;> simp at he
      simp [he]
    subst hp
    cases i with
    | zero => exact ⟨.act .settle, by simp, rfl⟩
    | succ i => simp [submits] at hr
  · refine ⟨[.submit (.pQueued internal (p :: ps)), .run 0 .task, .run 0 (.reply .exception), .run 0 (.act .settle)], o, [], 0, .act .leader, [], rfl, ?_⟩
    cases o <;> simp [REv.uses]

/-- C155 (violated): no destructor waits for the requests, so any client destroyed before the answer has come may be used afterwards. -/
theorem C155_unwaited_violated :
    (∀ internal ps, ∃ hist s, Exec Step Sys.init hist s ∧ submits hist = [.pQueued internal ps] ∧ UsedAfter hist) ∧
    (∀ ps (h : HostAddr) hosts, (h :: hosts).Nodup →
      ∃ hist s, Exec Step Sys.init hist s ∧ submits hist = [.coll ps [] (CState.init (h :: hosts))] ∧ UsedAfter hist) ∧
    (∀ limit, ∃ hist s, Exec Step Sys.init hist s ∧ submits hist = [.mQueued limit 0] ∧ UsedAfter hist) := by
  refine ⟨?_, ?_, ?_⟩
  · intro i ps
    exact ⟨[.submit (.pQueued i ps), .destroy .storageClient, .run 0 .task], _,
      .cons (.submit (.single _ _) (by simp [Sys.init])) (.cons (.destroy (by simp [Sys.init])) (.cons (.run (i := 0) rfl .task) .nil)), rfl,
      [.submit (.pQueued i ps)], .storageClient, [], 0, .task, [], rfl, by simp [REv.uses]⟩
  · intro ps h hosts hn
    exact ⟨[.submit (.coll ps [] (CState.init (h :: hosts))), .run 0 (.coll (.send h)), .destroy .storageClient, .run 0 (.cTask h)], _,
      .cons (.submit (.many _ _ hn) (by simp [Sys.init])) (.cons (.run (i := 0) rfl (.cSend (.send (us := hosts) rfl)))
        (.cons (.destroy (by simp [Sys.init])) (.cons (.run (i := 0) rfl (.cTask (by simp))) .nil))), rfl,
      [.submit (.coll ps [] (CState.init (h :: hosts))), .run 0 (.coll (.send h))], .storageClient, [], 0, .cTask h, [], rfl, by simp [REv.uses]⟩
  · intro l
    exact ⟨[.submit (.mQueued l 0), .destroy .metaClient, .run 0 .mTask], _,
      .cons (.submit (.toMeta _) (by simp [Sys.init])) (.cons (.destroy (by simp [Sys.init])) (.cons (.run (i := 0) rfl .mTask) .nil)), rfl,
      [.submit (.mQueued l 0)], .metaClient, [], 0, .mTask, [], rfl, by simp [REv.uses]⟩

/-! ## Cases -/

/-- A request to the meta server that fails once, is sent again and succeeds; the owner then destroys the client: the hypotheses of
`C155_waited` are met. -/
example : ∃ hist s, Exec Step Sys.init hist s ∧ Waited hist ∧ (∀ r ∈ submits hist, ¬ r.Single) ∧ .destroy .metaClient ∈ hist ∧
    .run 0 .fire ∈ hist ∧ Settled hist 0 := by
  refine ⟨[.submit (.mQueued 1 0), .run 0 .mTask, .run 0 (.mReply .exception), .run 0 (.mAct .update), .run 0 (.mAct .again), .run 0 .fire, .run 0 .mTask,
    .run 0 (.mReply (.response .succeeded ⟨[], 0⟩ ())), .run 0 (.mAct .generate), .run 0 (.mAct .settle), .destroy .metaClient], _,
    .cons (.submit (.toMeta _) (by simp [Sys.init])) (.cons (.run (i := 0) rfl .mTask) (.cons (.run (i := 0) rfl .mReply)
      (.cons (.run (i := 0) (r := .mRun 1 0 [.update, .again]) rfl (.mAct (by simp))) (.cons (.run (i := 0) rfl .mAgain) (.cons (.run (i := 0) rfl .fire)
      (.cons (.run (i := 0) rfl .mTask) (.cons (.run (i := 0) rfl .mReply) (.cons (.run (i := 0) rfl (.mAct (by simp)))
      (.cons (.run (i := 0) rfl (.mAct (by simp))) (.cons (.destroy (by simp [Sys.init])) .nil)))))))))), ?_, ?_, by simp, by simp, ?_⟩
  · intro pre o post he i r hr hn
    have hm : Ev.run 0 (.mAct .settle) ∈ pre := by
      rcases pre with _ | ⟨a, _ | ⟨b, _ | ⟨c, _ | ⟨d, _ | ⟨e, _ | ⟨f, _ | ⟨g, _ | ⟨h, _ | ⟨i, _ | ⟨j, _ | ⟨k, pre⟩⟩⟩⟩⟩⟩⟩⟩⟩⟩⟩ <;> simp at he
      simp [he]
    have hsub : submits pre = [.mQueued 1 0] := by
      rcases pre with _ | ⟨a, _ | ⟨b, _ | ⟨c, _ | ⟨d, _ | ⟨e, _ | ⟨f, _ | ⟨g, _ | ⟨h, _ | ⟨i, _ | ⟨j, _ | ⟨k, pre⟩⟩⟩⟩⟩⟩⟩⟩⟩⟩⟩ <;> simp at he
      obtain ⟨rfl, rfl, rfl, rfl, rfl, rfl, rfl, rfl, rfl, rfl, _⟩ := he
      rfl
    rw [hsub] at hr
    cases i with
    | zero => exact ⟨_, hm, rfl⟩
    | succ i => simp at hr
  · simp [submits, Req.Single]
  · exact ⟨.mAct .settle, by simp, rfl⟩

theorem waited_once {pre : List Ev} {o : Obj} (h1 : ∀ x, .destroy x ∉ pre) (h2 : ∀ i, i < (submits pre).length → Settled pre i) :
    Waited (pre ++ [.destroy o]) := by
  intro pre' o' post he i r hr _
  rcases List.eq_nil_or_concat post with rfl | ⟨post', x, rfl⟩
  · obtain ⟨rfl, _⟩ := List.append_inj' he rfl
    exact h2 i (List.getElem?_eq_some_iff.1 hr).1
  · exfalso
    rw [List.concat_eq_append, ← List.cons_append, ← List.append_assoc] at he
    obtain ⟨rfl, _⟩ := List.append_inj' he rfl
    exact h1 o' (by simp)

/-- A request to a storage host that fails, made for several hosts, and one to a single host that is answered; then the storage client is
destroyed: the hypotheses of `C155_waited_partial` are met. -/
example : ∃ hist s, Exec Step Sys.init hist s ∧ Waited hist ∧ (∀ i, .run i (.reply .exception) ∉ hist) ∧ .destroy .storageClient ∈ hist ∧
    Settled hist 0 ∧ Settled hist 1 ∧ .run 0 (.coll (.op ⟨[98], 1⟩ (.invalidLeader 7))) ∈ hist := by
  let b : HostAddr := ⟨[98], 1⟩
  let ans : Answer := ⟨[], 5, 6, 0⟩
  let c0 : CState := CState.init [b]
  let c1 : CState := { c0 with unsent := [], ongoing := [b], awaiting := [b] }
  let c2 : CState := { c1 with finishSending := true }
  let c3 : CState := { c2 with awaiting := [], running := [(b, [.failedParts [7] .rpcFailure, .invalidLeader 7, .markFailure])] }
  let c4 : CState := { c3 with running := [(b, [.invalidLeader 7, .markFailure])], resp := c3.resp.apply (.failedParts [7] .rpcFailure) }
  let c5 : CState := { c4 with running := [(b, [.markFailure])] }
  let c6 : CState := { c5 with running := [(b, [])], resp := c5.resp.apply .markFailure }
  let c7 : CState := { c6 with running := [], ongoing := [], fulfilled := true, due := 1 }
  let P : HostAddr → List Int := fun _ => [7]
  have s1 : RStep (.coll P [] c0) (.coll (.send b)) (.coll P [b] c1) := .cSend (.send (us := []) rfl)
  have s2 : RStep (.coll P [b] c1) (.coll .finish) (.coll P [b] c2) := .cElse (by simp) (by simp) (.finish rfl rfl)
  have s3 : RStep (.coll P [b] c2) (.cTask b) (.coll P [] c2) := .cTask (q := [b]) (by simp)
  have s4 : RStep (.coll P [] c2) (.coll (.reply b .exception)) (.coll P [] c3) := .cReply (by simp) (.reply (s := c2) (by simp [c2, c1]))
  have s5 : RStep (.coll P [] c3) (.coll (.op b (.failedParts [7] .rpcFailure))) (.coll P [] c4) :=
    .cElse (by simp) (by simp) (.op (s := c3) (os := [.invalidLeader 7, .markFailure]) rfl)
  have s6 : RStep (.coll P [] c4) (.coll (.op b (.invalidLeader 7))) (.coll P [] c5) :=
    .cElse (by simp) (by simp) (.op (s := c4) (os := [.markFailure]) rfl)
  have s7 : RStep (.coll P [] c5) (.coll (.op b .markFailure)) (.coll P [] c6) := .cElse (by simp) (by simp) (.op (s := c5) (os := []) rfl)
  have s8 : RStep (.coll P [] c6) (.coll (.remove b)) (.coll P [] c7) := .cElse (by simp) (by simp) (.remove (s := c6) rfl)
  have s9 : RStep (.coll P [] c7) (.coll (.deliver c7.resp)) (.coll P [] { c7 with due := 0, delivered := [c7.resp] }) :=
    .cElse (by simp) (by simp) (.deliver (s := c7) (d := 0) rfl)
  have t1 : RStep (.pSent false [7]) (.reply (.answer ans)) (.pRun false [7] [.settle]) := .reply (r := .answer ans)
  have e : Exec Step Sys.init ([.submit (.coll P [] c0), .submit (.pQueued false [7]), .run 0 (.coll (.send b)), .run 1 .task,
      .run 0 (.coll .finish), .run 0 (.cTask b), .run 0 (.coll (.reply b .exception)), .run 0 (.coll (.op b (.failedParts [7] .rpcFailure))),
      .run 0 (.coll (.op b (.invalidLeader 7))), .run 1 (.reply (.answer ans)), .run 0 (.coll (.op b .markFailure)), .run 0 (.coll (.remove b)),
      .run 1 (.act .settle), .run 0 (.coll (.deliver c7.resp))] ++ [.destroy .storageClient]) _ :=
    .cons (.submit (.many _ _ (by simp)) (by simp [Sys.init])) (.cons (.submit (.single _ _) (by simp [Sys.init]))
    (.cons (.run (i := 0) rfl s1) (.cons (.run (i := 1) rfl .task) (.cons (.run (i := 0) rfl s2) (.cons (.run (i := 0) rfl s3)
    (.cons (.run (i := 0) rfl s4) (.cons (.run (i := 0) rfl s5) (.cons (.run (i := 0) rfl s6) (.cons (.run (i := 1) rfl t1)
    (.cons (.run (i := 0) rfl s7) (.cons (.run (i := 0) rfl s8) (.cons (.run (i := 1) rfl (.act (by simp))) (.cons (.run (i := 0) rfl s9)
    (.cons (.destroy (by simp [Sys.init])) .nil))))))))))))))
  refine ⟨_, _, e, waited_once (by simp) ?_, by simp, by simp, ⟨.coll (.deliver c7.resp), by simp, rfl⟩, ⟨.act .settle, by simp, rfl⟩, by simp [b]⟩
  intro i hi
  simp [submits] at hi
  rcases i with _ | _ | i
  · exact ⟨.coll (.deliver c7.resp), by simp, rfl⟩
  · exact ⟨.act .settle, by simp, rfl⟩
  · omega

end Outlive
end Nebula
