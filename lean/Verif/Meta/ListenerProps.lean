import Verif.Meta.CacheProps
import Verif.Date.Props
/-! # Properties of the listener notifications (C53) -/
namespace Nebula
namespace Meta
open AMap

/-! ## The order of listeners and `set_difference` -/

theorem hostsLt_irrefl : ∀ a : List HostAddr, hostsLt a a = false
  | [] => rfl
  | a :: l => by simp [hostsLt, C03_host_order.irrefl, hostsLt_irrefl l]

theorem hostsLt_total : ∀ a b : List HostAddr, hostsLt a b = true ∨ a = b ∨ hostsLt b a = true
  | [], [] => by simp
  | [], _ :: _ => by simp [hostsLt]
  | _ :: _, [] => by simp [hostsLt]
  | a :: l, b :: m => by
    have := C03_host_order
    rcases this.total a b with h | h | h
    · simp [hostsLt, h]
    · have e : a = b := (this.eq_sound a b).1 h
      subst e
      rcases hostsLt_total l m with h | h | h
      · simp [hostsLt, this.irrefl, h]
      · simp [h]
      · simp [hostsLt, this.irrefl, h]
    · simp [hostsLt, h]

theorem host_asymm {a b : HostAddr} (h : a.lt b = true) : b.lt a = false := by
  cases h2 : b.lt a with
  | false => rfl
  | true =>
    have := C03_host_order.trans _ _ _ h h2
    rw [C03_host_order.irrefl] at this; cases this

theorem hostsLt_trans : ∀ a b c : List HostAddr, hostsLt a b = true → hostsLt b c = true → hostsLt a c = true
  | _, _, [], _, h => by cases ‹List HostAddr› <;> simp [hostsLt] at h
  | _, [], _ :: _, h, _ => by simp [hostsLt] at h
  | [], _ :: _, _ :: _, _, _ => rfl
  | x :: a, y :: b, z :: c, h1, h2 => by
    have T := C03_host_order
    rw [hostsLt] at h1 h2 ⊢
    rcases T.total x y with h | h | h
    · rcases T.total y z with h' | h' | h'
      · rw [if_pos (T.trans _ _ _ h h')]
      · have e := (T.eq_sound y z).1 h'
        subst e; rw [if_pos h]
      · rw [if_neg (by rw [host_asymm h']; simp), if_pos h'] at h2; cases h2
    · have e := (T.eq_sound x y).1 h
      subst e
      rcases T.total x z with h' | h' | h'
      · rw [if_pos h']
      · have e := (T.eq_sound x z).1 h'
        subst e
        simp only [T.irrefl, Bool.false_eq_true, if_false] at h1 h2 ⊢
        exact hostsLt_trans a b c h1 h2
      · rw [if_neg (by rw [host_asymm h']; simp), if_pos h'] at h2; cases h2
    · rw [if_neg (by rw [host_asymm h]; simp), if_pos h] at h1; cases h1

theorem lh_irrefl (a : ListenerHosts) : a.lt a = false := by simp [ListenerHosts.lt, hostsLt_irrefl]

theorem lh_total (a b : ListenerHosts) : a.lt b = true ∨ a = b ∨ b.lt a = true := by
  unfold ListenerHosts.lt
  by_cases h : a.type = b.type
  · rw [if_pos h, if_pos h.symm]
    rcases hostsLt_total a.peers b.peers with h' | h' | h'
    · exact .inl h'
    · exact .inr (.inl (by cases a; cases b; simp_all))
    · exact .inr (.inr h')
  · rw [if_neg h, if_neg (Ne.symm h)]
    rcases Int.lt_trichotomy a.type b.type with h' | h' | h'
    · exact .inl (by simpa using h')
    · exact absurd h' h
    · exact .inr (.inr (by simpa using h'))

theorem lh_trans (a b c : ListenerHosts) (h1 : a.lt b = true) (h2 : b.lt c = true) : a.lt c = true := by
  unfold ListenerHosts.lt at *
  by_cases e1 : a.type = b.type <;> by_cases e2 : b.type = c.type
  · rw [if_pos e1] at h1; rw [if_pos e2] at h2; rw [if_pos (e1.trans e2)]
    exact hostsLt_trans _ _ _ h1 h2
  · rw [if_neg e2] at h2; rw [if_neg (by rw [e1]; exact e2), e1]; exact h2
  · rw [if_neg e1] at h1; rw [if_neg (by rw [← e2]; exact e1), ← e2]; exact h1
  · rw [if_neg e1] at h1; rw [if_neg e2] at h2
    simp only [decide_eq_true_eq] at h1 h2
    rw [if_neg (by omega)]
    simp only [decide_eq_true_eq]; omega

theorem lh_asymm {a b : ListenerHosts} (h : a.lt b = true) : b.lt a = false := by
  cases h2 : b.lt a with
  | false => rfl
  | true => have := lh_trans _ _ _ h h2; rw [lh_irrefl] at this; cases this

/-- `std::sort` gives a sorted permutation. -/
theorem sortL_sorted (l : List ListenerHosts) : (sortL l).Pairwise fun a b => b.lt a = false := by
  have := List.pairwise_mergeSort (le := fun a b : ListenerHosts => !(b.lt a)) (by
    intro a b c h1 h2
    simp only [Bool.not_eq_true'] at *
    cases h : c.lt a with
    | false => rfl
    | true =>
      rcases lh_total b c with h3 | h3 | h3
      · rw [lh_trans _ _ _ h3 h] at h1; cases h1
      · subst h3; rw [h] at h1; cases h1
      · rw [h3] at h2; cases h2) (by
    intro a b
    cases h : b.lt a with
    | false => simp
    | true => simp [lh_asymm h]) l
  exact this.imp (by intro a b h; simpa using h)

theorem sortL_perm (l : List ListenerHosts) : (sortL l).Perm l := List.mergeSort_perm _ _

theorem setDiff_sublist : ∀ A B : List ListenerHosts, (setDiff A B).Sublist A
  | [], _ => by simp [setDiff]
  | a :: as, [] => by simp [setDiff]
  | a :: as, b :: bs => by
    rw [setDiff]
    split
    · exact (setDiff_sublist as (b :: bs)).cons_cons a
    · split
      · exact setDiff_sublist (a :: as) bs
      · exact (setDiff_sublist as bs).cons a
termination_by a b => a.length + b.length

/-- `std::set_difference` of sorted ranges without repetitions is the difference of sets. -/
theorem mem_setDiff (x : ListenerHosts) : ∀ A B : List ListenerHosts, A.Nodup → A.Pairwise (fun a b => b.lt a = false) →
    B.Pairwise (fun a b => b.lt a = false) → (x ∈ setDiff A B ↔ x ∈ A ∧ x ∉ B)
  | [], _, _, _, _ => by simp [setDiff]
  | a :: as, [], _, _, _ => by simp [setDiff]
  | a :: as, b :: bs, hn, ha, hb => by
    have hn' := List.nodup_cons.1 hn
    have ha' := List.pairwise_cons.1 ha
    have hb' := List.pairwise_cons.1 hb
    rw [setDiff]
    split
    · rename_i h
      have ih := mem_setDiff x as (b :: bs) hn'.2 ha'.2 hb
      have hab : a ∉ b :: bs := by
        simp only [List.mem_cons, not_or]
        refine ⟨?_, fun hm => ?_⟩
        · rintro rfl; rw [lh_irrefl] at h; cases h
        · have := hb'.1 a hm; rw [h] at this; cases this
      simp only [List.mem_cons] at ih hab ⊢
      rw [ih]
      constructor
      · rintro (rfl | ⟨h1, h2⟩)
        · exact ⟨.inl rfl, hab⟩
        · exact ⟨.inr h1, h2⟩
      · rintro ⟨rfl | h1, h2⟩
        · exact .inl rfl
        · exact .inr ⟨h1, h2⟩
    · split
      · rename_i h1 h
        have ih := mem_setDiff x (a :: as) bs hn ha hb'.2
        have hab : b ∉ a :: as := by
          simp only [List.mem_cons, not_or]
          refine ⟨?_, fun hm => ?_⟩
          · rintro rfl; rw [lh_irrefl] at h; cases h
          · have := ha'.1 b hm; rw [h] at this; cases this
        rw [ih]
        constructor
        · rintro ⟨h3, h4⟩
          refine ⟨h3, ?_⟩
          simp only [List.mem_cons, not_or]
          exact ⟨by rintro rfl; exact hab h3, h4⟩
        · rintro ⟨h3, h4⟩
          exact ⟨h3, fun h5 => h4 (by simp [h5])⟩
      · rename_i h1 h2
        have e : a = b := by
          rcases lh_total a b with h | h | h
          · exact absurd h h1
          · exact h
          · exact absurd h h2
        subst e
        have ih := mem_setDiff x as bs hn'.2 ha'.2 hb'.2
        rw [ih]
        simp only [List.mem_cons, not_or]
        constructor
        · rintro ⟨h3, h4⟩
          exact ⟨.inr h3, by rintro rfl; exact hn'.1 h3, h4⟩
        · rintro ⟨h3 | h3, h4, h5⟩
          · exact absurd h3 h4
          · exact ⟨h3, h5⟩
termination_by a b => a.length + b.length

/-! ## Listener maps, flattened -/

/-- The listeners of a space by part and type. -/
def keyed (ps : List (Int × List ListenerHosts)) : AMap (Int × Int) (List HostAddr) :=
  ps.flatMap fun e => e.2.map fun i => ((e.1, i.type), i.peers)

/-- The listeners of a space: every part once, every type once. -/
def LsOk (ps : AMap Int (List ListenerHosts)) : Prop := ps.NodupKeys ∧ ∀ e ∈ ps, (e.2.map ListenerHosts.type).Nodup

def LmOk (m : ListenersMap) : Prop := m.NodupKeys ∧ ∀ s l, m.find s = some l → LsOk l

def lview (m : ListenersMap) : LView := fun s => (m.find s).map fun l k => (keyed l).find k

theorem mem_keyed (ps : List (Int × List ListenerHosts)) (p t : Int) (x : List HostAddr) :
    ((p, t), x) ∈ keyed ps ↔ ∃ l, (p, l) ∈ ps ∧ (⟨t, x⟩ : ListenerHosts) ∈ l := by
  unfold keyed
  simp only [List.mem_flatMap, List.mem_map]
  constructor
  · rintro ⟨⟨q, l⟩, h1, ⟨t', x'⟩, h2, h3⟩
    cases h3
    exact ⟨l, h1, h2⟩
  · rintro ⟨l, h1, h2⟩
    exact ⟨(p, l), h1, ⟨t, x⟩, h2, rfl⟩

theorem keyed_nodup : ∀ (ps : List (Int × List ListenerHosts)), (ps.map Prod.fst).Nodup → (∀ e ∈ ps, (e.2.map ListenerHosts.type).Nodup) →
    NodupKeys (keyed ps)
  | [], _, _ => by simp [keyed, NodupKeys]
  | (p, l) :: ps, hn, hl => by
    have hn' : p ∉ ps.map Prod.fst ∧ (ps.map Prod.fst).Nodup := by simpa [List.nodup_cons] using hn
    have ih := keyed_nodup ps hn'.2 fun e he => hl e (by simp [he])
    have h1 := hl (p, l) (by simp)
    unfold NodupKeys at ih ⊢
    have e : keyed ((p, l) :: ps) = (l.map fun i => ((p, i.type), i.peers)) ++ keyed ps := by simp [keyed, List.flatMap_cons]
    rw [e, List.map_append, List.nodup_append]
    refine ⟨?_, ih, ?_⟩
    · rw [List.map_map]
      have : (Prod.fst ∘ fun i : ListenerHosts => ((p, i.type), i.peers)) = (fun t => (p, t)) ∘ ListenerHosts.type := rfl
      rw [this, ← List.map_map]
      exact List.Pairwise.map _ (fun a b h e => h (by simpa using e)) h1
    · intro a ha b hb
      simp only [List.mem_map] at ha hb
      obtain ⟨⟨k1, x1⟩, h2, rfl⟩ := ha
      obtain ⟨i, hi, e⟩ := h2
      obtain ⟨⟨⟨q, t⟩, y⟩, h3, rfl⟩ := hb
      cases e
      rw [mem_keyed] at h3
      obtain ⟨l', h4, _⟩ := h3
      intro e
      simp only [Prod.mk.injEq] at e
      apply hn'.1
      rw [e.1]
      exact List.mem_map_of_mem (f := Prod.fst) h4

/-- What `listenerDiff` finds in one space: the listeners of `ps` that are not in `qs`. -/
def gone (ps qs : AMap Int (List ListenerHosts)) : List (Int × List ListenerHosts) :=
  ps.map fun e => (e.1, match qs.find e.1 with
    | none => e.2
    | some o => setDiff (sortL e.2) (sortL o))

theorem nodup_of_types {l : List ListenerHosts} (h : (l.map ListenerHosts.type).Nodup) : l.Nodup := by
  unfold List.Nodup at h
  rw [List.pairwise_map] at h
  exact h.imp fun hne e => hne (by rw [e])

theorem gone_nodup {ps qs : AMap Int (List ListenerHosts)} (hp : LsOk ps) : NodupKeys (keyed (gone ps qs)) := by
  apply keyed_nodup
  · have : (gone ps qs).map Prod.fst = ps.map Prod.fst := by simp [gone, List.map_map, Function.comp_def]
    rw [this]; exact hp.1
  · intro e he
    simp only [gone, List.mem_map] at he
    obtain ⟨e', h1, rfl⟩ := he
    have h2 := hp.2 e' h1
    dsimp only
    split
    · exact h2
    · rename_i o _
      have hs : ((setDiff (sortL e'.2) (sortL o)).map ListenerHosts.type).Sublist ((sortL e'.2).map ListenerHosts.type) := (setDiff_sublist _ _).map _
      refine hs.nodup ?_
      exact ((sortL_perm e'.2).map ListenerHosts.type).nodup_iff.2 h2

theorem mem_gone {ps qs : AMap Int (List ListenerHosts)} (hp : LsOk ps) (hq : LsOk qs) (k : Int × Int) (x : List HostAddr) :
    (k, x) ∈ keyed (gone ps qs) ↔ (k, x) ∈ keyed ps ∧ (k, x) ∉ keyed qs := by
  obtain ⟨p, t⟩ := k
  rw [mem_keyed, mem_keyed, mem_keyed]
  have key : ∀ l, (p, l) ∈ ps → ((⟨t, x⟩ : ListenerHosts) ∈ (match qs.find p with | none => l | some o => setDiff (sortL l) (sortL o)) ↔
      (⟨t, x⟩ : ListenerHosts) ∈ l ∧ ¬ ∃ l', (p, l') ∈ qs ∧ (⟨t, x⟩ : ListenerHosts) ∈ l') := by
    intro l hl
    cases hf : qs.find p with
    | none =>
      have : p ∉ qs.map Prod.fst := (find_none_iff qs p).1 hf
      constructor
      · intro h
        refine ⟨h, ?_⟩
        rintro ⟨l', h1, _⟩
        exact this (List.mem_map_of_mem (f := Prod.fst) h1)
      · exact fun h => h.1
    | some o =>
      have hn := nodup_of_types (hp.2 _ hl)
      have hm := mem_setDiff ⟨t, x⟩ (sortL l) (sortL o) ((sortL_perm l).nodup_iff.2 hn) (sortL_sorted l) (sortL_sorted o)
      dsimp only
      rw [hm, (sortL_perm l).mem_iff, (sortL_perm o).mem_iff]
      constructor
      · rintro ⟨h1, h2⟩
        refine ⟨h1, ?_⟩
        rintro ⟨l', h3, h4⟩
        have := mem_find hq.1 h3
        rw [hf] at this; cases this
        exact h2 h4
      · rintro ⟨h1, h2⟩
        exact ⟨h1, fun h3 => h2 ⟨o, find_mem hf, h3⟩⟩
  constructor
  · rintro ⟨l, h1, h2⟩
    simp only [gone, List.mem_map] at h1
    obtain ⟨e, h3, h4⟩ := h1
    simp only [Prod.mk.injEq] at h4
    obtain ⟨rfl, rfl⟩ := h4
    have := (key e.2 h3).1 h2
    exact ⟨⟨e.2, h3, this.1⟩, this.2⟩
  · rintro ⟨⟨l, h1, h2⟩, h3⟩
    refine ⟨_, List.mem_map.2 ⟨(p, l), h1, rfl⟩, ?_⟩
    exact (key l h1).2 ⟨h2, h3⟩

theorem find_iff_mem {K V : Type} [DecidableEq K] {m : AMap K V} (h : m.NodupKeys) (k : K) (v : V) : m.find k = some v ↔ (k, v) ∈ m :=
  ⟨find_mem, mem_find h⟩

/-- Listeners that are in both maps have the same peers. -/
def Agree (ps qs : AMap Int (List ListenerHosts)) : Prop := ∀ k x y, (keyed ps).find k = some x → (keyed qs).find k = some y → x = y

theorem find_gone {ps qs : AMap Int (List ListenerHosts)} (hp : LsOk ps) (hq : LsOk qs) (ha : Agree ps qs) (k : Int × Int) :
    (keyed (gone ps qs)).find k = if (keyed qs).find k = none then (keyed ps).find k else none := by
  have hnp := keyed_nodup ps hp.1 hp.2
  have hnq := keyed_nodup qs hq.1 hq.2
  have hng := gone_nodup (qs := qs) hp
  split
  · rename_i h
    cases hf : (keyed ps).find k with
    | none =>
      cases hg : (keyed (gone ps qs)).find k with
      | none => rfl
      | some x =>
        have := ((mem_gone hp hq k x).1 (find_mem hg)).1
        rw [mem_find hnp this] at hf; cases hf
    | some x =>
      refine mem_find hng ((mem_gone hp hq k x).2 ⟨find_mem hf, fun h2 => ?_⟩)
      rw [mem_find hnq h2] at h; cases h
  · rename_i h
    cases hg : (keyed (gone ps qs)).find k with
    | none => rfl
    | some x =>
      obtain ⟨h1, h2⟩ := (mem_gone hp hq k x).1 (find_mem hg)
      cases hq' : (keyed qs).find k with
      | none => exact absurd hq' h
      | some y =>
        have e := ha k x y (mem_find hnp h1) hq'
        subst e
        exact absurd (find_mem hq') h2

/-! ## The notifications of one space -/

theorem ltold_added (s : Int) : ∀ (l : AMap (Int × Int) (List HostAddr)) (v : LView) (f), l.NodupKeys → v s = some f →
    (∀ k ∈ l.map Prod.fst, f k = none) →
    Exec ListenerTold v (l.map fun e => .listenerAdded s e.1.1 ⟨e.1.2, e.2⟩) (v.put s (some fun k => match l.find k with | some x => some x | none => f k))
  | [], v, f, _, hv, _ => by simp only [List.map_nil, find]; rw [put_self v s _ hv]; exact .nil
  | ((p, t), x) :: l, v, f, hn, hv, hf => by
    have hn' : (p, t) ∉ l.map Prod.fst ∧ NodupKeys l := by
      unfold NodupKeys at hn; rw [List.map_cons, List.nodup_cons] at hn; exact hn
    have ih := ltold_added s l (v.put s (some (putPart f (p, t) (some x)))) (putPart f (p, t) (some x)) hn'.2
      (by simp) (fun k hk => by
        have : k ≠ (p, t) := by rintro rfl; exact hn'.1 hk
        simp only [putPart, if_neg this]; exact hf k (by rw [List.map_cons]; exact List.mem_cons_of_mem _ hk))
    rw [put_put] at ih
    have hlast : (fun k => match AMap.find l k with | some x => some x | none => putPart f (p, t) (some x) k) =
        fun k => match AMap.find (((p, t), x) :: l) k with | some x => some x | none => f k := by
      funext k
      simp only [find]
      by_cases e : (p, t) = k
      · subst e; rw [(find_none_iff l (p, t)).2 hn'.1]; simp [putPart]
      · rw [if_neg e]; simp only [putPart, if_neg (Ne.symm e)]
    rw [hlast] at ih
    exact .cons (.listenerAdded (l := ⟨t, x⟩) hv (hf (p, t) (by simp))) ih

theorem ltold_removed (s : Int) : ∀ (l : AMap (Int × Int) (List HostAddr)) (v : LView) (f), l.NodupKeys → v s = some f →
    (∀ k ∈ l.map Prod.fst, f k ≠ none) →
    Exec ListenerTold v (l.map fun e => .listenerRemoved s e.1.1 e.1.2) (v.put s (some fun k => match l.find k with | some _ => none | none => f k))
  | [], v, f, _, hv, _ => by simp only [List.map_nil, find]; rw [put_self v s _ hv]; exact .nil
  | ((p, t), x) :: l, v, f, hn, hv, hf => by
    have hn' : (p, t) ∉ l.map Prod.fst ∧ NodupKeys l := by
      unfold NodupKeys at hn; rw [List.map_cons, List.nodup_cons] at hn; exact hn
    cases hq : f (p, t) with
    | none => exact absurd hq (hf (p, t) (by simp))
    | some hs =>
      have ih := ltold_removed s l (v.put s (some (putPart f (p, t) none))) (putPart f (p, t) none) hn'.2
        (by simp) (fun k hk => by
          have : k ≠ (p, t) := by rintro rfl; exact hn'.1 hk
          simp only [putPart, if_neg this]; exact hf k (by rw [List.map_cons]; exact List.mem_cons_of_mem _ hk))
      rw [put_put] at ih
      have hlast : (fun k => match AMap.find l k with | some _ => none | none => putPart f (p, t) none k) =
          fun k => match AMap.find (((p, t), x) :: l) k with | some _ => none | none => f k := by
        funext k
        simp only [find]
        by_cases e : (p, t) = k
        · subst e; rw [(find_none_iff l (p, t)).2 hn'.1]; simp [putPart]
        · rw [if_neg e]; simp only [putPart, if_neg (Ne.symm e)]
      rw [hlast] at ih
      exact .cons (.listenerRemoved hv hq) ih

theorem notes_keyed {β} (g : Int → ListenerHosts → β) : ∀ ps : List (Int × List ListenerHosts),
    (ps.flatMap fun e => e.2.map (g e.1)) = (keyed ps).map fun e => g e.1.1 ⟨e.1.2, e.2⟩
  | [] => rfl
  | (p, l) :: ps => by
    rw [List.flatMap_cons, notes_keyed g ps]
    have e : keyed ((p, l) :: ps) = (l.map fun i => ((p, i.type), i.peers)) ++ keyed ps := by simp [keyed, List.flatMap_cons]
    rw [e, List.map_append, List.map_map]
    rfl

theorem new_notes (s : Int) (old ps : AMap Int (List ListenerHosts)) :
    ps.flatMap (newListenerNotes s old) = (keyed (gone ps old)).map fun e => .listenerAdded s e.1.1 ⟨e.1.2, e.2⟩ := by
  rw [← notes_keyed (fun p i => Note.listenerAdded s p i), gone, List.flatMap_map]
  congr 1; funext e
  unfold newListenerNotes
  cases old.find e.1 <;> rfl

theorem old_notes (s : Int) (new ps : AMap Int (List ListenerHosts)) :
    ps.flatMap (oldListenerNotes s new) = (keyed (gone ps new)).map fun e => .listenerRemoved s e.1.1 e.1.2 := by
  have := notes_keyed (fun p i => Note.listenerRemoved s p i.type) (gone ps new)
  dsimp only at this
  rw [← this, gone, List.flatMap_map]
  congr 1; funext e
  unfold oldListenerNotes
  cases new.find e.1 <;> rfl

/-! ## The loops -/

/-- What is known between the two loops. -/
def bothL (old new : LView) : LView := fun s => match new s with
  | none => old s
  | some n => some fun k => match n k with | some h => some h | none => (old s).bind fun o => o k

def AgreeAll (old new : ListenersMap) : Prop := ∀ s o n, old.find s = some o → new.find s = some n → Agree o n

theorem LmOk.tail {s : Int} {ps} {l : ListenersMap} (h : LmOk ((s, ps) :: l)) : s ∉ l.map Prod.fst ∧ LmOk l := by
  have hn' : s ∉ l.map Prod.fst ∧ NodupKeys l := by
    have := h.1; unfold NodupKeys at this; rw [List.map_cons, List.nodup_cons] at this; exact this
  refine ⟨hn'.1, hn'.2, fun s' x hx => h.2 s' x ?_⟩
  have : s ≠ s' := by rintro rfl; rw [(find_none_iff l s).2 hn'.1] at hx; cases hx
  simp [find, this, hx]

theorem ltold_new {old : ListenersMap} (ho : LmOk old) : ∀ (l : ListenersMap) (v : LView), LmOk l →
    (∀ s o n, old.find s = some o → l.find s = some n → Agree n o) → (∀ s ∈ l.map Prod.fst, v s = lview old s) →
    Exec ListenerTold v (l.flatMap (newListenerSpace old)) (bothL v (lview l))
  | [], v, _, _, _ => by
    have : bothL v (lview []) = v := by funext s; rfl
    rw [this]; exact .nil
  | (s, ps) :: l, v, hl, ha, hv => by
    obtain ⟨hn', hl'⟩ := hl.tail
    have hps := hl.2 s ps (by simp [find])
    have hvs := hv s (by simp)
    rw [List.flatMap_cons]
    have hb : bothL v (lview ((s, ps) :: l)) s = some fun k => match (keyed ps).find k with | some x => some x | none => (v s).bind fun o => o k := by
      simp only [bothL, lview, find, if_true, Option.map_some]
    have mid : Exec ListenerTold v (newListenerSpace old (s, ps)) (v.put s (bothL v (lview ((s, ps) :: l)) s)) := by
      rw [hb]
      simp only [newListenerSpace]
      cases hos : old.find s with
      | none =>
        have hvn : v s = none := by rw [hvs]; simp [lview, hos]
        refine .cons (.spaceAdded hvn) ?_
        have := ltold_added s (keyed ps) (v.put s (some fun _ => none)) (fun _ => none) (keyed_nodup ps hps.1 hps.2) (by simp) (fun _ _ => rfl)
        rw [put_put] at this
        rw [hvn]
        rw [notes_keyed (fun p i => Note.listenerAdded s p i)]
        exact this
      | some o =>
        have hvn : v s = some fun k => (keyed o).find k := by rw [hvs]; simp [lview, hos]
        have hoo := ho.2 s o hos
        have hag := ha s o ps hos (by simp [find])
        have hfg := find_gone hps hoo hag
        have h1 := ltold_added s (keyed (gone ps o)) v _ (gone_nodup hps) hvn (fun k hk => by
          obtain ⟨x, hx⟩ := (mem_keys_iff _ k).1 hk
          rw [hfg k] at hx
          split at hx
          · rename_i e; exact e
          · cases hx)
        dsimp only
        rw [new_notes]
        have e : (fun k => match (keyed (gone ps o)).find k with | some x => some x | none => (keyed o).find k) =
            fun k => match (keyed ps).find k with | some x => some x | none => (v s).bind fun o => o k := by
          funext k
          rw [hvn, hfg k]
          simp only [Option.bind_some]
          by_cases h2 : (keyed o).find k = none
          · rw [if_pos h2]
          · rw [if_neg h2]
            cases hk : (keyed ps).find k with
            | none => rfl
            | some x =>
              cases hk2 : (keyed o).find k with
              | none => exact absurd hk2 h2
              | some y => rw [hag k x y hk hk2]
        rw [← e]
        exact h1
    refine mid.append ?_
    have ih := ltold_new ho l (v.put s (bothL v (lview ((s, ps) :: l)) s)) hl' (fun s' o n h1 h2 => ha s' o n h1 (by
      have : s ≠ s' := by rintro rfl; rw [(find_none_iff l s).2 hn'] at h2; cases h2
      simp [find, this, h2])) (fun s' hs' => by
      have : s' ≠ s := by rintro rfl; exact hn' hs'
      simp only [ViewOf.put, if_neg this]; exact hv s' (by simp [hs']))
    have hlast : bothL (v.put s (bothL v (lview ((s, ps) :: l)) s)) (lview l) = bothL v (lview ((s, ps) :: l)) := by
      funext s'
      by_cases e : s' = s
      · subst e
        have : lview l s' = none := by simp [lview, (find_none_iff l s').2 hn']
        simp only [bothL, this, put_get]
      · have : lview ((s, ps) :: l) s' = lview l s' := by simp [lview, find, Ne.symm e]
        simp only [bothL, this, ViewOf.put, if_neg e]
    rw [hlast] at ih
    exact ih

theorem ltold_old {new : ListenersMap} (hnew : LmOk new) : ∀ (l : ListenersMap) (v : LView), LmOk l →
    (∀ s o n, l.find s = some o → new.find s = some n → Agree o n) →
    (∀ s ∈ l.map Prod.fst, v s = bothL (lview l) (lview new) s) →
    Exec ListenerTold v (l.flatMap (oldListenerSpace new)) (fun s => if s ∈ l.map Prod.fst then lview new s else v s)
  | [], v, _, _, _ => by simp only [List.flatMap_nil, List.map_nil, List.not_mem_nil, if_false]; exact .nil
  | (s, ps) :: l, v, hl, ha, hv => by
    obtain ⟨hn', hl'⟩ := hl.tail
    have hps := hl.2 s ps (by simp [find])
    have hvs := hv s (by simp)
    rw [List.flatMap_cons]
    have mid : Exec ListenerTold v (oldListenerSpace new (s, ps)) (v.put s (lview new s)) := by
      simp only [oldListenerSpace]
      cases hns : new.find s with
      | none =>
        have hvn : v s = some fun k => (keyed ps).find k := by rw [hvs]; simp [bothL, lview, hns, find]
        have h1 := ltold_removed s (keyed ps) v _ (keyed_nodup ps hps.1 hps.2) hvn (fun k hk => by
          obtain ⟨x, hx⟩ := (mem_keys_iff _ k).1 hk
          rw [hx]; simp)
        have e1 := notes_keyed (fun p i => Note.listenerRemoved s p i.type) ps
        dsimp only at e1 ⊢
        rw [e1]
        refine h1.append (.one ?_)
        have := ListenerTold.spaceRemoved (v := v.put s (some fun k => match (keyed ps).find k with | some _ => none | none => (keyed ps).find k))
          (s := s) (put_get _ _ _) (fun k => by
            cases h : (keyed ps).find k <;> rfl)
        rw [put_put] at this
        simpa [lview, hns] using this
      | some n =>
        have hnn := hnew.2 s n hns
        have hag := ha s ps n (by simp [find]) hns
        have hfg := find_gone hps hnn hag
        have hvn : v s = some fun k => match (keyed n).find k with | some x => some x | none => (keyed ps).find k := by
          rw [hvs]; simp only [bothL, lview, hns, find, if_true, Option.map_some, Option.bind_some]
        have h1 := ltold_removed s (keyed (gone ps n)) v _ (gone_nodup hps) hvn (fun k hk => by
          obtain ⟨x, hx⟩ := (mem_keys_iff _ k).1 hk
          rw [hfg k] at hx
          split at hx
          · rename_i e; rw [e, hx]; simp
          · cases hx)
        dsimp only
        rw [old_notes]
        have e2 : (some fun k => match (keyed (gone ps n)).find k with
            | some _ => none
            | none => match (keyed n).find k with | some x => some x | none => (keyed ps).find k) = lview new s := by
          simp only [lview, hns, Option.map_some]
          congr 1; funext k
          rw [hfg k]
          by_cases h2 : (keyed n).find k = none
          · rw [if_pos h2, h2]
            cases (keyed ps).find k <;> rfl
          · rw [if_neg h2]
            cases hk2 : (keyed n).find k with
            | none => exact absurd hk2 h2
            | some y => rfl
        rw [e2] at h1
        exact h1
    refine mid.append ?_
    have ih := ltold_old hnew l (v.put s (lview new s)) hl' (fun s' o n h1 h2 => ha s' o n (by
      have : s ≠ s' := by rintro rfl; rw [(find_none_iff l s).2 hn'] at h1; cases h1
      simp [find, this, h1]) h2) (fun s' hs' => by
      have hne : s' ≠ s := by rintro rfl; exact hn' hs'
      have := hv s' (by simp [hs'])
      simp only [ViewOf.put, if_neg hne, this, bothL]
      have e : lview ((s, ps) :: l) s' = lview l s' := by simp [lview, find, Ne.symm hne]
      rw [e])
    have hlast : (fun s' => if s' ∈ l.map Prod.fst then lview new s' else v.put s (lview new s) s') =
        fun s' => if s' ∈ List.map Prod.fst ((s, ps) :: l) then lview new s' else v s' := by
      funext s'
      by_cases e : s' = s
      · subst e; simp
      · exact if_congr' (by simp [e]) rfl (by simp [e, ViewOf.put])
    rw [hlast] at ih
    exact ih

theorem listenerDiffMaps_exact {old new : ListenersMap} (ho : LmOk old) (hn : LmOk new) (ha : AgreeAll old new) :
    Exec ListenerTold (lview old) (listenerDiffMaps old new) (lview new) := by
  unfold listenerDiffMaps
  have h1 := ltold_new ho new (lview old) hn (fun s o n a b k x y hx hy => (ha s o n a b k y x hy hx).symm) (fun _ _ => rfl)
  have h2 := ltold_old hn old (bothL (lview old) (lview new)) ho ha (fun _ _ => rfl)
  have : (fun s => if s ∈ old.map Prod.fst then lview new s else bothL (lview old) (lview new) s) = lview new := by
    funext s
    split
    · rfl
    · rename_i h
      have : lview old s = none := by simp [lview, (find_none_iff old s).2 h]
      simp only [bothL, this]
      cases lview new s with
      | none => rfl
      | some n =>
        simp only [Option.bind_none, Option.some.injEq]
        funext p
        cases n p <;> rfl
  rw [this] at h2
  exact h1.append h2

/-! ## What `doGetListenersMap` computes -/

theorem keyed_append (p : Int) (l : List ListenerHosts) (i : ListenerHosts) : ∀ (ps : AMap Int (List ListenerHosts)) (k : Int × Int) (x : List HostAddr),
    ps.NodupKeys → ((k, x) ∈ keyed (ps.update p [] fun y => y ++ [i]) ↔ (k, x) ∈ keyed ps ∨ (k = (p, i.type) ∧ x = i.peers)) := by
  intro ps k x hn
  obtain ⟨q, t⟩ := k
  have hn2 := nodup_update hn p [] fun y => y ++ [i]
  rw [mem_keyed, mem_keyed]
  have e : ∀ {m : AMap Int (List ListenerHosts)}, m.NodupKeys → ((∃ l, (q, l) ∈ m ∧ (⟨t, x⟩ : ListenerHosts) ∈ l) ↔ (⟨t, x⟩ : ListenerHosts) ∈ (m.find q).getD []) := by
    intro m hm
    constructor
    · rintro ⟨l, h1, h2⟩; rw [mem_find hm h1]; exact h2
    · intro h
      cases hf : m.find q with
      | none => rw [hf] at h; simp at h
      | some l => rw [hf] at h; exact ⟨l, find_mem hf, h⟩
  rw [e hn2, e hn, find_update]
  by_cases hq : p = q
  · subst hq
    rw [if_pos rfl, Option.getD_some, List.mem_append, List.mem_singleton]
    cases i; simp
  · rw [if_neg hq]
    simp only [Prod.mk.injEq]
    constructor
    · exact .inl
    · rintro (h | ⟨⟨h, _⟩, _⟩)
      · exact h
      · exact absurd h.symm hq

theorem lsok_append {p : Int} {i : ListenerHosts} {ps : AMap Int (List ListenerHosts)} (h : LsOk ps)
    (hnew : ∀ x, ((p, i.type), x) ∉ keyed ps) : LsOk (ps.update p [] fun y => y ++ [i]) := by
  have hn2 := nodup_update h.1 p [] fun y => y ++ [i]
  refine ⟨hn2, ?_⟩
  rintro ⟨q, l⟩ he
  have := mem_find hn2 he
  rw [find_update] at this
  split at this
  · rename_i e; subst e
    cases this
    dsimp only
    rw [List.map_append, List.nodup_append]
    refine ⟨?_, by simp, ?_⟩
    · cases hf : ps.find p with
      | none => simp
      | some l => exact h.2 (p, l) (find_mem hf)
    · intro a ha b hb
      simp only [List.map_cons, List.map_nil, List.mem_singleton] at hb
      subst hb
      rintro rfl
      cases hf : ps.find p with
      | none => rw [hf] at ha; simp at ha
      | some l =>
        rw [hf] at ha
        simp only [Option.getD_some, List.mem_map] at ha
        obtain ⟨⟨t, x⟩, h1, h2⟩ := ha
        refine hnew x ((mem_keyed _ _ _ _).2 ⟨l, find_mem hf, ?_⟩)
        rw [← h2]; exact h1
  · exact h.2 (q, l) (find_mem this)

theorem listenersOf_view (s : Int) (c : SpaceCache) : ∀ (l : List (Int × Int)) (m : ListenersMap), LmOk m → l.Nodup →
    (∀ k ∈ l, ∀ x, (k, x) ∉ keyed ((m.find s).getD [])) →
    LmOk (listenersOf s c m l) ∧ (∀ s' ≠ s, (listenersOf s c m l).find s' = m.find s') ∧
    (∀ k x, (k, x) ∈ keyed (((listenersOf s c m l).find s).getD []) ↔
      (k, x) ∈ keyed ((m.find s).getD []) ∨ (k ∈ l ∧ c.partsAlloc.find k.1 = some x)) ∧
    (((listenersOf s c m l).find s = none) ↔ m.find s = none ∧ ∀ k ∈ l, c.partsAlloc.find k.1 = none)
  | [], m, hm, _, _ => by simp [listenersOf, hm]
  | (p, t) :: l, m, hm, hn, hd => by
    have hn' := List.nodup_cons.1 hn
    rw [listenersOf]
    cases hf : c.partsAlloc.find p with
    | none =>
      obtain ⟨h1, h2, h3, h4⟩ := listenersOf_view s c l m hm hn'.2 fun k hk => hd k (by simp [hk])
      refine ⟨h1, h2, fun k x => ?_, ?_⟩
      · dsimp only
        rw [h3 k x]
        constructor
        · rintro (h | ⟨h, h'⟩)
          · exact .inl h
          · exact .inr ⟨by simp [h], h'⟩
        · rintro (h | ⟨h, h'⟩)
          · exact .inl h
          · rcases List.mem_cons.1 h with rfl | h
            · rw [hf] at h'; cases h'
            · exact .inr ⟨h, h'⟩
      · dsimp only
        rw [h4]
        simp [hf]
    | some peers =>
      dsimp only
      have hms : LsOk ((m.find s).getD []) := by
        cases h : m.find s with
        | none => exact ⟨nodup_nil, by simp⟩
        | some x => exact hm.2 s x h
      have hok := lsok_append (i := ⟨t, peers⟩) hms (hd (p, t) (by simp))
      have hm1 : LmOk (m.update s [] fun x => x.update p [] fun y => y ++ [⟨t, peers⟩]) := by
        refine ⟨nodup_update hm.1 _ _ _, fun s' x hx => ?_⟩
        rw [find_update] at hx
        split at hx
        · cases hx; exact hok
        · exact hm.2 s' x hx
      have hkey : ∀ k x, (k, x) ∈ keyed (((m.update s [] fun x => x.update p [] fun y => y ++ [⟨t, peers⟩]).find s).getD []) ↔
          (k, x) ∈ keyed ((m.find s).getD []) ∨ (k = (p, t) ∧ x = peers) := by
        intro k x
        rw [find_update, if_pos rfl, Option.getD_some]
        exact keyed_append p [] ⟨t, peers⟩ _ k x hms.1
      obtain ⟨h1, h2, h3, h4⟩ := listenersOf_view s c l _ hm1 hn'.2 fun k hk x h => by
        rcases (hkey k x).1 h with h | ⟨rfl, _⟩
        · exact hd k (by simp [hk]) x h
        · exact hn'.1 hk
      refine ⟨h1, fun s' hs' => by rw [h2 s' hs', find_update, if_neg (Ne.symm hs')], fun k x => ?_, ?_⟩
      · rw [h3 k x, hkey k x]
        constructor
        · rintro ((h | ⟨rfl, rfl⟩) | ⟨h, h'⟩)
          · exact .inl h
          · exact .inr ⟨by simp, hf⟩
          · exact .inr ⟨by simp [h], h'⟩
        · rintro (h | ⟨h, h'⟩)
          · exact .inl (.inl h)
          · rcases List.mem_cons.1 h with rfl | h
            · rw [hf] at h'; cases h'; exact .inl (.inr ⟨rfl, rfl⟩)
            · exact .inr ⟨h, h'⟩
      · rw [h4, find_update, if_pos rfl]
        simp [hf]

theorem listenersIn_find (me : HostAddr) (s : Int) (c : SpaceCache) : ∀ (ls : AMap HostAddr (List (Int × Int))) (m : ListenersMap), ls.NodupKeys →
    listenersIn me s c m ls = match ls.find me with | none => m | some l => listenersOf s c m l
  | [], m, _ => rfl
  | (h, l) :: ls, m, hn => by
    have hn' : h ∉ ls.map Prod.fst ∧ NodupKeys ls := by
      unfold NodupKeys at hn; rw [List.map_cons, List.nodup_cons] at hn; exact hn
    rw [listenersIn, find]
    by_cases e : me = h
    · subst e
      rw [if_neg (by simp), if_pos rfl, listenersIn_find me s c ls _ hn'.2, (find_none_iff ls me).2 hn'.1]
    · rw [if_pos e, if_neg (Ne.symm e)]
      exact listenersIn_find me s c ls m hn'.2

theorem listenersMapFrom_view (me : HostAddr) : ∀ (c : LocalCache) (m : ListenersMap), c.NodupKeys →
    (∀ s x, (s, x) ∈ c → x.listeners.NodupKeys ∧ ∀ h l, x.listeners.find h = some l → l.Nodup) → LmOk m →
    (∀ s ∈ c.map Prod.fst, m.find s = none) →
    LmOk (listenersMapFrom me m c) ∧ ∀ s, match c.find s with
      | none => (listenersMapFrom me m c).find s = m.find s
      | some x =>
        (∀ k y, (k, y) ∈ keyed (((listenersMapFrom me m c).find s).getD []) ↔ k ∈ (x.listeners.find me).getD [] ∧ x.partsAlloc.find k.1 = some y) ∧
        ((listenersMapFrom me m c).find s = none ↔ ∀ k ∈ (x.listeners.find me).getD [], x.partsAlloc.find k.1 = none)
  | [], m, _, _, hm, _ => ⟨hm, fun _ => rfl⟩
  | (s, x) :: c, m, hn, hx, hm, hd => by
    have hn' : s ∉ c.map Prod.fst ∧ NodupKeys c := by
      unfold NodupKeys at hn; rw [List.map_cons, List.nodup_cons] at hn; exact hn
    obtain ⟨hl1, hl2⟩ := hx s x (by simp)
    have hms : m.find s = none := hd s (by simp)
    rw [listenersMapFrom, listenersIn_find me s x _ m hl1]
    have step : ∀ m1, m1 = (match x.listeners.find me with | none => m | some l => listenersOf s x m l) →
        LmOk m1 ∧ (∀ s' ≠ s, m1.find s' = m.find s') ∧
        (∀ k y, (k, y) ∈ keyed ((m1.find s).getD []) ↔ k ∈ (x.listeners.find me).getD [] ∧ x.partsAlloc.find k.1 = some y) ∧
        (m1.find s = none ↔ ∀ k ∈ (x.listeners.find me).getD [], x.partsAlloc.find k.1 = none) := by
      rintro m1 rfl
      cases hf : x.listeners.find me with
      | none => exact ⟨hm, fun _ _ => rfl, by simp [hms, keyed], by simp [hms]⟩
      | some l =>
        obtain ⟨a, b, d, e⟩ := listenersOf_view s x l m hm (hl2 me l hf) (by simp [hms, keyed])
        refine ⟨a, b, fun k y => ?_, ?_⟩
        · dsimp only
          rw [d k y, hms]; simp [keyed]
        · dsimp only
          rw [e]; simp [hms]
    obtain ⟨a, b, d, e⟩ := step _ rfl
    generalize (match x.listeners.find me with | none => m | some l => listenersOf s x m l) = m1 at a b d e
    obtain ⟨ih1, ih2⟩ := listenersMapFrom_view me c m1 hn'.2 (fun s x h => hx s x (by simp [h])) a (fun s' h => by
      have : s' ≠ s := by rintro rfl; exact hn'.1 h
      rw [b s' this]; exact hd s' (by simp [h]))
    refine ⟨ih1, fun s' => ?_⟩
    have ih := ih2 s'
    simp only [find]
    by_cases es : s = s'
    · subst es
      rw [(find_none_iff c s).2 hn'.1] at ih
      simp only [if_true]
      dsimp only at ih
      rw [ih]
      exact ⟨d, e⟩
    · rw [if_neg es]
      cases hc : AMap.find c s' with
      | none => rw [hc] at ih; dsimp only at ih ⊢; rw [ih]; exact b s' (Ne.symm es)
      | some y => rw [hc] at ih; exact ih

/-- `doGetListenersMap` computes what the listener side of the host should know. -/
theorem doGetListenersMap_view {c : LocalCache} (hc : ListenersLoaded c) (me : HostAddr) :
    LmOk (doGetListenersMap me c) ∧ lview (doGetListenersMap me c) = listenersViewOf me c := by
  obtain ⟨h1, h2⟩ := listenersMapFrom_view me c [] hc.1 (fun s x h => hc.2 s x (mem_find hc.1 h)) ⟨nodup_nil, by intro s l h; cases h⟩ (fun _ _ => rfl)
  refine ⟨h1, ?_⟩
  change LmOk (doGetListenersMap me c) at h1
  funext s
  have hs := h2 s
  change (match c.find s with | none => (doGetListenersMap me c).find s = _ | some x => (∀ k y, (k, y) ∈ keyed (((doGetListenersMap me c).find s).getD []) ↔ _) ∧ ((doGetListenersMap me c).find s = none ↔ _)) at hs
  unfold listenersViewOf
  cases hf : c.find s with
  | none =>
    rw [hf] at hs
    dsimp only at hs
    have : ∀ k, listenerPeers me c s k = none := by
      intro k; unfold listenerPeers; rw [if_neg]; rintro ⟨x, l, h, _⟩; rw [hf] at h; cases h
    rw [if_neg (by rintro ⟨k, hs, h⟩; rw [this] at h; cases h)]
    simp [lview, hs, find]
  | some x =>
    rw [hf] at hs
    obtain ⟨hk, hnone⟩ := hs
    have hp : ∀ k y, listenerPeers me c s k = some y ↔ k ∈ (x.listeners.find me).getD [] ∧ x.partsAlloc.find k.1 = some y := by
      intro k y
      unfold listenerPeers peersOf
      by_cases h : k ∈ (x.listeners.find me).getD []
      · have : ∃ x l, c.find s = some x ∧ x.listeners.find me = some l ∧ k ∈ l := by
          cases hl : x.listeners.find me with
          | none => rw [hl] at h; simp at h
          | some l => rw [hl] at h; exact ⟨x, l, hf, hl, h⟩
        rw [if_pos this, hf]; simp [h]
      · rw [if_neg]
        · simp [h]
        · rintro ⟨x', l, h1, h2, h3⟩
          rw [hf] at h1; cases h1
          rw [h2] at h; exact h h3
    cases hm : (doGetListenersMap me c).find s with
    | none =>
      have := hnone.1 hm
      rw [if_neg]
      · simp [lview, hm]
      · rintro ⟨k, hs, h⟩
        obtain ⟨h1, h2⟩ := (hp k hs).1 h
        rw [this k h1] at h2; cases h2
    | some ps =>
      rw [hm] at hk hnone
      have hne : ∃ k hs, listenerPeers me c s k = some hs := by
        by_cases h : ∃ k hs, listenerPeers me c s k = some hs
        · exact h
        · exfalso
          have := hnone.2 (fun k h1 => by
            cases h3 : x.partsAlloc.find k.1 with
            | none => rfl
            | some y => exact absurd ⟨k, y, (hp k y).2 ⟨h1, h3⟩⟩ h)
          cases this
      rw [if_pos hne]
      simp only [lview, hm, Option.map_some]
      congr 1
      funext k
      have hok := h1.2 s ps hm
      have hnk := keyed_nodup ps hok.1 hok.2
      simp only [Option.getD_some] at hk
      cases hl : listenerPeers me c s k with
      | some y => exact mem_find hnk ((hk k y).2 ((hp k y).1 hl))
      | none =>
        cases hg : (keyed ps).find k with
        | none => rfl
        | some y =>
          have := (hp k y).2 ((hk k y).1 (find_mem hg))
          rw [hl] at this; cases this

/-- C53 (part): if no listener keeps its part and type while the peers of that part change, the listener notifications are a
sensible sequence that leads from what the listener side should have known to what it should know now.  Missing: the case of
changed peers, where the code goes wrong (`C53_notifications_violated`). -/
theorem C53_notifications_partial {old new : LocalCache} (ho : ListenersLoaded old) (hn : ListenersLoaded new) (me : HostAddr)
    (hsame : ∀ s k x y, listenerPeers me old s k = some x → listenerPeers me new s k = some y → x = y) :
    Exec ListenerTold (listenersViewOf me old) (listenerDiff me old new) (listenersViewOf me new) := by
  obtain ⟨a1, b1⟩ := doGetListenersMap_view ho me
  obtain ⟨a2, b2⟩ := doGetListenersMap_view hn me
  have key : ∀ {c : LocalCache} {s ps k x}, lview (doGetListenersMap me c) = listenersViewOf me c →
      (doGetListenersMap me c).find s = some ps → (keyed ps).find k = some x → listenerPeers me c s k = some x := by
    intro c s ps k x hv h1 h2
    have := congrFun hv s
    simp only [lview, h1, Option.map_some, listenersViewOf] at this
    split at this
    · have := congrFun (Option.some.inj this) k
      rw [h2] at this; exact this.symm
    · cases this
  unfold listenerDiff
  rw [← b1, ← b2]
  apply listenerDiffMaps_exact a1 a2
  intro s o n h1 h2 k x y hx hy
  exact hsame s k x y (key b1 h1 hx) (key b2 h2 hy)

/-- A cache with one space, one part with the peers `hs` and a listener of type 0 for that part on host `me`. -/
def oneListener (me : HostAddr) (hs : List HostAddr) : LocalCache := [(1, loadSpace [(1, hs)] [(me, [(1, 0)])])]

theorem oneListener_loaded (me : HostAddr) (hs : List HostAddr) : ListenersLoaded (oneListener me hs) := by
  refine ⟨by simp [oneListener, NodupKeys], fun s x hx => ?_⟩
  simp only [oneListener, find] at hx
  split at hx
  · cases hx
    refine ⟨by simp [loadSpace, NodupKeys], fun h l hl => ?_⟩
    simp only [loadSpace, find] at hl
    split at hl
    · cases hl; simp
    · cases hl
  · cases hx

theorem oneListener_peers (me : HostAddr) (hs : List HostAddr) : listenerPeers me (oneListener me hs) 1 (1, 0) = some hs := by
  unfold listenerPeers
  rw [if_pos ⟨_, [(1, 0)], rfl, by simp [loadSpace, find], by simp⟩]
  simp [peersOf, oneListener, find, loadSpace]

theorem oneListener_view (me : HostAddr) (hs : List HostAddr) :
    listenersViewOf me (oneListener me hs) 1 = some (listenerPeers me (oneListener me hs) 1) := by
  unfold listenersViewOf
  rw [if_pos ⟨_, _, oneListener_peers me hs⟩]

theorem oneListener_map (me : HostAddr) (hs : List HostAddr) : doGetListenersMap me (oneListener me hs) = [(1, [(1, [⟨0, hs⟩])])] := by
  simp [doGetListenersMap, oneListener, listenersMapFrom, loadSpace, listenersIn, listenersOf, find, update, AMap.set]

/-- C53 is violated: if the peers of a part with a listener change, the listener is added again and then removed.  A receiver that
takes the notifications at their word has lost the listener although it is still registered. -/
theorem C53_notifications_violated (me a b : HostAddr) (hab : a ≠ b) :
    ∃ old new : LocalCache, ListenersLoaded old ∧ ListenersLoaded new ∧
      listenerPeers me old 1 (1, 0) = some [a] ∧ listenerPeers me new 1 (1, 0) = some [b] ∧
      listenerDiff me old new = [.listenerAdded 1 1 ⟨0, [b]⟩, .listenerRemoved 1 1 0] ∧
      (¬ ∃ v, Exec ListenerTold (listenersViewOf me old) (listenerDiff me old new) v) ∧
      (∃ f, (listenerDiff me old new).foldl heed (listenersViewOf me old) 1 = some f ∧ f (1, 0) = none) := by
  have hd : listenerDiff me (oneListener me [a]) (oneListener me [b]) = [.listenerAdded 1 1 ⟨0, [b]⟩, .listenerRemoved 1 1 0] := by
    have hne : (⟨0, [a]⟩ : ListenerHosts) ≠ ⟨0, [b]⟩ := by simpa using hab
    have h1 : setDiff [⟨0, [b]⟩] [⟨0, [a]⟩] = [⟨0, [b]⟩] := by
      rw [setDiff]
      rcases lh_total ⟨0, [a]⟩ ⟨0, [b]⟩ with h | h | h
      · simp [h, lh_asymm h, setDiff]
      · exact absurd h hne
      · simp [h, setDiff]
    have h2 : setDiff [⟨0, [a]⟩] [⟨0, [b]⟩] = [⟨0, [a]⟩] := by
      rw [setDiff]
      rcases lh_total ⟨0, [a]⟩ ⟨0, [b]⟩ with h | h | h
      · simp [h, setDiff]
      · exact absurd h hne
      · simp [h, lh_asymm h, setDiff]
    simp [listenerDiff, oneListener_map, listenerDiffMaps, newListenerSpace, oldListenerSpace, newListenerNotes, oldListenerNotes,
      find, sortL, h1, h2]
  refine ⟨_, _, oneListener_loaded me [a], oneListener_loaded me [b], oneListener_peers _ _, oneListener_peers _ _, hd, ?_, ?_⟩
  · rw [hd]
    rintro ⟨v, hx⟩
    cases hx with
    | cons st _ =>
      cases st with
      | listenerAdded h1 h2 =>
        rw [oneListener_view] at h1; cases h1
        rw [oneListener_peers] at h2; cases h2
  · rw [hd]
    refine ⟨putPart (putPart (listenerPeers me (oneListener me [a]) 1) (1, 0) (some [b])) (1, 0) none, ?_, ?_⟩
    · simp [heed, oneListener_view]
    · simp [putPart]

theorem oneListener_diff (me a : HostAddr) : listenerDiff me [] (oneListener me [a]) = [.spaceAdded 1 true, .listenerAdded 1 1 ⟨0, [a]⟩] := by
  unfold listenerDiff
  rw [oneListener_map]
  rfl

/-- The hypotheses of `C53_notifications_partial` are met by a listener that appears. -/
example (me a : HostAddr) : Exec ListenerTold (listenersViewOf me []) [.spaceAdded 1 true, .listenerAdded 1 1 ⟨0, [a]⟩]
    (listenersViewOf me (oneListener me [a])) := by
  rw [← oneListener_diff me a]
  exact C53_notifications_partial (old := []) (new := oneListener me [a]) ⟨nodup_nil, by intro s x h; cases h⟩ (oneListener_loaded me [a]) me
    (by intro s k x y h; unfold listenerPeers at h; rw [if_neg (by rintro ⟨x, l, h, _⟩; cases h)] at h; cases h)

end Meta
end Nebula
