import Verif.Stats.Spec
import Verif.Net.Props
/-! # C62: the statistics manager -/
namespace Nebula
namespace Stats
open Net

variable {isDouble : Bytes → Bool}

/-- What a stored percentile looks like. -/
def PctOk (isDouble : Bytes → Bool) (e : Bytes × Pct) : Prop :=
  lower e.1 = e.1 ∧ methodOf e.1 = none ∧ e.1.head? = some 112 ∧ strToPct isDouble e.1 = some e.2

theorem lower_lower (s : Bytes) : lower (lower s) = lower s := by
  unfold lower
  rw [List.map_map]
  apply List.map_congr_left
  intro c _
  have : ∀ c : UInt8, (fun c : UInt8 => if 65 ≤ c && c ≤ 90 then c + 32 else c) ((fun c : UInt8 => if 65 ≤ c && c ≤ 90 then c + 32 else c) c) =
      (fun c : UInt8 => if 65 ≤ c && c ≤ 90 then c + 32 else c) c := by
    intro c
    have h := List.all_eq_true.1 (by decide +kernel : (List.range 256).all (fun n =>
      decide ((fun c : UInt8 => if 65 ≤ c && c ≤ 90 then c + 32 else c) ((fun c : UInt8 => if 65 ≤ c && c ≤ 90 then c + 32 else c) (UInt8.ofNat n)) =
      (fun c : UInt8 => if 65 ≤ c && c ≤ 90 then c + 32 else c) (UInt8.ofNat n))) = true) c.toNat (List.mem_range.2 c.toNat_lt)
    rw [decide_eq_true_eq, UInt8.ofNat_toNat] at h
    exact h
  exact this c

theorem parseStats_pcts (s : Bytes) : ∀ e ∈ (parseStats isDouble s).2, PctOk isDouble e := by
  unfold parseStats
  generalize splitNonEmpty 44 s = parts
  have key : ∀ (parts : List Bytes) (acc : List Method × List (Bytes × Pct)), (∀ e ∈ acc.2, PctOk isDouble e) →
      ∀ e ∈ (parts.foldl (parsePart isDouble) acc).2, PctOk isDouble e := by
    intro parts
    induction parts with
    | nil => intro acc h; exact h
    | cons p ps ih =>
      intro acc h
      apply ih
      unfold parsePart
      dsimp only
      split
      · exact h
      · rename_i hm
        split
        · rename_i hh
          split
          · rename_i q hq
            intro e he
            rcases List.mem_append.1 he with he | he
            · exact h e he
            · rw [List.mem_singleton.1 he]
              exact ⟨lower_lower _, hm, hh, hq⟩
          · exact h
        · exact h
  exact key parts ([], []) (by simp)

/-- The invariant of a history. -/
structure Inv (isDouble : Bytes → Bool) (h : List Call) (st : State) : Prop where
  nodup : st.names.NodupKeys
  range : ∀ n i, st.names.find n = some i → (0 < i.id ∧ i.id ≤ st.stats.length) ∨ (i.id < 0 ∧ -i.id ≤ st.histos.length)
  inj : ∀ n m i j, st.names.find n = some i → st.names.find m = some j → i.id = j.id → n = m
  series : ∀ id, (seriesOf st id).getD [] = addedUnder id h
  kind : ∀ n i, st.names.find n = some i → (0 < i.id ↔ ∃ n' c, firstCall n h = some (.stats n' c))
  first : ∀ n, st.names.find n = none ↔ firstCall n h = none
  pcts : ∀ n i, st.names.find n = some i → ∀ e ∈ i.pcts, PctOk isDouble e

theorem addedUnder_append (id : Int) (h k : List Call) : addedUnder id (h ++ k) = addedUnder id h ++ addedUnder id k := by
  induction h with
  | nil => rfl
  | cons c h ih =>
    cases c with
    | stats n x => simpa [addedUnder] using ih
    | histo n x => simpa [addedUnder] using ih
    | add i v =>
      simp only [List.cons_append, addedUnder]
      split
      · simp [ih]
      · exact ih

theorem firstCall_append (n : Bytes) (h k : List Call) : firstCall n (h ++ k) = (firstCall n h).or (firstCall n k) := by
  induction h with
  | nil => rfl
  | cons c h ih =>
    simp only [List.cons_append, firstCall]
    split
    · rfl
    · exact ih

theorem firstCall_single (n : Bytes) (c : Call) : firstCall n [c] = if c.name = some n then some c else none := rfl

theorem seriesOf_stats_new (st : State) (names : AMap Bytes Info) (id : Int) :
    (seriesOf { st with names := names, stats := st.stats ++ [[]] } id).getD [] = (seriesOf st id).getD [] := by
  unfold seriesOf
  dsimp only
  split
  · rw [List.getElem?_append]
    split
    · rfl
    · rename_i hl
      rw [List.getElem?_eq_none (l := st.stats) (by omega)]
      cases hk : (id - 1).toNat - st.stats.length with
      | zero => rfl
      | succ k => rfl
  · rfl

theorem seriesOf_histos_new (st : State) (names : AMap Bytes Info) (id : Int) :
    (seriesOf { st with names := names, histos := st.histos ++ [[]] } id).getD [] = (seriesOf st id).getD [] := by
  unfold seriesOf
  dsimp only
  split
  · rfl
  · split
    · rw [List.getElem?_append]
      split
      · rfl
      · rename_i hl
        rw [List.getElem?_eq_none (l := st.histos) (by omega)]
        cases hk : (-(id + 1)).toNat - st.histos.length with
        | zero => rfl
        | succ k => rfl
    · rfl

/-- A registration of a name that is there: nothing changes but the methods. -/
theorem inv_again {h : List Call} {st : State} (hi : Inv isDouble h st) {c : Call} {n : Bytes} (hc : c.name = some n) {i : Info}
    (hf : st.names.find n = some i) (i' : Info) (hid : i'.id = i.id) (hp : ∀ e ∈ i'.pcts, PctOk isDouble e) :
    Inv isDouble (h ++ [c]) { st with names := st.names.set n i' } := by
  have hfind : ∀ m j, (st.names.set n i').find m = some j → ∃ j', st.names.find m = some j' ∧ j'.id = j.id := by
    intro m j hj
    rw [AMap.find_set] at hj
    split at hj
    · rename_i e; subst e; cases hj; exact ⟨i, hf, hid.symm⟩
    · exact ⟨j, hj, rfl⟩
  have hfirst : ∀ m, firstCall m (h ++ [c]) = firstCall m h := by
    intro m
    rw [firstCall_append]
    cases hm : firstCall m h with
    | some x => rfl
    | none =>
      have := (hi.first m).2 hm
      rw [firstCall_single, if_neg]
      · rfl
      · rw [hc]; intro e; cases e; rw [hf] at this; cases this
  refine ⟨AMap.nodup_set hi.nodup _ _, ?_, ?_, ?_, ?_, ?_, ?_⟩
  · intro m j hj
    obtain ⟨j', h1, h2⟩ := hfind m j hj
    have := hi.range m j' h1
    rw [h2] at this; exact this
  · intro m m' j j' hj hj' e
    obtain ⟨k, h1, h2⟩ := hfind m j hj
    obtain ⟨k', h3, h4⟩ := hfind m' j' hj'
    exact hi.inj m m' k k' h1 h3 (by rw [h2, h4, e])
  · intro id
    rw [addedUnder_append]
    have : addedUnder id [c] = [] := by cases c <;> first | rfl | cases hc
    rw [this, List.append_nil]
    exact hi.series id
  · intro m j hj
    obtain ⟨j', h1, h2⟩ := hfind m j hj
    rw [hfirst, ← h2]; exact hi.kind m j' h1
  · intro m
    rw [hfirst, ← hi.first]
    show AMap.find _ _ = none ↔ _
    rw [AMap.find_set]
    split
    · rename_i e; subst e; simp [hf]
    · rfl
  · intro m j hj e he
    have hj : (st.names.set n i').find m = some j := hj
    rw [AMap.find_set] at hj
    split at hj
    · cases hj; exact hp e he
    · exact hi.pcts m j hj e he

theorem step_inv {h : List Call} {st st' : State} {c : Call} {r : Option Int} (hi : Inv isDouble h st) (hs : step isDouble st c = some (st', r)) :
    Inv isDouble (h ++ [c]) st' ∧ (∀ n i, st.names.find n = some i → ∃ i', st'.names.find n = some i' ∧ i'.id = i.id) ∧
      (∀ n, c.name = some n → ∃ i', st'.names.find n = some i' ∧ r = some i'.id) := by
  cases c with
  | add id v =>
    simp only [step] at hs
    obtain ⟨s, hs', e⟩ := Option.map_eq_some_iff.1 hs
    obtain ⟨e1, e2⟩ := Prod.mk.inj e
    subst e1 e2
    clear hs e
    have hs := hs'
    have hnames : s.names = st.names ∧ s.stats.length = st.stats.length ∧ s.histos.length = st.histos.length ∧
        ∀ id', (seriesOf s id').getD [] = (seriesOf st id').getD [] ++ if id = id' then [v] else [] := by
      unfold addValue at hs
      split at hs
      · rename_i hpos
        obtain ⟨l, hl, e⟩ := Option.map_eq_some_iff.1 hs
        subst e
        unfold addTo at hl
        split at hl
        · cases hl
        · rename_i x hx
          cases hl
          refine ⟨rfl, by simp, rfl, fun id' => ?_⟩
          unfold seriesOf
          dsimp only
          split
          · rw [List.getElem?_set]
            split
            · rename_i hp' he
              have : id = id' := by omega
              subst this
              have hlt := (List.getElem?_eq_some_iff.1 hx).1
              rw [if_pos hlt, hx, if_pos rfl]; rfl
            · rename_i hp' hn
              have : id ≠ id' := by rintro rfl; exact hn rfl
              simp [this]
          · rename_i hp'
            have : id ≠ id' := by omega
            simp [this]
      · split at hs
        · rename_i hnp hneg
          obtain ⟨l, hl, e⟩ := Option.map_eq_some_iff.1 hs
          subst e
          unfold addTo at hl
          split at hl
          · cases hl
          · rename_i x hx
            cases hl
            refine ⟨rfl, rfl, by simp, fun id' => ?_⟩
            unfold seriesOf
            dsimp only
            split
            · have : id ≠ id' := by omega
              simp [this]
            · split
              · rw [List.getElem?_set]
                split
                · rename_i hp' he
                  have : id = id' := by omega
                  subst this
                  have hlt := (List.getElem?_eq_some_iff.1 hx).1
                  rw [if_pos hlt, hx, if_pos rfl]; rfl
                · rename_i hp' hn
                  have : id ≠ id' := by rintro rfl; exact hn rfl
                  simp [this]
              · have : id ≠ id' := by omega
                simp [this]
        · cases hs
    obtain ⟨h1, h2, h3, h4⟩ := hnames
    have hfirst : ∀ m, firstCall m (h ++ [Call.add id v]) = firstCall m h := by
      intro m
      rw [firstCall_append, firstCall_single]
      cases firstCall m h <;> simp [Call.name]
    refine ⟨⟨?_, ?_, ?_, ?_, ?_, ?_, ?_⟩, ?_, ?_⟩
    · rw [h1]; exact hi.nodup
    · intro n i hn; rw [h1] at hn; rw [h2, h3]; exact hi.range n i hn
    · rw [h1]; exact hi.inj
    · intro id'
      rw [h4, hi.series, addedUnder_append]
      congr 1
    · intro n i hn; rw [h1] at hn; rw [hfirst]; exact hi.kind n i hn
    · intro n; rw [h1, hfirst]; exact hi.first n
    · rw [h1]; exact hi.pcts
    · intro n i hn; rw [h1]; exact ⟨i, hn, rfl⟩
    · intro n hn; cases hn
  | stats n cfg =>
    simp only [step, Option.some.injEq, Prod.mk.injEq] at hs
    obtain ⟨rfl, rfl⟩ := hs
    unfold registerStats
    dsimp only
    split
    · rename_i i hf
      refine ⟨inv_again hi (n := n) rfl hf _ rfl (hi.pcts n i hf), ?_, ?_⟩
      · intro m j hj
        dsimp only
        rw [AMap.find_set]
        split
        · rename_i e; subst e; rw [hf] at hj; cases hj; exact ⟨_, rfl, rfl⟩
        · exact ⟨j, hj, rfl⟩
      · intro m hm
        cases hm
        dsimp only
        rw [AMap.find_set, if_pos rfl]
        exact ⟨_, rfl, rfl⟩
    · rename_i hf
      have hfc := (hi.first n).1 hf
      have hother : ∀ m, m ≠ n → firstCall m (h ++ [Call.stats n cfg]) = firstCall m h := by
        intro m hm
        rw [firstCall_append, firstCall_single, if_neg (by intro e; cases e; exact hm rfl)]
        cases firstCall m h <;> rfl
      have hself : firstCall n (h ++ [Call.stats n cfg]) = some (.stats n cfg) := by
        rw [firstCall_append, hfc, firstCall_single]; simp [Call.name]
      refine ⟨⟨AMap.nodup_set hi.nodup _ _, ?_, ?_, ?_, ?_, ?_, ?_⟩, ?_, ?_⟩
      · intro m j hj
        dsimp only at hj ⊢
        rw [AMap.find_set] at hj
        split at hj
        · cases hj; left; simp
        · have := hi.range m j hj
          simp only [List.length_append, List.length_singleton]
          omega
      · intro m m' j j' hj hj' e
        dsimp only at hj hj'
        rw [AMap.find_set] at hj hj'
        split at hj
        · rename_i e1; subst e1
          split at hj'
          · rename_i e2; exact e2
          · cases hj
            have := hi.range m' j' hj'
            dsimp only at e
            omega
        · split at hj'
          · cases hj'
            have := hi.range m j hj
            dsimp only at e
            omega
          · exact hi.inj m m' j j' hj hj' e
      · intro id
        rw [seriesOf_stats_new, hi.series, addedUnder_append]
        simp [addedUnder]
      · intro m j hj
        dsimp only at hj
        rw [AMap.find_set] at hj
        split at hj
        · rename_i e1; subst e1; cases hj
          rw [hself]
          exact ⟨fun _ => ⟨_, _, rfl⟩, fun _ => (by dsimp only; omega)⟩
        · rename_i e1
          rw [hother m (fun e => e1 e.symm)]
          exact hi.kind m j hj
      · intro m
        dsimp only
        rw [AMap.find_set]
        split
        · rename_i e1; subst e1; rw [hself]; simp
        · rename_i e1; rw [hother m (fun e => e1 e.symm)]; exact hi.first m
      · intro m j hj
        dsimp only at hj
        rw [AMap.find_set] at hj
        split at hj
        · cases hj; simp
        · exact hi.pcts m j hj
      · intro m j hj
        dsimp only
        rw [AMap.find_set]
        split
        · rename_i e1; subst e1; rw [hf] at hj; cases hj
        · exact ⟨j, hj, rfl⟩
      · intro m hm
        cases hm
        dsimp only
        rw [AMap.find_set, if_pos rfl]
        exact ⟨_, rfl, rfl⟩
  | histo n cfg =>
    simp only [step, Option.some.injEq, Prod.mk.injEq] at hs
    obtain ⟨rfl, rfl⟩ := hs
    unfold registerHisto
    dsimp only
    split
    · rename_i i hf
      refine ⟨inv_again hi (n := n) rfl hf _ rfl (parseStats_pcts cfg), ?_, ?_⟩
      · intro m j hj
        dsimp only
        rw [AMap.find_set]
        split
        · rename_i e; subst e; rw [hf] at hj; cases hj; exact ⟨_, rfl, rfl⟩
        · exact ⟨j, hj, rfl⟩
      · intro m hm
        cases hm
        dsimp only
        rw [AMap.find_set, if_pos rfl]
        exact ⟨_, rfl, rfl⟩
    · rename_i hf
      have hfc := (hi.first n).1 hf
      have hother : ∀ m, m ≠ n → firstCall m (h ++ [Call.histo n cfg]) = firstCall m h := by
        intro m hm
        rw [firstCall_append, firstCall_single, if_neg (by intro e; cases e; exact hm rfl)]
        cases firstCall m h <;> rfl
      have hself : firstCall n (h ++ [Call.histo n cfg]) = some (.histo n cfg) := by
        rw [firstCall_append, hfc, firstCall_single]; simp [Call.name]
      refine ⟨⟨AMap.nodup_set hi.nodup _ _, ?_, ?_, ?_, ?_, ?_, ?_⟩, ?_, ?_⟩
      · intro m j hj
        dsimp only at hj ⊢
        rw [AMap.find_set] at hj
        split at hj
        · cases hj; right; simp
        · have := hi.range m j hj
          simp only [List.length_append, List.length_singleton]
          omega
      · intro m m' j j' hj hj' e
        dsimp only at hj hj'
        rw [AMap.find_set] at hj hj'
        split at hj
        · rename_i e1; subst e1
          split at hj'
          · rename_i e2; exact e2
          · cases hj
            have := hi.range m' j' hj'
            dsimp only at e
            omega
        · split at hj'
          · cases hj'
            have := hi.range m j hj
            dsimp only at e
            omega
          · exact hi.inj m m' j j' hj hj' e
      · intro id
        rw [seriesOf_histos_new, hi.series, addedUnder_append]
        simp [addedUnder]
      · intro m j hj
        dsimp only at hj
        rw [AMap.find_set] at hj
        split at hj
        · rename_i e1; subst e1; cases hj
          rw [hself]
          refine ⟨fun h => (by dsimp only at h; omega), ?_⟩
          rintro ⟨_, _, e⟩; cases e
        · rename_i e1
          rw [hother m (fun e => e1 e.symm)]
          exact hi.kind m j hj
      · intro m
        dsimp only
        rw [AMap.find_set]
        split
        · rename_i e1; subst e1; rw [hself]; simp
        · rename_i e1; rw [hother m (fun e => e1 e.symm)]; exact hi.first m
      · intro m j hj
        dsimp only at hj
        rw [AMap.find_set] at hj
        split at hj
        · cases hj; exact parseStats_pcts cfg
        · exact hi.pcts m j hj
      · intro m j hj
        dsimp only
        rw [AMap.find_set]
        split
        · rename_i e1; subst e1; rw [hf] at hj; cases hj
        · exact ⟨j, hj, rfl⟩
      · intro m hm
        cases hm
        dsimp only
        rw [AMap.find_set, if_pos rfl]
        exact ⟨_, rfl, rfl⟩

theorem run_inv : ∀ (cs : List Call) (h : List Call) (st st' : State) (rets : List (Option Int)), Inv isDouble h st →
    run isDouble st cs = some (st', rets) →
    Inv isDouble (h ++ cs) st' ∧ (∀ n i, st.names.find n = some i → ∃ i', st'.names.find n = some i' ∧ i'.id = i.id) ∧
      rets.length = cs.length ∧
      (∀ (k : Nat) (c : Call) (n : Bytes), cs[k]? = some c → c.name = some n → ∃ i', st'.names.find n = some i' ∧ rets[k]? = some (some i'.id))
  | [], h, st, st', rets, hi, hr => by
    rw [run] at hr; cases hr
    refine ⟨by simpa using hi, fun n i hn => ⟨i, hn, rfl⟩, rfl, ?_⟩
    intro k c n hk; simp at hk
  | c :: cs, h, st, st', rets, hi, hr => by
    rw [run] at hr
    split at hr
    · cases hr
    · rename_i s r hs
      obtain ⟨⟨s', rs⟩, hrun, e⟩ := Option.map_eq_some_iff.1 hr
      cases e
      obtain ⟨h1, h2, h3⟩ := step_inv hi hs
      obtain ⟨h4, h5, h6, h7⟩ := run_inv cs _ _ _ _ h1 hrun
      refine ⟨by simpa using h4, ?_, by simp [h6], ?_⟩
      · intro n i hn
        obtain ⟨i', hi', e1⟩ := h2 n i hn
        obtain ⟨i'', hi'', e2⟩ := h5 n i' hi'
        exact ⟨i'', hi'', e2.trans e1⟩
      · intro k d n hk hd
        cases k with
        | zero =>
          simp at hk; subst hk
          obtain ⟨i', hi', e1⟩ := h3 n hd
          obtain ⟨i'', hi'', e2⟩ := h5 n i' hi'
          exact ⟨i'', hi'', by simp [e1, e2]⟩
        | succ k =>
          obtain ⟨i', hi', e1⟩ := h7 k d n (by simpa using hk) hd
          exact ⟨i', hi', by simpa using e1⟩

theorem init_inv : Inv isDouble [] init :=
  ⟨by simp [init, AMap.NodupKeys], (by intro n i h; cases h), (by intro n m i j h; cases h),
   (by intro id; unfold seriesOf init; dsimp only; split <;> (try split) <;> simp [addedUnder]),
   (by intro n i h; cases h), (fun _ => ⟨fun _ => rfl, fun _ => rfl⟩), (by intro n i h; cases h)⟩

/-- **C62.** In every history, registering returns the same id for the same name and different ids for
different names; counters first registered as statistics have positive ids, histograms negative ones. -/
theorem C62_ids {h : List Call} {st : State} {rets : List (Option Int)} (hr : run isDouble init h = some (st, rets)) :
    (∀ (k : Nat) (c : Call) (n : Bytes), h[k]? = some c → c.name = some n → ∃ a, rets[k]? = some (some a) ∧
      ((∃ n' x, firstCall n h = some (.stats n' x)) → 0 < a) ∧ ((∃ n' x, firstCall n h = some (.histo n' x)) → a < 0)) ∧
    (∀ (k l : Nat) (c d : Call) (n m : Bytes) (a b : Int), h[k]? = some c → h[l]? = some d → c.name = some n → d.name = some m →
      rets[k]? = some (some a) → rets[l]? = some (some b) → (a = b ↔ n = m)) := by
  obtain ⟨hi, _, _, hret⟩ := run_inv h [] init st rets init_inv hr
  rw [List.nil_append] at hi
  constructor
  · intro k c n hk hn
    obtain ⟨i, hf, hri⟩ := hret k c n hk hn
    refine ⟨i.id, hri, fun hx => (hi.kind n i hf).2 hx, ?_⟩
    rintro ⟨n', x, hx⟩
    have hnot : ¬0 < i.id := by
      intro hp
      obtain ⟨n'', x', e⟩ := (hi.kind n i hf).1 hp
      rw [hx] at e; cases e
    have := hi.range n i hf
    omega
  · intro k l c d n m a b hk hl hn hm ha hb
    obtain ⟨i, hf, hri⟩ := hret k c n hk hn
    obtain ⟨j, hg, hrj⟩ := hret l d m hl hm
    rw [hri] at ha; rw [hrj] at hb
    cases ha; cases hb
    constructor
    · exact hi.inj n m i j hf hg
    · rintro rfl; rw [hf] at hg; cases hg; rfl

/-- **C62.** In every history, the series of a registered name holds exactly the values added under its
id, in order; and adding under an id that was returned never fails. -/
theorem C62_recorded {h : List Call} {st : State} {rets : List (Option Int)} (hr : run isDouble init h = some (st, rets))
    (k : Nat) (c : Call) (n : Bytes) (a : Int) (hk : h[k]? = some c) (hn : c.name = some n) (ha : rets[k]? = some (some a)) :
    (∀ r m, readStats st n r m = .value (.method m) r (addedUnder a h)) ∧
    (∀ r p, readHisto st n r p = if a < 0 then .value (.pct p) r (addedUnder a h) else .error) ∧
    ∀ v, (addValue st a v).isSome := by
  obtain ⟨hi, _, _, hret⟩ := run_inv h [] init st rets init_inv hr
  rw [List.nil_append] at hi
  obtain ⟨i, hf, hri⟩ := hret k c n hk hn
  rw [hri] at ha
  cases ha
  have hser := hi.series i.id
  rcases hi.range n i hf with ⟨h1, h2⟩ | ⟨h1, h2⟩
  · have hlt : (i.id - 1).toNat < st.stats.length := by omega
    unfold seriesOf at hser
    rw [if_pos h1, List.getElem?_eq_getElem hlt] at hser
    refine ⟨?_, ?_, ?_⟩
    · intro r m
      unfold readStats readStatsId
      rw [hf]; dsimp only
      rw [if_neg (by omega), if_pos h1, List.getElem?_eq_getElem hlt]
      simp only [← hser, Option.getD_some]
    · intro r p
      unfold readHisto readHistoId
      rw [hf]; dsimp only
      rw [if_pos (by omega), if_neg (by omega)]
    · intro v
      unfold addValue addTo
      rw [if_pos h1, List.getElem?_eq_getElem hlt]
      rfl
  · have hlt : (-(i.id + 1)).toNat < st.histos.length := by omega
    unfold seriesOf at hser
    rw [if_neg (by omega), if_pos h1, List.getElem?_eq_getElem hlt] at hser
    refine ⟨?_, ?_, ?_⟩
    · intro r m
      unfold readStats readStatsId
      rw [hf]; dsimp only
      rw [if_neg (by omega), if_neg (by omega), List.getElem?_eq_getElem hlt]
      simp only [← hser, Option.getD_some]
    · intro r p
      unfold readHisto readHistoId
      rw [hf]; dsimp only
      rw [if_neg (by omega), if_pos h1, List.getElem?_eq_getElem hlt]
      simp only [← hser, Option.getD_some]
    · intro v
      unfold addValue addTo
      rw [if_neg (by omega), if_pos h1, List.getElem?_eq_getElem hlt]
      rfl

/-! ## Metric names -/

theorem splitNonEmpty3 {a b c : Bytes} (ha : a ≠ [] ∧ (46 : UInt8) ∉ a) (hb : b ≠ [] ∧ (46 : UInt8) ∉ b) (hc : c ≠ [] ∧ (46 : UInt8) ∉ c) :
    splitNonEmpty 46 (a ++ 46 :: (b ++ 46 :: c)) = [a, b, c] := by
  unfold splitNonEmpty
  rw [splitAll_append 46 a _ ha.2, splitAll_append 46 b _ hb.2, splitAll_single 46 c hc.2]
  simp [ha.1, hb.1, hc.1]

/-- The text of a method without its dot. -/
def methodName : Method → Bytes
  | .sum => ascii "sum" | .count => ascii "count" | .avg => ascii "avg" | .rate => ascii "rate"
/-- The text of a range without its dot. -/
def rangeName : Range → Bytes
  | .s5 => ascii "5" | .s60 => ascii "60" | .s600 => ascii "600" | .s3600 => ascii "3600"

/-- **C62.** A metric `name.method.seconds` reads that method over that range of the counter of that
name. -/
theorem C62_read_method (st : State) (n : Bytes) (hn : PlainName n) (m : Method) (r : Range) :
    readValue isDouble st (n ++ ascii "." ++ methodName m ++ ascii "." ++ rangeName r) = readStats st n r m := by
  have e : n ++ ascii "." ++ methodName m ++ ascii "." ++ rangeName r = n ++ 46 :: (methodName m ++ 46 :: rangeName r) := by
    simp [ascii]
  have hm : methodName m ≠ [] ∧ (46 : UInt8) ∉ methodName m := by cases m <;> decide +kernel
  have hr : rangeName r ≠ [] ∧ (46 : UInt8) ∉ rangeName r := by cases r <;> decide +kernel
  have h1 : rangeOf (rangeName r) = some r := by cases r <;> decide +kernel
  have h2 : methodOf (lower (methodName m)) = some m := by cases m <;> decide +kernel
  unfold readValue
  rw [e, splitNonEmpty3 hn hm hr]
  dsimp only
  rw [h1]; dsimp only; rw [h2]

/-- The percentile `pX…`: `k` decimal digits, the first two of which are in front of the decimal point. -/
theorem C62_percentile (hd : ∀ ds, ds ≠ [] → (∀ c ∈ ds, isDigit c = true) → isDouble ds = true) (ds : Bytes)
    (hds : ∀ c ∈ ds, isDigit c = true) :
    strToPct isDouble (112 :: ds) =
      if 2 ≤ ds.length ∧ ds.length ≤ 6 then some ⟨ds, 10 ^ (ds.length - 2)⟩
      else if ds.length = 1 then some ⟨ds, 1⟩ else none := by
  have hb : ds ≠ [] → isDouble ds = true := fun h => hd ds h hds
  unfold strToPct
  simp only [List.length_cons, Nat.add_sub_cancel, List.drop_succ_cons, List.drop_zero]
  by_cases h0 : ds.length = 0
  · simp [h0]
  · have hne : ds ≠ [] := by rintro rfl; exact h0 rfl
    rw [hb hne]
    by_cases h6 : ds.length ≤ 6
    · rw [if_pos ⟨by omega, h6⟩]
      have : ds.length = 1 ∨ ds.length = 2 ∨ ds.length = 3 ∨ ds.length = 4 ∨ ds.length = 5 ∨ ds.length = 6 := by omega
      rcases this with h | h | h | h | h | h <;> rw [h] <;> simp [dividors]
    · rw [if_neg (fun h => h6 h.2), if_neg (fun h => h6 h.2), if_neg (by omega)]

/-- **C62.** A metric `name.pXX.seconds` reads that percentile of the histogram of that name. -/
theorem C62_read_percentile (st : State) (n : Bytes) (hn : PlainName n) (ds : Bytes) (hds : ∀ c ∈ ds, isDigit c = true)
    (p : Pct) (hp : strToPct isDouble (112 :: ds) = some p) (r : Range) :
    readValue isDouble st (n ++ ascii ".p" ++ ds ++ ascii "." ++ rangeName r) = readHisto st n r p := by
  have e : n ++ ascii ".p" ++ ds ++ ascii "." ++ rangeName r = n ++ 46 :: ((112 :: ds) ++ 46 :: rangeName r) := by
    simp [ascii]
  have hm : (112 :: ds : Bytes) ≠ [] ∧ (46 : UInt8) ∉ (112 :: ds : Bytes) := by
    refine ⟨by simp, ?_⟩
    intro h
    rcases List.mem_cons.1 h with h | h
    · cases h
    · exact absurd (hds _ h) (by decide)
  have hr : rangeName r ≠ [] ∧ (46 : UInt8) ∉ rangeName r := by cases r <;> decide +kernel
  have h1 : rangeOf (rangeName r) = some r := by cases r <;> decide +kernel
  have hl : lower (112 :: ds) = 112 :: ds := by
    unfold lower
    conv => rhs; rw [← List.map_id (112 :: ds)]
    apply List.map_congr_left
    intro c hc
    rw [id]
    rcases List.mem_cons.1 hc with rfl | hc
    · decide
    · have := hds c hc
      rw [if_neg]
      intro h
      simp only [isDigit, Bool.and_eq_true, decide_eq_true_eq, UInt8.le_iff_toNat_le] at this h
      have e1 : (57 : UInt8).toNat = 57 := rfl
      have e2 : (65 : UInt8).toNat = 65 := rfl
      omega
  have h2 : methodOf (112 :: ds) = none := by
    unfold methodOf
    simp [ascii]
  unfold readValue
  rw [e, splitNonEmpty3 hn hm hr]
  dsimp only
  rw [h1]; dsimp only
  rw [hl, h2]; dsimp only
  rw [if_pos (by rfl), hp]

/-- **C62.** What `readAllValue` reports under a metric name is what reading that name gives, for counters
whose name has no dot (and percentiles written without one). -/
theorem C62_report_partial {h : List Call} {st : State} {rets : List (Option Int)} (hr : run isDouble init h = some (st, rets))
    (n : Bytes) (i : Info) (hn : PlainName n) (he : (n, i) ∈ st.names) (hdots : ∀ p ∈ i.pcts, (46 : UInt8) ∉ p.1) :
    ∀ e ∈ reportOf st n i, readValue isDouble st e.1 = e.2 ∧ e ∈ readAll st := by
  obtain ⟨hi, _, _, _⟩ := run_inv h [] init st rets init_inv hr
  have hf := AMap.mem_find hi.nodup he
  intro e hm
  refine ⟨?_, List.mem_flatMap.2 ⟨(n, i), he, hm⟩⟩
  rcases List.mem_append.1 hm with hm | hm
  · obtain ⟨m, _, hm⟩ := List.mem_flatMap.1 hm
    obtain ⟨r, _, rfl⟩ := List.mem_map.1 hm
    have e : n ++ methodText m ++ rangeText r = n ++ ascii "." ++ methodName m ++ ascii "." ++ rangeName r := by
      cases m <;> cases r <;> simp [methodText, rangeText, methodName, rangeName, ascii]
    dsimp only
    rw [e, C62_read_method st n hn, readStats, hf]
  · obtain ⟨p, hp, hm⟩ := List.mem_flatMap.1 hm
    obtain ⟨r, _, hm⟩ := List.mem_filterMap.1 hm
    split at hm
    · cases hm
    · cases hm
      obtain ⟨h1, h2, h3, h4⟩ := hi.pcts n i hf p hp
      have hne : p.1 ≠ [] := by intro e; rw [e] at h3; cases h3
      have e : n ++ ascii "." ++ p.1 ++ rangeText r = n ++ 46 :: (p.1 ++ 46 :: rangeName r) := by
        cases r <;> simp [rangeText, rangeName, ascii]
      have hrn : rangeName r ≠ [] ∧ (46 : UInt8) ∉ rangeName r := by cases r <;> decide +kernel
      have hro : rangeOf (rangeName r) = some r := by cases r <;> decide +kernel
      unfold readValue
      dsimp only
      rw [e, splitNonEmpty3 hn ⟨hne, hdots p hp⟩ hrn]
      dsimp only
      rw [hro]; dsimp only
      rw [h1, h2]; dsimp only
      rw [if_pos h3, h4]
      dsimp only
      rw [readHisto, hf]

/-- Decimal digits are numbers. -/
def digitsOnly (s : Bytes) : Bool := s ≠ [] && s.all isDigit

/-- A history with two counters, used by the examples. -/
def sampleHistory : List Call :=
  [.stats (ascii "query") (ascii "rate, SUM"), .histo (ascii "latency") (ascii "avg,p99"), .add 1 5, .add (-1) 7,
   .stats (ascii "query") (ascii "count"), .add 1 6]

example : ∃ st rets, run digitsOnly init sampleHistory = some (st, rets) ∧
    rets = [some 1, some (-1), none, none, some 1, none] ∧
    readValue digitsOnly st (ascii "query.sum.60") = .value (.method .sum) .s60 [5, 6] ∧
    readValue digitsOnly st (ascii "latency.p99.600") = .value (.pct ⟨ascii "99", 1⟩) .s600 [7] ∧
    readValue digitsOnly st (ascii "query.p99.600") = .error :=
  ⟨_, _, rfl, by decide +kernel, by decide +kernel, by decide +kernel, by decide +kernel⟩

/-- **C62 violated** for counters whose name has a dot: they are reported under a metric name that cannot be
read. -/
theorem C62_dotted_violated :
    ∃ st rets, run digitsOnly init [.stats (ascii "a.b") (ascii "sum"), .add 1 5] = some (st, rets) ∧
      (ascii "a.b.sum.60", ReadOut.value (.method .sum) .s60 [5]) ∈ readAll st ∧
      readValue digitsOnly st (ascii "a.b.sum.60") = .error :=
  ⟨_, _, rfl, by decide +kernel, by decide +kernel⟩

/-- **C62 violated** when a name is registered both ways: the id of a statistic is then negative, and it is
recorded in the histogram (without assertions; with them the process aborts). -/
theorem C62_kind_violated :
    ∃ st, run digitsOnly init [.histo (ascii "x") [], .stats (ascii "x") []] = some (st, [some (-1), some (-1)]) :=
  ⟨_, rfl⟩

end Stats
end Nebula
