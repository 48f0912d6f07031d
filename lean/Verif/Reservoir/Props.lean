import Verif.Reservoir.Spec
/-! # Properties of reservoir sampling (C28) -/
namespace Nebula
namespace Reservoir
variable {T : Type}

theorem sampling_num (r : Reservoir T) (x : T) (i : Nat) : (r.sampling x i).1.num = r.num ∧ (r.sampling x i).1.cnt = r.cnt + 1 := by
  unfold sampling; split
  · exact ⟨rfl, rfl⟩
  · split <;> exact ⟨rfl, rfl⟩

theorem offer_append (r : Reservoir T) (l m : List (T × Nat)) :
    r.offer (l ++ m) = (((r.offer l).1.offer m).1, (r.offer l).2 ++ ((r.offer l).1.offer m).2) := by
  induction l generalizing r with
  | nil => rfl
  | cons a l ih => obtain ⟨x, i⟩ := a; simp only [List.cons_append, offer, ih]

theorem offer_num (r : Reservoir T) (l : List (T × Nat)) : (r.offer l).1.num = r.num ∧ (r.offer l).1.cnt = r.cnt + l.length := by
  induction l generalizing r with
  | nil => exact ⟨rfl, rfl⟩
  | cons a l ih =>
    obtain ⟨x, i⟩ := a
    have h := sampling_num r x i
    have := ih (r.sampling x i).1
    simp only [offer, List.length_cons]
    rw [this.1, this.2, h.1, h.2]; omega

/-- What is kept is a positional choice: sampling `f x` gives `f` of what sampling `x` gives. -/
theorem offer_map {U : Type} (f : T → U) (r : Reservoir T) (l : List (T × Nat)) :
    (⟨r.samples.map f, r.cnt, r.num⟩ : Reservoir U).offer (l.map fun p => (f p.1, p.2)) =
      (⟨(r.offer l).1.samples.map f, (r.offer l).1.cnt, (r.offer l).1.num⟩, (r.offer l).2) := by
  induction l generalizing r with
  | nil => rfl
  | cons a l ih =>
    obtain ⟨x, i⟩ := a
    simp only [List.map_cons, offer]
    have e : (⟨r.samples.map f, r.cnt, r.num⟩ : Reservoir U).sampling (f x) i =
        (⟨(r.sampling x i).1.samples.map f, (r.sampling x i).1.cnt, (r.sampling x i).1.num⟩, (r.sampling x i).2) := by
      unfold sampling
      simp only
      split
      · simp
      · split
        · simp [List.map_set]
        · rfl
    rw [e, ih]

/-- Lengths while sampling. -/
structure Ok (r : Reservoir T) : Prop where
  len : r.samples.length = min r.num r.cnt

theorem Ok.sampling {r : Reservoir T} (h : r.Ok) (x : T) (i : Nat) : (r.sampling x i).1.Ok := by
  have := h.len
  unfold Reservoir.sampling
  split
  · constructor; simp; omega
  · split
    · constructor; simp; omega
    · constructor; simp; omega

theorem Ok.offer {r : Reservoir T} (h : r.Ok) (l : List (T × Nat)) : (r.offer l).1.Ok := by
  induction l generalizing r with
  | nil => exact h
  | cons a l ih => exact ih (h.sampling a.1 a.2)

theorem Ok.new (k : Nat) : (Reservoir.new k : Reservoir T).Ok := ⟨by simp [Reservoir.new]⟩

theorem mem_set_of {l : List T} {i : Nat} {x y : T} (h : y ∈ l.set i x) : y ∈ l ∨ y = x := List.mem_or_eq_of_mem_set h

theorem offer_mem (r : Reservoir T) (l : List (T × Nat)) (y : T) (h : y ∈ (r.offer l).1.samples) :
    y ∈ r.samples ∨ y ∈ l.map (·.1) := by
  induction l generalizing r with
  | nil => exact .inl h
  | cons a l ih =>
    obtain ⟨x, i⟩ := a
    rcases ih _ h with h1 | h1
    · unfold Reservoir.sampling at h1
      split at h1
      · simp at h1
        rcases h1 with h1 | rfl
        · exact .inl h1
        · right; simp
      · split at h1
        · rcases mem_set_of h1 with h2 | rfl
          · exact .inl h2
          · right; simp
        · exact .inl h1
    · right; simp; right; simpa using h1

end Reservoir

/-- C28: after any offers with any draws the sample has min(k, number of offers) elements, all of them
offered; nothing else is kept and a `false` result means the sample did not change. -/
theorem C28_sample {T : Type} (k : Nat) (l : List (T × Nat)) :
    (((Reservoir.new k).offer l).1.samples.length = min k l.length) ∧
    (∀ y ∈ ((Reservoir.new k).offer l).1.samples, y ∈ l.map (·.1)) ∧
    (l.length ≤ k → ((Reservoir.new k).offer l).1.samples = l.map (·.1)) ∧
    (∀ x i, (((Reservoir.new k).offer l).1.sampling x i).2 = false →
      (((Reservoir.new k).offer l).1.sampling x i).1.samples = ((Reservoir.new k).offer l).1.samples) ∧
    (∀ x i, (((Reservoir.new k).offer l).1.sampling x i).2 = true → x ∈ (((Reservoir.new k).offer l).1.sampling x i).1.samples) := by
  have hl : (((Reservoir.new k : Reservoir T).offer l).1.samples.length = min k l.length) := by
    have := ((Reservoir.Ok.new k).offer l).len
    rw [this, (Reservoir.offer_num _ l).1, (Reservoir.offer_num _ l).2]
    simp [Reservoir.new]
  refine ⟨hl, ?_, ?_, ?_, ?_⟩
  · intro y hy
    rcases Reservoir.offer_mem _ l y hy with h | h
    · simp [Reservoir.new] at h
    · exact h
  · have aux : ∀ (l : List (T × Nat)) (r : Reservoir T), r.cnt + l.length ≤ r.num →
        (r.offer l).1.samples = r.samples ++ l.map (·.1) := by
      intro l
      induction l with
      | nil => intro r _; simp [Reservoir.offer]
      | cons a l ih =>
        intro r hr
        obtain ⟨x, i⟩ := a
        simp only [List.length_cons] at hr
        have h1 : r.cnt < r.num := by omega
        simp only [Reservoir.offer]
        rw [ih]
        · unfold Reservoir.sampling; rw [if_pos h1]; simp
        · have := Reservoir.sampling_num r x i; omega
    intro h
    have := aux l (Reservoir.new k) (by simpa [Reservoir.new] using h)
    simpa [Reservoir.new] using this
  · intro x i h
    unfold Reservoir.sampling at h ⊢
    split at h
    · cases h
    · rename_i h1
      split at h
      · cases h
      · rename_i h2; rw [if_neg h1, if_neg h2]
  · intro x i h
    have hn := Reservoir.offer_num (Reservoir.new k : Reservoir T) l
    unfold Reservoir.sampling at h ⊢
    split at h
    · rename_i h1; rw [if_pos h1]; simp
    · rename_i h1
      split at h
      · rename_i h2
        rw [if_neg h1, if_pos h2]
        apply List.mem_set
        rw [hl]
        rw [hn.1] at h2 h1; rw [hn.2] at h1
        simp only [Reservoir.new] at h1 h2
        omega
      · cases h

/-! ## The chance of being kept -/

theorem allDraws_len {k : Nat} : ∀ {n : Nat} {ds : List Nat}, ds ∈ allDraws k n → ds.length = n
  | 0, ds, h => by simp [allDraws] at h; subst h; rfl
  | n + 1, ds, h => by
    unfold allDraws at h
    split at h
    · simp at h; obtain ⟨a, ha, rfl⟩ := h; simp [allDraws_len ha]
    · simp at h; obtain ⟨a, ha, i, _, rfl⟩ := h; simp [allDraws_len ha]

/-- The enumeration is right: it contains exactly the possible draws… -/
theorem C28_draws_complete (k n : Nat) (ds : List Nat) : ds ∈ allDraws k n ↔ ds.length = n ∧ DrawsFor k ds := by
  induction n generalizing ds with
  | zero =>
    simp only [allDraws, List.mem_singleton]
    constructor
    · rintro rfl; exact ⟨rfl, fun i h => absurd h (by simp)⟩
    · rintro ⟨h, _⟩; exact List.length_eq_zero_iff.1 h
  | succ n ih =>
    have key : ∀ (as : List Nat) (x : Nat), as.length = n → (DrawsFor k (as ++ [x]) ↔ DrawsFor k as ∧ if n < k then x = 0 else x < n) := by
      intro as x hl
      subst hl
      constructor
      · intro h
        constructor
        · intro i hi
          have := h i (by simp; omega)
          rwa [List.getElem_append_left hi] at this
        · have := h as.length (by simp)
          simpa using this
      · rintro ⟨h1, h2⟩ i hi
        by_cases hlt : i < as.length
        · rw [List.getElem_append_left hlt]; exact h1 i hlt
        · simp at hi
          have e : i = as.length := by omega
          subst e
          simpa using h2
    unfold allDraws
    rcases List.eq_nil_or_concat ds with rfl | ⟨as, x, rfl⟩
    · split <;> simp
    · rw [List.concat_eq_append]
      split
      · rename_i hnk
        simp only [List.mem_map]
        constructor
        · rintro ⟨a, ha, e⟩
          obtain ⟨rfl, e2⟩ := List.append_inj' e rfl
          simp at e2; subst e2
          have := (ih a).1 ha
          refine ⟨by simp [this.1], (key a 0 this.1).2 ⟨this.2, by rw [if_pos hnk]⟩⟩
        · rintro ⟨h1, h2⟩
          simp at h1
          have := (key as x h1).1 h2
          rw [if_pos hnk] at this
          exact ⟨as, (ih as).2 ⟨h1, this.1⟩, by rw [this.2]⟩
      · rename_i hnk
        simp only [List.mem_flatMap, List.mem_map, List.mem_range]
        constructor
        · rintro ⟨a, ha, i, hi, e⟩
          obtain ⟨rfl, e2⟩ := List.append_inj' e rfl
          simp at e2; subst e2
          have := (ih a).1 ha
          refine ⟨by simp [this.1], (key a i this.1).2 ⟨this.2, by rw [if_neg hnk]; exact hi⟩⟩
        · rintro ⟨h1, h2⟩
          simp at h1
          have := (key as x h1).1 h2
          rw [if_neg hnk] at this
          exact ⟨as, (ih as).2 ⟨h1, this.1⟩, x, this.2, rfl⟩

theorem nodup_flatMap_append {l : List (List Nat)} (hl : l.Nodup) (n : Nat) :
    (l.flatMap fun ds => (List.range n).map fun i => ds ++ [i]).Nodup := by
  induction l with
  | nil => simp
  | cons a l ih =>
    rw [List.nodup_cons] at hl
    rw [List.flatMap_cons, List.nodup_append]
    refine ⟨?_, ih hl.2, ?_⟩
    · refine List.Pairwise.map _ ?_ (List.nodup_range (n := n))
      intro i j hij e
      have := List.append_cancel_left e
      simp at this; exact hij this
    · intro x hx y hy e
      subst e
      simp only [List.mem_map, List.mem_flatMap] at hx hy
      obtain ⟨i, _, rfl⟩ := hx
      obtain ⟨b, hb, j, _, e⟩ := hy
      have := (List.append_inj' e rfl).1
      subst this
      exact hl.1 hb

/-- …each once. -/
theorem C28_draws_nodup (k n : Nat) : (allDraws k n).Nodup := by
  induction n with
  | zero => simp [allDraws]
  | succ n ih =>
    unfold allDraws
    split
    · refine List.Pairwise.map _ ?_ ih
      intro a b hab e
      exact hab (List.append_cancel_right e)
    · exact nodup_flatMap_append ih n

theorem zip_range_snoc (ds : List Nat) (x : Nat) :
    (List.range (ds ++ [x]).length).zip (ds ++ [x]) = (List.range ds.length).zip ds ++ [(ds.length, x)] := by
  rw [List.length_append, List.length_singleton, List.range_succ]
  rw [List.zip_append (by simp)]
  rfl

theorem sampleOf_snoc (k : Nat) (ds : List Nat) (x : Nat) : sampleOf k (ds ++ [x]) =
    if ds.length < k then sampleOf k ds ++ [ds.length]
    else if x < k then (sampleOf k ds).set x ds.length else sampleOf k ds := by
  unfold sampleOf
  rw [zip_range_snoc, Reservoir.offer_append]
  have h := Reservoir.offer_num (Reservoir.new k : Reservoir Nat) ((List.range ds.length).zip ds)
  have hl : ((List.range ds.length).zip ds).length = ds.length := by simp
  rw [hl] at h
  simp only [Reservoir.offer, Reservoir.sampling]
  rw [h.1, h.2]
  simp only [Reservoir.new, Nat.zero_add]
  split
  · rfl
  · split <;> rfl

theorem sampleOf_length (k : Nat) (ds : List Nat) : (sampleOf k ds).length = min k ds.length := by
  have := (C28_sample k ((List.range ds.length).zip ds)).1
  simpa [sampleOf] using this

theorem sampleOf_lt (k : Nat) (ds : List Nat) : ∀ i ∈ sampleOf k ds, i < ds.length := by
  intro i hi
  have := (C28_sample k ((List.range ds.length).zip ds)).2.1 i hi
  simp at this
  obtain ⟨a, ha⟩ := this
  have := List.of_mem_zip ha
  simpa using this.1

theorem nodup_set {l : List Nat} (h : l.Nodup) (i x : Nat) (hx : x ∉ l) : (l.set i x).Nodup := by
  induction l generalizing i with
  | nil => simp
  | cons a l ih =>
    rw [List.nodup_cons] at h
    simp at hx
    cases i with
    | zero => simp only [List.set_cons_zero, List.nodup_cons]; exact ⟨hx.2, h.2⟩
    | succ i =>
      simp only [List.set_cons_succ, List.nodup_cons]
      refine ⟨?_, ih h.2 i hx.2⟩
      intro hm
      rcases List.mem_or_eq_of_mem_set hm with h1 | h1
      · exact h.1 h1
      · exact hx.1 h1.symm

/-- The sample has no element twice. -/
theorem sampleOf_nodup (k : Nat) {n : Nat} : ∀ {ds : List Nat}, ds.length = n → (sampleOf k ds).Nodup := by
  induction n with
  | zero => intro ds h; rw [List.length_eq_zero_iff.1 h]; simp [sampleOf, Reservoir.offer, Reservoir.new]
  | succ n ih =>
    intro ds h
    rcases List.eq_nil_or_concat ds with rfl | ⟨as, x, rfl⟩
    · simp at h
    · rw [List.concat_eq_append] at h ⊢
      have hl : as.length = n := by simpa using h
      have hn := ih hl
      have hx : as.length ∉ sampleOf k as := fun hm => Nat.lt_irrefl _ (sampleOf_lt k as _ hm)
      rw [sampleOf_snoc]
      split
      · rw [List.nodup_append]
        refine ⟨hn, by simp, ?_⟩
        intro a ha b hb e
        simp at hb; subst hb; subst e
        exact hx ha
      · split
        · exact nodup_set hn _ _ hx
        · exact hn

/-- Of the values `x` below `n`, all but one leave a given member of a duplicate-free list in place. -/
theorem count_keep {l : List Nat} (hnd : l.Nodup) {i y n : Nat} (hi : i ∈ l) (hne : i ≠ y) (hln : l.length ≤ n) :
    (List.range n).countP (fun x => i ∈ (if x < l.length then l.set x y else l)) = n - 1 := by
  obtain ⟨j, hj, rfl⟩ := List.mem_iff_getElem.1 hi
  have e : (fun x => decide (l[j] ∈ (if x < l.length then l.set x y else l))) = fun x => decide (x ≠ j) := by
    funext x
    apply decide_eq_decide.2
    constructor
    · rintro h rfl
      rw [if_pos hj] at h
      obtain ⟨m, hm, e⟩ := List.mem_iff_getElem.1 h
      rw [List.getElem_set] at e
      split at e
      · exact hne e.symm
      · rename_i hxm
        simp at hm
        exact hxm ((List.getElem_inj hnd).1 e).symm
    · intro hx
      split
      · rw [List.mem_iff_getElem]
        refine ⟨j, by simpa using hj, ?_⟩
        rw [List.getElem_set_ne hx]
      · exact List.getElem_mem hj
  rw [e]
  have hjn : j < n := by omega
  clear e hnd hne hi hln
  have : ∀ n, (List.range n).countP (fun x => decide (x ≠ j)) = if j < n then n - 1 else n := by
    intro n
    induction n with
    | zero => simp
    | succ n ih =>
      rw [List.range_succ, List.countP_append, ih]
      simp only [List.countP_cons, List.countP_nil]
      have hc : (if decide (n ≠ j) = true then 1 else 0) = if n = j then 0 else 1 := by
        by_cases h2 : n = j <;> simp [h2]
      rw [hc]
      split <;> split <;> split <;> omega
  rw [this, if_pos hjn]

theorem countP_flatMap_const {l : List (List Nat)} {f : List Nat → List (List Nat)} {p q : List Nat → Bool} {m : Nat}
    (h1 : ∀ a ∈ l, p a = true → (f a).countP q = m) (h2 : ∀ a ∈ l, p a = false → (f a).countP q = 0) :
    (l.flatMap f).countP q = l.countP p * m := by
  induction l with
  | nil => simp
  | cons a l ih =>
    rw [List.flatMap_cons, List.countP_append, ih (fun b hb => h1 b (List.mem_cons_of_mem _ hb)) (fun b hb => h2 b (List.mem_cons_of_mem _ hb)),
      List.countP_cons]
    cases hp : p a with
    | true => rw [h1 a List.mem_cons_self hp]; simp [Nat.add_mul]; omega
    | false => rw [h2 a List.mem_cons_self hp]; simp

theorem length_flatMap_const {l : List (List Nat)} {f : List Nat → List (List Nat)} {m : Nat} (h : ∀ a ∈ l, (f a).length = m) :
    (l.flatMap f).length = l.length * m := by
  induction l with
  | nil => simp
  | cons a l ih =>
    rw [List.flatMap_cons, List.length_append, ih (fun b hb => h b (List.mem_cons_of_mem _ hb)), h a List.mem_cons_self,
      List.length_cons, Nat.add_mul]; omega

theorem allDraws_length_succ {k n : Nat} (h : k ≤ n) : (allDraws k (n + 1)).length = (allDraws k n).length * n := by
  rw [allDraws, if_neg (by omega)]
  exact length_flatMap_const fun a _ => by simp

theorem allDraws_pos {k : Nat} (hk : 0 < k) : ∀ n, 0 < (allDraws k n).length
  | 0 => by simp [allDraws]
  | n + 1 => by
    have := allDraws_pos hk n
    by_cases h : n < k
    · rw [allDraws, if_pos h]; simpa using this
    · rw [allDraws_length_succ (by omega)]
      exact Nat.mul_pos this (by omega)

/-- One more offer keeps an old element in all but one of `n` cases. -/
theorem keptCount_old {k n i : Nat} (h : k ≤ n) (hi : i < n) : keptCount k (n + 1) i = keptCount k n i * (n - 1) := by
  unfold keptCount
  rw [allDraws, if_neg (by omega)]
  apply countP_flatMap_const
  · intro ds hds hp
    have hl := allDraws_len hds
    have hs : (sampleOf k ds).length = k := by rw [sampleOf_length, hl]; omega
    rw [List.countP_map]
    have := count_keep (sampleOf_nodup k hl) (i := i) (y := n) (n := n) (of_decide_eq_true hp) (by omega) (by omega)
    rw [← this]
    congr 1
    funext x
    simp only [Function.comp]
    rw [sampleOf_snoc, if_neg (by omega), hs, hl]
  · intro ds hds hp
    have hl := allDraws_len hds
    rw [List.countP_map, List.countP_eq_zero]
    intro x _
    simp only [Function.comp]
    rw [sampleOf_snoc, if_neg (by omega)]
    have hni : i ∉ sampleOf k ds := of_decide_eq_false hp
    have : i ∉ (if x < k then (sampleOf k ds).set x ds.length else sampleOf k ds) := by
      split
      · intro hm
        rcases List.mem_or_eq_of_mem_set hm with h1 | h1
        · exact hni h1
        · omega
      · exact hni
    simpa using this

/-- The new element is taken in `k` of `n` cases. -/
theorem keptCount_new {k n : Nat} (h : k ≤ n) : keptCount k (n + 1) n = (allDraws k n).length * k := by
  unfold keptCount
  rw [allDraws, if_neg (by omega)]
  rw [show (allDraws k n).length = (allDraws k n).countP (fun _ => true) from by simp]
  apply countP_flatMap_const
  · intro ds hds _
    have hl := allDraws_len hds
    have hs : (sampleOf k ds).length = k := by rw [sampleOf_length, hl]; omega
    rw [List.countP_map]
    have e : ((fun ds => decide (n ∈ sampleOf k ds)) ∘ fun i => ds ++ [i]) = fun x => decide (x < k) := by
      funext x
      simp only [Function.comp]
      apply decide_eq_decide.2
      rw [sampleOf_snoc, if_neg (by omega), hl]
      constructor
      · intro hm
        split at hm
        · assumption
        · exact absurd (sampleOf_lt k ds _ hm) (by omega)
      · intro hx
        rw [if_pos hx]
        exact List.mem_set (by rw [hs]; exact hx) _
    rw [e]
    have : ∀ n, (List.range n).countP (fun x => decide (x < k)) = min n k := by
      intro n
      induction n with
      | zero => simp
      | succ n ih =>
        rw [List.range_succ, List.countP_append, ih]
        simp only [List.countP_cons, List.countP_nil]
        by_cases h1 : n < k
        · simp [h1]; omega
        · simp [h1]; omega
    rw [this]; omega
  · intro _ _ hp; cases hp

theorem keptCount_first {k i : Nat} (hi : i < k) : keptCount k k i = (allDraws k k).length := by
  unfold keptCount
  rw [List.countP_eq_length]
  intro ds hds
  have hl := allDraws_len hds
  have h3 := (C28_sample k ((List.range ds.length).zip ds)).2.2.1 (by simp [hl])
  have : sampleOf k ds = List.range ds.length := by
    unfold sampleOf
    rw [h3]
    exact List.map_fst_zip (by simp)
  rw [this]
  simp [hl, hi]

/-- C28: the exact chance, with uniform draws, that an element is in the sample after `n` offers to a
reservoir of size `k` (n ≥ k, n ≥ 2): `(k-1)/(n-1)` for each of the first `k` elements and `k/(n-1)` for each
later one. -/
theorem C28_chance {k n i : Nat} (hk : 0 < k) (hn : k ≤ n) (hn2 : 2 ≤ n) (hi : i < n) :
    ChanceIs k n i (if i < k then k - 1 else k) (n - 1) := by
  refine ⟨?_, allDraws_pos hk n, by omega⟩
  induction n with
  | zero => omega
  | succ n ih =>
    have hm := Nat.mul_comm
    by_cases hkn : k = n + 1
    · subst hkn
      rw [if_pos hi, keptCount_first hi]; exact Nat.mul_comm _ _
    · have hkn : k ≤ n := by omega
      rw [allDraws_length_succ hkn]
      by_cases hin : i = n
      · subst hin
        rw [if_neg (by omega), keptCount_new hkn]
        simp only [Nat.add_sub_cancel]
        rw [Nat.mul_comm _ k, Nat.mul_assoc]
      · rw [keptCount_old hkn (by omega)]
        simp only [Nat.add_sub_cancel]
        by_cases hn2' : 2 ≤ n
        · have := ih hkn hn2' (by omega)
          rw [this, Nat.mul_assoc]
        · -- n = 1, k = 1, i = 0
          have hn1 : n = 1 := by omega
          subst hn1
          have hk1 : k = 1 := by omega
          subst hk1
          rw [if_pos (by omega)]
          simp

/-- C28 violated: the chances are not the same for all elements: the first `k` are kept with a smaller
chance than all later ones, for every size and every number of offers larger than that. -/
theorem C28_uniform_violated {k n i j : Nat} (hk : 0 < k) (hn : k < n) (hi : i < k) (hj : k ≤ j) (hjn : j < n) :
    keptCount k n i < keptCount k n j ∧ ¬ ChanceIs k n i k n := by
  have h1 := C28_chance hk (Nat.le_of_lt hn) (by omega) (show i < n by omega)
  have h2 := C28_chance hk (Nat.le_of_lt hn) (by omega) hjn
  rw [if_pos hi] at h1
  rw [if_neg (by omega)] at h2
  obtain ⟨e1, hp, hq⟩ := h1
  have hlt : keptCount k n i < keptCount k n j := by
    have : keptCount k n i * (n - 1) < keptCount k n j * (n - 1) := by
      rw [e1, h2.1]; exact Nat.mul_lt_mul_of_pos_right (by omega) hp
    exact Nat.lt_of_mul_lt_mul_right this
  refine ⟨hlt, ?_⟩
  rintro ⟨e, _, _⟩
  -- kept * n = k * N and kept * (n-1) = (k-1) * N give kept = N, hence n = k
  obtain ⟨m, rfl⟩ : ∃ m, n = m + 1 := ⟨n - 1, by omega⟩
  obtain ⟨c, rfl⟩ : ∃ c, k = c + 1 := ⟨k - 1, by omega⟩
  simp only [Nat.add_sub_cancel] at e1 e
  rw [Nat.mul_add, Nat.add_mul, e1] at e
  have e3 : keptCount (c + 1) (m + 1) i = (allDraws (c + 1) (m + 1)).length := by omega
  rw [e3, Nat.mul_comm] at e1
  have := Nat.eq_of_mul_eq_mul_right hp e1
  omega

/-- C28 violated at its sharpest: the first element after the reservoir is full is taken with certainty,
and with `k = 1` the very first element is never kept. -/
theorem C28_certain_violated {k : Nat} (_ : 0 < k) : keptCount k (k + 1) k = (allDraws k (k + 1)).length ∧
    ∀ n, 2 ≤ n → keptCount 1 n 0 = 0 := by
  constructor
  · rw [keptCount_new (Nat.le_refl _), allDraws_length_succ (Nat.le_refl _)]
  · intro n hn
    have := (C28_chance (k := 1) (n := n) (i := 0) (by omega) (by omega) hn (by omega)).1
    rw [if_pos (by omega)] at this
    simp only [Nat.sub_self, Nat.zero_mul] at this
    rcases Nat.mul_eq_zero.1 this with h | h
    · exact h
    · omega

/-- What is kept depends on the positions only, so the chances above are those of any offered elements. -/
theorem C28_positions {T : Type} (k : Nat) (xs : List T) (ds : List Nat) (hl : xs.length = ds.length) (d : T) :
    ((Reservoir.new k).offer (xs.zip ds)).1.samples = (sampleOf k ds).map fun i => xs.getD i d := by
  have h := Reservoir.offer_map (fun i => xs.getD i d) (Reservoir.new k : Reservoir Nat) ((List.range ds.length).zip ds)
  have e : ((List.range ds.length).zip ds).map (fun p => (xs.getD p.1 d, p.2)) = xs.zip ds := by
    rw [← hl]
    apply List.ext_getElem
    · simp [hl]
    · intro n h1 h2
      simp at h1 h2
      have h3 : n < xs.length := by omega
      simp [List.getD_eq_getElem?_getD, h3]
  rw [e] at h
  have h' := congrArg (fun q => q.1.samples) h
  simpa [Reservoir.new, sampleOf] using h'

example : keptCount 2 4 0 = 2 ∧ keptCount 2 4 3 = 4 ∧ (allDraws 2 4).length = 6 := by decide +kernel
example : ((Reservoir.new 2).offer [("a", 0), ("b", 0), ("c", 1), ("d", 2)]).1.samples = ["a", "c"] := by decide +kernel

end Nebula
