import Verif.Func.Props
/-!
# Properties of the built-in functions: purity (C84) and definedness (C85)
-/
namespace Nebula
namespace Func

/-- C84 (a function reported pure gives the same result whenever it is called with the same arguments):
whatever the clock and the random source say.  `rand` is excluded, see `C84_rand_violated`. -/
theorem C84_pure_partial (L : FLib) (n : Bytes) (args : List Value)
    (hp : getIsPure n args.length = some true) (hr : ¬ SameName n (ascii "rand")) (w w' : World) :
    call L w n args = call L w' n args := by
  unfold getIsPure at hp
  unfold call
  cases hg : getInternal n args.length with
  | none => rfl
  | some f =>
    rw [hg] at hp
    have hp : f.isPure = true := by simpa using hp
    have hf := (C82_lookup n args.length f).1 hg
    have hne : f ≠ .rand := by rintro rfl; exact hr hf.1
    simp only [Option.map_some, Option.some.injEq]
    cases f <;> first
      | exact absurd rfl hne
      | (simp [Fn.isPure] at hp; done)
      | rfl

example : getIsPure (ascii "cos_Similarity") 4 = some true := by decide +kernel

/-- Two moments at which the random source gives different numbers. -/
def worldA : World := ⟨.fin 0, 0, 0, fun _ => 0, 0, none, Time.default, DateTime.default⟩
def worldB : World := { worldA with double01 := .fin (1/2), below := fun _ => 3000000000 }

/-- C84: `rand()` is reported pure. -/
theorem C84_rand_violated (L : FLib) :
    getIsPure (ascii "rand") 0 = some true ∧
    call L worldA (ascii "rand") [] ≠ call L worldB (ascii "rand") [] := by
  have h : getInternal (ascii "rand") 0 = some .rand := by decide +kernel
  refine ⟨by decide +kernel, ?_⟩
  simp only [call, List.length_nil, h, Option.map_some, body, worldA, worldB]
  intro h
  injection h with h; injection h with h; injection h with h; injection h with h
  exact absurd h (by decide +kernel)

/-- C84 (ranges of the random functions, with two bounds): for a random source that gives numbers
below its bound. -/
theorem C84_rand_range (L : FLib) (w : World) (hb : ∀ m, 0 < m → w.below m < m) (lo hi : Int)
    (h0 : 0 ≤ lo) (h1 : lo < hi) :
    (hi ≤ 4294967295 → ∃ i, body L w .rand32 [.int lo, .int hi] = .val (.int i) ∧ lo ≤ i ∧ i < hi) ∧
    (∃ i, body L w .rand64 [.int lo, .int hi] = .val (.int i) ∧ lo ≤ i ∧ i < hi) := by
  have := hb (hi - lo).toNat (by omega)
  constructor
  · intro h2
    refine ⟨lo + w.below (hi - lo).toNat, ?_, by omega, by omega⟩
    simp only [body, arg, List.length_cons, List.length_nil, List.getElem?_cons_zero, List.getElem?_cons_succ]
    rw [if_neg (by omega), if_neg (by omega), if_neg (by omega), if_neg (by omega)]
  · refine ⟨lo + w.below (hi - lo).toNat, ?_, by omega, by omega⟩
    simp only [body, arg, List.length_cons, List.length_nil, List.getElem?_cons_zero, List.getElem?_cons_succ]
    rw [if_neg (by omega), if_neg (by omega), if_neg (by omega)]

/-- C84: `rand32(max)` with a bound above 2^31 can give a negative number. -/
theorem C84_rand32_violated (L : FLib) :
    worldB.below 4000000000 < 4000000000 ∧
    body L worldB .rand32 [.int 4000000000] = .val (.int (-1294967296)) := by
  refine ⟨by decide, ?_⟩
  simp [body, arg, worldB, wrapI32]

/-- C84: with one bound up to 2^31, `rand32` is in range. -/
theorem C84_rand32_max_partial (L : FLib) (w : World) (hb : ∀ m, 0 < m → w.below m < m) (m : Int)
    (h0 : 0 < m) (h1 : m ≤ 2147483648) :
    ∃ i, body L w .rand32 [.int m] = .val (.int i) ∧ 0 ≤ i ∧ i < m := by
  have := hb m.toNat (by omega)
  refine ⟨w.below m.toNat, ?_, by omega, by omega⟩
  simp only [body, arg, List.length_cons, List.length_nil, List.getElem?_cons_zero]
  have hc : ¬ (m < 0 ∨ m > 4294967295) := by omega
  have hw : wrapI32 (w.below m.toNat) = w.below m.toNat := by unfold wrapI32; omega
  rw [if_neg (by decide), if_pos trivial, if_neg hc, hw]

/-- C84: with one bound `rand64` is in range, and for every bound that is not negative it gives an integer; without bounds
both give an integer of their width. -/
theorem C84_rand64_max (L : FLib) (w : World) (hb : ∀ m, 0 < m → w.below m < m) (m : Int) (h0 : 0 < m) :
    (∃ i, body L w .rand64 [.int m] = .val (.int i) ∧ 0 ≤ i ∧ i < m) ∧
    (∃ i, body L w .rand64 [] = .val (.int i) ∧ -2 ^ 63 ≤ i ∧ i < 2 ^ 63) ∧
    (∃ i, body L w .rand32 [] = .val (.int i) ∧ -2 ^ 31 ≤ i ∧ i < 2 ^ 31) := by
  refine ⟨⟨w.below m.toNat, ?_, by omega, ?_⟩, ⟨wrapI64 w.u64, rfl, ?_⟩, ⟨wrapI32 w.u32, rfl, ?_⟩⟩
  · simp only [body, arg, List.length_cons, List.length_nil, List.getElem?_cons_zero]
    rw [if_neg (by decide), if_pos trivial, if_neg (by omega)]
  · have := hb m.toNat (by omega)
    omega
  · unfold wrapI64; omega
  · unfold wrapI32; omega

/-- C84 (bounds that are refused): a bound that is negative, or too large for 32 bits, and bounds with nothing between them give the bad data NULL. -/
theorem C84_rand_refused (L : FLib) (w : World) (lo hi : Int) :
    (lo < 0 ∨ 2 ^ 32 ≤ lo ↔ body L w .rand32 [.int lo] = .val (.null .badData)) ∧
    (lo < 0 ∨ hi ≤ lo ∨ 2 ^ 32 ≤ hi ↔ body L w .rand32 [.int lo, .int hi] = .val (.null .badData)) ∧
    (lo < 0 ↔ body L w .rand64 [.int lo] = .val (.null .badData)) ∧
    (lo < 0 ∨ hi ≤ lo ↔ body L w .rand64 [.int lo, .int hi] = .val (.null .badData)) := by
  simp only [body, arg, List.length_cons, List.length_nil, List.getElem?_cons_zero, List.getElem?_cons_succ, badData, kNullBadData]
  refine ⟨?_, ?_, ?_, ?_⟩
  · rw [if_neg (by decide), if_pos trivial]; split <;> simp <;> omega
  · rw [if_neg (by decide), if_neg (by decide)]
    split
    · simp; omega
    · split <;> simp <;> omega
  · rw [if_neg (by decide), if_pos trivial]; split <;> simp <;> omega
  · rw [if_neg (by decide), if_neg (by decide)]; split <;> simp <;> omega

example : ∀ m, 0 < m → worldA.below m < m := fun _ h => h

/-! ## Definedness -/

/-- The functions with undefined or endless calls, or whose definedness is that of the conversions of
dates and times (C04-C06). -/
def risky : List Fn := [.abs, .pow, .tointeger, .lpad, .rpad, .hash, .date, .time, .datetime, .timestamp,
  .range, .head, .last, .datasetrowcol]

/-- C85 (a call returns): every accepted call of the other functions returns a value, whatever the
arguments are. -/
theorem C85_returns_partial (L : FLib) (w : World) (n : Bytes) (args : List Value) (f : Fn)
    (hg : getInternal n args.length = some f) (hr : f ∉ risky) :
    ∃ v, call L w n args = some (.val v) := by
  obtain ⟨-, h1, h2⟩ := (C82_lookup n args.length f).1 hg
  suffices h : ∃ v, body L w f args = .val v by
    obtain ⟨v, hv⟩ := h
    exact ⟨v, by unfold call; rw [hg]; simp [hv]⟩
  clear hg
  rcases args with _ | ⟨a, _ | ⟨b, _ | ⟨c, _ | ⟨d, args⟩⟩⟩⟩ <;>
    simp only [List.length_nil, List.length_cons] at h1 h2 <;>
    cases f <;> simp only [Fn.minArity, Fn.maxArity] at h1 h2 <;> first
      | omega
      | exact absurd (by decide) hr
      | exact ⟨_, rfl⟩
      | (cases a <;> exact ⟨_, rfl⟩)
      | (cases a <;> cases b <;> exact ⟨_, rfl⟩)
      | (simp only [body, arg, mathLog, substrFn, List.getElem?_cons_zero,
          List.getElem?_cons_succ, List.length_nil, List.length_cons]
         repeat' split
         all_goals first
           | exact ⟨_, rfl⟩
           | contradiction
           | omega
           | (simp [badType, badData, nullRes] at *; done))

example : getInternal (ascii "split") 2 = some .split ∧ .split ∉ risky := by decide +kernel

/-- C85: the absolute value is defined except for the smallest integer. -/
theorem C85_abs_violated (L : FLib) (w : World) (v : Value) :
    body L w .abs [v] = .undef ↔ v = .int (-9223372036854775808) := by
  constructor
  · intro h
    cases v <;> simp [body, arg, nullRes, badType] at h
    simpa using h
  · rintro rfl; rfl

/-- C85: `head` and `last` are defined except on the empty list. -/
theorem C85_head_last_violated (L : FLib) (w : World) (v : Value) :
    (body L w .head [v] = .undef ↔ v = .list []) ∧ (body L w .last [v] = .undef ↔ v = .list []) := by
  have ho : ∀ o, ofOpt o = .undef ↔ o = none := by intro o; cases o <;> simp [ofOpt]
  constructor <;> cases v <;> simp [body, arg, nullRes, badType, ho]

theorem padGo_none (x : Bytes) (n : Nat) : padGo x n = none ↔ x = [] ∧ 0 < n := by
  induction n using Nat.strongRecOn with
  | _ n ih =>
    rw [padGo]
    split
    · rename_i h
      split
      · rename_i h2; subst h2; simp at h; simp [h]
      · rename_i h2
        have : 0 < x.length := List.length_pos_iff.2 h2
        rw [Option.map_eq_none_iff, ih _ (by omega)]
        simp [h2]
    · rename_i h
      simp only [reduceCtorEq, false_iff]
      rintro ⟨rfl, h2⟩; simp at h; omega

/-- C85: padding with the empty text to a greater length never ends; every other padding returns. -/
theorem C85_pad_violated (L : FLib) (w : World) (v x : Bytes) (n : Int) :
    (body L w .lpad [.str v, .int n, .str x] = .loops ↔ x = [] ∧ (v.length : Int) < n) ∧
    (body L w .rpad [.str v, .int n, .str x] = .loops ↔ x = [] ∧ (v.length : Int) < n) ∧
    (¬ (x = [] ∧ (v.length : Int) < n) →
      (∃ r, body L w .lpad [.str v, .int n, .str x] = .val (.str r)) ∧
      (∃ r, body L w .rpad [.str v, .int n, .str x] = .val (.str r))) := by
  have key : ∀ j, (pad j v n x = .loops ↔ x = [] ∧ (v.length : Int) < n) ∧
      (¬ (x = [] ∧ (v.length : Int) < n) → ∃ r, pad j v n x = .val (.str r)) := by
    intro j
    unfold pad
    split
    · exact ⟨⟨(fun h => by cases h), (fun h => by omega)⟩, fun _ => ⟨_, rfl⟩⟩
    · split
      · exact ⟨⟨(fun h => by cases h), (fun h => by omega)⟩, fun _ => ⟨_, rfl⟩⟩
      · split
        · rename_i h
          have := (padGo_none _ _).1 h
          refine ⟨⟨fun _ => ⟨this.1, by omega⟩, fun _ => rfl⟩, fun h2 => absurd ⟨this.1, by omega⟩ h2⟩
        · rename_i h
          refine ⟨⟨(fun h => by cases h), fun h2 => ?_⟩, fun _ => ⟨_, rfl⟩⟩
          have := (padGo_none x (n.toNat - v.length)).2 ⟨h2.1, by omega⟩
          rw [this] at h; cases h
  exact ⟨(key _).1, (key (fun p v => v ++ p)).1, fun h => ⟨(key _).2 h, (key (fun p v => v ++ p)).2 h⟩⟩

/-- C85: reading a cell of a data set whose rows are as wide as its list of columns returns the cell,
or the error value outside the table; a shorter row makes it undefined. -/
theorem C85_cell (L : FLib) (w : World) (cols : List Bytes) (rows : List (List Value)) (r c : Int)
    (hw : ∀ row ∈ rows, row.length = cols.length) :
    (∀ row x, 0 ≤ r → rows[r.toNat]? = some row → 0 ≤ c → row[c.toNat]? = some x →
      body L w .datasetrowcol [.dataset cols rows, .int r, .int c] = .val x) ∧
    ((r < 0 ∨ c < 0 ∨ (rows.length : Int) ≤ r ∨ (cols.length : Int) ≤ c) →
      body L w .datasetrowcol [.dataset cols rows, .int r, .int c] = .val (.null .badData)) := by
  have hb : body L w .datasetrowcol [.dataset cols rows, .int r, .int c] = rowCol cols rows r c := rfl
  rw [hb]
  constructor
  · intro row x h0 h1 h2 h3
    have hl := (List.getElem?_eq_some_iff.1 h1).1
    have hl2 := (List.getElem?_eq_some_iff.1 h3).1
    have hrow := hw row (List.mem_of_getElem? h1)
    unfold rowCol
    rw [if_neg (by omega), if_neg (by omega), if_neg (by omega), h1]
    simp only [h3]; rfl
  · intro h
    unfold rowCol
    repeat' split
    all_goals first
      | rfl
      | omega

example : ∀ row ∈ [[Value.int 1, .int 2]], row.length = [ascii "a", ascii "b"].length := by simp

theorem findIndex_at (n : Bytes) : ∀ (cols pre post : List Bytes), cols = pre ++ n :: post → n ∉ pre → findIndex n cols = pre.length
  | _, [], post, rfl, _ => by simp [findIndex]
  | _, p :: pre, post, rfl, h => by
    have hp : ¬ (p == n) = true := by simp; rintro rfl; exact h (List.mem_cons_self ..)
    rw [List.cons_append, findIndex, if_neg hp, findIndex_at n _ pre post rfl (fun hm => h (List.mem_cons_of_mem _ hm))]
    rfl

theorem findIndex_none (n : Bytes) : ∀ (cols : List Bytes), n ∉ cols → findIndex n cols = cols.length
  | [], _ => rfl
  | p :: cols, h => by
    have hp : ¬ (p == n) = true := by simp; rintro rfl; exact h (List.mem_cons_self ..)
    rw [findIndex, if_neg hp, findIndex_none n cols (fun hm => h (List.mem_cons_of_mem _ hm))]
    rfl

/-- C85: with the name of a column, the cell is that of the first column of this name; a name that no
column has gives the error value. -/
theorem C85_cell_named (L : FLib) (w : World) (cols : List Bytes) (rows : List (List Value)) (r : Int) (n : Bytes)
    (hw : ∀ row ∈ rows, row.length = cols.length) :
    (∀ pre post row x, cols = pre ++ n :: post → n ∉ pre → 0 ≤ r → rows[r.toNat]? = some row → row[pre.length]? = some x →
      body L w .datasetrowcol [.dataset cols rows, .int r, .str n] = .val x) ∧
    (n ∉ cols → body L w .datasetrowcol [.dataset cols rows, .int r, .str n] = .val (.null .badData)) := by
  have hb : body L w .datasetrowcol [.dataset cols rows, .int r, .str n] =
      body L w .datasetrowcol [.dataset cols rows, .int r, .int (findIndex n cols)] := rfl
  obtain ⟨h1, h2⟩ := C85_cell L w cols rows r (findIndex n cols) hw
  rw [hb]
  constructor
  · intro pre post row x hc hn h0 hr hx
    refine h1 row x h0 hr (by omega) ?_
    rw [findIndex_at n cols pre post hc hn]
    simpa using hx
  · intro hn
    refine h2 (.inr (.inr (.inr ?_)))
    rw [findIndex_none n cols hn]
    exact Int.le_refl _

example : [ascii "a", ascii "b"] = [ascii "a"] ++ ascii "b" :: [] ∧ ascii "b" ∉ [ascii "a"] := by decide +kernel

theorem C85_short_row_violated (L : FLib) (w : World) :
    body L w .datasetrowcol [.dataset [ascii "a", ascii "b"] [[.int 1]], .int 0, .int 1] = .undef := rfl

/-- The progression `s, s + d, ...` not beyond `e`. -/
def progression (s e d : Int) : List Int :=
  if (0 < d ∧ s ≤ e) ∨ (d < 0 ∧ e ≤ s) then
    (List.range ((e - s).natAbs / d.natAbs + 1)).map fun (k : Nat) => s + (k : Int) * d
  else []

theorem prog_cons (s e d : Int) (h : (0 < d ∧ s ≤ e) ∨ (d < 0 ∧ e ≤ s)) :
    progression s e d = s :: progression (s + d) e d := by
  unfold progression
  rw [if_pos h]
  by_cases h2 : (0 < d ∧ s + d ≤ e) ∨ (d < 0 ∧ e ≤ s + d)
  · rw [if_pos h2]
    have h3 : (e - s).natAbs = (e - (s + d)).natAbs + d.natAbs := by omega
    have h4 : (e - s).natAbs / d.natAbs = (e - (s + d)).natAbs / d.natAbs + 1 := by
      rw [h3, Nat.add_div_right _ (by omega)]
    rw [h4, List.range_succ_eq_map, List.map_cons, List.map_map]
    congr 1
    · simp
    · apply List.map_congr_left
      intro k _
      simp only [Function.comp, Nat.succ_eq_add_one, Int.natCast_add, Int.add_mul]; omega
  · rw [if_neg h2]
    have : (e - s).natAbs / d.natAbs = 0 := Nat.div_eq_of_lt (by omega)
    simp [this]

/-- Whether computing the progression stays within `int64_t`: also the number behind its last element
is computed. -/
def Fits (s e d : Int) : Prop := ∀ x ∈ progression s e d, InI64 (x + d)

instance (s e d : Int) : Decidable (Fits s e d) := by unfold Fits; infer_instance

theorem rangeUp_eq (d : Int) (hd : 0 < d) (e : Int) (i : Int) :
    rangeUp d hd e i = if Fits i e d then some (progression i e d) else none := by
  rw [rangeUp]
  by_cases h : i ≤ e
  · rw [if_pos h]
    have hp := prog_cons i e d (.inl ⟨hd, h⟩)
    by_cases h2 : InI64 (i + d)
    · rw [if_pos h2, rangeUp_eq d hd e (i + d)]
      by_cases h3 : Fits (i + d) e d
      · have : Fits i e d := by
          unfold Fits; rw [hp]
          intro x hx
          rcases List.mem_cons.1 hx with rfl | hx
          · exact h2
          · exact h3 x hx
        rw [if_pos h3, if_pos this, hp]; rfl
      · have : ¬ Fits i e d := by
          intro h4; apply h3; intro x hx
          exact h4 x (by rw [hp]; exact List.mem_cons_of_mem _ hx)
        rw [if_neg h3, if_neg this]; rfl
    · have : ¬ Fits i e d := by
        intro h4; exact h2 (h4 i (by rw [hp]; exact List.mem_cons_self))
      rw [if_neg h2, if_neg this]
  · have : progression i e d = [] := by unfold progression; rw [if_neg (by omega)]
    have hf : Fits i e d := by unfold Fits; rw [this]; intro x hx; cases hx
    rw [if_neg h, if_pos hf, this]
termination_by (e + 1 - i).toNat

theorem rangeDown_eq (d : Int) (hd : d < 0) (e : Int) (i : Int) :
    rangeDown d hd e i = if Fits i e d then some (progression i e d) else none := by
  rw [rangeDown]
  by_cases h : i ≥ e
  · rw [if_pos h]
    have hp := prog_cons i e d (.inr ⟨hd, h⟩)
    by_cases h2 : InI64 (i + d)
    · rw [if_pos h2, rangeDown_eq d hd e (i + d)]
      by_cases h3 : Fits (i + d) e d
      · have : Fits i e d := by
          unfold Fits; rw [hp]
          intro x hx
          rcases List.mem_cons.1 hx with rfl | hx
          · exact h2
          · exact h3 x hx
        rw [if_pos h3, if_pos this, hp]; rfl
      · have : ¬ Fits i e d := by
          intro h4; apply h3; intro x hx
          exact h4 x (by rw [hp]; exact List.mem_cons_of_mem _ hx)
        rw [if_neg h3, if_neg this]; rfl
    · have : ¬ Fits i e d := by
        intro h4; exact h2 (h4 i (by rw [hp]; exact List.mem_cons_self))
      rw [if_neg h2, if_neg this]
  · have : progression i e d = [] := by unfold progression; rw [if_neg (by omega)]
    have hf : Fits i e d := by unfold Fits; rw [this]; intro x hx; cases hx
    rw [if_neg h, if_pos hf, this]
termination_by (i + 1 - e).toNat

/-- C85 (`range`): for every start, end and step (1 if it is not given) it returns the arithmetic
progression; a step of 0 gives the error value; and it is undefined exactly if the number behind the
last element does not fit. -/
theorem C85_range (L : FLib) (w : World) (s e d : Int) :
    (d ≠ 0 → Fits s e d →
      body L w .range [.int s, .int e, .int d] = .val (.list ((progression s e d).map .int))) ∧
    (d ≠ 0 → ¬ Fits s e d → body L w .range [.int s, .int e, .int d] = .undef) ∧
    body L w .range [.int s, .int e, .int 0] = .val (.null .badData) ∧
    body L w .range [.int s, .int e] = body L w .range [.int s, .int e, .int 1] := by
  have hb : body L w .range [.int s, .int e, .int d] = rangeFn.go s e d := rfl
  have hr : d ≠ 0 → range s e d = some (if Fits s e d then some (progression s e d) else none) := by
    intro h0
    unfold range
    by_cases hd : 0 < d
    · rw [dif_pos hd, rangeUp_eq]
    · rw [dif_neg hd, dif_pos (by omega : d < 0), rangeDown_eq]
  refine ⟨fun h0 h1 => ?_, fun h0 h1 => ?_, rfl, rfl⟩
  · rw [hb]; unfold rangeFn.go; rw [hr h0, if_pos h1]
  · rw [hb]; unfold rangeFn.go; rw [hr h0, if_neg h1]

/-- What the progression contains: exactly the numbers reached from the start by whole steps without
passing the end. -/
theorem C85_progression (s e d : Int) (h0 : d ≠ 0) (x : Int) :
    x ∈ progression s e d ↔
      ∃ k : Nat, x = s + k * d ∧ (if 0 < d then x ≤ e else e ≤ x) := by
  unfold progression
  have key : ∀ k : Nat, k ≤ (e - s).natAbs / d.natAbs ↔ k * d.natAbs ≤ (e - s).natAbs := fun k =>
    Nat.le_div_iff_mul_le (by omega)
  have hkd : ∀ k : Nat, ((k * d.natAbs : Nat) : Int) = if 0 < d then k * d else -(k * d) := by
    intro k
    split
    · rw [Int.natCast_mul, show (d.natAbs : Int) = d by omega]
    · rw [Int.natCast_mul, show (d.natAbs : Int) = -d by omega, Int.mul_neg]
  constructor
  · intro h
    split at h
    · rename_i hc
      obtain ⟨k, hk, rfl⟩ := List.mem_map.1 h
      refine ⟨k, rfl, ?_⟩
      have h1 := (key k).1 (by have := List.mem_range.1 hk; omega)
      have h2 := hkd k
      generalize (k : Int) * d = z at *
      generalize k * d.natAbs = y at *
      split at h2 <;> rename_i hd <;> simp only [hd, if_true, if_false] <;> omega
    · cases h
  · rintro ⟨k, rfl, hk⟩
    have h2 := hkd k
    have h1 := key k
    have hz : 0 ≤ ((k * d.natAbs : Nat) : Int) := Int.natCast_nonneg _
    rw [if_pos (by
      generalize (k : Int) * d = z at *
      generalize k * d.natAbs = y at *
      split at h2 <;> rename_i hd <;> simp only [hd, if_true, if_false] at hk <;> omega)]
    refine List.mem_map.2 ⟨k, List.mem_range.2 (Nat.lt_succ_of_le (h1.2 ?_)), rfl⟩
    generalize (k : Int) * d = z at *
    generalize k * d.natAbs = y at *
    split at h2 <;> rename_i hd <;> simp only [hd, if_true, if_false] at hk <;> omega

theorem C85_range_violated (L : FLib) (w : World) :
    body L w .range [.int 9223372036854775807, .int 9223372036854775807] = .undef := by
  have := (C85_range L w 9223372036854775807 9223372036854775807 1).2.1 (by decide) (by decide)
  rw [(C85_range L w _ _ 1).2.2.2, this]

example : Fits 10 (-3) (-4) ∧ progression 10 (-3) (-4) = [10, 6, 2, -2] := by decide

/-- A value `hash` cannot digest: a map, set or data set, possibly inside lists. -/
inductive Unhashable : Value → Prop
  | map (m) : Unhashable (.map m)
  | set (l) : Unhashable (.set l)
  | dataset (c r) : Unhashable (.dataset c r)
  | list (vs v) : v ∈ vs → Unhashable v → Unhashable (.list vs)

theorem hash_none (H : HashFns) (v : Value) : v.hash H = none ↔ Unhashable v := by
  have key : ∀ n, ∀ v : Value, sizeOf v < n → (v.hash H = none ↔ Unhashable v) := by
    intro n
    induction n with
    | zero => intro v h; omega
    | succ n ih =>
      intro v hn
      cases v
      case list vs =>
        have hl : ∀ (l : List Value) (seed : UInt64), (∀ x ∈ l, sizeOf x < n) →
            (Value.hashList H seed l = none ↔ ∃ x ∈ l, Unhashable x) := by
          intro l
          induction l with
          | nil => intro seed _; simp [Value.hashList]
          | cons x l ihl =>
            intro seed hx
            have h1 := ih x (hx x List.mem_cons_self)
            have h2 := fun seed => ihl seed fun y hy => hx y (List.mem_cons_of_mem _ hy)
            rw [Value.hashList]
            cases hh : x.hash H with
            | none => simp [h1.1 hh]
            | some k =>
              have : ¬ Unhashable x := fun hu => by rw [h1.2 hu] at hh; cases hh
              simp [h2, this]
        rw [Value.hash, hl vs 0 (fun x hx => by
          have := List.sizeOf_lt_of_mem hx
          simp only [Value.list.sizeOf_spec] at hn; omega)]
        constructor
        · rintro ⟨x, hx, hu⟩; exact .list vs x hx hu
        · intro h; cases h with | list _ x hx hu => exact ⟨x, hx, hu⟩
      case map m => simp [Value.hash, Unhashable.map]
      case set l => simp [Value.hash, Unhashable.set]
      case dataset c r => simp [Value.hash, Unhashable.dataset]
      all_goals
        simp only [Value.hash, reduceCtorEq, false_iff]
        intro h; cases h
  exact key _ v (Nat.lt_succ_self _)

/-- C85: `hash` refuses maps, sets and data sets but aborts on lists that contain one, and on nothing
else. -/
theorem C85_hash_violated (L : FLib) (w : World) (v : Value) :
    body L w .hash [v] = .undef ↔ Unhashable v ∧ ∃ vs, v = .list vs := by
  have ho : ∀ o, ofOpt o = .undef ↔ o = none := by intro o; cases o <;> simp [ofOpt]
  show hashFn L v = .undef ↔ _
  cases v
  case list vs =>
    simp only [hashFn, ho, Option.map_eq_none_iff, hash_none]
    simp
  case time t => simp [hashFn, badType]
  case map m => simp [hashFn, badType]
  case set l => simp [hashFn, badType]
  case dataset c r => simp [hashFn, badType]
  all_goals
    simp only [hashFn, ho, Option.map_eq_none_iff, hash_none]
    simp only [reduceCtorEq, exists_false, and_false, iff_false]
    intro h; cases h

example : Unhashable (.list [.int 1, .list [.map []]]) :=
  .list _ _ (by simp) (.list _ _ (List.mem_singleton.2 rfl) (.map []))

/-- C85: the conversion of FLOATs to INT is undefined for not-a-number only; that of texts only if the
text has a point and denotes a number that is no INT. -/
theorem C85_tointeger_violated (L : FLib) (w : World) (v : Value) :
    body L w .tointeger [v] = .undef ↔
      v = .float .nan ∨ ∃ s, v = .str s ∧ (46 : UInt8) ∈ s ∧ Value.castI64 (L.strtod (cstr s)).1 = none := by
  have ho : ∀ o, ofOpt o = .undef ↔ o = none := by intro o; cases o <;> simp [ofOpt]
  show ofOpt (v.toInt L.strtod) = .undef ↔ _
  rw [ho]
  cases v
  case float f =>
    rw [show Value.toInt L.strtod (.float f) =
      (if F64.le f (F64.ofInt (-9223372036854775808)) then some (.int (-9223372036854775808))
      else if F64.le (F64.ofInt 9223372036854775807) f then some (.int 9223372036854775807)
      else (Value.castI64 f).map .int) from rfl]
    have e1 : F64.ofInt (-9223372036854775808) = .fin (-9223372036854775808) := by decide +kernel
    have e2 : F64.ofInt 9223372036854775807 = .fin 9223372036854775808 := by decide +kernel
    rw [e1, e2]
    cases f with
    | nan => simp [F64.le, Value.castI64]
    | inf b => cases b <;> simp [F64.le]
    | fin q =>
      simp only [F64.le, decide_eq_true_eq, Value.castI64]
      constructor
      · intro h
        exfalso
        split at h
        · cases h
        · rename_i h1
          split at h
          · cases h
          · rename_i h2
            rw [Option.map_eq_none_iff] at h
            split at h
            · cases h
            · rename_i h3
              apply h3
              have h1' : (-9223372036854775808 : Rat) < q := Rat.not_le.1 h1
              have h2' : q < (9223372036854775808 : Rat) := Rat.not_le.1 h2
              unfold F64.trunc InI64
              split
              · rename_i h0
                have a := Rat.le_floor_iff (x := 0) (a := q) |>.2 (by simpa using h0)
                have b := Rat.floor_lt_iff (x := 9223372036854775808) (a := q) |>.2 (by simpa using h2')
                omega
              · rename_i h0
                have h0' : q < 0 := Rat.not_le.1 h0
                have a := Rat.le_floor_iff (x := 0) (a := -q) |>.2 (by
                  have := Rat.neg_le_neg (Rat.le_of_lt h0'); simpa using this)
                have b := Rat.floor_lt_iff (x := 9223372036854775808) (a := -q) |>.2 (by
                  have := Rat.neg_lt_neg h1'; simpa using this)
                omega
      · rintro (h | ⟨s, h, _⟩) <;> cases h
  case str s =>
    simp only [Value.toInt, Option.map_eq_none_iff]
    by_cases hs : s.all (· ≠ 46) = true
    · rw [if_pos hs]
      simp only [reduceCtorEq, false_or, false_iff]
      rintro ⟨t, ht, h46, -⟩
      injection ht with ht; subst ht
      have := List.all_eq_true.1 hs _ h46
      simp at this
    · rw [if_neg hs]
      have h46 : (46 : UInt8) ∈ s := by
        apply Classical.byContradiction
        intro h
        apply hs
        rw [List.all_eq_true]
        intro x hx
        have : x ≠ 46 := fun e => h (e ▸ hx)
        simpa using this
      simp [h46]
  all_goals simp [Value.toInt]

end Func
end Nebula
