import Verif.Locks.Model

/-!
# Why functions that keep to a discipline never race and never wait for each other

`Discipline` says, per datum, which lock protects it.  `Code.keeps` checks a function against it, and
`Code.ordered` checks that locks are only taken in a fixed order.  Both are proved sound here for every
interleaving of any number of threads.
-/
namespace Nebula.Locks

variable {L V F : Type}

/-- How the accesses to a datum are kept apart. -/
inductive Discipline (L : Type)
  /-- read under the lock, written under the lock held for writing. -/
  | locked (l : L)
  /-- written by the background thread under the lock, read under the lock or by the background thread. -/
  | published (l : L)
  /-- only the background thread touches it. -/
  | owned
  /-- nobody writes it. -/
  | frozen
  deriving DecidableEq

section
variable [DecidableEq L]

/-- An access that keeps to the discipline. -/
def Discipline.allows (d : Discipline L) (own : Bool) (held : List (Mode × L)) (m : Mode) : Bool :=
  match d, m with
  | .locked l, .rd => held.contains (.rd, l) || held.contains (.wr, l)
  | .locked l, .wr => held.contains (.wr, l)
  | .published l, .rd => own || held.contains (.rd, l) || held.contains (.wr, l)
  | .published l, .wr => own && held.contains (.wr, l)
  | .owned, _ => own
  | .frozen, .rd => true
  | .frozen, .wr => false

/-- Every access of a function to `v` keeps to `d`, when the function begins holding `held`. -/
def Code.keeps [DecidableEq V] (d : Discipline L) (own : Bool) (v : V) : Code L V → List (Mode × L) → Bool
  | .skip, _ => true
  | .acc m w, held => w ≠ v || d.allows own held m
  | .seq a b, held => a.keeps d own v held && b.keeps d own v held
  | .alt a b, held => a.keeps d own v held && b.keeps d own v held
  | .star a, held => a.keeps d own v held
  | .hold m l a, held => a.keeps d own v ((m, l) :: held)

/-- Locks are only taken in the order of `rank`. -/
def Code.ordered (rank : L → Nat) : Code L V → List (Mode × L) → Bool
  | .skip, _ => true
  | .acc _ _, _ => true
  | .seq a b, held => a.ordered rank held && b.ordered rank held
  | .alt a b, held => a.ordered rank held && b.ordered rank held
  | .star a, held => a.ordered rank held
  | .hold m l a, held => held.all (fun x => rank x.2 < rank l) && a.ordered rank ((m, l) :: held)

/-- What is left of a function gives back its locks, latest first, and takes locks in order. -/
def Nest (rank : L → Nat) : List (Mode × L) → List (Act L V) → Prop
  | held, [] => held = []
  | held, .acq m l :: t => (∀ x ∈ held, rank x.2 < rank l) ∧ Nest rank ((m, l) :: held) t
  | held, .rel m l :: t => ∃ h, held = (m, l) :: h ∧ Nest rank h t
  | held, .acc _ _ :: t => Nest rank held t

/-- What is left of a function keeps to the discipline of `v`. -/
def Keeps (d : Discipline L) (own : Bool) (v : V) : List (Mode × L) → List (Act L V) → Prop
  | _, [] => True
  | held, .acq m l :: t => Keeps d own v ((m, l) :: held) t
  | held, .rel m l :: t => ∀ h, held = (m, l) :: h → Keeps d own v h t
  | held, .acc m w :: t => (w = v → d.allows own held m = true) ∧ Keeps d own v held t

theorem nest_run {rank : L → Nat} {c : Code L V} {t : List (Act L V)} (r : Run c t) :
    ∀ {held u}, c.ordered rank held = true → Nest rank held u → Nest rank held (t ++ u) := by
  induction r with
  | skip => intro held u _ h; exact h
  | acc => intro held u _ h; exact h
  | seq _ _ iha ihb =>
    intro held u o h
    simp only [Code.ordered, Bool.and_eq_true] at o
    rw [List.append_assoc]; exact iha o.1 (ihb o.2 h)
  | altL _ ih => intro held u o h; simp only [Code.ordered, Bool.and_eq_true] at o; exact ih o.1 h
  | altR _ ih => intro held u o h; simp only [Code.ordered, Bool.and_eq_true] at o; exact ih o.2 h
  | starNil => intro held u _ h; exact h
  | starCons _ _ iha ihb => intro held u o h; rw [List.append_assoc]; exact iha o (ihb o h)
  | @hold m l a t _ ih =>
    intro held u o h
    simp only [Code.ordered, Bool.and_eq_true, List.all_eq_true, decide_eq_true_eq] at o
    simp only [List.cons_append, List.append_assoc, Nest]
    exact ⟨o.1, ih o.2 ⟨held, rfl, h⟩⟩

theorem keeps_run [DecidableEq V] {d : Discipline L} {own : Bool} {v : V} {c : Code L V} {t : List (Act L V)} (r : Run c t) :
    ∀ {held u}, c.keeps d own v held = true → Keeps d own v held u → Keeps d own v held (t ++ u) := by
  induction r with
  | skip => intro held u _ h; exact h
  | @acc m w =>
    intro held u o h
    simp only [Code.keeps, Bool.or_eq_true, decide_eq_true_eq] at o
    exact ⟨fun e => o.resolve_left (fun n => n e), h⟩
  | seq _ _ iha ihb =>
    intro held u o h
    simp only [Code.keeps, Bool.and_eq_true] at o
    rw [List.append_assoc]; exact iha o.1 (ihb o.2 h)
  | altL _ ih => intro held u o h; simp only [Code.keeps, Bool.and_eq_true] at o; exact ih o.1 h
  | altR _ ih => intro held u o h; simp only [Code.keeps, Bool.and_eq_true] at o; exact ih o.2 h
  | starNil => intro held u _ h; exact h
  | starCons _ _ iha ihb => intro held u o h; rw [List.append_assoc]; exact iha o (ihb o h)
  | @hold m l a t _ ih =>
    intro held u o h
    simp only [List.cons_append, List.append_assoc, Keeps]
    refine ih o ?_
    simp only [List.nil_append, Keeps]
    intro h' e
    cases e
    exact h

/-! ## Invariants of all executions -/

/-- Writers are alone. -/
def Excl (s : State L V) : Prop :=
  ∀ i j l m, i ≠ j → (Mode.wr, l) ∈ s.held i → (m, l) ∉ s.held j

theorem put_held (s : State L V) (i j : Nat) (h t) : (s.put i h t).held j = if j = i then h else s.held j := rfl
theorem put_todo (s : State L V) (i j : Nat) (h t) : (s.put i h t).todo j = if j = i then t else s.todo j := rfl

theorem excl_sub {s : State L V} {i : Nat} {h : List (Mode × L)} {t} (e : Excl s) (sub : ∀ x ∈ h, x ∈ s.held i) :
    Excl (s.put i h t) := by
  intro a b l m ne ha hb
  rw [put_held] at ha hb
  by_cases ea : a = i
  · subst ea
    rw [if_pos rfl] at ha
    rw [if_neg (fun x => ne x.symm)] at hb
    exact e a b l m ne (sub _ ha) hb
  · rw [if_neg ea] at ha
    by_cases eb : b = i
    · subst eb
      rw [if_pos rfl] at hb
      exact e a b l m ne ha (sub _ hb)
    · rw [if_neg eb] at hb
      exact e a b l m ne ha hb

theorem excl_step {s s' : State L V} (e : Excl s) (st : Step s s') : Excl s' := by
  cases st with
  | @acqR i l t _ hn =>
    intro a b k m ne ha hb
    rw [put_held] at ha hb
    by_cases ea : a = i
    · subst ea
      rw [if_pos rfl] at ha
      rw [if_neg (fun x => ne x.symm)] at hb
      simp only [List.mem_cons, Prod.mk.injEq, reduceCtorEq, false_and, false_or] at ha
      exact e a b k m ne ha hb
    · rw [if_neg ea] at ha
      by_cases eb : b = i
      · subst eb
        rw [if_pos rfl] at hb
        simp only [List.mem_cons, Prod.mk.injEq] at hb
        rcases hb with ⟨_, rfl⟩ | hb
        · exact hn a ha
        · exact e a b k m ne ha hb
      · rw [if_neg eb] at hb; exact e a b k m ne ha hb
  | @acqW i l t _ hn =>
    intro a b k m ne ha hb
    rw [put_held] at ha hb
    by_cases ea : a = i
    · subst ea
      rw [if_pos rfl] at ha
      rw [if_neg (fun x => ne x.symm)] at hb
      simp only [List.mem_cons, Prod.mk.injEq, true_and] at ha
      rcases ha with rfl | ha
      · exact hn b m hb
      · exact e a b k m ne ha hb
    · rw [if_neg ea] at ha
      by_cases eb : b = i
      · subst eb
        rw [if_pos rfl] at hb
        simp only [List.mem_cons, Prod.mk.injEq] at hb
        rcases hb with ⟨_, rfl⟩ | hb
        · exact hn a _ ha
        · exact e a b k m ne ha hb
      · rw [if_neg eb] at hb; exact e a b k m ne ha hb
  | rel _ => exact excl_sub e fun x h => List.mem_of_mem_erase h
  | acc _ => exact excl_sub e fun x h => h

/-- Everything that is kept: writers are alone, locks are given back and taken in order, idle threads hold
nothing, and what threads have still to do keeps to the discipline. -/
structure Inv (rank : L → Nat) (s : State L V) : Prop where
  excl : Excl s
  nest : ∀ i, Nest rank (s.held i) (s.todo i)

theorem inv_init (rank : L → Nat) : Inv rank (init : State L V) :=
  ⟨fun _ _ _ _ _ h => by simp [init] at h, fun _ => by simp [init, Nest]⟩

theorem nest_put {rank : L → Nat} {s : State L V} {i : Nat} {h t} (n : ∀ i, Nest rank (s.held i) (s.todo i)) (hn : Nest rank h t) :
    ∀ j, Nest rank ((s.put i h t).held j) ((s.put i h t).todo j) := by
  intro j
  rw [put_held, put_todo]
  by_cases e : j = i
  · simpa [e] using hn
  · simpa [e] using n j

theorem inv_step {rank : L → Nat} {s s' : State L V} (v : Inv rank s) (st : Step s s') : Inv rank s' := by
  refine ⟨excl_step v.excl st, ?_⟩
  cases st with
  | @acqR i l t h _ => exact nest_put v.nest (by have := v.nest i; rw [h] at this; exact this.2)
  | @acqW i l t h _ => exact nest_put v.nest (by have := v.nest i; rw [h] at this; exact this.2)
  | @rel i m l t h =>
    refine nest_put v.nest ?_
    have := v.nest i
    rw [h] at this
    obtain ⟨h', e, n⟩ := this
    rw [e, List.erase_cons_head]
    exact n
  | @acc i m w t h => exact nest_put v.nest (by have := v.nest i; rw [h] at this; exact this)

theorem inv_reach {rank : L → Nat} {S : System L V F} {uses : F → Prop}
    (ho : ∀ f, (S.body f).ordered rank [] = true) {s : State L V} (r : Reach S uses s) : Inv rank s := by
  induction r with
  | init => exact inv_init rank
  | @start s i f t _ _ _ hi hr ih =>
    refine ⟨excl_sub ih.excl fun x h => h, nest_put ih.nest ?_⟩
    have := ih.nest i
    rw [hi] at this
    have hh : s.held i = [] := this
    rw [hh]
    have := nest_run (rank := rank) hr (held := []) (u := []) (ho f) rfl
    simpa using this
  | step _ st ih => exact inv_step ih st

theorem keeps_reach [DecidableEq V] {rank : L → Nat} {S : System L V F} {uses : F → Prop} {d : Discipline L} {v : V}
    (ho : ∀ f, (S.body f).ordered rank [] = true)
    (hk : ∀ f, uses f → (S.body f).keeps d (S.own f) v [] = true)
    {s : State L V} (r : Reach S uses s) :
    ∀ i, ∃ own, (own = true → i = 0) ∧ Keeps d own v (s.held i) (s.todo i) := by
  induction r with
  | init => intro i; exact ⟨false, by simp, by simp [init, Keeps]⟩
  | @start s i f t hr hu hw hi ht ih =>
    intro j
    rw [put_held, put_todo]
    by_cases e : j = i
    · subst e
      have : s.held j = [] := by
        have := (inv_reach ho hr).nest j
        rw [hi] at this
        exact this
      refine ⟨S.own f, hw, ?_⟩
      rw [if_pos rfl, if_pos rfl, this]
      have := keeps_run (d := d) (own := S.own f) (v := v) ht (held := []) (u := []) (hk f hu) trivial
      simpa using this
    · simpa [e] using ih j
  | @step s s' hr st ih =>
    intro j
    obtain ⟨own, h0, hk'⟩ := ih j
    refine ⟨own, h0, ?_⟩
    cases st with
    | @acqR i l t h _ =>
      rw [put_held, put_todo]
      by_cases e : j = i
      · subst e; rw [h] at hk'; rw [if_pos rfl, if_pos rfl]; exact hk'
      · simpa [e] using hk'
    | @acqW i l t h _ =>
      rw [put_held, put_todo]
      by_cases e : j = i
      · subst e; rw [h] at hk'; rw [if_pos rfl, if_pos rfl]; exact hk'
      · simpa [e] using hk'
    | @rel i m l t h =>
      rw [put_held, put_todo]
      by_cases e : j = i
      · subst e
        rw [h] at hk'
        have n := (inv_reach ho hr).nest j
        rw [h] at n
        obtain ⟨h', e', _⟩ := n
        rw [if_pos rfl, if_pos rfl, e', List.erase_cons_head]
        exact hk' h' e'
      · simpa [e] using hk'
    | @acc i m w t h =>
      rw [put_held, put_todo]
      by_cases e : j = i
      · subst e; rw [h] at hk'; simpa using hk'.2
      · simpa [e] using hk'

/-- Two accesses of different threads that both keep to the discipline, one of them a write. -/
theorem apart {d : Discipline L} {s : State L V} (e : Excl s) {i j : Nat} (ne : i ≠ j) {oi oj : Bool}
    (hi : oi = true → i = 0) (hj : oj = true → j = 0) {m : Mode}
    (wi : d.allows oi (s.held i) .wr = true) (wj : d.allows oj (s.held j) m = true) : False := by
  have both : ¬ (oi = true ∧ oj = true) := fun h => ne ((hi h.1).trans (hj h.2).symm)
  cases d with
  | locked l =>
    have a : (Mode.wr, l) ∈ s.held i := by simpa [Discipline.allows] using wi
    cases m with
    | rd =>
      have b : (Mode.rd, l) ∈ s.held j ∨ (Mode.wr, l) ∈ s.held j := by simpa [Discipline.allows] using wj
      exact b.elim (e i j l _ ne a) (e i j l _ ne a)
    | wr =>
      have b : (Mode.wr, l) ∈ s.held j := by simpa [Discipline.allows] using wj
      exact e i j l _ ne a b
  | published l =>
    have a : oi = true ∧ (Mode.wr, l) ∈ s.held i := by simpa [Discipline.allows] using wi
    cases m with
    | rd =>
      have b : (oj = true ∨ (Mode.rd, l) ∈ s.held j) ∨ (Mode.wr, l) ∈ s.held j := by
        simpa [Discipline.allows] using wj
      rcases b with (b | b) | b
      · exact both ⟨a.1, b⟩
      · exact e i j l _ ne a.2 b
      · exact e i j l _ ne a.2 b
    | wr =>
      have b : oj = true ∧ (Mode.wr, l) ∈ s.held j := by simpa [Discipline.allows] using wj
      exact e i j l _ ne a.2 b.2
  | owned => exact both ⟨by cases m <;> simpa [Discipline.allows] using wi, by cases m <;> simpa [Discipline.allows] using wj⟩
  | frozen => simp [Discipline.allows] at wi

theorem no_race [DecidableEq V] {rank : L → Nat} {S : System L V F} {uses : F → Prop} {d : Discipline L} {v : V}
    (ho : ∀ f, (S.body f).ordered rank [] = true)
    (hk : ∀ f, uses f → (S.body f).keeps d (S.own f) v [] = true)
    {s : State L V} (r : Reach S uses s) : ¬ RaceOn v s := by
  rintro ⟨i, j, m, t, u, ne, hi, hj⟩
  obtain ⟨oi, o1, k1⟩ := keeps_reach ho hk r i
  obtain ⟨oj, o2, k2⟩ := keeps_reach ho hk r j
  rw [hi] at k1
  rw [hj] at k2
  exact apart (inv_reach ho r).excl ne o1 o2 (k1.1 rfl) (k2.1 rfl)

/-! ## No thread waits for ever -/

/-- Somebody whose next step is possible, when a thread is at work that waits for nobody above rank `n`. -/
theorem movable {rank : L → Nat} {B : Nat} (hB : ∀ l, rank l < B) {s : State L V} (v : Inv rank s) :
    ∀ (n : Nat) (i : Nat), s.todo i ≠ [] →
      (∀ m l t, s.todo i = .acq m l :: t → B ≤ rank l + n) → ∃ s', Step s s' := by
  intro n
  induction n with
  | zero =>
    intro i h hw
    match e : s.todo i with
    | [] => exact absurd e h
    | .acq m l :: t => have := hw m l t e; have := hB l; omega
    | .rel m l :: t => exact ⟨_, .rel e⟩
    | .acc m w :: t => exact ⟨_, .acc e⟩
  | succ n ih =>
    intro i h hw
    match e : s.todo i with
    | [] => exact absurd e h
    | .rel m l :: t => exact ⟨_, .rel e⟩
    | .acc m w :: t => exact ⟨_, .acc e⟩
    | .acq m l :: t =>
      by_cases free : ∀ j k, (k, l) ∉ s.held j
      · cases m with
        | rd => exact ⟨_, .acqR e fun j => free j _⟩
        | wr => exact ⟨_, .acqW e free⟩
      · simp only [Classical.not_forall] at free
        obtain ⟨j, k, hj⟩ := free
        have hj := Classical.not_not.mp hj
        refine ih j ?_ ?_
        · intro e'
          have nj := v.nest j
          rw [e'] at nj
          have nj : s.held j = [] := nj
          rw [nj] at hj
          cases hj
        · intro m' l' t' e'
          have nj := v.nest j
          rw [e'] at nj
          have lt := nj.1 _ hj
          have := hw m l t e
          simp only at lt
          omega

theorem progress {rank : L → Nat} {B : Nat} (hB : ∀ l, rank l < B) {s : State L V} (v : Inv rank s)
    {i : Nat} (h : s.todo i ≠ []) : ∃ s', Step s s' :=
  movable hB v B i h fun _ _ _ _ => Nat.le_add_left _ _

/-- How much the first `n` threads have still to do. -/
def work (s : State L V) : Nat → Nat
  | 0 => 0
  | n + 1 => work s n + (s.todo n).length

omit [DecidableEq L] in
theorem work_put {s : State L V} {i : Nat} {h t} {a : Act L V} (e : s.todo i = a :: t) :
    ∀ n, i < n → work (s.put i h t) n + 1 = work s n := by
  have below : ∀ n, n ≤ i → work (s.put i h t) n = work s n := by
    intro n
    induction n with
    | zero => intro _; rfl
    | succ n ih =>
      intro hn
      simp only [work, put_todo]
      rw [ih (by omega), if_neg (by omega)]
  intro n
  induction n with
  | zero => intro h; omega
  | succ n ih =>
    intro hn
    simp only [work, put_todo]
    by_cases en : n = i
    · subst en
      rw [below n (Nat.le_refl _), if_pos rfl, e, List.length_cons]
      omega
    · have := ih (by omega)
      rw [if_neg en]
      omega

theorem work_step {s s' : State L V} (st : Step s s') {n : Nat} (hn : ∀ i, n ≤ i → s.todo i = []) :
    work s' n + 1 = work s n ∧ ∀ i, n ≤ i → s'.todo i = [] := by
  have key : ∀ {i h t} {a : Act L V}, s.todo i = a :: t →
      work (s.put i h t) n + 1 = work s n ∧ ∀ j, n ≤ j → (s.put i h t).todo j = [] := by
    intro i h t a e
    have hi : i < n := by
      apply Classical.byContradiction
      intro c
      have := hn i (by omega)
      rw [e] at this
      cases this
    refine ⟨work_put e n hi, fun j hj => ?_⟩
    rw [put_todo, if_neg (by omega)]
    exact hn j hj
  cases st with
  | acqR e _ => exact key e
  | acqW e _ => exact key e
  | rel e => exact key e
  | acc e => exact key e

theorem bounded {S : System L V F} {uses : F → Prop} {s : State L V} (r : Reach S uses s) :
    ∃ n, ∀ i, n ≤ i → s.todo i = [] := by
  induction r with
  | init => exact ⟨0, fun _ _ => rfl⟩
  | @start s i f t _ _ _ _ _ ih =>
    obtain ⟨n, hn⟩ := ih
    refine ⟨max n (i + 1), fun j hj => ?_⟩
    rw [put_todo, if_neg (by omega)]
    exact hn j (by omega)
  | step _ st ih =>
    obtain ⟨n, hn⟩ := ih
    exact ⟨n, (work_step st hn).2⟩

theorem drains {rank : L → Nat} {B : Nat} (hB : ∀ l, rank l < B) :
    ∀ (k : Nat) {s : State L V} {n : Nat}, Inv rank s → (∀ i, n ≤ i → s.todo i = []) → work s n = k →
      ∃ s', Steps s s' ∧ Quiet s' := by
  intro k
  induction k with
  | zero =>
    intro s n v hn hw
    have all : ∀ m, work s m = 0 → ∀ i, i < m → s.todo i = [] := by
      intro m
      induction m with
      | zero => intro _ i h; omega
      | succ m ih =>
        intro h i hi
        simp only [work] at h
        by_cases e : i = m
        · subst e; exact List.length_eq_zero_iff.mp (by omega)
        · exact ih (by omega) i (by omega)
    have idle : ∀ i, s.todo i = [] := fun i =>
      (Nat.lt_or_ge i n).elim (all n hw i) (hn i)
    exact ⟨s, .refl, fun i => ⟨idle i, by have := v.nest i; rw [idle i] at this; exact this⟩⟩
  | succ k ih =>
    intro s n v hn hw
    have : ∃ i, s.todo i ≠ [] := by
      apply Classical.byContradiction
      intro c
      simp only [not_exists, ne_eq, Classical.not_not] at c
      have : ∀ m, work s m = 0 := by
        intro m
        induction m with
        | zero => rfl
        | succ m ih => simp [work, ih, c]
      rw [this] at hw
      cases hw
    obtain ⟨i, hi⟩ := this
    obtain ⟨s', st⟩ := progress hB v hi
    obtain ⟨w, b⟩ := work_step st hn
    obtain ⟨u, hs, q⟩ := ih (inv_step v st) b (by omega)
    exact ⟨u, .head st hs, q⟩

/-- Whatever the threads are in the middle of, they can all finish. -/
theorem can_finish {rank : L → Nat} {B : Nat} (hB : ∀ l, rank l < B) {S : System L V F} {uses : F → Prop}
    (ho : ∀ f, (S.body f).ordered rank [] = true) {s : State L V} (r : Reach S uses s) :
    ∃ s', Steps s s' ∧ Quiet s' := by
  obtain ⟨n, hn⟩ := bounded r
  exact drains hB _ (inv_reach ho r) hn rfl

/-! ## Exhibiting races -/

/-- One sequence of steps of a function: the branches to take and the loops to enter, one `Bool` each. -/
def Code.trace : Code L V → List Bool → List (Act L V) × List Bool
  | .skip, b => ([], b)
  | .acc m v, b => ([.acc m v], b)
  | .seq x y, b => ((x.trace b).1 ++ (y.trace (x.trace b).2).1, (y.trace (x.trace b).2).2)
  | .alt x y, b => if b.headD true then x.trace b.tail else y.trace b.tail
  | .star x, b => if b.headD true then x.trace b.tail else ([], b.tail)
  | .hold m l x, b => (.acq m l :: ((x.trace b).1 ++ [.rel m l]), (x.trace b).2)

omit [DecidableEq L] in
theorem run_trace (c : Code L V) : ∀ b, Run c (c.trace b).1 := by
  induction c with
  | skip => intro b; exact .skip
  | acc m v => intro b; exact .acc
  | seq x y ix iy => intro b; exact .seq (ix _) (iy _)
  | alt x y ix iy =>
    intro b
    simp only [Code.trace]
    split
    · exact .altL (ix _)
    · exact .altR (iy _)
  | star x ix =>
    intro b
    simp only [Code.trace]
    split
    · have := Run.starCons (ix b.tail) .starNil
      simpa using this
    · exact .starNil
  | hold m l x ix => intro b; exact .hold (ix _)

/-- What a thread that holds `mine` holds after the first steps of `t`, when another thread holds `theirs`;
`none` when it has to wait. -/
def upto (theirs : List (Mode × L)) : List (Mode × L) → List (Act L V) → Nat → Option (List (Mode × L) × List (Act L V))
  | mine, t, 0 => some (mine, t)
  | _, [], _ + 1 => none
  | mine, .acq .rd l :: t, n + 1 =>
    if theirs.contains (.wr, l) || mine.contains (.wr, l) then none else upto theirs ((.rd, l) :: mine) t n
  | mine, .acq .wr l :: t, n + 1 =>
    if theirs.contains (.wr, l) || theirs.contains (.rd, l) || mine.contains (.wr, l) || mine.contains (.rd, l)
    then none else upto theirs ((.wr, l) :: mine) t n
  | mine, .rel m l :: t, n + 1 => upto theirs (mine.erase (m, l)) t n
  | mine, .acc _ _ :: t, n + 1 => upto theirs mine t n

theorem reach_upto {S : System L V F} {uses : F → Prop} {i j : Nat} :
    ∀ (n : Nat) {s : State L V} {h' t'}, Reach S uses s → (∀ k, k ≠ i → k ≠ j → s.held k = []) → i ≠ j →
      upto (s.held j) (s.held i) (s.todo i) n = some (h', t') → Reach S uses (s.put i h' t') := by
  intro n
  induction n with
  | zero =>
    intro s h' t' r _ _ h
    simp only [upto, Option.some.injEq, Prod.mk.injEq] at h
    have : s.put i h' t' = s := by
      obtain ⟨rfl, rfl⟩ := h
      cases s
      simp only [State.put, State.mk.injEq]
      constructor <;> funext k <;> by_cases e : k = i <;> simp [e]
    rw [this]; exact r
  | succ n ih =>
    intro s h' t' r hk ne h
    have fin : ∀ {x u}, Reach S uses (s.put i x u) → upto (s.held j) x u n = some (h', t') →
        Reach S uses (s.put i h' t') := by
      intro x u r' h''
      have key := ih (s := s.put i x u) (h' := h') (t' := t') r'
        (fun k h1 h2 => by rw [put_held, if_neg h1]; exact hk k h1 h2) ne
        (by rw [put_held, put_held, put_todo, if_pos rfl, if_pos rfl, if_neg (fun e => ne e.symm)]; exact h'')
      have : (s.put i x u).put i h' t' = s.put i h' t' := by
        simp only [State.put, State.mk.injEq]
        constructor <;> funext k <;> by_cases e : k = i <;> simp [e]
      rw [this] at key
      exact key
    match e : s.todo i with
    | [] => rw [e] at h; simp [upto] at h
    | .acq .rd l :: t =>
      rw [e] at h
      simp only [upto] at h
      split at h
      · cases h
      · rename_i c
        simp only [Bool.or_eq_true, List.contains_iff_mem, not_or] at c
        refine fin (.step r (.acqR e fun k => ?_)) h
        by_cases e1 : k = i
        · subst e1; exact c.2
        · by_cases e2 : k = j
          · subst e2; exact c.1
          · rw [hk k e1 e2]; simp
    | .acq .wr l :: t =>
      rw [e] at h
      simp only [upto] at h
      split at h
      · cases h
      · rename_i c
        simp only [Bool.or_eq_true, List.contains_iff_mem, not_or] at c
        refine fin (.step r (.acqW e fun k m => ?_)) h
        by_cases e1 : k = i
        · subst e1; cases m
          · exact c.2
          · exact c.1.2
        · by_cases e2 : k = j
          · subst e2; cases m
            · exact c.1.1.2
            · exact c.1.1.1
          · rw [hk k e1 e2]; simp
    | .rel m l :: t => rw [e] at h; exact fin (.step r (.rel e)) h
    | .acc m w :: t => rw [e] at h; exact fin (.step r (.acc e)) h

/-- The functions `f` and `g`, on two threads and with these branches, run into a race on `v`: `g` takes its
first `ng` steps, then `f` its first `nf`, and then both are about to access `v`, `f` to write it. -/
def racy [DecidableEq V] (S : System L V F) (v : V) (f : F) (bf : List Bool) (nf : Nat) (g : F) (bg : List Bool) (ng : Nat) : Bool :=
  match upto [] [] ((S.body g).trace bg).1 ng with
  | some (hg, .acc _ w :: _) =>
    decide (w = v) &&
    match upto hg [] ((S.body f).trace bf).1 nf with
    | some (_, .acc .wr w :: _) => decide (w = v)
    | _ => false
  | _ => false

theorem race_of_racy [DecidableEq V] {S : System L V F} {v : V} (f : F) (bf : List Bool) (nf : Nat) (g : F) (bg : List Bool) (ng : Nat)
    {i j : Nat} (ne : i ≠ j) (hi : S.own f = true → i = 0) (hj : S.own g = true → j = 0)
    (h : racy S v f bf nf g bg ng = true) : ∃ s, Reach S (fun x => x = f ∨ x = g) s ∧ RaceOn v s := by
  simp only [racy] at h
  split at h
  · rename_i hg m' w ug e1
    simp only [Bool.and_eq_true, decide_eq_true_eq] at h
    obtain ⟨rfl, h⟩ := h
    split at h
    · rename_i hf w' uf e2
      simp only [decide_eq_true_eq] at h
      subst h
      have r1 : Reach S (fun x => x = f ∨ x = g) ((init : State L V).put j [] ((S.body g).trace bg).1) :=
        .start .init (.inr rfl) hj rfl (run_trace _ _)
      have r2 := reach_upto (i := j) (j := i) _ r1 (fun k h1 _ => by rw [put_held, if_neg h1]; rfl) ne.symm
        (by rw [put_held, put_held, put_todo, if_pos rfl, if_pos rfl, if_neg ne]; exact e1)
      have r3 := Reach.start (S := S) (uses := fun x => x = f ∨ x = g) (i := i) r2 (.inl rfl) hi
        (by rw [put_todo, if_neg ne, put_todo, if_neg ne]; rfl) (run_trace _ bf)
      have r4 := reach_upto (i := i) (j := j) _ r3
        (fun k h1 h2 => by rw [put_held, if_neg h1, put_held, if_neg h2, put_held, if_neg h2]; rfl) ne
        (by
          rw [put_held, if_neg ne.symm, put_held, if_pos rfl, put_held, if_pos rfl, put_todo, if_pos rfl,
            put_held, if_neg ne, put_held, if_neg ne]
          exact e2)
      refine ⟨_, r4, i, j, m', uf, ug, ne, ?_, ?_⟩
      · rw [put_todo, if_pos rfl]
      · rw [put_todo, if_neg ne.symm, put_todo, if_neg ne.symm, put_todo, if_pos rfl]
    · cases h
  · cases h

end
end Nebula.Locks
