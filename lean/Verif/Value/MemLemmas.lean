import Verif.Value.MemSpec
/-! # Lemmas on the memory of `Value` objects -/
namespace Nebula.VMem

/-! ## Local changes -/

/-- From `m` to `m'` only the addresses `f` and new ones were touched; of these, exactly `g` are alive
in `m'`. -/
structure Local (m m' : Mem) (f g : List Addr) : Prop where
  next : m.next ≤ m'.next
  frame : ∀ a, a ∉ f → a < m.next → m'.obj a = m.obj a ∧ m'.cell a = m.cell a
  live : ∀ a, (a ∈ f ∨ m.next ≤ a) → (m'.Live a ↔ a ∈ g)
  nodup : g.Nodup
  sub : ∀ a ∈ g, a ∈ f ∨ m.next ≤ a
  bound : ∀ a ∈ g, a < m'.next

/-- Nothing is alive above `next`. -/
def Mem.Bounded (m : Mem) : Prop := ∀ a, m.next ≤ a → ¬ m.Live a

/-- The memories agree on the addresses. -/
def Agree (m m' : Mem) (r : List Addr) : Prop := ∀ a ∈ r, m'.obj a = m.obj a ∧ m'.cell a = m.cell a

theorem Local.bounded {m m' : Mem} {f g : List Addr} (h : Local m m' f g) : m'.Bounded := by
  intro a ha hl
  have := (h.live a (Or.inr (Nat.le_trans h.next ha))).1 hl
  have := h.bound a this
  omega

theorem Local.agree {m m' : Mem} {f g r : List Addr} (h : Local m m' f g) (hd : ∀ a ∈ r, a ∉ f)
    (hb : ∀ a ∈ r, a < m.next) : Agree m m' r := fun a ha => h.frame a (hd a ha) (hb a ha)

theorem Local.refl {m : Mem} {f : List Addr} (hb : m.Bounded) (hn : f.Nodup) (hl : ∀ a ∈ f, m.Live a) : Local m m f f where
  next := Nat.le_refl _
  frame := fun _ _ _ => ⟨rfl, rfl⟩
  live := by
    intro a ha
    constructor
    · intro h
      rcases ha with ha | ha
      · exact ha
      · exact absurd h (hb a ha)
    · exact hl a
  nodup := hn
  sub := fun a ha => Or.inl ha
  bound := by
    intro a ha
    rcases Nat.lt_or_ge a m.next with h | h
    · exact h
    · exact absurd (hl a ha) (hb a h)

theorem Local.perm {m m' : Mem} {f g f' g' : List Addr} (h : Local m m' f g) (hf : f.Perm f') (hg : g.Perm g') :
    Local m m' f' g' where
  next := h.next
  frame := fun a ha hb => h.frame a (fun hh => ha (hf.mem_iff.1 hh)) hb
  live := by
    intro a ha
    rw [h.live a (by rcases ha with ha | ha; exact Or.inl (hf.mem_iff.2 ha); exact Or.inr ha), hg.mem_iff]
  nodup := hg.nodup_iff.1 h.nodup
  sub := by
    intro a ha
    rcases h.sub a (hg.mem_iff.2 ha) with h | h
    · exact Or.inl (hf.mem_iff.1 h)
    · exact Or.inr h
  bound := fun a ha => h.bound a (hg.mem_iff.2 ha)

/-- A further change, on part of what is alive. -/
theorem Local.step {m m1 m2 : Mem} {f g f2 g2 e : List Addr} (h1 : Local m m1 f g) (h2 : Local m1 m2 f2 g2)
    (hp : g.Perm (f2 ++ e)) : Local m m2 f (g2 ++ e) := by
  have hnd : (f2 ++ e).Nodup := hp.nodup_iff.1 h1.nodup
  rw [List.nodup_append] at hnd
  obtain ⟨_, hne, hdis⟩ := hnd
  have heg : ∀ a ∈ e, a ∈ g := fun a ha => hp.mem_iff.2 (List.mem_append.2 (Or.inr ha))
  have hfg : ∀ a ∈ f2, a ∈ g := fun a ha => hp.mem_iff.2 (List.mem_append.2 (Or.inl ha))
  have hge : ∀ a ∈ g, a ∈ f2 ∨ a ∈ e := fun a ha => List.mem_append.1 (hp.mem_iff.1 ha)
  have hef : ∀ a ∈ e, a ∉ f2 := fun a ha hf => hdis a hf a ha rfl
  refine ⟨Nat.le_trans h1.next h2.next, ?_, ?_, ?_, ?_, ?_⟩
  · intro a ha hb
    have hag : a ∉ g := by
      intro h
      rcases h1.sub a h with h | h
      · exact ha h
      · omega
    have := h2.frame a (fun h => hag (hfg a h)) (Nat.lt_of_lt_of_le hb h1.next)
    have h' := h1.frame a ha hb
    exact ⟨this.1.trans h'.1, this.2.trans h'.2⟩
  · intro a ha
    by_cases hm : a ∈ f2 ∨ m1.next ≤ a
    · rw [h2.live a hm, List.mem_append]
      constructor
      · exact Or.inl
      · rintro (h | h)
        · exact h
        · exfalso
          rcases hm with hm | hm
          · exact hef a h hm
          · have := h1.bound a (heg a h); omega
    · have hnf : a ∉ f2 := fun h => hm (Or.inl h)
      have hlt : a < m1.next := by
        rcases Nat.lt_or_ge a m1.next with h | h
        · exact h
        · exact absurd (Or.inr h) hm
      have hfr := h2.frame a hnf hlt
      have hlive : m2.Live a ↔ m1.Live a := by unfold Mem.Live; rw [hfr.1, hfr.2]
      rw [hlive, h1.live a ha, List.mem_append]
      constructor
      · intro h
        rcases hge a h with h | h
        · exact absurd h hnf
        · exact Or.inr h
      · rintro (h | h)
        · exact absurd (h2.sub a h) hm
        · exact heg a h
  · rw [List.nodup_append]
    refine ⟨h2.nodup, hne, ?_⟩
    intro a ha b hb hab
    subst hab
    rcases h2.sub a ha with h | h
    · exact hef a hb h
    · have := h1.bound a (heg a hb); omega
  · intro a ha
    rcases List.mem_append.1 ha with h | h
    · rcases h2.sub a h with h | h
      · exact h1.sub a (hfg a h)
      · exact Or.inr (Nat.le_trans h1.next h)
    · exact h1.sub a (heg a h)
  · intro a ha
    rcases List.mem_append.1 ha with h | h
    · exact h2.bound a h
    · exact Nat.lt_of_lt_of_le (h1.bound a (heg a h)) h2.next

theorem Local.trans {m m1 m2 : Mem} {f g h : List Addr} (h1 : Local m m1 f g) (h2 : Local m1 m2 g h) : Local m m2 f h := by
  have := h1.step (e := []) h2 (by simp)
  simpa using this

/-! ### The elementary changes -/

theorem live_putObj (m : Mem) (l : Addr) (o : Obj) (a : Addr) : (m.putObj l o).Live a ↔ a = l ∨ m.Live a := by
  unfold Mem.Live Mem.putObj
  by_cases h : a = l <;> simp [h]

theorem Local.putObj {m : Mem} {l : Addr} {o : Obj} (hb : m.Bounded) (hl : l < m.next) : Local m (m.putObj l o) [l] [l] where
  next := Nat.le_refl _
  frame := by
    intro a ha _
    have : a ≠ l := by simpa using ha
    simp [Mem.putObj, this]
  live := by
    intro a ha
    rw [live_putObj]
    constructor
    · rintro (h | h)
      · simp [h]
      · rcases ha with ha | ha
        · exact ha
        · exact absurd h (hb a ha)
    · intro h; exact Or.inl (by simpa using h)
  nodup := by simp
  sub := fun a ha => Or.inl ha
  bound := by
    intro a ha
    have : a = l := by simpa using ha
    subst this; exact hl

/-- A new object. -/
theorem Local.newObj {m : Mem} {o : Obj} (hb : m.Bounded) : Local m (m.alloc.putObj m.next o) [] [m.next] where
  next := Nat.le_succ _
  frame := by
    intro a _ h
    have : a ≠ m.next := by omega
    simp [Mem.putObj, Mem.alloc, this]
  live := by
    intro a ha
    rw [live_putObj]
    constructor
    · rintro (h | h)
      · simp [h]
      · rcases ha with ha | ha
        · simp at ha
        · exact absurd h (hb a ha)
    · intro h; exact Or.inl (by simpa using h)
  nodup := by simp
  sub := by
    intro a ha
    have : a = m.next := by simpa using ha
    right; omega
  bound := by
    intro a ha
    have : a = m.next := by simpa using ha
    subst this; exact Nat.lt_succ_self _

/-- A new payload. -/
theorem Local.newCell {m : Mem} {c : Cell} (hb : m.Bounded) : Local m (m.alloc.putCell m.next c) [] [m.next] where
  next := Nat.le_succ _
  frame := by
    intro a _ h
    have : a ≠ m.next := by omega
    simp [Mem.putCell, Mem.alloc, this]
  live := by
    intro a ha
    by_cases h : a = m.next
    · subst h; simp [Mem.Live, Mem.putCell]
    · have hd : ¬ m.Live a := by
        rcases ha with ha | ha
        · simp at ha
        · exact hb a ha
      have : (m.alloc.putCell m.next c).Live a ↔ m.Live a := by
        simp [Mem.Live, Mem.putCell, Mem.alloc, h]
      rw [this]; simp [h, hd]
  nodup := by simp
  sub := by
    intro a ha
    have : a = m.next := by simpa using ha
    right; omega
  bound := by
    intro a ha
    have : a = m.next := by simpa using ha
    subst this; exact Nat.lt_succ_self _

/-- Memory is set aside. -/
theorem Local.alloc {m : Mem} (hb : m.Bounded) : Local m m.alloc [] [] where
  next := Nat.le_succ _
  frame := fun _ _ _ => ⟨rfl, rfl⟩
  live := by
    intro a ha
    rcases ha with ha | ha
    · simp at ha
    · simpa [Mem.Live, Mem.alloc] using hb a ha
  nodup := by simp
  sub := by simp
  bound := by simp

theorem Local.dropObj {m : Mem} {l : Addr} (hb : m.Bounded) (hc : m.cell l = none) : Local m (m.dropObj l) [l] [] where
  next := Nat.le_refl _
  frame := by
    intro a ha _
    have : a ≠ l := by simpa using ha
    simp [Mem.dropObj, this]
  live := by
    intro a ha
    simp only [List.not_mem_nil, iff_false]
    by_cases h : a = l
    · subst h; simp [Mem.Live, Mem.dropObj, hc]
    · have : ¬ m.Live a := by
        rcases ha with ha | ha
        · exact absurd (by simpa using ha) h
        · exact hb a ha
      simpa [Mem.Live, Mem.dropObj, h] using this
  nodup := by simp
  sub := by simp
  bound := by simp

theorem Local.dropCell {m : Mem} {p : Addr} (hb : m.Bounded) (hc : m.obj p = none) : Local m (m.dropCell p) [p] [] where
  next := Nat.le_refl _
  frame := by
    intro a ha _
    have : a ≠ p := by simpa using ha
    simp [Mem.dropCell, this]
  live := by
    intro a ha
    simp only [List.not_mem_nil, iff_false]
    by_cases h : a = p
    · subst h; simp [Mem.Live, Mem.dropCell, hc]
    · have : ¬ m.Live a := by
        rcases ha with ha | ha
        · exact absurd (by simpa using ha) h
        · exact hb a ha
      simpa [Mem.Live, Mem.dropCell, h] using this
  nodup := by simp
  sub := by simp
  bound := by simp

theorem Local.putCell {m : Mem} {p : Addr} {c : Cell} (hb : m.Bounded) (hp : p < m.next) : Local m (m.putCell p c) [p] [p] where
  next := Nat.le_refl _
  frame := by
    intro a ha _
    have : a ≠ p := by simpa using ha
    simp [Mem.putCell, this]
  live := by
    intro a ha
    by_cases h : a = p
    · subst h; simp [Mem.Live, Mem.putCell]
    · have : ¬ m.Live a := by
        rcases ha with ha | ha
        · exact absurd (by simpa using ha) h
        · exact hb a ha
      have h2 : ¬ (m.putCell p c).Live a := by simpa [Mem.Live, Mem.putCell, h] using this
      simp [h, h2]
  nodup := by simp
  sub := fun a ha => Or.inl ha
  bound := by
    intro a ha
    have : a = p := by simpa using ha
    subst this; exact hp

/-! ## Holding -/

mutual
theorem Holds.congr {m m' : Mem} : ∀ {v : Val} {l : Addr} {f : List Addr}, Holds m v l f → Agree m m' f → Holds m' v l f
  | .empty, l, f, h, ha => by
    unfold Holds at h ⊢
    obtain ⟨h1, h2, rfl⟩ := h
    have := ha l (by simp)
    exact ⟨this.1.trans h1, this.2.trans h2, rfl⟩
  | .plain k d, l, f, h, ha => by
    unfold Holds at h ⊢
    obtain ⟨hk, h1, h2, rfl⟩ := h
    have := ha l (by simp)
    exact ⟨hk, this.1.trans h1, this.2.trans h2, rfl⟩
  | .box k d ks, l, f, h, ha => by
    unfold Holds at h ⊢
    obtain ⟨hk, p, ls, f, h1, h2, h3, h4, h5, rfl⟩ := h
    have hl := ha l (by simp)
    have hp := ha p (by simp)
    exact ⟨hk, p, ls, f, hl.1.trans h1, hl.2.trans h2, hp.2.trans h3, hp.1.trans h4,
      HoldsAll.congr h5 (fun a h => ha a (by simp [h])), rfl⟩
theorem HoldsAll.congr {m m' : Mem} : ∀ {vs : List Val} {ls f : List Addr}, HoldsAll m vs ls f → Agree m m' f → HoldsAll m' vs ls f
  | [], ls, f, h, _ => by unfold HoldsAll at h ⊢; exact h
  | v :: vs, ls, f, h, ha => by
    unfold HoldsAll at h ⊢
    obtain ⟨l, ls', f1, g, rfl, h1, h2, rfl⟩ := h
    exact ⟨l, ls', f1, g, rfl, Holds.congr h1 (fun a h => ha a (by simp [h])),
      HoldsAll.congr h2 (fun a h => ha a (by simp [h])), rfl⟩
end

mutual
theorem Holds.live {m : Mem} : ∀ {v : Val} {l : Addr} {f : List Addr}, Holds m v l f → ∀ a ∈ f, m.Live a
  | .empty, l, f, h, a, ha => by
    unfold Holds at h
    obtain ⟨h1, _, rfl⟩ := h
    have : a = l := by simpa using ha
    subst this; left; simp [h1]
  | .plain k d, l, f, h, a, ha => by
    unfold Holds at h
    obtain ⟨_, h1, _, rfl⟩ := h
    have : a = l := by simpa using ha
    subst this; left; simp [h1]
  | .box k d ks, l, f, h, a, ha => by
    unfold Holds at h
    obtain ⟨hk, p, ls, f, h1, h2, h3, h4, h5, rfl⟩ := h
    simp only [List.mem_cons] at ha
    rcases ha with ha | ha | ha
    · subst ha; left; simp [h1]
    · subst ha; right; simp [h3]
    · exact HoldsAll.live h5 a ha
theorem HoldsAll.live {m : Mem} : ∀ {vs : List Val} {ls f : List Addr}, HoldsAll m vs ls f → ∀ a ∈ f, m.Live a
  | [], ls, f, h, a, ha => by unfold HoldsAll at h; rw [h.2] at ha; simp at ha
  | v :: vs, ls, f, h, a, ha => by
    unfold HoldsAll at h
    obtain ⟨l, ls', f1, g, rfl, h1, h2, rfl⟩ := h
    rcases List.mem_append.1 ha with ha | ha
    · exact Holds.live h1 a ha
    · exact HoldsAll.live h2 a ha
end

theorem Holds.head {m : Mem} {v : Val} {l : Addr} {f : List Addr} (h : Holds m v l f) : ∃ f', f = l :: f' := by
  cases v with
  | empty => unfold Holds at h; exact ⟨[], h.2.2⟩
  | plain k d => unfold Holds at h; exact ⟨[], h.2.2.2⟩
  | box k d ks => unfold Holds at h; obtain ⟨hk, p, ls, f, h1, h2, h3, h4, h5, rfl⟩ := h; exact ⟨_, rfl⟩

theorem Holds.mem {m : Mem} {v : Val} {l : Addr} {f : List Addr} (h : Holds m v l f) : l ∈ f := by
  obtain ⟨f', rfl⟩ := h.head; simp

theorem Holds.bound {m : Mem} {v : Val} {l : Addr} {f : List Addr} (h : Holds m v l f) (hb : m.Bounded) : ∀ a ∈ f, a < m.next := by
  intro a ha
  rcases Nat.lt_or_ge a m.next with h' | h'
  · exact h'
  · exact absurd (h.live a ha) (hb a h')

theorem HoldsAll.bound {m : Mem} {v : List Val} {l : List Addr} {f : List Addr} (h : HoldsAll m v l f) (hb : m.Bounded) : ∀ a ∈ f, a < m.next := by
  intro a ha
  rcases Nat.lt_or_ge a m.next with h' | h'
  · exact h'
  · exact absurd (h.live a ha) (hb a h')

theorem Holds.cell {m : Mem} {v : Val} {l : Addr} {f : List Addr} (h : Holds m v l f) : m.cell l = none := by
  cases v with
  | empty => unfold Holds at h; exact h.2.1
  | plain k d => unfold Holds at h; exact h.2.2.1
  | box k d ks => unfold Holds at h; obtain ⟨hk, p, ls, f, h1, h2, h3, h4, h5, rfl⟩ := h; exact h2

mutual
/-- The memory determines which addresses a value uses. -/
theorem Holds.fp_unique {m : Mem} : ∀ {v : Val} {l : Addr} {f g : List Addr}, Holds m v l f → Holds m v l g → f = g
  | .empty, l, f, g, h, h' => by unfold Holds at h h'; rw [h.2.2, h'.2.2]
  | .plain k d, l, f, g, h, h' => by unfold Holds at h h'; rw [h.2.2.2, h'.2.2.2]
  | .box k d ks, l, f, g, h, h' => by
    unfold Holds at h h'
    obtain ⟨_, p, ls, f, h1, _, h3, _, h5, rfl⟩ := h
    obtain ⟨_, p', ls', f', h1', _, h3', _, h5', rfl⟩ := h'
    rw [h1] at h1'
    simp only [Option.some.injEq, Obj.mk.injEq, Word.ptr.injEq, true_and] at h1'
    subst h1'
    rw [h3] at h3'
    simp only [Option.some.injEq, Cell.mk.injEq, true_and] at h3'
    subst h3'
    rw [HoldsAll.fp_unique h5 h5']
theorem HoldsAll.fp_unique {m : Mem} : ∀ {vs : List Val} {ls f g : List Addr}, HoldsAll m vs ls f → HoldsAll m vs ls g → f = g
  | [], ls, f, g, h, h' => by unfold HoldsAll at h h'; rw [h.2, h'.2]
  | v :: vs, ls, f, g, h, h' => by
    unfold HoldsAll at h h'
    obtain ⟨l, ls1, f1, f2, rfl, h1, h2, rfl⟩ := h
    obtain ⟨l', ls1', g1, g2, he, h1', h2', rfl⟩ := h'
    simp only [List.cons.injEq] at he
    obtain ⟨rfl, rfl⟩ := he
    rw [Holds.fp_unique h1 h1', HoldsAll.fp_unique h2 h2']
end

/-! ## `clear` and destructors -/

theorem setTy_eq (k : Mb) : setTy k = typeOf k := by cases k <;> rfl
theorem clearArm_typeOf (k : Mb) : clearArm (typeOf k) = some k := by cases k <;> rfl
theorem copyArm_typeOf (k : Mb) : copyArm (typeOf k) = some k := by cases k <;> rfl
theorem moveArm_typeOf (k : Mb) : moveArm (typeOf k) = some k := by cases k <;> rfl
theorem assignArm_typeOf (k : Mb) : assignArm (typeOf k) = some k := by cases k <;> rfl
theorem moveAssignArm_typeOf (k : Mb) : moveAssignArm (typeOf k) = some k := by cases k <;> rfl
theorem embedded_eq (k : Mb) : embedded k = ownValues k := by cases k <;> rfl

theorem putObj_obj (m : Mem) (l : Addr) (o : Obj) : (m.putObj l o).obj l = some o := by simp [Mem.putObj]
theorem putObj_obj_ne (m : Mem) {l a : Addr} (o : Obj) (h : a ≠ l) : (m.putObj l o).obj a = m.obj a := by simp [Mem.putObj, h]
theorem putObj_cell (m : Mem) (l a : Addr) (o : Obj) : (m.putObj l o).cell a = m.cell a := rfl

mutual
theorem clear_spec : ∀ {v : Val} {m : Mem} {l : Addr} {f : List Addr}, Holds m v l f → f.Nodup → m.Bounded →
    ∃ m', clear m l = some m' ∧ Holds m' .empty l [l] ∧ Local m m' f [l]
  | .empty, m, l, f, h, hn, hb => by
    have h0 := h
    unfold Holds at h
    obtain ⟨h1, h2, rfl⟩ := h
    refine ⟨m, ?_, h0, Local.refl hb hn h0.live⟩
    rw [clear]; simp [h1, clearArm]
  | .plain k d, m, l, f, h, hn, hb => by
    have h0 := h
    unfold Holds at h
    obtain ⟨hk, h1, h2, rfl⟩ := h
    refine ⟨m.putObj l ⟨.empty, .none⟩, ?_, ?_, Local.putObj hb (h0.bound hb l (by simp))⟩
    · rw [clear]; simp only [h1, Option.bind_eq_bind, Option.bind_some, clearArm_typeOf]
      rw [destruct]; simp [hk, h1]
    · unfold Holds; exact ⟨putObj_obj .., h2, rfl⟩
  | .box k d ks, m, l, f, h, hn, hb => by
    have h0 := h
    unfold Holds at h
    obtain ⟨hk, p, ls, f, h1, h2, h3, h4, h5, rfl⟩ := h
    have hnf : f.Nodup := (List.nodup_cons.1 (List.nodup_cons.1 hn).2).2
    obtain ⟨m1, e1, L1⟩ := destroyAll_spec h5 hnf hb
    have hL := (Local.refl hb hn h0.live).step (e := [l, p]) L1 (by
      refine (List.perm_append_comm (l₁ := [l, p]) (l₂ := f)))
    simp only [List.nil_append] at hL
    have hlp : l ≠ p := fun h => (List.nodup_cons.1 hn).1 (by simp [h])
    have hpf : p ∉ f := (List.nodup_cons.1 (List.nodup_cons.1 hn).2).1
    have hlf : l ∉ f := fun h => (List.nodup_cons.1 hn).1 (by simp [h])
    have fp := L1.frame p hpf (h0.bound hb p (by simp))
    have fl := L1.frame l hlf (h0.bound hb l (by simp))
    have hL2 := hL.step (e := [l]) (Local.dropCell (p := p) hL.bounded (by rw [fp.1, h4])) (List.Perm.swap ..)
    simp only [List.nil_append] at hL2
    have hL3 := hL2.trans (Local.putObj (l := l) (o := ⟨.empty, .none⟩) hL2.bounded (hL2.bound l (by simp)))
    refine ⟨(m1.dropCell p).putObj l ⟨.empty, .none⟩, ?_, ?_, hL3⟩
    · rw [clear]
      simp only [h1, Option.bind_eq_bind, Option.bind_some, clearArm_typeOf]
      rw [destruct]
      simp only [hk, and_self, if_true]
      rw [deletePayload]
      simp only [h3, Option.bind_eq_bind, Option.bind_some, if_true, e1]
      have : (m1.dropCell p).obj l = some ⟨typeOf k, .ptr k (some p)⟩ := by
        show m1.obj l = _
        rw [fl.1, h1]
      simp [this]
    · unfold Holds
      refine ⟨putObj_obj .., ?_, rfl⟩
      show (m1.dropCell p).cell l = none
      simp [Mem.dropCell, hlp, fl.2, h2]
theorem destroyAll_spec : ∀ {vs : List Val} {m : Mem} {ls f : List Addr}, HoldsAll m vs ls f → f.Nodup → m.Bounded →
    ∃ m', destroyAll m ls = some m' ∧ Local m m' f []
  | [], m, ls, f, h, hn, hb => by
    unfold HoldsAll at h
    obtain ⟨rfl, rfl⟩ := h
    exact ⟨m, by rw [destroyAll], Local.refl hb hn (by simp)⟩
  | v :: vs, m, ls, f, h, hn, hb => by
    have h0 := h
    unfold HoldsAll at h
    obtain ⟨l, ls', f, g, rfl, h1, h2, rfl⟩ := h
    have hn' := List.nodup_append.1 hn
    obtain ⟨m1, e1, H1, L1⟩ := clear_spec h1 hn'.1 hb
    have hL := (Local.refl hb hn h0.live).step (e := g) L1 (List.Perm.refl _)
    have hL2 := hL.step (e := g) (Local.dropObj (l := l) hL.bounded H1.cell) (List.Perm.refl _)
    simp only [List.nil_append] at hL2
    have hg : Agree m (m1.dropObj l) g := by
      intro a ha
      have hal : a ≠ l := by
        intro h
        subst h
        exact hn'.2.2 a h1.mem a ha rfl
      have := L1.frame a (fun h => hn'.2.2 a h a ha rfl) (h2.bound hb a ha)
      simp [Mem.dropObj, hal, this.1, this.2]
    obtain ⟨m2, e2, L2⟩ := destroyAll_spec (h2.congr hg) hn'.2.1 hL2.bounded
    exact ⟨m2, by rw [destroyAll]; simp [e1, e2], hL2.trans L2⟩
end

/-! ## Copies -/

/-- The member in which a value lives. -/
def Val.kind : Val → Option Mb
  | .empty => none
  | .plain k _ => some k
  | .box k _ _ => some k

theorem Holds.ty {m : Mem} {v : Val} {l : Addr} {f : List Addr} (h : Holds m v l f) :
    ∃ o, m.obj l = some o ∧ o.ty = (match v.kind with | none => .empty | some k => typeOf k) := by
  cases v with
  | empty => unfold Holds at h; exact ⟨_, h.1, rfl⟩
  | plain k d => unfold Holds at h; exact ⟨_, h.2.1, rfl⟩
  | box k d ks => unfold Holds at h; obtain ⟨hk, p, ls, f, h1, h2, h3, h4, h5, rfl⟩ := h; exact ⟨_, h1, rfl⟩

/-- Memory that was set aside is now in use. -/
theorem Local.ofAlloc {m m1 : Mem} {g : List Addr} (h : Local m.alloc m1 [m.next] g) : Local m m1 [] g where
  next := Nat.le_trans (Nat.le_succ _) h.next
  frame := by
    intro a _ hb
    have : a ≠ m.next := by omega
    exact h.frame a (by simpa using this) (Nat.lt_succ_of_lt hb)
  live := by
    intro a ha
    have ha : m.next ≤ a := by simpa using ha
    apply h.live
    by_cases he : a = m.next
    · left; simp [he]
    · right; show m.next + 1 ≤ a; omega
  nodup := h.nodup
  sub := by
    intro a ha
    right
    rcases h.sub a ha with h | h
    · have : a = m.next := by simpa using h
      omega
    · have : m.next + 1 ≤ a := h
      omega
  bound := h.bound

/-- The copy of the value by `set...` works. -/
def CopyOk (v : Val) : Prop :=
  ∀ (m : Mem) (l r : Addr) (f : List Addr) (k : Mb), v.kind = some k → Holds m v r f → l ∉ f → l < m.next → m.cell l = none →
    m.Bounded → ∃ m' f', setCopy m l k r = some m' ∧ Holds m' v l f' ∧ Local m m' [l] f'

theorem copyCtor_of {v : Val} (hv : CopyOk v) {m : Mem} {l r : Addr} {f : List Addr} (h : Holds m v r f) (hl : l ∉ f)
    (hlt : l < m.next) (hc : m.cell l = none) (hb : m.Bounded) :
    ∃ m' f', copyCtor m l r = some m' ∧ Holds m' v l f' ∧ Local m m' [l] f' := by
  have hlr : l ≠ r := fun e => hl (e ▸ h.mem)
  have L0 : Local m (m.putObj l ⟨.empty, .none⟩) [l] [l] := Local.putObj hb hlt
  have h' : Holds (m.putObj l ⟨.empty, .none⟩) v r f :=
    h.congr (L0.agree (fun a ha => by simpa using fun e : a = l => hl (e ▸ ha)) (h.bound hb))
  obtain ⟨o, ho, hty⟩ := h'.ty
  cases hk : v.kind with
  | none =>
    refine ⟨m.putObj l ⟨.empty, .none⟩, [l], ?_, ?_, L0⟩
    · rw [copyCtor]; simp [hlr, ho, hty, hk, copyArm]
    · cases v with
      | empty => unfold Holds; exact ⟨putObj_obj .., hc, rfl⟩
      | plain k d => simp [Val.kind] at hk
      | box k d ks => simp [Val.kind] at hk
  | some k =>
    obtain ⟨m', f', e, H, L⟩ := hv _ l r f k hk h' hl hlt hc L0.bounded
    refine ⟨m', f', ?_, H, L0.trans L⟩
    rw [copyCtor]; simp [hlr, ho, hty, hk, copyArm_typeOf, e]

mutual
theorem setCopy_spec : ∀ v : Val, CopyOk v
  | .empty => by intro m l r f k hk; simp [Val.kind] at hk
  | .plain k d => by
    intro m l r f k' hk h hl hlt hc hb
    simp only [Val.kind, Option.some.injEq] at hk
    subst hk
    have hlr : r ≠ l := fun e => hl (e ▸ h.mem)
    unfold Holds at h
    obtain ⟨hk, h1, h2, rfl⟩ := h
    refine ⟨(m.putObj l ⟨setTy k, .none⟩).putObj l ⟨setTy k, .plain k d⟩, [l], ?_, ?_, ?_⟩
    · rw [setCopy]; simp [putObj_obj_ne _ _ hlr, h1, hk]
    · unfold Holds; exact ⟨hk, by rw [putObj_obj, setTy_eq], hc, rfl⟩
    · exact (Local.putObj hb hlt).trans (Local.putObj (Local.putObj hb hlt).bounded hlt)
  | .box k d ks => by
    intro m l r f k' hk h hl hlt hc hb
    simp only [Val.kind, Option.some.injEq] at hk
    subst hk
    have hlr : r ≠ l := fun e => hl (e ▸ h.mem)
    have L0 : Local m (m.putObj l ⟨setTy k, .none⟩) [l] [l] := Local.putObj hb hlt
    have h' : Holds (m.putObj l ⟨setTy k, .none⟩) (.box k d ks) r f :=
      h.congr (L0.agree (fun a ha => by simpa using fun e : a = l => hl (e ▸ ha)) (h.bound hb))
    unfold Holds at h'
    obtain ⟨hk, p, ls, f, h1, h2, h3, h4, h5, rfl⟩ := h'
    obtain ⟨m1, ls', f', e1, H1, L1⟩ := copyAll_spec ks (m.putObj l ⟨setTy k, .none⟩) ls f h5 L0.bounded
    have La := L0.step (e := [l]) L1 (by simp)
    have Lb := La.step (e := f' ++ [l]) (Local.newCell (c := ⟨k, d, ls'⟩) La.bounded) (by simp)
    have Lc := Lb.step (e := m1.next :: f') (Local.putObj (l := l) (o := ⟨setTy k, .ptr k (some m1.next)⟩) Lb.bounded
      (Lb.bound l (by simp))) (by
        show ([m1.next] ++ (f' ++ [l])).Perm ([l] ++ (m1.next :: f'))
        exact (List.perm_append_comm (l₁ := m1.next :: f') (l₂ := [l])))
    have hnd := List.nodup_append.1 La.nodup
    have fl := L1.frame l (by simp) hlt
    have hlq : l ≠ m1.next := by have := La.bound l (by simp); omega
    refine ⟨_, l :: m1.next :: f', ?_, ?_, Lc⟩
    · rw [setCopy]; simp only [Option.bind_eq_bind, h1, Option.bind_some, hk, and_self, if_true]
      rw [copyPayload]; simp [h3, e1]
    · unfold Holds
      refine ⟨hk, m1.next, ls', f', by rw [putObj_obj, setTy_eq], ?_, ?_, ?_, ?_, rfl⟩
      · simp [putObj_cell, Mem.putCell, Mem.alloc, hlq, fl.2, hc]
      · simp [putObj_cell, Mem.putCell]
      · rw [putObj_obj_ne _ _ (Ne.symm hlq)]
        have := La.bounded m1.next (Nat.le_refl _)
        simp only [Mem.Live, not_or, Decidable.not_not] at this
        simpa [Mem.putCell, Mem.alloc] using this.1
      · refine H1.congr ?_
        intro a ha
        have hal : a ≠ l := fun e => hnd.2.2 a ha l (by simp) e
        have haq : a ≠ m1.next := by
          have := L1.bound a ha
          omega
        simp [Mem.putObj, Mem.putCell, Mem.alloc, hal, haq]
theorem copyAll_spec : ∀ (vs : List Val) (m : Mem) (rs f : List Addr), HoldsAll m vs rs f → m.Bounded →
    ∃ m' ls f', copyAll m rs = some (m', ls) ∧ HoldsAll m' vs ls f' ∧ Local m m' [] f'
  | [], m, rs, f, h, hb => by
    unfold HoldsAll at h
    obtain ⟨rfl, rfl⟩ := h
    exact ⟨m, [], [], by rw [copyAll], by unfold HoldsAll; exact ⟨rfl, rfl⟩, Local.refl hb (by simp) (by simp)⟩
  | v :: vs, m, rs, f, h, hb => by
    unfold HoldsAll at h
    obtain ⟨r, rs', f, g, rfl, h1, h2, rfl⟩ := h
    have hba : m.alloc.Bounded := by
      intro a ha
      exact hb a (Nat.le_of_succ_le ha)
    have hnx := hb m.next (Nat.le_refl _)
    simp only [Mem.Live, not_or, Decidable.not_not] at hnx
    obtain ⟨m1, f1, e1, H1, L1⟩ := copyCtor_of (setCopy_spec v) (m := m.alloc) (l := m.next)
      (h1.congr (fun a _ => ⟨rfl, rfl⟩)) (fun hm => by have := h1.bound hb _ hm; omega) (Nat.lt_succ_self _) hnx.2 hba
    have L1' := L1.ofAlloc
    have h2' : HoldsAll m1 vs rs' g := h2.congr (L1'.agree (by simp) (h2.bound hb))
    obtain ⟨m2, ls, f2, e2, H2, L2⟩ := copyAll_spec vs m1 rs' g h2' L1'.bounded
    have L := L1'.step (e := f1) L2 (by simp)
    refine ⟨m2, m.next :: ls, f1 ++ f2, ?_, ?_, L.perm (List.Perm.refl _) List.perm_append_comm⟩
    · rw [copyAll]; simp [e1, e2]
    · unfold HoldsAll
      exact ⟨m.next, ls, f1, f2, rfl, H1.congr (L2.agree (by simp) (H1.bound L1'.bounded)), H2, rfl⟩
end

theorem Bounded.alloc {m : Mem} (hb : m.Bounded) : m.alloc.Bounded := fun a ha => hb a (Nat.le_of_succ_le ha)

theorem Bounded.next {m : Mem} (hb : m.Bounded) : m.obj m.next = none ∧ m.cell m.next = none := by
  have hnx := hb m.next (Nat.le_refl _)
  simpa only [Mem.Live, not_or, Decidable.not_not] using hnx

/-- A new variable made by the copy constructor. -/
theorem copyCtor_spec {v : Val} {m : Mem} {r : Addr} {f : List Addr} (h : Holds m v r f) (hb : m.Bounded) :
    ∃ m' f', copyCtor m.alloc m.next r = some m' ∧ Holds m' v m.next f' ∧ Local m m' [] f' := by
  obtain ⟨m1, f1, e1, H1, L1⟩ := copyCtor_of (setCopy_spec v) (m := m.alloc) (l := m.next)
    (h.congr (fun a _ => ⟨rfl, rfl⟩)) (fun hm => by have := h.bound hb _ hm; omega) (Nat.lt_succ_self _) (Bounded.next hb).2
    (Bounded.alloc hb)
  exact ⟨m1, f1, e1, H1, L1.ofAlloc⟩

/-! ## Moves -/

theorem moveInto_spec {arm : Ty → Option Mb} (ha0 : arm .empty = none) (ha1 : ∀ k, arm (typeOf k) = some k) {v : Val} {m : Mem}
    {l r : Addr} {f : List Addr} (h : Holds m v r f) (hn : f.Nodup) (hl : l ∉ f) (he : Holds m .empty l [l]) (hb : m.Bounded) :
    ∃ m' g, moveInto arm m l r = some m' ∧ Holds m' v l g ∧ Holds m' .empty r [r] ∧ Local m m' (l :: f) (g ++ [r]) := by
  have hlr : l ≠ r := fun e => hl (e ▸ h.mem)
  have hrl : r ≠ l := Ne.symm hlr
  have hlt : l < m.next := he.bound hb l (by simp)
  have R : Local m m (l :: f) (l :: f) := Local.refl hb (List.nodup_cons.2 ⟨hl, hn⟩) (by
    intro a ha
    rcases List.mem_cons.1 ha with ha | ha
    · subst ha; exact he.live a (by simp)
    · exact h.live a ha)
  have hrc := h.cell
  cases v with
  | empty =>
    have h0 := h
    unfold Holds at h
    obtain ⟨h1, h2, rfl⟩ := h
    exact ⟨m, [l], by simp [moveInto, h1, ha0], he, h0, R⟩
  | plain k d =>
    have h0 := h
    unfold Holds at h
    obtain ⟨hk, h1, h2, rfl⟩ := h
    have L0 := R.step (e := [r]) (Local.putObj (l := l) (o := ⟨setTy k, .plain k d⟩) hb hlt) (by simp)
    have h0' : Holds (m.putObj l ⟨setTy k, .plain k d⟩) (.plain k d) r [r] := by
      unfold Holds; exact ⟨hk, by rw [putObj_obj_ne _ _ hrl, h1], h2, rfl⟩
    obtain ⟨m1, e1, H1, L1⟩ := clear_spec h0' (by simp) L0.bounded
    have L := L0.step (e := [l]) L1 (List.Perm.swap ..)
    refine ⟨m1, [l], ?_, ?_, H1, L.perm (List.Perm.refl _) (List.Perm.swap ..)⟩
    · simp [moveInto, h1, ha1, hk, e1]
    · have := L1.frame l (by simpa using hlr) hlt
      unfold Holds
      exact ⟨hk, by rw [this.1, putObj_obj, setTy_eq], by rw [this.2]; exact he.cell, rfl⟩
  | box k d ks =>
    have h0 := h
    unfold Holds at h
    obtain ⟨hk, p, ls, f, h1, h2, h3, h4, h5, rfl⟩ := h
    have hnp := List.nodup_cons.1 hn
    have hnf := List.nodup_cons.1 hnp.2
    have hrt : r < m.next := h0.bound hb r (by simp)
    have hpl : p ≠ l := fun e => hl (by simp [e])
    have hpr : p ≠ r := fun e => hnp.1 (by simp [e])
    have L0 := R.step (e := r :: p :: f) (Local.putObj (l := l) (o := ⟨setTy k, .ptr k (some p)⟩) hb hlt) (by simp)
    have L1 := L0.step (e := l :: p :: f) (Local.putObj (l := r) (o := ⟨typeOf k, .ptr k none⟩) L0.bounded hrt)
      (List.Perm.swap ..)
    have L2 := L1.step (e := l :: p :: f) (Local.putObj (l := r) (o := ⟨.empty, .none⟩) L1.bounded hrt) (by simp)
    refine ⟨((m.putObj l ⟨setTy k, .ptr k (some p)⟩).putObj r ⟨typeOf k, .ptr k none⟩).putObj r ⟨.empty, .none⟩,
      l :: p :: f, ?_, ?_, ?_, L2.perm (List.Perm.refl _) (List.perm_append_comm (l₁ := [r]))⟩
    · simp only [moveInto, h1, Option.bind_eq_bind, Option.bind_some, ha1, hk, and_self, if_true]
      rw [clear]
      simp only [putObj_obj, Option.bind_eq_bind, Option.bind_some, clearArm_typeOf]
      rw [destruct]; simp [hk, putObj_obj]
    · unfold Holds
      refine ⟨hk, p, ls, f, ?_, he.cell, h3, ?_, ?_, rfl⟩
      · rw [putObj_obj_ne _ _ hlr, putObj_obj_ne _ _ hlr, putObj_obj, setTy_eq]
      · rw [putObj_obj_ne _ _ hpr, putObj_obj_ne _ _ hpr, putObj_obj_ne _ _ hpl, h4]
      · refine h5.congr ?_
        intro a ha
        have h1 : a ≠ l := fun e => hl (by simp [← e, ha])
        have h2 : a ≠ r := fun e => hnp.1 (by simp [← e, ha])
        exact ⟨by rw [putObj_obj_ne _ _ h2, putObj_obj_ne _ _ h2, putObj_obj_ne _ _ h1], rfl⟩
    · unfold Holds
      exact ⟨putObj_obj .., hrc, rfl⟩

/-- A new variable made by the move constructor. -/
theorem moveCtor_spec {v : Val} {m : Mem} {r : Addr} {f : List Addr} (h : Holds m v r f) (hn : f.Nodup) (hb : m.Bounded) :
    ∃ m' g, moveCtor m.alloc m.next r = some m' ∧ Holds m' v m.next g ∧ Holds m' .empty r [r] ∧ Local m m' f (g ++ [r]) := by
  have L0 : Local m (m.alloc.putObj m.next ⟨.empty, .none⟩) [] [m.next] := Local.newObj hb
  have hl : m.next ∉ f := fun hm => by have := h.bound hb _ hm; omega
  have hne : m.next ≠ r := fun e => hl (e ▸ h.mem)
  obtain ⟨m1, g, e1, H1, H2, L1⟩ := moveInto_spec (arm := moveArm) rfl moveArm_typeOf
    (h.congr (L0.agree (by simp) (h.bound hb))) hn hl
    (by unfold Holds; exact ⟨putObj_obj .., (Bounded.next hb).2, rfl⟩) L0.bounded
  have R := (Local.refl hb hn h.live).step (e := f) L0 (by simp)
  refine ⟨m1, g, ?_, H1, H2, ?_⟩
  · simp [moveCtor, hne, e1]
  · exact R.trans L1

theorem HoldsAll.append {m : Mem} : ∀ {vs ws : List Val} {ls ks f g : List Addr}, HoldsAll m vs ls f → HoldsAll m ws ks g →
    HoldsAll m (vs ++ ws) (ls ++ ks) (f ++ g)
  | [], ws, ls, ks, f, g, h, h' => by unfold HoldsAll at h; obtain ⟨rfl, rfl⟩ := h; exact h'
  | v :: vs, ws, ls, ks, f, g, h, h' => by
    unfold HoldsAll at h
    obtain ⟨l, ls', f1, f2, rfl, h1, h2, rfl⟩ := h
    rw [List.cons_append]
    unfold HoldsAll
    exact ⟨l, ls' ++ ks, f1, f2 ++ g, rfl, h1, HoldsAll.append h2 h', by simp⟩

theorem HoldsAll.split {m : Mem} : ∀ (n : Nat) {vs : List Val} {ls f : List Addr}, HoldsAll m vs ls f →
    ∃ f1 f2, f = f1 ++ f2 ∧ HoldsAll m (vs.take n) (ls.take n) f1 ∧ HoldsAll m (vs.drop n) (ls.drop n) f2
  | 0, vs, ls, f, h => ⟨[], f, rfl, by simp [HoldsAll], by simpa using h⟩
  | n + 1, [], ls, f, h => by
    unfold HoldsAll at h; obtain ⟨rfl, rfl⟩ := h
    exact ⟨[], [], rfl, by simp [HoldsAll], by simp [HoldsAll]⟩
  | n + 1, v :: vs, ls, f, h => by
    unfold HoldsAll at h
    obtain ⟨l, ls', f1, f2, rfl, h1, h2, rfl⟩ := h
    obtain ⟨a, b, rfl, ha, hb⟩ := HoldsAll.split n h2
    refine ⟨f1 ++ a, b, by simp, ?_, by simpa using hb⟩
    simp only [List.take_succ_cons]
    unfold HoldsAll
    exact ⟨l, ls'.take n, f1, a, rfl, h1, ha, rfl⟩

theorem moveAll_spec : ∀ (vs : List Val) (m : Mem) (rs f : List Addr), HoldsAll m vs rs f → f.Nodup → m.Bounded →
    ∃ m' ls g, moveAll m rs = some (m', ls) ∧ HoldsAll m' vs ls g ∧ HoldsAll m' (vs.map fun _ => .empty) rs rs ∧
      Local m m' f (g ++ rs)
  | [], m, rs, f, h, hn, hb => by
    unfold HoldsAll at h
    obtain ⟨rfl, rfl⟩ := h
    exact ⟨m, [], [], rfl, by simp [HoldsAll], by simp [HoldsAll], Local.refl hb (by simp) (by simp)⟩
  | v :: vs, m, rs, f, h, hn, hb => by
    have h0 := h
    unfold HoldsAll at h
    obtain ⟨r, rs', f, g, rfl, h1, h2, rfl⟩ := h
    have hn' := List.nodup_append.1 hn
    obtain ⟨m1, g1, e1, H1, H1', L1⟩ := moveCtor_spec h1 hn'.1 hb
    have h2' : HoldsAll m1 vs rs' g := h2.congr (L1.agree (fun a ha hf => hn'.2.2 a hf a ha rfl) (h2.bound hb))
    obtain ⟨m2, ls, g2, e2, H2, H2', L2⟩ := moveAll_spec vs m1 rs' g h2' hn'.2.1 L1.bounded
    have LA := (Local.refl hb hn h0.live).step (e := g) L1 (List.Perm.refl _)
    have LB := LA.step (e := g1 ++ [r]) L2 List.perm_append_comm
    have hdis := List.nodup_append.1 LA.nodup
    have hag : Agree m1 m2 (g1 ++ [r]) := L2.agree (fun a ha hg => hdis.2.2 a ha a hg rfl) (L1.bound)
    refine ⟨m2, m.next :: ls, g1 ++ g2, by simp [moveAll, e1, e2], ?_, ?_, LB.perm (List.Perm.refl _) ?_⟩
    · unfold HoldsAll
      exact ⟨m.next, ls, g1, g2, rfl, H1.congr (fun a ha => hag a (by simp [ha])), H2, rfl⟩
    · simp only [List.map_cons]
      unfold HoldsAll
      exact ⟨r, rs', [r], rs', rfl, H1'.congr (fun a ha => hag a (by simp at ha; simp [ha])), H2', rfl⟩
    · -- (g2 ++ rs') ++ (g1 ++ [r]) ~ (g1 ++ g2) ++ (r :: rs')
      have h1 : (g2 ++ rs' ++ (g1 ++ [r])).Perm (g1 ++ [r] ++ (g2 ++ rs')) := List.perm_append_comm
      refine h1.trans ?_
      simp only [List.append_assoc]
      refine List.Perm.append_left g1 ?_
      rw [← List.append_assoc, List.singleton_append, List.cons_append]
      exact (List.perm_middle (a := r) (l₁ := g2) (l₂ := rs')).symm

/-- The move constructor of a payload. -/
theorem movePayload_spec {k : Mb} {d : Plain} {ks : List Val} {m : Mem} {r : Addr} {f : List Addr} (h : Holds m (.box k d ks) r f)
    (hn : f.Nodup) (hb : m.Bounded) :
    ∃ p m' q f' ls g, m.obj r = some ⟨typeOf k, .ptr k (some p)⟩ ∧ movePayload m p = some (m', q) ∧
      Holds m' (husk (.box k d ks)) r f' ∧ m'.cell q = some ⟨k, d, ls⟩ ∧ m'.obj q = none ∧ HoldsAll m' ks ls g ∧
      Local m m' f (f' ++ q :: g) := by
  have h0 := h
  unfold Holds at h
  obtain ⟨hk, p, ls, f, h1, h2, h3, h4, h5, rfl⟩ := h
  have hnr := List.nodup_cons.1 hn
  have hnp := List.nodup_cons.1 hnr.2
  obtain ⟨fa, fb, rfl, Ha, Hb⟩ := HoldsAll.split (ownValues k) h5
  have hnab := List.nodup_append.1 hnp.2
  obtain ⟨m1, ls', g, e1, H1, H1', L1⟩ := moveAll_spec _ m _ fa Ha hnab.1 hb
  have LA := (Local.refl hb hn h0.live).step (e := r :: p :: fb) L1 (by
    have : (r :: p :: (fa ++ fb)) = [r, p] ++ fa ++ fb := by simp
    rw [this]
    have h' := (List.perm_append_comm (l₁ := [r, p]) (l₂ := fa)).append_right fb
    simpa using h')
  have hrt := h0.bound hb r (by simp)
  have hpt := h0.bound hb p (by simp)
  have hrfa : r ∉ fa := fun e => hnr.1 (by simp [e])
  have hpfa : p ∉ fa := fun e => hnp.1 (by simp [e])
  have hrp : r ≠ p := fun e => hnr.1 (by simp [e])
  have fr := L1.frame r hrfa hrt
  have fp := L1.frame p hpfa hpt
  have LB := LA.step (e := g ++ ls.take (ownValues k) ++ (r :: fb)) (Local.putCell (p := p)
    (c := ⟨k, ⟨d.nums, []⟩, ls.take (ownValues k)⟩) LA.bounded (Nat.lt_of_lt_of_le hpt L1.next)) (by
      have : (r :: p :: fb) = [r] ++ p :: fb := rfl
      rw [this, ← List.append_assoc]
      exact List.perm_middle.trans (by simp))
  have LC := LB.step (e := [p] ++ (g ++ ls.take (ownValues k) ++ (r :: fb)))
    (Local.newCell (c := ⟨k, d, ls' ++ ls.drop (ownValues k)⟩) LB.bounded) (by simp)
  have hq : (m1.putCell p ⟨k, ⟨d.nums, []⟩, ls.take (ownValues k)⟩).next = m1.next := rfl
  have hlt1 : ∀ a ∈ g ++ ls.take (ownValues k) ++ r :: p :: fb, a < m1.next := LA.bound
  have hnd := LA.nodup
  have hnd2 := List.nodup_append.1 hnd
  have hpg : ∀ a ∈ g ++ ls.take (ownValues k), a ≠ p := fun a ha e => hnd2.2.2 a ha p (by simp) e
  have hpb : ∀ a ∈ fb, a ≠ p := fun a ha e => hnp.1 (by simp [← e, ha])
  have hag : ∀ a, a ≠ p → a < m1.next →
      (((m1.putCell p ⟨k, ⟨d.nums, []⟩, ls.take (ownValues k)⟩).alloc.putCell m1.next ⟨k, d, ls' ++ ls.drop (ownValues k)⟩).obj a = m1.obj a ∧
      ((m1.putCell p ⟨k, ⟨d.nums, []⟩, ls.take (ownValues k)⟩).alloc.putCell m1.next ⟨k, d, ls' ++ ls.drop (ownValues k)⟩).cell a = m1.cell a) := by
    intro a h1 h2
    have : a ≠ m1.next := by omega
    simp [Mem.putCell, Mem.alloc, h1, this]
  refine ⟨p, (m1.putCell p ⟨k, ⟨d.nums, []⟩, ls.take (ownValues k)⟩).alloc.putCell m1.next ⟨k, d, ls' ++ ls.drop (ownValues k)⟩, m1.next,
    r :: p :: ls.take (ownValues k), ls' ++ ls.drop (ownValues k), g ++ fb, h1, ?_, ?_, ?_, ?_, ?_, LC.perm (List.Perm.refl _) ?_⟩
  · simp [movePayload, h3, embedded_eq, e1, hq]
  · unfold husk Holds
    refine ⟨hk, p, ls.take (ownValues k), ls.take (ownValues k), ?_, ?_, ?_, ?_, ?_, rfl⟩
    · rw [(hag r hrp (hlt1 r (by simp))).1, fr.1, h1]
    · rw [(hag r hrp (hlt1 r (by simp))).2, fr.2, h2]
    · have : p ≠ m1.next := by have := hlt1 p (by simp); omega
      simp [Mem.putCell, Mem.alloc, this]
    · show m1.obj p = none
      rw [fp.1, h4]
    · exact H1'.congr (fun a ha => hag a (hpg a (by simp [ha])) (hlt1 a (by simp [ha])))
  · simp [Mem.putCell]
  · exact (Bounded.next LA.bounded).1
  · have hb' : HoldsAll m1 (ks.drop (ownValues k)) (ls.drop (ownValues k)) fb :=
      Hb.congr (L1.agree (fun a ha hf => hnab.2.2 a hf a ha rfl) (Hb.bound hb))
    have := H1.append hb'
    rw [List.take_append_drop] at this
    refine this.congr (fun a ha => ?_)
    rcases List.mem_append.1 ha with ha | ha
    · exact hag a (hpg a (by simp [ha])) (hlt1 a (by simp [ha]))
    · exact hag a (hpb a ha) (hlt1 a (by simp [ha]))
  · -- [q] ++ ([p] ++ (g ++ t ++ r :: fb)) ~ (r :: p :: t) ++ q :: (g ++ fb)
    rw [List.perm_iff_count]
    intro a
    simp only [List.count_append, List.count_cons, List.count_nil, hq]
    omega
end Nebula.VMem
