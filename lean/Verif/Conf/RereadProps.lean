import Verif.Conf.Props
/-! # C97: a configuration that was read can be written, and is read back -/
namespace Nebula
namespace Conf
open Json

variable {F : Type}

/-! ## What the statement needs -/

mutual
/-- Every double in the configuration satisfies `P`. -/
def Dbls (P : F → Prop) : Dyn F → Prop
  | .dbl d => P d
  | .arr l => DblsList P l
  | .obj l => DblsEntries P l
  | _ => True
def DblsList (P : F → Prop) : List (Dyn F) → Prop
  | [] => True
  | j :: l => Dbls P j ∧ DblsList P l
def DblsEntries (P : F → Prop) : List (Bytes × Dyn F) → Prop
  | [] => True
  | (_, j) :: l => Dbls P j ∧ DblsEntries P l
end

/-! ## What holds of everything that was read -/

mutual
/-- Integers have 64 bits; no object has a key twice. -/
def Shape : Dyn F → Prop
  | .int i => InI64 i
  | .arr l => ShapeList l
  | .obj l => (l.map (·.1)).Nodup ∧ ShapeEntries l
  | _ => True
def ShapeList : List (Dyn F) → Prop
  | [] => True
  | j :: l => Shape j ∧ ShapeList l
def ShapeEntries : List (Bytes × Dyn F) → Prop
  | [] => True
  | (_, j) :: l => Shape j ∧ ShapeEntries l
end

/-- The shape, and a nesting of at most `n`. -/
def Read (n : Nat) (c : Dyn F) : Prop := Shape c ∧ depth c ≤ n

theorem read_list {n : Nat} : ∀ {l : List (Dyn F)}, (∀ x ∈ l, Read n x) → ShapeList l ∧ depthList l ≤ n
  | [], _ => ⟨trivial, Nat.zero_le _⟩
  | x :: l, h => by
    obtain ⟨a, b⟩ := read_list (l := l) fun y hy => h y (List.mem_cons_of_mem _ hy)
    have hx := h x List.mem_cons_self
    exact ⟨⟨hx.1, a⟩, Nat.max_le.2 ⟨hx.2, b⟩⟩

theorem read_entries {n : Nat} : ∀ {l : List (Bytes × Dyn F)}, (∀ x ∈ l, Read n x.2) → ShapeEntries l ∧ depthEntries l ≤ n
  | [], _ => ⟨trivial, Nat.zero_le _⟩
  | (k, x) :: l, h => by
    obtain ⟨a, b⟩ := read_entries (l := l) fun y hy => h y (List.mem_cons_of_mem _ hy)
    have hx := h (k, x) List.mem_cons_self
    exact ⟨⟨hx.1, a⟩, Nat.max_le.2 ⟨hx.2, b⟩⟩

/-- What a reader gives satisfies `P`. -/
def Gets {α : Type} (P : α → Prop) (d : Bytes → Option (α × Bytes)) : Prop := ∀ s a r, d s = some (a, r) → P a

theorem gets_elems {P : Dyn F → Prop} {pv : Bytes → Option (Dyn F × Bytes)} (h : Gets P pv) : ∀ n, Gets (fun l => ∀ x ∈ l, P x) (elems pv n)
  | 0 => by intro s a r e; cases e
  | n + 1 => by
    intro s a r e
    rw [elems] at e
    obtain ⟨⟨v, s1⟩, hv, e⟩ := Option.bind_eq_some_iff.1 e
    dsimp only at e
    split at e
    · cases e
    · split at e
      · obtain ⟨⟨vs, s2⟩, hvs, e⟩ := Option.map_eq_some_iff.1 e
        cases e
        intro x hx
        rcases List.mem_cons.1 hx with rfl | hx
        · exact h _ _ _ hv
        · exact gets_elems h n _ _ _ hvs x hx
      · split at e
        · cases e; intro x hx; simp only [List.mem_singleton] at hx; subst hx; exact h _ _ _ hv
        · cases e

theorem insert_keys (k : Bytes) (v : Dyn F) : ∀ l : List (Bytes × Dyn F), (insert k v l).map (·.1) = if k ∈ l.map (·.1) then l.map (·.1) else l.map (·.1) ++ [k]
  | [] => by simp [Json.insert]
  | (k', v') :: l => by
    rw [Json.insert]
    by_cases hk : k' = k
    · subst hk; simp
    · have := insert_keys k v l
      rw [if_neg hk, List.map_cons, this]
      by_cases hm : k ∈ l.map (·.1)
      · rw [if_pos hm, if_pos (by simp only [List.map_cons]; exact List.mem_cons_of_mem _ hm)]; rfl
      · rw [if_neg hm, if_neg (by
          simp only [List.map_cons, List.mem_cons, not_or]
          exact ⟨fun e => hk e.symm, hm⟩)]; rfl

theorem insert_nodup {k : Bytes} {v : Dyn F} {l : List (Bytes × Dyn F)} (h : (l.map (·.1)).Nodup) : ((insert k v l).map (·.1)).Nodup := by
  rw [insert_keys]
  split
  · exact h
  · next hk =>
    refine List.nodup_append.2 ⟨h, by simp, fun a ha b hb => ?_⟩
    simp only [List.mem_singleton] at hb
    subst hb
    rintro rfl
    exact hk ha

theorem insert_mem {k : Bytes} {v : Dyn F} {x : Bytes × Dyn F} : ∀ {l : List (Bytes × Dyn F)}, x ∈ insert k v l → x = (k, v) ∨ x ∈ l
  | [], h => by simp [Json.insert] at h; exact .inl h
  | (k', v') :: l, h => by
    rw [Json.insert] at h
    split at h
    · rcases List.mem_cons.1 h with h | h
      · exact .inl h
      · exact .inr (List.mem_cons_of_mem _ h)
    · rcases List.mem_cons.1 h with h | h
      · exact .inr (by rw [h]; exact List.mem_cons_self)
      · rcases insert_mem h with h | h
        · exact .inl h
        · exact .inr (List.mem_cons_of_mem _ h)

/-- Distinct keys, and values that satisfy `P`. -/
def Entries (P : Dyn F → Prop) (l : List (Bytes × Dyn F)) : Prop := (l.map (·.1)).Nodup ∧ ∀ x ∈ l, P x.2

theorem entries_insert {P : Dyn F → Prop} {l : List (Bytes × Dyn F)} {k : Bytes} {v : Dyn F} (h : Entries P l) (hv : P v) : Entries P (insert k v l) :=
  ⟨insert_nodup h.1, fun x hx => by
    rcases insert_mem hx with rfl | hx
    · exact hv
    · exact h.2 x hx⟩

theorem gets_members {P : Dyn F → Prop} {pv : Bytes → Option (Dyn F × Bytes)} (h : Gets P pv) : ∀ n acc, Entries P acc → Gets (Entries P) (members pv n acc)
  | 0, acc, _ => by intro s a r e; unfold members at e; cases e
  | n + 1, acc, ha => by
    intro s a r e
    cases s with
    | nil => unfold members at e; cases e
    | cons q s =>
      rw [members] at e
      split at e
      · cases e
      · obtain ⟨⟨k, s1⟩, _, e⟩ := Option.bind_eq_some_iff.1 e
        dsimp only at e
        split at e
        · cases e
        · split at e
          · cases e
          · obtain ⟨⟨v, s2⟩, hv, e⟩ := Option.bind_eq_some_iff.1 e
            have hi := entries_insert (k := k) ha (h _ _ _ hv)
            dsimp only at e
            split at e
            · cases e
            · split at e
              · exact gets_members h n _ hi _ _ _ e
              · split at e
                · cases e; exact hi
                · cases e

theorem toI64_in {s : Bytes} {i : Int} (h : toI64 s = some i) : InI64 i := by
  unfold toI64 at h
  dsimp only at h
  generalize (if s.head? = some 45 ∨ s.head? = some 43 then s.drop 1 else s) = ds at h
  by_cases h1 : ds ≠ [] ∧ ds.all isDigit
  · rw [if_pos h1] at h
    generalize (if s.head? = some 45 then - (digitsVal 0 ds : Int) else (digitsVal 0 ds : Int)) = v at h
    by_cases h2 : InI64 v
    · rw [if_pos h2] at h; cases h; exact h2
    · rw [if_neg h2] at h; cases h
  · rw [if_neg h1] at h; cases h

theorem dbl_read (n : Nat) (d : F) : Read (n + 1) (.dbl d) := ⟨by simp [Shape], by simp [depth]⟩

theorem gets_exponent (D : Doubles F) (n : Nat) (num : Bytes) : Gets (Read (n + 1)) (exponent D num) := by
  intro s a r e
  unfold exponent at e
  split at e
  · obtain ⟨d, _, e⟩ := Option.map_eq_some_iff.1 e; cases e; exact dbl_read n d
  · dsimp only at e
    split at e <;> (obtain ⟨d, _, e⟩ := Option.map_eq_some_iff.1 e; cases e; exact dbl_read n d)

theorem gets_number (D : Doubles F) (n : Nat) : Gets (Read (n + 1)) (number D) := by
  intro s a r e
  unfold number at e
  split at e
  · cases e; exact dbl_read n _
  · dsimp only at e
    split at e
    · cases e
    · split at e
      · exact gets_exponent D n _ _ _ _ e
      · split at e
        · exact gets_exponent D n _ _ _ _ e
        · obtain ⟨i, hi, e⟩ := Option.map_eq_some_iff.1 e
          cases e
          exact ⟨by simp only [Shape]; exact toI64_in hi, by simp [depth]⟩

theorem gets_word (D : Doubles F) (n : Nat) : Gets (Read (n + 1)) (word D) := by
  intro s a r e
  unfold word at e
  split at e
  · cases e; exact ⟨by simp [Shape], by simp [depth]⟩
  split at e
  · cases e; exact ⟨by simp [Shape], by simp [depth]⟩
  split at e
  · cases e; exact ⟨by simp [Shape], by simp [depth]⟩
  split at e
  · cases e; exact dbl_read n _
  split at e
  · cases e; exact dbl_read n _
  · cases e

theorem gets_value (D : Doubles F) : ∀ n, Gets (Read n) (value D n)
  | 0 => by intro s a r e; cases e
  | n + 1 => by
    have ih := gets_value D n
    intro s a r e
    rw [value] at e
    split at e
    · cases e
    · next c t _ =>
      split at e
      · unfold array at e
        split at e
        · cases e
        · split at e
          · cases e; exact ⟨by simp [Shape, ShapeList], by simp [depth, depthList]⟩
          · obtain ⟨⟨vs, s2⟩, hvs, e⟩ := Option.map_eq_some_iff.1 e
            cases e
            obtain ⟨h1, h2⟩ := read_list (gets_elems ih _ _ _ _ hvs)
            exact ⟨by simp only [Shape]; exact h1, by simp only [depth]; omega⟩
      · split at e
        · unfold object at e
          split at e
          · cases e
          · split at e
            · cases e; exact ⟨by simp [Shape, ShapeEntries], by simp [depth, depthEntries]⟩
            · obtain ⟨⟨kvs, s2⟩, hkvs, e⟩ := Option.map_eq_some_iff.1 e
              cases e
              have hm := gets_members ih _ [] ⟨by simp, by simp⟩ _ _ _ hkvs
              obtain ⟨h1, h2⟩ := read_entries hm.2
              exact ⟨by simp only [Shape]; exact ⟨hm.1, h1⟩, by simp only [depth]; omega⟩
        · split at e
          · obtain ⟨⟨x, s2⟩, _, e⟩ := Option.map_eq_some_iff.1 e
            cases e
            exact ⟨by simp [Shape], by simp [depth]⟩
          · split at e
            · exact gets_number D n _ _ _ e
            · exact gets_word D n _ _ _ e

theorem parse_read {D : Doubles F} {s : Bytes} {c : Dyn F} (h : parse D s = some c) : Read 100 c := by
  unfold parse at h
  obtain ⟨⟨v, r⟩, hv, h⟩ := Option.bind_eq_some_iff.1 h
  have := gets_value D maxDepth _ _ _ hv
  dsimp only at h
  split at h
  · cases h; exact this
  · split at h
    · cases h; exact this
    · cases h

/-! ## Writing it -/

/-- A double whose text shows that it is one and stands for it. -/
def Written (D : Doubles F) (d : F) : Prop := D.finite d = true ∧ RealText (D.text d) ∧ D.read (D.text d) = some d

mutual
theorem fine_of (D : Doubles F) : ∀ c : Dyn F, Shape c → Dbls (Written D) c → Fine D c
  | .null, _, _ => by simp [Fine]
  | .bool _, _, _ => by simp [Fine]
  | .int i, h, _ => by simp only [Fine]; simpa [Shape] using h
  | .dbl d, _, h => by simp only [Fine]; simp only [Dbls] at h; exact h.2
  | .str _, _, _ => by simp [Fine]
  | .arr l, h, k => by simp only [Fine]; simp only [Shape] at h; simp only [Dbls] at k; exact fine_list D l h k
  | .obj l, h, k => by simp only [Fine]; simp only [Shape] at h; simp only [Dbls] at k; exact ⟨h.1, fine_entries D l h.2 k⟩
theorem fine_list (D : Doubles F) : ∀ l : List (Dyn F), ShapeList l → DblsList (Written D) l → FineList D l
  | [], _, _ => by simp [FineList]
  | x :: l, h, k => by simp only [FineList]; simp only [ShapeList] at h; simp only [DblsList] at k; exact ⟨fine_of D x h.1 k.1, fine_list D l h.2 k.2⟩
theorem fine_entries (D : Doubles F) : ∀ l : List (Bytes × Dyn F), ShapeEntries l → DblsEntries (Written D) l → FineEntries D l
  | [], _, _ => by simp [FineEntries]
  | (a, x) :: l, h, k => by simp only [FineEntries]; simp only [ShapeEntries] at h; simp only [DblsEntries] at k; exact ⟨fine_of D x h.1 k.1, fine_entries D l h.2 k.2⟩
end

mutual
theorem dump_some (D : Doubles F) (ord : List Bytes → List Bytes) : ∀ (c : Dyn F) (p : Option Nat), Dbls (fun d => D.finite d = true) c → ∃ t, dump D ord p c = some t
  | .null, p, _ => ⟨_, by rw [dump]⟩
  | .bool _, p, _ => ⟨_, by rw [dump]⟩
  | .int i, p, _ => ⟨_, by rw [dump]⟩
  | .dbl d, p, h => ⟨D.text d, by simp only [Dbls] at h; rw [dump, if_pos h]⟩
  | .str _, p, _ => ⟨_, by rw [dump]⟩
  | .arr l, p, h => by
    simp only [Dbls] at h
    obtain ⟨es, e⟩ := dumpList_some D ord l (deeper p) h
    exact ⟨_, by rw [dump, e]; rfl⟩
  | .obj l, p, h => by
    simp only [Dbls] at h
    obtain ⟨es, e⟩ := dumpEntries_some D ord l (deeper p) h
    exact ⟨_, by rw [dump, e]; rfl⟩
theorem dumpList_some (D : Doubles F) (ord : List Bytes → List Bytes) : ∀ (l : List (Dyn F)) (p : Option Nat), DblsList (fun d => D.finite d = true) l → ∃ t, dumpList D ord p l = some t
  | [], p, _ => ⟨[], by rw [dumpList]⟩
  | x :: l, p, h => by
    simp only [DblsList] at h
    obtain ⟨a, ha⟩ := dump_some D ord x p h.1
    obtain ⟨b, hb⟩ := dumpList_some D ord l p h.2
    exact ⟨_, by rw [dumpList, ha, hb]; rfl⟩
theorem dumpEntries_some (D : Doubles F) (ord : List Bytes → List Bytes) : ∀ (l : List (Bytes × Dyn F)) (p : Option Nat), DblsEntries (fun d => D.finite d = true) l →
    ∃ t, dumpEntries D ord p l = some t
  | [], p, _ => ⟨[], by rw [dumpEntries]⟩
  | (k, x) :: l, p, h => by
    simp only [DblsEntries] at h
    obtain ⟨a, ha⟩ := dump_some D ord x p h.1
    obtain ⟨b, hb⟩ := dumpEntries_some D ord l p h.2
    exact ⟨_, by rw [dumpEntries, ha, hb]; rfl⟩
end

mutual
theorem dbls_imp {P Q : F → Prop} (h : ∀ d, P d → Q d) : ∀ c : Dyn F, Dbls P c → Dbls Q c
  | .null, _ => by simp [Dbls]
  | .bool _, _ => by simp [Dbls]
  | .int _, _ => by simp [Dbls]
  | .dbl d, k => by simp only [Dbls] at k ⊢; exact h d k
  | .str _, _ => by simp [Dbls]
  | .arr l, k => by simp only [Dbls] at k ⊢; exact dblsList_imp h l k
  | .obj l, k => by simp only [Dbls] at k ⊢; exact dblsEntries_imp h l k
theorem dblsList_imp {P Q : F → Prop} (h : ∀ d, P d → Q d) : ∀ l : List (Dyn F), DblsList P l → DblsList Q l
  | [], _ => by simp [DblsList]
  | x :: l, k => by simp only [DblsList] at k ⊢; exact ⟨dbls_imp h x k.1, dblsList_imp h l k.2⟩
theorem dblsEntries_imp {P Q : F → Prop} (h : ∀ d, P d → Q d) : ∀ l : List (Bytes × Dyn F), DblsEntries P l → DblsEntries Q l
  | [], _ => by simp [DblsEntries]
  | (a, x) :: l, k => by simp only [DblsEntries] at k ⊢; exact ⟨dbls_imp h x k.1, dblsEntries_imp h l k.2⟩
end

mutual
theorem finite_of_dump (D : Doubles F) (ord : List Bytes → List Bytes) : ∀ (c : Dyn F) (p : Option Nat) (t : Bytes), dump D ord p c = some t → Dbls (fun d => D.finite d = true) c
  | .null, _, _, _ => by simp [Dbls]
  | .bool _, _, _, _ => by simp [Dbls]
  | .int _, _, _, _ => by simp [Dbls]
  | .dbl d, p, t, h => by
    simp only [Dbls]
    rw [dump] at h
    by_cases hf : D.finite d = true
    · exact hf
    · rw [if_neg hf] at h; cases h
  | .str _, _, _, _ => by simp [Dbls]
  | .arr l, p, t, h => by
    simp only [Dbls]
    rw [dump] at h
    obtain ⟨es, he, _⟩ := Option.map_eq_some_iff.1 h
    exact finite_of_dumpList D ord l _ _ he
  | .obj l, p, t, h => by
    simp only [Dbls]
    rw [dump] at h
    obtain ⟨es, he, _⟩ := Option.map_eq_some_iff.1 h
    exact finite_of_dumpEntries D ord l _ _ he
theorem finite_of_dumpList (D : Doubles F) (ord : List Bytes → List Bytes) : ∀ (l : List (Dyn F)) (p : Option Nat) (t : List Bytes), dumpList D ord p l = some t →
    DblsList (fun d => D.finite d = true) l
  | [], _, _, _ => by simp [DblsList]
  | x :: l, p, t, h => by
    rw [dumpList] at h
    obtain ⟨a, ha, h⟩ := Option.bind_eq_some_iff.1 h
    obtain ⟨b, hb, _⟩ := Option.map_eq_some_iff.1 h
    simp only [DblsList]
    exact ⟨finite_of_dump D ord x p a ha, finite_of_dumpList D ord l p b hb⟩
theorem finite_of_dumpEntries (D : Doubles F) (ord : List Bytes → List Bytes) : ∀ (l : List (Bytes × Dyn F)) (p : Option Nat) (t : List Bytes), dumpEntries D ord p l = some t →
    DblsEntries (fun d => D.finite d = true) l
  | [], _, _, _ => by simp [DblsEntries]
  | (k, x) :: l, p, t, h => by
    rw [dumpEntries] at h
    obtain ⟨a, ha, h⟩ := Option.bind_eq_some_iff.1 h
    obtain ⟨b, hb, _⟩ := Option.map_eq_some_iff.1 h
    simp only [DblsEntries]
    exact ⟨finite_of_dump D ord x p a ha, finite_of_dumpEntries D ord l p b hb⟩
end

/-! ## The theorems -/

/-- **C97 (what can be written).** Writing a configuration, plain or indented, fails for one reason only: a double in it, at any depth, that is infinite or not a number. -/
theorem C97_writable (D : Doubles F) (ord : List Bytes → List Bytes) (pretty : Bool) (c : Dyn F) :
    (∃ text, dumpTo D ord pretty c = some text) ↔ Dbls (fun d => D.finite d = true) c :=
  ⟨fun ⟨text, h⟩ => finite_of_dump D ord c _ text h, dump_some D ord c _⟩

/-- **C97 (what was read is read back).** A configuration that was read from any text, hand-written or not: if the texts of its doubles show that they are doubles, it can be written and
the text is read as the same configuration, however deep it is and whatever its strings contain. -/
theorem C97_reread_partial (D : Doubles F) {ord : List Bytes → List Bytes} (hord : ∀ l, (ord l).Perm l) (pretty : Bool) (before old c : Dyn F) (s : Bytes)
    (h : parseFromString D before s = (.ok, c)) (hd : Dbls (Written D) c) :
    ∃ text c', dumpTo D ord pretty c = some text ∧ parseFromString D old text = (.ok, c') ∧ Same c c' := by
  have hp : parse D s = some c := by
    unfold parseFromString at h
    split at h
    · next hj => cases h; exact hj
    · cases h
  obtain ⟨text, ht⟩ := (C97_writable D ord pretty c).2 (dbls_imp (fun _ hx => hx.1) c hd)
  obtain ⟨c', h1, h2⟩ := C97_dump_partial D hord pretty c old text (fine_of D c (parse_read hp).1 hd) (parse_read hp).2 ht
  exact ⟨text, c', ht, h1, h2⟩

/-- A hand-written text with blanks and a repeated item. -/
example (D : Doubles F) (before : Dyn F) : ∃ c, parseFromString D before (ascii "{ \"a\" : [1, \"x\"] ,\n \"a\": 2}") = (.ok, c) ∧ Dbls (Written D) c :=
  ⟨.obj [(ascii "a", .int 2)], by rfl, by simp [Dbls, DblsEntries]⟩

end Conf
end Nebula
