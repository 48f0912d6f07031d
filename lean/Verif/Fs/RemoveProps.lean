import Verif.Fs.Remove
/-! # C78: removing files -/
namespace Nebula
namespace Fs

/-- The entries of a directory. -/
def Entries.toList : Entries → List (Bytes × Tree)
  | .nil => []
  | .cons n t es => (n, t) :: es.toList

/-- Everything in the tree can be removed: no device, pipe or socket, and no permission is missing. -/
inductive Removable : Tree → Prop
  | reg : Removable (.reg true)
  | link : Removable (.link true)
  | dir {es : Entries} : (∀ e ∈ es.toList, Removable e.2) → Removable (.dir true true es)

/-- A file that is no directory and can be removed. -/
def Plain (t : Tree) : Prop := t = .reg true ∨ t = .link true

/-- `Left t' t`: what is left of `t` is `t'`: some of the files below are missing, nothing else has changed. -/
inductive Left : Tree → Tree → Prop
  | same (t : Tree) : Left t t
  | dir {o f : Bool} {es' es : Entries} (kept : List (Bytes × Tree × Tree)) (h1 : es'.toList = kept.map fun x => (x.1, x.2.1))
      (h2 : (kept.map fun x => (x.1, x.2.2)).Sublist es.toList) (h3 : ∀ x ∈ kept, Left x.2.1 x.2.2) : Left (.dir o f es') (.dir o f es)

mutual
theorem remove_gone (r : Bool) : ∀ t, (remove r t).1 = true ↔ (remove r t).2 = none
  | .reg f => by rw [remove]; split <;> simp
  | .link f => by rw [remove]; split <;> simp
  | .special => by simp [remove]
  | .dir o f es => by
    rw [remove]
    split
    · simp
    · split
      · split <;> simp
      · simp
theorem removeAll_gone (r : Bool) : ∀ es, (removeAll r es).1 = true ↔ (removeAll r es).2 = .nil
  | .nil => by simp [removeAll]
  | .cons n t es => by
    have h1 := remove_gone r t
    have h2 := removeAll_gone r es
    rw [removeAll]
    split
    · simp
    · split
      · exact h2
      · rename_i hh; rw [hh] at h1; simp at h1
      · rename_i hh; rw [hh] at h1; simp at h1
      · simp
end

mutual
theorem remove_rec : ∀ t, (remove true t).1 = true ↔ Removable t
  | .reg f => by
    rw [remove]
    cases f
    · simp; intro h; cases h
    · simp; exact .reg
  | .link f => by
    rw [remove]
    cases f
    · simp; intro h; cases h
    · simp; exact .link
  | .special => by simp [remove]; intro h; cases h
  | .dir o f es => by
    have h1 := removeAll_rec es
    have h2 := removeAll_gone true es
    rw [remove]
    cases o
    · simp; intro h; cases h
    · rw [if_neg (by simp)]
      split
      · rename_i hh
        rw [hh] at h1
        cases f
        · simp; intro h; cases h
        · simp; exact .dir (h1.1 rfl)
      · rename_i hno _
        simp only [Bool.false_eq_true, false_iff]
        intro h
        cases h with
        | dir h =>
          have e1 := h1.2 h
          have e2 := h2.1 e1
          rw [Prod.ext_iff] at *
          first | exact hno e1 e2 | exact hno ⟨e1, e2⟩ | simp_all
theorem removeAll_rec : ∀ es, (removeAll true es).1 = true ↔ ∀ e ∈ es.toList, Removable e.2
  | .nil => by simp [removeAll, Entries.toList]
  | .cons n t es => by
    have h1 := remove_rec t
    have h2 := removeAll_rec es
    have h3 := remove_gone true t
    rw [removeAll, Entries.toList]
    simp only [List.mem_cons, forall_eq_or_imp, Bool.not_true, Bool.and_false, Bool.false_eq_true, if_false]
    split
    · rename_i hh
      rw [hh] at h1
      rw [h2]
      exact ⟨fun h => ⟨h1.1 rfl, h⟩, fun h => h.2⟩
    · rename_i hh; rw [hh] at h3; simp at h3
    · rename_i hh; rw [hh] at h3; simp at h3
    · rename_i hh
      rw [hh] at h1
      simp only [Bool.false_eq_true, false_iff, not_and]
      intro h
      have := h1.2 h
      cases this
end

/-- **C78.** Removing succeeds exactly if afterwards nothing is there. -/
theorem C78_gone (recursively : Bool) (t : Option Tree) : (removePath recursively t).1 = true ↔ (removePath recursively t).2 = none := by
  cases t with
  | none => simp [removePath]
  | some t => exact remove_gone recursively t

/-- **C78.** Recursive removal succeeds exactly on the trees everything of which can be removed. -/
theorem C78_recursive (t : Tree) : (remove true t).1 = true ↔ Removable t := remove_rec t

theorem removeAll_flat : ∀ es : Entries, (removeAll false es).1 = true ↔ ∀ e ∈ es.toList, Plain e.2
  | .nil => by simp [removeAll, Entries.toList]
  | .cons n t es => by
    have h2 := removeAll_flat es
    rw [removeAll, Entries.toList]
    simp only [List.mem_cons, forall_eq_or_imp]
    cases t with
    | reg f => cases f <;> simp [Tree.isDir, remove, Plain, h2]
    | link f => cases f <;> simp [Tree.isDir, remove, Plain, h2]
    | special => simp [Tree.isDir, remove, Plain]
    | dir o f es' => simp [Tree.isDir, Plain]

/-- **C78.** Without recursion, a directory is removed exactly if it holds nothing but removable files (no
directories). -/
theorem C78_flat (o f : Bool) (es : Entries) :
    (remove false (.dir o f es)).1 = true ↔ o = true ∧ f = true ∧ ∀ e ∈ es.toList, Plain e.2 := by
  have h1 := removeAll_flat es
  have h2 := removeAll_gone false es
  rw [remove]
  cases o
  · simp
  · rw [if_neg (by simp)]
    split
    · rename_i hh
      rw [hh] at h1
      cases f
      · simp
      · simp only [if_true, true_and]; exact h1.trans (Iff.refl _) |> fun h => ⟨fun _ => h.1 rfl, fun _ => trivial⟩
    · rename_i hno _
      simp only [Bool.false_eq_true, true_and, false_iff, not_and]
      intro _ h
      have e1 := h1.2 h
      first | exact hno e1 (h2.1 e1) | exact hno (Prod.ext e1 (h2.1 e1)) | simp_all

mutual
theorem remove_left (r : Bool) : ∀ t t', (remove r t).2 = some t' → Left t' t
  | .reg f, t', h => by
    rw [remove] at h
    split at h
    · cases h
    · cases h; exact .same _
  | .link f, t', h => by
    rw [remove] at h
    split at h
    · cases h
    · cases h; exact .same _
  | .special, t', h => by rw [remove] at h; cases h; exact .same _
  | .dir o f es, t', h => by
    obtain ⟨kept, k1, k2, k3⟩ := removeAll_left r es
    rw [remove] at h
    split at h
    · cases h; exact .same _
    · split at h
      · split at h
        · cases h
        · rename_i hh _
          cases h
          rw [hh] at k1
          exact .dir kept k1 k2 k3
      · rename_i hh
        cases h
        rw [hh] at k1
        exact .dir kept k1 k2 k3
theorem removeAll_left (r : Bool) : ∀ es, ∃ kept : List (Bytes × Tree × Tree), (removeAll r es).2.toList = kept.map (fun x => (x.1, x.2.1)) ∧
    (kept.map fun x => (x.1, x.2.2)).Sublist es.toList ∧ ∀ x ∈ kept, Left x.2.1 x.2.2
  | .nil => ⟨[], rfl, List.Sublist.refl _, by simp⟩
  | .cons n t es => by
    have hsame : ∀ es : Entries, ∃ kept : List (Bytes × Tree × Tree), es.toList = kept.map (fun x => (x.1, x.2.1)) ∧
        (kept.map fun x => (x.1, x.2.2)).Sublist es.toList ∧ ∀ x ∈ kept, Left x.2.1 x.2.2 := by
      intro es
      refine ⟨es.toList.map fun e => (e.1, e.2, e.2), ?_, ?_, ?_⟩
      · simp [List.map_map, Function.comp_def]
      · simp [List.map_map, Function.comp_def]
      · intro x hx
        obtain ⟨e, _, rfl⟩ := List.mem_map.1 hx
        exact .same _
    have ht := remove_left r t
    obtain ⟨kept, k1, k2, k3⟩ := removeAll_left r es
    rw [removeAll]
    split
    · exact hsame _
    · split
      · exact ⟨kept, k1, k2.trans (List.sublist_cons_self _ _), k3⟩
      · rename_i t' hh
        refine ⟨(n, t', t) :: kept, ?_, ?_, ?_⟩
        · simp [Entries.toList, k1]
        · simp [Entries.toList, k2]
        · intro x hx
          rcases List.mem_cons.1 hx with rfl | hx
          · exact ht t' (by rw [hh])
          · exact k3 x hx
      · obtain ⟨kept, k1, k2, k3⟩ := hsame es
        exact ⟨kept, k1, k2.trans (List.sublist_cons_self _ _), k3⟩
      · rename_i t' hh
        obtain ⟨kept, k1, k2, k3⟩ := hsame es
        refine ⟨(n, t', t) :: kept, ?_, ?_, ?_⟩
        · simp [Entries.toList, k1]
        · simp [Entries.toList, k2]
        · intro x hx
          rcases List.mem_cons.1 hx with rfl | hx
          · exact ht t' (by rw [hh])
          · exact k3 x hx
end

/-- **C78.** A removal that fails leaves the file, and of what is below some files may be missing; nothing is
changed otherwise. -/
theorem C78_left (recursively : Bool) (t t' : Tree) (h : (remove recursively t).2 = some t') : Left t' t :=
  remove_left recursively t t' h

example : Removable (.dir true true (.cons (ascii "a") (.reg true) (.cons (ascii "d") (.dir true true (.cons (ascii "l") (.link true) .nil)) .nil))) :=
  .dir (by
    simp only [Entries.toList, List.mem_cons, List.not_mem_nil, or_false, forall_eq_or_imp, forall_eq]
    exact ⟨.reg, .dir (by simp only [Entries.toList, List.mem_cons, List.not_mem_nil, or_false, forall_eq]; exact .link)⟩)

/-- **C78 violated**: the documentation says that removal without recursion fails for a directory that is not
empty; it removes the files in it and the directory. -/
theorem C78_nonempty_violated : remove false (.dir true true (.cons (ascii "a") (.reg true) .nil)) = (true, none) := by
  simp [remove, removeAll, Tree.isDir]

/-- **C78 violated**: a removal that fails may have removed some of the files. -/
theorem C78_partial_violated :
    remove false (.dir true true (.cons (ascii "a") (.reg true) (.cons (ascii "d") (.dir true true .nil) .nil))) =
      (false, some (.dir true true (.cons (ascii "d") (.dir true true .nil) .nil))) := by
  simp [remove, removeAll, Tree.isDir]

end Fs
end Nebula
