import Verif.Fs.RemoveProps
import Verif.Text
/-!
# C139: temporary files and directories

Model of `src/common/fs/TempDir.{h,cpp}` and `src/common/fs/TempFile.{h,cpp}`, and the theorems about it.

The file system maps a path to what is there (`Tree`, see Verif/Fs/Remove.lean); paths of temporary files are
taken not to lie inside one another. Of the C library: `mkdtemp` and `mkstemp` want a template that ends in
six `X`, replace them so that the path did not exist, and create a directory or file that the process can
read, write and remove.
-/
namespace Nebula.Fs.Temp

abbrev Disk := Bytes → Option Tree

/-- A `TempDir` or `TempFile`: `path()`, whether it is a file, and whether it is to be removed. -/
structure Temp where
  path : Option Bytes
  file : Bool
  del : Bool
deriving DecidableEq, Repr

/-- The disk and the objects that exist. -/
structure World where
  disk : Disk
  live : List Temp

def set (d : Disk) (p : Bytes) (t : Option Tree) : Disk := fun q => if q = p then t else d q

/-- What `mkdtemp` and `mkstemp` may make of a template. -/
def Names (template p : Bytes) : Prop := ∃ pre s, template = pre ++ List.replicate 6 88 ∧ p = pre ++ s ∧ s.length = 6

/-- What happens. -/
inductive Ev
  /-- a `TempDir` is made (TempDir.cpp:13-31) -/
  | dir (template : Bytes) (del : Bool) (t : Temp)
  /-- a `TempFile` is made (TempFile.cpp:13-24); `none`: the constructor throws -/
  | file (template : Bytes) (del : Bool) (t : Option Temp)
  /-- the user puts something at the path of an object -/
  | put (p : Bytes) (t : Tree)
  /-- another process removes what is at a path -/
  | gone (p : Bytes)
  /-- an object is destroyed (TempDir.cpp:34-38, TempFile.cpp:26-30) -/
  | destroy (t : Temp)

/-- `unlink`. -/
def unlink : Option Tree → Option Tree
  | some (.reg true) | some (.link true) => none
  | t => t

/-- What the destructors leave at the path. -/
def left (t : Temp) (c : Option Tree) : Option Tree :=
  if t.del then (if t.file then unlink c else (removePath true c).2) else c

inductive Step : World → Ev → World → Prop
  | dir {w template del p} : Names template p → w.disk p = none →
      Step w (.dir template del ⟨some p, false, del⟩) ⟨set w.disk p (some (.dir true true .nil)), ⟨some p, false, del⟩ :: w.live⟩
  | dirFails {w template del} : Step w (.dir template del ⟨none, false, del⟩) ⟨w.disk, ⟨none, false, del⟩ :: w.live⟩
  | file {w template del p} : Names template p → w.disk p = none →
      Step w (.file template del (some ⟨some p, true, del⟩)) ⟨set w.disk p (some (.reg true)), ⟨some p, true, del⟩ :: w.live⟩
  | fileFails {w template del} : Step w (.file template del none) w
  | put {w p t} : (∃ o ∈ w.live, o.path = some p) → (w.disk p).isSome = true → Step w (.put p t) ⟨set w.disk p (some t), w.live⟩
  | gone {w p} : Step w (.gone p) ⟨set w.disk p none, w.live⟩
  | destroy {w t p} : t ∈ w.live → t.path = some p → Step w (.destroy t) ⟨set w.disk p (left t (w.disk p)), w.live.erase t⟩
  | destroyFailed {w t} : t ∈ w.live → t.path = none → Step w (.destroy t) ⟨w.disk, w.live.erase t⟩

/-- What happens one after another, from a disk without objects. -/
inductive Run (d : Disk) : List Ev → World → Prop
  | nil : Run d [] ⟨d, []⟩
  | snoc {h w e w'} : Run d h w → Step w e w' → Run d (h ++ [e]) w'

/-- Nobody else removes anything. -/
def Alone (h : List Ev) : Prop := ∀ p, .gone p ∉ h

/-- C139: a temporary file or directory is made where nothing was, under a name made from the template, and
nothing else changes; if it cannot be made nothing changes at all. -/
theorem C139_made {w w' : World} {template : Bytes} {del : Bool} :
    (∀ t, Step w (.dir template del t) w' → t.del = del ∧
      ((t.path = none ∧ w'.disk = w.disk) ∨ ∃ p, t.path = some p ∧ Names template p ∧ w.disk p = none ∧ w'.disk p = some (.dir true true .nil) ∧
        ∀ q, q ≠ p → w'.disk q = w.disk q)) ∧
    (∀ t, Step w (.file template del t) w' → (t = none ∧ w' = w) ∨ ∃ t' p, t = some t' ∧ t'.path = some p ∧ t'.del = del ∧ Names template p ∧ w.disk p = none ∧
        w'.disk p = some (.reg true) ∧ ∀ q, q ≠ p → w'.disk q = w.disk q) := by
  constructor
  · intro t st
    cases st with
    | dir hn hp => exact ⟨rfl, .inr ⟨_, rfl, hn, hp, by simp [set], fun q hq => by simp [set, hq]⟩⟩
    | dirFails => exact ⟨rfl, .inl ⟨rfl, rfl⟩⟩
  · intro t st
    cases st with
    | file hn hp => exact .inr ⟨_, _, rfl, rfl, rfl, hn, hp, by simp [set], fun q hq => by simp [set, hq]⟩
    | fileFails => exact .inl ⟨rfl, rfl⟩

/-- The paths of the objects that exist. -/
def World.paths (w : World) : List Bytes := w.live.filterMap (·.path)

theorem mem_paths {w : World} {p : Bytes} : p ∈ w.paths ↔ ∃ o ∈ w.live, o.path = some p := by simp [World.paths]

theorem paths_erase {l : List Temp} {t : Temp} {p : Bytes} (h : t ∈ l) (hp : t.path = some p) :
    (l.filterMap (·.path)).Perm (p :: (l.erase t).filterMap (·.path)) := by
  have := (List.perm_cons_erase h).filterMap (·.path)
  rw [List.filterMap_cons, hp] at this
  exact this

theorem paths_erase_none {l : List Temp} {t : Temp} (h : t ∈ l) (hp : t.path = none) :
    (l.filterMap (·.path)).Perm ((l.erase t).filterMap (·.path)) := by
  have := (List.perm_cons_erase h).filterMap (·.path)
  rw [List.filterMap_cons, hp] at this
  exact this

/-- C139, as long as nobody else removes anything: no path of an object was in use at first, and what was there
at first stays as it was. -/
theorem C139_kept_partial {d : Disk} {h : List Ev} {w : World} (r : Run d h w) (ha : Alone h) (p : Bytes) (hd : d p ≠ none) :
    p ∉ w.paths ∧ w.disk p = d p := by
  induction r with
  | nil => exact ⟨by simp [World.paths], rfl⟩
  | snoc r st ih =>
    rename_i h w e w'
    obtain ⟨i1, i2⟩ := ih fun p hp => ha p (by simp [hp])
    have make : ∀ (q : Bytes) (t : Temp) (c : Tree), t.path = some q → w.disk q = none →
        p ∉ World.paths ⟨set w.disk q (some c), t :: w.live⟩ ∧ set w.disk q (some c) p = d p := by
      intro q t c ht hq
      have hne : p ≠ q := by rintro rfl; rw [i2] at hq; exact hd hq
      exact ⟨by simpa [World.paths, ht, hne] using i1, by simpa [set, hne] using i2⟩
    cases st with
    | dir hn hp => exact make _ _ _ rfl hp
    | dirFails => exact ⟨by simpa [World.paths] using i1, i2⟩
    | file hn hp => exact make _ _ _ rfl hp
    | fileFails => exact ⟨i1, i2⟩
    | put ho hs =>
      rename_i q t
      have hne : p ≠ q := by rintro rfl; exact i1 (mem_paths.2 ho)
      exact ⟨i1, by simpa [set, hne] using i2⟩
    | gone =>
      rename_i q
      exact absurd (by simp) (ha q)
    | destroy hm hp =>
      rename_i t q
      have hne : p ≠ q := by rintro rfl; exact i1 (mem_paths.2 ⟨_, hm, hp⟩)
      refine ⟨fun hx => i1 ?_, by simpa [set, hne] using i2⟩
      obtain ⟨o, ho, hop⟩ := mem_paths.1 hx
      exact mem_paths.2 ⟨o, List.mem_of_mem_erase ho, hop⟩
    | destroyFailed hm hp =>
      refine ⟨fun hx => i1 ?_, i2⟩
      obtain ⟨o, ho, hop⟩ := mem_paths.1 hx
      exact mem_paths.2 ⟨o, List.mem_of_mem_erase ho, hop⟩

/-- What is created with an object. -/
def created (t : Temp) : Tree := if t.file then .reg true else .dir true true .nil

/-- What can be at the path of an object: what was created with it, or something the user has put there. -/
def Held (h : List Ev) (t : Temp) (c : Tree) : Prop := c = created t ∨ ∃ p, t.path = some p ∧ .put p c ∈ h

/-- C139, as long as nobody else removes anything: the objects that exist have different paths, at each of them is
what was created with it or what the user has put there, and apart from them only what destroyed objects have left
behind differs from the first disk. -/
theorem C139_apart_partial {d : Disk} {h : List Ev} {w : World} (r : Run d h w) (ha : Alone h) :
    w.paths.Nodup ∧ (∀ o ∈ w.live, ∀ p, o.path = some p → ∃ c, w.disk p = some c ∧ Held h o c) ∧
    ∀ p, p ∉ w.paths → w.disk p ≠ d p → ∃ t c, .destroy t ∈ h ∧ t.path = some p ∧ Held h t c ∧ left t (some c) ≠ none := by
  induction r with
  | nil => exact ⟨by simp [World.paths], by simp, fun p _ hp => absurd rfl hp⟩
  | snoc r st ih =>
    rename_i h w e w'
    have ha' : Alone h := fun p hp => ha p (by simp [hp])
    obtain ⟨i1, i2, i3⟩ := ih ha'
    have more : ∀ t c, Held h t c → Held (h ++ [e]) t c := by
      rintro t c (h1 | ⟨p, h1, h2⟩)
      · exact .inl h1
      · exact .inr ⟨p, h1, by simp [h2]⟩
    have keep : ∀ p, p ∉ w.paths → w.disk p ≠ d p → ∃ t c, .destroy t ∈ h ++ [e] ∧ t.path = some p ∧ Held (h ++ [e]) t c ∧ left t (some c) ≠ none := by
      intro p h1 h2
      obtain ⟨t, c, ht, h3, h4, h5⟩ := i3 p h1 h2
      exact ⟨t, c, by simp [ht], h3, more _ _ h4, h5⟩
    have keep2 : ∀ o ∈ w.live, ∀ p, o.path = some p → ∃ c, w.disk p = some c ∧ Held (h ++ [e]) o c := by
      intro o ho p hp
      obtain ⟨c, h1, h2⟩ := i2 o ho p hp
      exact ⟨c, h1, more _ _ h2⟩
    have make : ∀ (p : Bytes) (t : Temp), t.path = some p → w.disk p = none →
        let w' : World := ⟨set w.disk p (some (created t)), t :: w.live⟩
        w'.paths.Nodup ∧ (∀ o ∈ w'.live, ∀ p, o.path = some p → ∃ c, w'.disk p = some c ∧ Held (h ++ [e]) o c) ∧
          ∀ p, p ∉ w'.paths → w'.disk p ≠ d p →
            ∃ t c, .destroy t ∈ h ++ [e] ∧ t.path = some p ∧ Held (h ++ [e]) t c ∧ left t (some c) ≠ none := by
      intro p t ht hp
      have hpp : World.paths ⟨set w.disk p (some (created t)), t :: w.live⟩ = p :: w.paths := by simp [World.paths, ht]
      have hnot : ∀ o ∈ w.live, o.path ≠ some p := by
        intro o ho h1
        obtain ⟨c, h2, -⟩ := i2 o ho p h1
        simp [hp] at h2
      refine ⟨?_, ?_, ?_⟩
      · rw [hpp]
        refine List.nodup_cons.2 ⟨fun hx => ?_, i1⟩
        obtain ⟨o, ho, hop⟩ := mem_paths.1 hx
        exact hnot o ho hop
      · intro o (ho : o ∈ t :: w.live) q hq
        rcases List.mem_cons.1 ho with rfl | ho
        · obtain rfl : p = q := by simpa [ht] using hq
          exact ⟨_, by simp [set], .inl rfl⟩
        · have hne : q ≠ p := by rintro rfl; exact hnot o ho hq
          simp only [set, if_neg hne]
          exact keep2 o ho q hq
      · rw [hpp]
        intro q hq hd
        simp only [List.mem_cons, not_or] at hq
        simp only [set, if_neg hq.1] at hd
        exact keep q hq.2 hd
    cases st with
    | dir hn hp => exact make _ _ rfl hp
    | dirFails =>
      refine ⟨by simpa [World.paths] using i1, ?_, by simpa [World.paths] using keep⟩
      intro o ho q hq
      rcases List.mem_cons.1 ho with rfl | ho
      · simp at hq
      · exact keep2 o ho q hq
    | file hn hp => exact make _ _ rfl hp
    | fileFails => exact ⟨i1, keep2, keep⟩
    | put ho hs =>
      rename_i p t
      refine ⟨i1, ?_, ?_⟩
      · intro o ho q hq
        by_cases hqp : q = p
        · subst hqp
          exact ⟨t, by simp [set], .inr ⟨q, hq, by simp⟩⟩
        · simp only [set, if_neg hqp]; exact keep2 o ho q hq
      · intro q hq hd
        have hqp : q ≠ p := by rintro rfl; exact hq (mem_paths.2 ho)
        simp only [set, if_neg hqp] at hd
        exact keep q hq hd
    | gone =>
      rename_i q
      exact absurd (by simp) (ha q)
    | destroy hm hp =>
      rename_i t p
      have hperm : w.paths.Perm (p :: World.paths ⟨set w.disk p (left t (w.disk p)), w.live.erase t⟩) := paths_erase hm hp
      have hnd := hperm.nodup_iff.1 i1
      rw [List.nodup_cons] at hnd
      obtain ⟨c, hc, hh⟩ := keep2 t hm p hp
      refine ⟨hnd.2, ?_, ?_⟩
      · intro o ho q hq
        have hqp : q ≠ p := by rintro rfl; exact hnd.1 (mem_paths.2 ⟨o, ho, hq⟩)
        simp only [set, if_neg hqp]
        exact keep2 o (List.mem_of_mem_erase ho) q hq
      · intro q hq hd
        by_cases hqp : q = p
        · subst hqp
          by_cases hl : left t (w.disk q) = none
          · exfalso
            simp only [set, if_true, hl] at hd
            exact (C139_kept_partial r ha' q (Ne.symm hd)).1 (mem_paths.2 ⟨t, hm, hp⟩)
          · exact ⟨t, c, by simp, hp, hh, hc ▸ hl⟩
        · simp only [set, if_neg hqp] at hd
          refine keep q ?_ hd
          intro hm'
          have := hperm.mem_iff.1 hm'
          simp [hqp] at this
          exact hq this
    | destroyFailed hm hp =>
      have hperm := paths_erase_none hm hp
      exact ⟨hperm.nodup_iff.1 i1, fun o ho q hq => keep2 o (List.mem_of_mem_erase ho) q hq,
        fun q hq hd => keep q (fun hm' => hq (hperm.mem_iff.1 hm')) hd⟩

/-- C139, as long as nobody else removes anything: when all objects are destroyed, each was to be removed, and what the
user has put at their paths can be removed (for a file: it is still a file), the disk is as it was at first. -/
theorem C139_clean_partial {d : Disk} {h : List Ev} {w : World} (r : Run d h w) (ha : Alone h) (hw : w.live = [])
    (hdel : ∀ t, .destroy t ∈ h → t.del = true)
    (hput : ∀ t p c, .destroy t ∈ h → t.path = some p → .put p c ∈ h → if t.file then (c = .reg true ∨ c = .link true) else Removable c) :
    w.disk = d := by
  funext p
  apply Classical.byContradiction
  intro hne
  obtain ⟨t, c, h1, h2, h3, h4⟩ := (C139_apart_partial r ha).2.2 p (by simp [World.paths, hw]) hne
  have hd := hdel t h1
  rcases h3 with rfl | ⟨q, h5, h6⟩
  · cases hf : t.file <;> simp [left, hd, hf, created, unlink] at h4
    exact h4 ((C78_gone true _).1 ((C78_recursive _).2 (.dir (by simp [Entries.toList]))))
  · have := hput t q c h1 h5 h6
    cases hf : t.file <;> simp [hf] at this <;> simp [left, hd, hf] at h4
    · exact h4 ((C78_gone true _).1 ((C78_recursive _).2 this))
    · rcases this with rfl | rfl <;> simp [unlink] at h4

/-- C139: an object that is not to be removed leaves everything as it is when it is destroyed. -/
theorem C139_left_behind {w w' : World} {t : Temp} (st : Step w (.destroy t) w') (hd : t.del = false) : w'.disk = w.disk := by
  cases st with
  | destroy hm hp =>
    funext q
    simp only [left, hd, set]
    split <;> simp_all
  | destroyFailed hm hp => rfl

/-- C139 violated: `path()` is documented to be empty if the directory could not be made; it is a null pointer. -/
theorem C139_null_violated (w : World) (template : Bytes) (del : Bool) :
    ∃ t w', Step w (.dir template del t) w' ∧ t.path = none ∧ t.path ≠ some [] :=
  ⟨_, _, .dirFails, rfl, by simp⟩

/-- A template and the two names used in the examples. -/
def tmpl : Bytes := ascii "/tmp/t.XXXXXX"
def nameA : Bytes := ascii "/tmp/t.aaaaaa"
def nameB : Bytes := ascii "/tmp/t.bbbbbb"

theorem nameA_ok : Names tmpl nameA := ⟨ascii "/tmp/t.", ascii "aaaaaa", by decide +kernel, by decide +kernel, by decide +kernel⟩
theorem nameB_ok : Names tmpl nameB := ⟨ascii "/tmp/t.", ascii "bbbbbb", by decide +kernel, by decide +kernel, by decide +kernel⟩

/-- The example: a directory and a file are made, the directory is filled, both are destroyed. -/
def tidy (full : Tree) : List Ev :=
  [.dir tmpl true ⟨some nameA, false, true⟩, .file tmpl true (some ⟨some nameB, true, true⟩), .put nameA full,
   .destroy ⟨some nameB, true, true⟩, .destroy ⟨some nameA, false, true⟩]

theorem nameAB : nameA ≠ nameB := by decide +kernel
theorem nameBA : nameB ≠ nameA := by decide +kernel

theorem tidy_run (d : Disk) (hA : d nameA = none) (hB : d nameB = none) (full : Tree) :
    ∃ w, Run d (tidy full) w ∧ w.live = [] := by
  have r1 := Run.snoc (.nil (d := d)) (.dir (template := tmpl) (del := true) nameA_ok hA)
  have r2 := Run.snoc r1 (.file (template := tmpl) (del := true) nameB_ok (by simp [set, nameBA, hB]))
  have r3 := Run.snoc r2 (.put (p := nameA) (t := full) ⟨_, by simp; exact .inr rfl, rfl⟩ (by simp [set, nameAB]))
  have r4 := Run.snoc r3 (.destroy (t := ⟨some nameB, true, true⟩) (p := nameB) (by simp) rfl)
  have r5 := Run.snoc r4 (.destroy (t := ⟨some nameA, false, true⟩) (p := nameA) (by simp) rfl)
  exact ⟨_, r5, by simp⟩

theorem tidy_alone (full : Tree) : Alone (tidy full) := by simp [Alone, tidy]

/-- The hypotheses of `C139_kept_partial`, `C139_apart_partial` and `C139_clean_partial` are met: a directory that was
filled with a file and a link. -/
example : ∃ w, Run (fun _ => none) (tidy (.dir true true (.cons [97] (.reg true) (.cons [98] (.link true) .nil)))) w ∧ w.disk = fun _ => none := by
  obtain ⟨w, r, hw⟩ := tidy_run (fun _ => none) rfl rfl (.dir true true (.cons [97] (.reg true) (.cons [98] (.link true) .nil)))
  refine ⟨w, r, C139_clean_partial r (tidy_alone _) hw ?_ ?_⟩
  · intro t ht
    simp [tidy] at ht
    rcases ht with rfl | rfl <;> rfl
  · intro t p c ht hp hc
    simp [tidy] at ht hc
    obtain ⟨rfl, rfl⟩ := hc
    rcases ht with rfl | rfl
    · exact absurd (by simpa using hp) nameBA
    · refine .dir fun e he => ?_
      simp [Entries.toList] at he
      rcases he with rfl | rfl
      · exact .reg
      · exact .link

/-- C139 violated when another process cleans up (as programs that sweep `/tmp` do): two objects come to have the same
path, and destroying the first removes what the second has made. -/
theorem C139_apart_violated (d : Disk) (hA : d nameA = none) :
    ∃ h w w', Run d h w ∧ ¬ w.paths.Nodup ∧ Step w (.destroy ⟨some nameA, false, true⟩) w' ∧
      ⟨some nameA, true, true⟩ ∈ w'.live ∧ w.disk nameA = some (.reg true) ∧ w'.disk nameA = none := by
  have r1 := Run.snoc (.nil (d := d)) (.dir (template := tmpl) (del := true) nameA_ok hA)
  have r2 := Run.snoc r1 (.gone (p := nameA))
  have r3 := Run.snoc r2 (.file (template := tmpl) (del := true) nameA_ok (by simp [set]))
  refine ⟨_, _, _, r3, ?_, .destroy (p := nameA) (by simp) rfl, by simp, by simp [set], ?_⟩
  · simp [World.paths]
  · simp [set, left, removePath, remove]

/-- C139 violated: a file in the directory that cannot be removed keeps everything, and nobody is told. -/
theorem C139_clean_violated (d : Disk) (hA : d nameA = none) :
    ∃ h w, Run d h w ∧ Alone h ∧ w.live = [] ∧ (∀ t, .destroy t ∈ h → t.del = true) ∧ w.disk nameA ≠ none := by
  have r1 := Run.snoc (.nil (d := d)) (.dir (template := tmpl) (del := true) nameA_ok hA)
  have r2 := Run.snoc r1 (.put (p := nameA) (t := .dir true true (.cons [97] .special .nil)) ⟨_, by simp; rfl, rfl⟩ (by simp [set]))
  have r3 := Run.snoc r2 (.destroy (t := ⟨some nameA, false, true⟩) (p := nameA) (by simp) rfl)
  exact ⟨_, _, r3, by simp [Alone], by simp, by simp, by simp [set, left, removePath, remove, removeAll]⟩

end Nebula.Fs.Temp
