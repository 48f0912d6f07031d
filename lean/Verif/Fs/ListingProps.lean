import Verif.Fs.Listing
import Verif.Fs.PathProps
import Verif.Fs.LinesProps
/-! # C128: listings of directories, and what an iterator is opened on -/
namespace Nebula
namespace Fs
namespace Listing

/-! ## Specification -/

/-- The kind of file a `d_type` stands for. -/
def DType.kind : DType → Option FType
  | .reg => some .regular | .dir => some .directory | .lnk => some .symLink | .chr => some .charDev
  | .blk => some .blockDev | .fifo => some .fifo | .sock => some .socket | _ => none

/-- The entries `readdir` gives are those of a directory with the files `files`: each file once, in some order, with its type or
without, and the directory itself and its parent. -/
structure Reads (es : List Dirent) (lstat : Bytes → FType) (dirpath : Bytes) (files : Bytes → Option FType) : Prop where
  nodup : (es.map (·.name)).Nodup
  dot : ascii "." ∈ es.map (·.name) ∧ ascii ".." ∈ es.map (·.name)
  noFile : files (ascii ".") = none ∧ files (ascii "..") = none
  names : ∀ n, n ≠ ascii "." → n ≠ ascii ".." → (n ∈ es.map (·.name) ↔ files n ≠ none)
  types : ∀ e ∈ es, ∀ t, files e.name = some t → e.dtype ≠ .unknown → e.dtype.kind = some t
  stat : ∀ n t, files n = some t → lstat (joinPath dirpath n) = t

/-- The types one can ask for. -/
def FType.listed (t : FType) : Prop := t ≠ .unknown ∧ t ≠ .notExist

/-! ## Listings -/

theorem wanted_iff {lstat : Bytes → FType} {type : FType} {dirpath : Bytes} {e : Dirent} {t : FType} (ht : type.listed)
    (hd : e.dtype ≠ .unknown → e.dtype.kind = some t) (hs : lstat (joinPath dirpath e.name) = t) :
    wanted lstat type dirpath e = true ↔ t = type := by
  obtain ⟨h1, h2⟩ := ht
  by_cases hu : e.dtype = .unknown
  · cases type <;> simp_all [wanted, isReg, isDir, isLink, isChr, isBlk, isFifo, isSock, checkType]
  · have hk := hd hu
    cases hdt : e.dtype <;> rw [hdt] at hk <;> simp only [DType.kind, Option.some.injEq, reduceCtorEq] at hk <;>
      cases type <;> simp_all [wanted, isReg, isDir, isLink, isChr, isBlk, isFifo, isSock, checkType] <;>
      first | (subst hk; simp) | skip

theorem collect_acc {lstat : Bytes → FType} {fnm : Bytes → Bytes → Bool} {dirpath : Bytes} {type : FType} {full : Bool} {pattern : Option Bytes} :
    ∀ (es : List Dirent) (acc : List Bytes), collect lstat fnm dirpath type full pattern es acc =
      acc ++ collect lstat fnm dirpath type full pattern es []
  | [], acc => by simp [collect]
  | e :: es, acc => by
    rw [collect, collect, collect_acc es acc, collect_acc es (acc ++ _), collect_acc es ([] ++ _)]
    split
    · split
      · rfl
      · split <;> simp
    · rfl

/-- **C128.** A listing gives each file of the directory that has the type and whose name matches the pattern, exactly once, in the
order of the directory, as its name or as its full path, and nothing else — whether the file system tells the types of
entries or not. -/
theorem C128_listing {opendir : Bytes → Option (List Dirent)} {lstat : Bytes → FType} (fnm : Bytes → Bytes → Bool) {dirpath : Bytes}
    {es : List Dirent} {files : Bytes → Option FType} (ho : opendir dirpath = some es) (hr : Reads es lstat dirpath files)
    {type : FType} (ht : type.listed) (full : Bool) (pattern : Option Bytes) :
    ∃ ns : List Bytes, listAllTyped opendir lstat fnm dirpath type full pattern = (if full then ns.map (joinPath dirpath) else ns) ∧
      ns.Sublist (es.map (·.name)) ∧ ns.Nodup ∧
      ∀ n, n ∈ ns ↔ files n = some type ∧ ∀ p, pattern = some p → fnm p n = true := by
  have key : ∀ l : List Dirent, (∀ e ∈ l, e ∈ es) → ∃ ns : List Bytes,
      collect lstat fnm dirpath type full pattern l [] = (if full then ns.map (joinPath dirpath) else ns) ∧
      ns.Sublist (l.map (·.name)) ∧
      ∀ n, n ∈ ns ↔ n ∈ l.map (·.name) ∧ files n = some type ∧ ∀ p, pattern = some p → fnm p n = true := by
    intro l
    induction l with
    | nil => intro _; exact ⟨[], by simp [collect], by simp, by simp⟩
    | cons e l ih =>
      intro hl
      obtain ⟨ns, e1, hsub, hmem⟩ := ih (fun x hx => hl x (by simp [hx]))
      have hskip : ¬ (files e.name = some type ∧ ∀ p, pattern = some p → fnm p e.name = true) →
          collect lstat fnm dirpath type full pattern (e :: l) [] = collect lstat fnm dirpath type full pattern l [] →
          ∃ ns : List Bytes, collect lstat fnm dirpath type full pattern (e :: l) [] = (if full then ns.map (joinPath dirpath) else ns) ∧
            ns.Sublist ((e :: l).map (·.name)) ∧
            ∀ n, n ∈ ns ↔ n ∈ (e :: l).map (·.name) ∧ files n = some type ∧ ∀ p, pattern = some p → fnm p n = true := by
        intro hno he
        refine ⟨ns, by rw [he, e1], hsub.trans (by simp), ?_⟩
        intro n
        rw [hmem]
        simp only [List.map_cons, List.mem_cons]
        constructor
        · rintro ⟨h1, h2⟩; exact ⟨Or.inr h1, h2⟩
        · rintro ⟨rfl | h1, h2⟩
          · exact absurd h2 hno
          · exact ⟨h1, h2⟩
      by_cases hdot : e.name = ascii "." ∨ e.name = ascii ".."
      · apply hskip
        · rintro ⟨hf, _⟩
          rcases hdot with h | h <;> rw [h] at hf
          · rw [hr.noFile.1] at hf; simp at hf
          · rw [hr.noFile.2] at hf; simp at hf
        · rw [collect]; simp [hdot]
      · have hd1 : e.name ≠ ascii "." := fun h => hdot (Or.inl h)
        have hd2 : e.name ≠ ascii ".." := fun h => hdot (Or.inr h)
        have hin : e.name ∈ es.map (·.name) := List.mem_map.2 ⟨e, hl e (by simp), rfl⟩
        obtain ⟨t, hft⟩ := Option.ne_none_iff_exists'.1 ((hr.names _ hd1 hd2).1 hin)
        have hw := wanted_iff (dirpath := dirpath) ht (hr.types e (hl e (by simp)) t hft) (hr.stat _ _ hft)
        by_cases hte : t = type
        · by_cases hp : ∀ p, pattern = some p → fnm p e.name = true
          · have hpm : mismatched fnm pattern e.name = false := by
              cases pattern with
              | none => rfl
              | some p => simp [mismatched, hp p rfl]
            refine ⟨e.name :: ns, ?_, by simpa using hsub, ?_⟩
            · have hc : collect lstat fnm dirpath type full pattern (e :: l) [] =
                  (if full then joinPath dirpath e.name else e.name) :: collect lstat fnm dirpath type full pattern l [] := by
                rw [collect, collect_acc l ([] ++ _)]
                simp [hw.2 hte, hdot, hpm]
              rw [hc, e1]
              cases full <;> simp
            · intro n
              simp only [List.mem_cons, List.map_cons, hmem]
              constructor
              · rintro (rfl | ⟨h1, h2⟩)
                · exact ⟨Or.inl rfl, by rw [hft, hte], hp⟩
                · exact ⟨Or.inr h1, h2⟩
              · rintro ⟨rfl | h1, h2⟩
                · exact Or.inl rfl
                · exact Or.inr ⟨h1, h2⟩
          · apply hskip (fun h => hp h.2)
            have hpm : mismatched fnm pattern e.name = true := by
              cases pattern with
              | none => exact absurd (by simp) hp
              | some p =>
                have : ¬ fnm p e.name = true := fun h => hp (by rintro q hq; simp only [Option.some.injEq] at hq; rw [← hq]; exact h)
                simpa [mismatched] using this
            rw [collect]; simp [hpm]
        · apply hskip
          · rintro ⟨h, _⟩; rw [hft] at h; exact hte (by simpa using h)
          · have : wanted lstat type dirpath e = false := by
              cases hh : wanted lstat type dirpath e with
              | false => rfl
              | true => exact absurd (hw.1 hh) hte
            rw [collect]; simp [this]
  obtain ⟨ns, e1, hsub, hmem⟩ := key es (fun _ h => h)
  refine ⟨ns, by simp [listAllTyped, ho, e1], hsub, hsub.nodup hr.nodup, ?_⟩
  intro n
  rw [hmem]
  constructor
  · exact fun h => h.2
  · intro h
    refine ⟨?_, h⟩
    have h1 : n ≠ ascii "." := by rintro rfl; rw [hr.noFile.1] at h; simp at h
    have h2 : n ≠ ascii ".." := by rintro rfl; rw [hr.noFile.2] at h; simp at h
    exact (hr.names n h1 h2).2 (by rw [h.1]; simp)

/-- **C128.** Files and directories of a directory are listed separately: no name is in both listings. -/
theorem C128_files_dirs {opendir : Bytes → Option (List Dirent)} {lstat : Bytes → FType} (fnm : Bytes → Bytes → Bool) {dirpath : Bytes}
    {es : List Dirent} {files : Bytes → Option FType} (ho : opendir dirpath = some es) (hr : Reads es lstat dirpath files) :
    (∀ n, n ∈ listAllFiles opendir lstat fnm dirpath false none ↔ files n = some .regular) ∧
    (∀ n, n ∈ listAllDirs opendir lstat fnm dirpath false none ↔ files n = some .directory) := by
  constructor <;> intro n
  · obtain ⟨ns, e, _, _, hm⟩ := C128_listing fnm ho hr (type := .regular) (by simp [FType.listed]) false none
    simp [listAllFiles, e, hm]
  · obtain ⟨ns, e, _, _, hm⟩ := C128_listing fnm ho hr (type := .directory) (by simp [FType.listed]) false none
    simp [listAllDirs, e, hm]

/-- **C128.** The full paths in a listing lead to the files: they name the file in the directory. -/
theorem C128_full_path {dirpath n : Bytes} (hd : NoNul dirpath) (hn : NoNul n) :
    comps (joinPath dirpath n) = comps dirpath ++ comps n := (C63_join hd hn).1

/-- **C128, violated.** A directory that cannot be read is listed like one without files. -/
theorem C128_unreadable_violated (lstat : Bytes → FType) (fnm : Bytes → Bytes → Bool) (dirpath : Bytes) (type : FType) (full : Bool)
    (pattern : Option Bytes) :
    listAllTyped (fun _ => none) lstat fnm dirpath type full pattern = [] := rfl

/-- **C128.** A listing of "unknown" or missing files is always empty. -/
theorem C128_unknown_empty (opendir : Bytes → Option (List Dirent)) (lstat : Bytes → FType) (fnm : Bytes → Bytes → Bool) (dirpath : Bytes)
    (type : FType) (ht : ¬ type.listed) (full : Bool) (pattern : Option Bytes) :
    listAllTyped opendir lstat fnm dirpath type full pattern = [] := by
  have hw : ∀ e, wanted lstat type dirpath e = false := by
    intro e
    cases type <;> simp_all [wanted, FType.listed]
  unfold listAllTyped
  split
  · rfl
  · rename_i es heq
    clear heq
    induction es with
    | nil => rfl
    | cons e es ih => rw [collect]; simp [hw, ih]

/-- A directory with a file, a directory and a file whose type the file system does not tell. -/
example : Reads [⟨ascii ".", .dir⟩, ⟨ascii "a", .reg⟩, ⟨ascii "..", .dir⟩, ⟨ascii "b", .dir⟩, ⟨ascii "c", .unknown⟩]
    (fun p => if p = ascii "d/b" then .directory else .regular) (ascii "d")
    (fun n => if n = ascii "a" ∨ n = ascii "c" then some .regular else if n = ascii "b" then some .directory else none) where
  nodup := by decide +kernel
  dot := by decide +kernel
  noFile := by decide +kernel
  names := by
    intro n h1 h2
    simp only [List.map_cons, List.map_nil, List.mem_cons, h1, h2, false_or, List.not_mem_nil, or_false]
    by_cases ha : n = ascii "a" <;> by_cases hb : n = ascii "b" <;> by_cases hc : n = ascii "c" <;> simp [ha, hb, hc] <;>
      (split <;> simp)
  types := by decide +kernel
  stat := by
    intro n t h
    by_cases ha : n = ascii "a"
    · subst ha; revert h; revert t; decide +kernel
    · by_cases hc : n = ascii "c"
      · subst hc; revert h; revert t; decide +kernel
      · by_cases hb : n = ascii "b"
        · subst hb; revert h; revert t; decide +kernel
        · simp [ha, hb, hc] at h

/-! ## Iterators -/

/-- **C128 (partial).** An iterator over a file or directory that can be read gives its lines or names, and over anything else that is
no link it is not valid. -/
theorem C128_open_partial (w : Bytes → Node) (m : Bytes → Bool) (path : Bytes) :
    (∀ s, w path = .reg (some s) → make w m path = some (.iter (open_ m (.file s)))) ∧
    (∀ ns, w path = .dir (some ns) → make w m path = some (.iter (open_ m (.dir ns)))) ∧
    (w path = .reg none ∨ w path = .dir none ∨ w path = .link none ∨ (∃ t, w path = .other t) → make w m path = some .invalid) := by
  refine ⟨?_, ?_, ?_⟩
  · intro s h; simp only [make]; rw [openF, h]; simp
  · intro s h; simp only [make]; rw [openF, h]; simp
  · rintro (h | h | h | ⟨t, h⟩) <;> simp only [make] <;> rw [openF, h] <;> simp

/-- **C128.** An iterator over a link to a readable file or directory is one over the file or directory. -/
theorem C128_open_link (w : Bytes → Node) (m : Bytes → Bool) (path t : Bytes) (h : w path = .link (some t)) :
    (∀ s, w t = .reg (some s) → make w m path = make w m t) ∧ (∀ ns, w t = .dir (some ns) → make w m path = make w m t) := by
  constructor <;> intro s hs
  · rw [(C128_open_partial w m t).1 s hs]
    simp only [make]; rw [openF, h]; simp only []; rw [openF, hs]; simp
  · rw [(C128_open_partial w m t).2.1 s hs]
    simp only [make]; rw [openF, h]; simp only []; rw [openF, hs]; simp

/-- **C128, violated.** An iterator over a link to something that cannot be iterated over, or to a directory that may not be read, ends
the process, instead of being invalid: the error of the inner call is overwritten. -/
theorem C128_open_link_violated (w : Bytes → Node) (m : Bytes → Bool) (path t : Bytes) (h : w path = .link (some t))
    (ht : w t = .dir none ∨ ∃ k, w t = .other k ∧ k ≠ .regular ∧ k ≠ .directory) :
    make w m path = some .abort ∧ make w m t = some .invalid := by
  refine ⟨?_, (C128_open_partial w m t).2.2 (by rcases ht with h | ⟨k, h, _⟩ <;> simp [h])⟩
  rcases ht with ht | ⟨k, ht, h1, h2⟩ <;> simp only [make] <;> rw [openF, h] <;> simp only [] <;> rw [openF, ht]
  · simp
  · cases k <;> simp_all

example : ∃ w : Bytes → Node, w (ascii "l") = .link (some (ascii "/dev/null")) ∧ w (ascii "/dev/null") = .other .charDev :=
  ⟨fun p => if p = ascii "l" then .link (some (ascii "/dev/null")) else .other .charDev, by decide +kernel, by decide +kernel⟩

end Listing
end Fs
end Nebula
