import Verif.Fs.LinesProps
import Verif.Process.Props
import Verif.Process.Daemon
/-!
# C143: what is told about files, disks and processes

Models of the wrappers in `src/common/fs/FileUtils.cpp` and of the readers of /proc in `src/common/process/ProcessUtils.cpp`.
Of the system: `lstat` and `readlink` do not follow a link, `access` does; `readlink` cuts what does not fit. Simplified: the names of
the world are full paths, a link holds the name it leads to, and every directory may be searched.
-/
namespace Nebula.Fs

/-- What is at a name: a link, or something of a size. Both have a time of their last change. -/
inductive Inode
  | link (target : Bytes) (mtime : Int)
  | thing (size : Nat) (mtime : Int)
deriving DecidableEq, Repr

abbrev Names := Bytes → Option Inode

/-- Where the links lead from a name: to something that is there and is not a link. -/
inductive Leads (w : Names) : Bytes → Nat → Int → Prop
  | here {p size mtime} : w p = some (.thing size mtime) → Leads w p size mtime
  | link {p t m size mtime} : w p = some (.link t m) → Leads w t size mtime → Leads w p size mtime

/-- FileUtils.cpp:156-165 `fileSize`. The size of a link is the length of what it holds. -/
def fileSize (w : Names) (p : Bytes) : Nat := match w p with
  | some (.thing n _) => n
  | some (.link t _) => t.length
  | none => 0

/-- FileUtils.cpp:203-212 `fileLastUpdateTime`. -/
def fileLastUpdateTime (w : Names) (p : Bytes) : Int := match w p with
  | some (.thing _ t) => t
  | some (.link _ t) => t
  | none => -1

/-- FileUtils.cpp:361-366 `exist`: `access` with `F_OK`. -/
def Exist (w : Names) (p : Bytes) : Prop := p ≠ [] ∧ ∃ n t, Leads w p n t

/-- FileUtils.cpp:91-98 `readLink`, with `kMaxPathLen` of line 18; `none`: an error. -/
def readLink (w : Names) (p : Bytes) : Option Bytes := match w p with
  | some (.link t _) => some (t.take 1024)
  | _ => none

/-- What `statfs` tells: blocks that are free, blocks for users, and their size. -/
structure Blocks where
  bfree : UInt64
  bavail : UInt64
  bsize : UInt64

/-- FileUtils.cpp:376-383 `free`. `f_bsize` is signed and never negative. -/
def free (b : Option Blocks) : Option UInt64 := b.map fun b => b.bfree * b.bsize

/-- FileUtils.cpp:385-392 `available`. -/
def available (b : Option Blocks) : Option UInt64 := b.map fun b => b.bavail * b.bsize

/-! ## Files -/

theorem Leads.unique {w : Names} {p : Bytes} {n n' : Nat} {t t' : Int} (h : Leads w p n t) (h' : Leads w p n' t') : n = n' ∧ t = t' := by
  induction h with
  | here e =>
    cases h' with
    | here e' => rw [e] at e'; cases e'; exact ⟨rfl, rfl⟩
    | link e' => rw [e] at e'; cases e'
  | link e _ ih =>
    cases h' with
    | here e' => rw [e] at e'; cases e'
    | link e' h2 => rw [e] at e'; cases e'; exact ih h2

/-- C143, if the file is no link: its size and the time of its last change are told. -/
theorem C143_file_partial {w : Names} {p : Bytes} {n : Nat} {t : Int} (h : Leads w p n t) (hl : ∀ x m, w p ≠ some (.link x m)) :
    fileSize w p = n ∧ fileLastUpdateTime w p = t := by
  cases h with
  | here e => simp [fileSize, fileLastUpdateTime, e]
  | link e _ => exact absurd e (hl _ _)

/-- C143 violated: through a link neither the size nor the time of the file is told, but those of the link. -/
theorem C143_file_violated : ∃ w : Names, Leads w (ascii "/l") 5000 77 ∧ fileSize w (ascii "/l") = 7 ∧ fileLastUpdateTime w (ascii "/l") = 3 := by
  refine ⟨fun p => if p = ascii "/l" then some (.link (ascii "/target") 3) else if p = ascii "/target" then some (.thing 5000 77) else none, ?_, ?_, ?_⟩
  · exact .link (t := ascii "/target") (m := 3) (by simp) (.here (by decide +kernel))
  · decide +kernel
  · decide +kernel

/-- C143 violated: a file that does not exist has the size of an empty one. -/
theorem C143_missing_violated (w : Names) (p : Bytes) (h : w p = none) : fileSize w p = 0 ∧ ¬Exist w p := by
  refine ⟨by simp [fileSize, h], ?_⟩
  rintro ⟨_, n, t, hl⟩
  cases hl with
  | here e => rw [h] at e; cases e
  | link e _ => rw [h] at e; cases e

/-- C143: a missing file is told by the time of its last change, if no file has the time -1. -/
theorem C143_missing (w : Names) (p : Bytes) (ht : ∀ q, (∀ n, w q ≠ some (.thing n (-1))) ∧ ∀ x, w q ≠ some (.link x (-1))) :
    fileLastUpdateTime w p = -1 ↔ w p = none := by
  unfold fileLastUpdateTime
  cases h : w p with
  | none => simp
  | some i =>
    cases i with
    | link x t =>
      simp only [reduceCtorEq, iff_false]
      rintro rfl
      exact (ht p).2 x h
    | thing n t =>
      simp only [reduceCtorEq, iff_false]
      rintro rfl
      exact (ht p).1 n h

/-- C143: a path exists exactly if there is something at its end; without links, if there is something there. -/
theorem C143_exist (w : Names) (p : Bytes) : (Exist w p → w p ≠ none ∧ p ≠ []) ∧
    ((∀ x m, w p ≠ some (.link x m)) → p ≠ [] → (Exist w p ↔ w p ≠ none)) ∧
    (∀ t m, w p = some (.link t m) → t ≠ [] → p ≠ [] → (Exist w p ↔ Exist w t)) := by
  have h1 : Exist w p → w p ≠ none ∧ p ≠ [] := by
    rintro ⟨hp, n, t, hl⟩
    refine ⟨fun hn => ?_, hp⟩
    cases hl with
    | here e => rw [hn] at e; cases e
    | link e _ => rw [hn] at e; cases e
  refine ⟨h1, ?_, ?_⟩
  · intro hl hp
    refine ⟨fun h => (h1 h).1, fun hn => ⟨hp, ?_⟩⟩
    cases h : w p with
    | none => exact absurd h hn
    | some i =>
      cases i with
      | link x m => exact absurd h (hl x m)
      | thing n t => exact ⟨n, t, .here h⟩
  · intro t m h ht hp
    constructor
    · rintro ⟨_, n, k, hl⟩
      cases hl with
      | here e => rw [h] at e; cases e
      | link e h2 => rw [h] at e; cases e; exact ⟨ht, n, k, h2⟩
    · rintro ⟨_, n, k, hl⟩
      exact ⟨hp, n, k, .link h hl⟩

/-- A link to itself does not exist. -/
theorem C143_loop (w : Names) (p : Bytes) (m : Int) (h : w p = some (.link p m)) : ¬Exist w p := by
  rintro ⟨_, n, t, hl⟩
  have : ∀ q, Leads w q n t → q ≠ p := by
    intro q hq
    induction hq with
    | here e => rintro rfl; rw [h] at e; cases e
    | link e _ ih => rintro rfl; rw [h] at e; cases e; exact ih hl rfl
  exact this p hl rfl

/-- C143: what a link holds is told, if it is at most 1024 bytes; anything else than a link is an error. -/
theorem C143_link_partial (w : Names) (p t : Bytes) (ht : t.length ≤ 1024) : (∃ m, w p = some (.link t m)) → readLink w p = some t := by
  rintro ⟨m, h⟩
  simp only [readLink, h, List.take_of_length_le ht]

theorem C143_link_only (w : Names) (p : Bytes) : (readLink w p).isSome ↔ ∃ t m, w p = some (.link t m) := by
  unfold readLink
  split
  · rename_i t m h; simp [h]
  · rename_i h
    simp only [Option.isSome_none, Bool.false_eq_true, false_iff]
    rintro ⟨t, m, e⟩
    exact h t m e

/-- C143 violated: a longer one is cut and no error is told (the system allows 4095 bytes). -/
theorem C143_link_violated (w : Names) (p t : Bytes) (m : Int) (h : w p = some (.link t m)) (ht : 1024 < t.length) :
    ∃ r, readLink w p = some r ∧ r ≠ t ∧ r.length = 1024 := by
  refine ⟨t.take 1024, by simp [readLink, h], ?_, by simp; omega⟩
  intro e
  have := congrArg List.length e
  rw [List.length_take] at this; omega

/-! ## Disks -/

/-- C143, for disks of less than 2^64 bytes: the bytes that are free and that are left for users; never more for users than free. -/
theorem C143_disk_partial (b : Blocks) (hf : b.bfree.toNat * b.bsize.toNat < 2 ^ 64) (ha : b.bavail ≤ b.bfree) :
    ∃ f a, free (some b) = some f ∧ available (some b) = some a ∧ f.toNat = b.bfree.toNat * b.bsize.toNat ∧
      a.toNat = b.bavail.toNat * b.bsize.toNat ∧ a ≤ f := by
  have h1 : b.bavail.toNat * b.bsize.toNat ≤ b.bfree.toNat * b.bsize.toNat := Nat.mul_le_mul_right _ (UInt64.le_iff_toNat_le.1 ha)
  have e1 : (b.bfree * b.bsize).toNat = b.bfree.toNat * b.bsize.toNat := by
    rw [UInt64.toNat_mul, Nat.mod_eq_of_lt hf]
  have e2 : (b.bavail * b.bsize).toNat = b.bavail.toNat * b.bsize.toNat := by
    rw [UInt64.toNat_mul, Nat.mod_eq_of_lt (by omega)]
  exact ⟨_, _, rfl, rfl, e1, e2, UInt64.le_iff_toNat_le.2 (by rw [e1, e2]; exact h1)⟩

theorem C143_disk_error : free none = none ∧ available none = none := ⟨rfl, rfl⟩

/-- C143 violated: a file system that says it has no bound wraps around. -/
theorem C143_disk_violated : free (some ⟨4503599627370496, 4503599627370495, 4096⟩) = some 0 ∧
    available (some ⟨4503599627370496, 4503599627370495, 4096⟩) = some 18446744073709547520 := by decide +kernel

example : ∃ b : Blocks, b.bfree.toNat * b.bsize.toNat < 2 ^ 64 ∧ b.bavail ≤ b.bfree ∧ free (some b) = some 4096000 ∧ available (some b) = some 3686400 :=
  ⟨⟨1000, 900, 4096⟩, by decide +kernel, by decide +kernel, by decide +kernel, by decide +kernel⟩

end Nebula.Fs

namespace Nebula.Process
open Nebula.Fs

/-! ## Processes -/

/-- /proc: its links and its text files. -/
structure ProcFs where
  names : Names
  text : Bytes → Option Bytes

/-- The path of a process in /proc. -/
def procPath (pid : Int) (what : Bytes) : Bytes := ascii "/proc/" ++ intDec pid ++ what

/-- ProcessUtils.cpp:102-109 `getExePath`. -/
def getExePath (s : ProcFs) (self pid : Int) : Option Bytes :=
  readLink s.names (procPath (if pid = 0 then self else pid) (ascii "/exe"))

/-- `%u` of a `pid_t`. -/
def asUnsigned (pid : Int) : Int := if pid < 0 then pid + 4294967296 else pid

/-- ProcessUtils.cpp:112-119 `getExeCWD`. -/
def getExeCWD (s : ProcFs) (self pid : Int) : Option Bytes :=
  readLink s.names (procPath (asUnsigned (if pid = 0 then self else pid)) (ascii "/cwd"))

/-- ProcessUtils.cpp:122-133 `getProcessName`: the first line of `comm`. -/
def getProcessName (s : ProcFs) (self pid : Int) : Option Bytes :=
  match s.text (procPath (if pid = 0 then self else pid) (ascii "/comm")) with
  | none => none
  | some t => let it := Fs.open_ (fun _ => true) (.file t)
    if it.valid then some it.entry else none

/-- ProcessUtils.cpp:136-141 `maxPid`, of what /proc/sys/kernel/pid_max holds; `none`: the process ends, by the check or the
exception of `folly::to`. -/
def maxPid : Option Bytes → Option Int
  | none => none
  | some t => let it := Fs.open_ (fun l => digitRun l ≠ []) (.file t)
    if !it.valid then none
    else if digitsVal 0 (digitRun it.entry) ≤ 4294967295 then some (toPid (digitsVal 0 (digitRun it.entry))) else none

/-- /proc tells the truth about the process `pid`: its program, its directory and the name of its first thread. -/
structure Tells (s : ProcFs) (pid : Int) (exe cwd name : Bytes) : Prop where
  exe : ∃ m, s.names (procPath pid (ascii "/exe")) = some (.link exe m)
  cwd : ∃ m, s.names (procPath pid (ascii "/cwd")) = some (.link cwd m)
  comm : s.text (procPath pid (ascii "/comm")) = some (name ++ [10])

theorem getline_line : ∀ (l r : Bytes), 10 ∉ l → getline (l ++ 10 :: r) = some (l, r)
  | [], r, _ => rfl
  | c :: l, r, h => by
    have hc : c ≠ 10 := by rintro rfl; simp at h
    have ih := getline_line l r fun hm => h (by simp [hm])
    rw [List.cons_append, getline_cons hc, ih]

/-- C143: the program, the directory and the name of a process are told, for its own (0) and for any other; if the paths are at most
1024 bytes and the name has no line end. -/
theorem C143_process_partial {s : ProcFs} {self pid : Int} {exe cwd name : Bytes} (hp : 0 < pid) (h : Tells s pid exe cwd name) (he : exe.length ≤ 1024)
    (hc : cwd.length ≤ 1024) (hn : 10 ∉ name) (q : Int) (hq : q = pid ∨ q = 0 ∧ self = pid) :
    getExePath s self q = some exe ∧ getExeCWD s self q = some cwd ∧ getProcessName s self q = some name := by
  have e : (if q = 0 then self else q) = pid := by
    rcases hq with rfl | ⟨rfl, rfl⟩
    · rw [if_neg (by omega)]
    · rw [if_pos rfl]
  have hu : asUnsigned pid = pid := by unfold asUnsigned; rw [if_neg (by omega)]
  refine ⟨?_, ?_, ?_⟩
  · unfold getExePath; rw [e]; exact C143_link_partial _ _ _ he h.exe
  · unfold getExeCWD; rw [e, hu]; exact C143_link_partial _ _ _ hc h.cwd
  · unfold getProcessName
    rw [e, h.comm]
    have : Fs.open_ (fun _ => true) (.file (name ++ [10])) = ⟨.file [], name, true⟩ := by
      unfold Fs.open_
      rw [nextF]
      simp only [advance, getline_line name [] hn, Option.map_some, if_true]
    simp only [this, if_true]

/-- The hypotheses can be met. -/
example : ∃ s, Tells s 12 (ascii "/usr/bin/nebula-graphd") (ascii "/home") (ascii "nebula-graphd") ∧
    getExePath s 12 0 = some (ascii "/usr/bin/nebula-graphd") ∧ getProcessName s 12 0 = some (ascii "nebula-graphd") := by
  have h : Tells ⟨fun p => if p = procPath 12 (ascii "/exe") then some (.link (ascii "/usr/bin/nebula-graphd") 1)
        else if p = procPath 12 (ascii "/cwd") then some (.link (ascii "/home") 1) else none,
      fun p => if p = procPath 12 (ascii "/comm") then some (ascii "nebula-graphd" ++ [10]) else none⟩ 12
      (ascii "/usr/bin/nebula-graphd") (ascii "/home") (ascii "nebula-graphd") :=
    ⟨⟨1, by decide +kernel⟩, ⟨1, by decide +kernel⟩, by decide +kernel⟩
  have h2 := C143_process_partial (self := 12) (by decide) h (by decide +kernel) (by decide +kernel) (by decide +kernel) 0 (.inr ⟨rfl, rfl⟩)
  exact ⟨_, h, h2.1, h2.2.2⟩

/-- C143 violated: a name with a line end, which a thread may have, is cut there. -/
theorem C143_name_violated {s : ProcFs} {pid : Int} {exe cwd a b : Bytes} (hp : 0 < pid) (h : Tells s pid exe cwd (a ++ 10 :: b)) (ha : 10 ∉ a) (self : Int) :
    getProcessName s self pid = some a := by
  unfold getProcessName
  rw [if_neg (by omega), h.comm]
  have : Fs.open_ (fun _ => true) (.file (a ++ 10 :: b ++ [10])) = ⟨.file (b ++ [10]), a, true⟩ := by
    unfold Fs.open_
    rw [nextF, List.append_assoc, List.cons_append]
    simp only [advance, getline_line a _ ha, Option.map_some, if_true]
  simp only [this, if_true]

/-- C143: a process whose first thread has been given a name is known by it, cut to 15 bytes. -/
theorem C143_named {s : ProcFs} {pid : Int} {exe cwd name : Bytes} {t : Thread} (hp : 0 < pid) (h : Tells s pid exe cwd (t.set name).name) (hn : 10 ∉ name) (self : Int) :
    getProcessName s self pid = some ((cstr name).take 15) := by
  have h10 : 10 ∉ (t.set name).name := by
    intro hm
    exact hn ((List.takeWhile_sublist _).subset (List.mem_of_mem_take hm))
  have e : (if pid = 0 then self else pid) = pid := if_neg (by omega)
  unfold getProcessName
  rw [e, h.comm]
  have : Fs.open_ (fun _ => true) (.file ((t.set name).name ++ [10])) = ⟨.file [], (t.set name).name, true⟩ := by
    unfold Fs.open_
    rw [nextF]
    simp only [advance, getline_line _ [] h10, Option.map_some, if_true]
  simp only [this, if_true]
  rfl

/-- C143: the largest id of a process is what the system says, up to 2^31. -/
theorem C143_maxPid (n : Nat) (h : n < 2147483648) : maxPid (some (natDec n ++ [10])) = some n := by
  have hd : ∀ c ∈ natDec n, isDigit c = true := fun c hc => natDec_digits n c hc
  have hne : natDec n ≠ [] := natDec_ne_nil n
  have hr : digitRun (natDec n) = natDec n := by
    have := digitRun_of (pre := []) (d := natDec n) (post := []) (by simp) hd (by simp) hne
    simpa using this
  have h10 : (10 : UInt8) ∉ natDec n := fun hm => by have := hd _ hm; revert this; decide
  have ho : Fs.open_ (fun l => digitRun l ≠ []) (.file (natDec n ++ [10])) = ⟨.file [], natDec n, true⟩ := by
    unfold Fs.open_
    rw [nextF]
    simp only [advance, getline_line _ [] h10, Option.map_some, hr]
    rw [if_pos (by simpa using hne)]
  unfold maxPid
  simp only [ho, hr, digitsVal_natDec]
  simp only [Bool.not_true, Bool.false_eq_true, if_false]
  rw [if_pos (by omega)]
  simp [toPid, h]

end Nebula.Process
