import Verif.Process.Model
/-!
# C141: turning a process into a daemon; C142: ids and names of threads

Models of `ProcessUtils::daemonize` (`src/common/process/ProcessUtils.cpp:82-99`) and of
`src/common/thread/NamedThread.{h,cpp}`, and the theorems about them. Of the system: `fork` makes a process with one
thread, a copy of the calling one with its thread-local data, and copies the descriptors and the buffers of `stdio`;
`open` takes the lowest free descriptor; `exit` writes the buffers out; a name given to a thread is cut at 15 bytes, and
a thread begins with the name of the thread that makes it.
-/
namespace Nebula.Process

/-! ## Descriptors -/

/-- The descriptors of a process. -/
abbrev Table (F : Type) := Nat → Option F

variable {F : Type}

def Table.set (t : Table F) (d : Nat) (f : Option F) : Table F := fun k => if k = d then f else t k

/-- `dup2(a, b)`: nothing happens if `a` is not open. -/
def Table.dup2 (t : Table F) (a b : Nat) : Table F := match t a with
  | some f => t.set b (some f)
  | none => t

/-- What `open` may return. -/
def Lowest (t : Table F) (d : Nat) : Prop := t d = none ∧ ∀ k, k < d → t k ≠ none

/-- ProcessUtils.cpp:94-96: `/dev/null` is opened and put in place of the standard input. If it cannot be opened, `dup2(-1, 0)` and
`close(-1)` fail and nothing is noticed. -/
inductive NullInput (null : F) (t : Table F) : Table F → Prop
  | opened {d} : Lowest t d → NullInput null t (((t.set d (some null)).dup2 d 0).set d none)
  | failed : NullInput null t t

/-! ## Processes -/

/-- A process: its id, the ids of its group and session, whether it has a controlling terminal, its descriptors, the output it has
not yet written and how many threads it has. -/
structure Proc (F : Type) where
  pid : Nat
  group : Nat
  session : Nat
  terminal : Bool
  fds : Table F
  unwritten : Bytes
  threads : Nat

/-- `fork` in the child; `pid` is the new id. -/
def Proc.fork (p : Proc F) (pid : Nat) : Proc F := { p with pid := pid, threads := 1 }

/-- `setsid`; it fails for the leader of a group. -/
def Proc.setsid (p : Proc F) : Proc F :=
  if p.pid = p.group then p else { p with group := p.pid, session := p.pid, terminal := false }

/-- What has become of a call of `daemonize`. -/
inductive Outcome (F : Type)
  /-- `fork` failed: the call returns an error in the only process -/
  | error (p : Proc F)
  /-- the calling process has ended and written `out`; the call has returned in the child `c`, with a pid file that holds `file`, or an
  error -/
  | child (out : Bytes) (c : Proc F) (file : Option Bytes)

/-- ProcessUtils.cpp:82-99 `daemonize`. A new id is not that of a process, group or session there is. `dirOk`, `openOk`: whether the
directory and the pid file can be made (C108). -/
inductive Daemonize (null : F) (p : Proc F) (path : Bytes) : Outcome F → Prop
  | forkFails : Daemonize null p path (.error p)
  | forks {pid : Nat} {t : Table F} {dirOk openOk : Bool} : pid ≠ p.pid → pid ≠ p.group → pid ≠ p.session → NullInput null p.fds t →
      Daemonize null p path (.child p.unwritten { (p.fork pid).setsid with fds := t } (makePidFile pid path dirOk openOk 0))

/-! ## C141 -/

/-- C141: the daemon is a process of its own, leader of its own session and group and without a terminal, and if its pid file could be
made it holds its id. -/
theorem C141_detached {null : F} {p : Proc F} {path out : Bytes} {c : Proc F} {file : Option Bytes} (h : Daemonize null p path (.child out c file)) :
    c.pid ≠ p.pid ∧ c.session = c.pid ∧ c.group = c.pid ∧ c.terminal = false ∧ ∀ f, file = some f → f = intDec c.pid ++ [10] := by
  cases h with
  | forks h1 h2 h3 h4 =>
    rename_i pid t dirOk openOk
    have hs : (p.fork pid).setsid = { p.fork pid with group := pid, session := pid, terminal := false } := by
      unfold Proc.setsid Proc.fork; rw [if_neg (by simpa using h2)]
    rw [hs]
    refine ⟨h1, rfl, rfl, rfl, ?_⟩
    intro f hf
    unfold makePidFile at hf
    simp only [if_true] at hf
    split at hf
    · cases hf
    split at hf
    · cases hf
    split at hf
    · cases hf
    · exact (Option.some.inj hf).symm

/-- C141: if the process cannot be forked nothing happens. -/
theorem C141_error {null : F} {p p' : Proc F} {path : Bytes} (h : Daemonize null p path (.error p')) : p' = p := by
  cases h; rfl

/-- C141, if the standard input was open and `/dev/null` can be opened: it is the standard input afterwards, and all other descriptors
are as they were. -/
theorem C141_stdin_partial {null : F} {t t' : Table F} (h : NullInput null t t') (h0 : t 0 ≠ none) (hne : t' ≠ t) :
    t' 0 = some null ∧ ∀ k, k ≠ 0 → t' k = t k := by
  cases h with
  | failed => exact absurd rfl hne
  | opened hl =>
    rename_i d
    have hd : d ≠ 0 := by rintro rfl; exact h0 hl.1
    have e : (t.set d (some null)).dup2 d 0 = (t.set d (some null)).set 0 (some null) := by
      unfold Table.dup2; simp [Table.set]
    rw [e]
    refine ⟨by simp [Table.set, Ne.symm hd], ?_⟩
    intro k hk
    by_cases hkd : k = d
    · simp [Table.set, hkd, hl.1]
    · simp [Table.set, hkd, hk]

/-- The hypotheses are met: a process with the usual three descriptors. -/
example : ∃ t' : Table Nat, NullInput 9 (fun k => if k < 3 then some k else none) t' ∧ t' 0 = some 9 ∧ t' 1 = some 1 ∧ t' 3 = none :=
  ⟨_, .opened (d := 3) ⟨rfl, by intro k hk; simp; omega⟩, rfl, rfl, rfl⟩

/-- C141 violated: a process started with its standard input closed. `open` returns 0, which is closed again: the standard input of
the daemon is closed, and the next file it opens takes its place. -/
theorem C141_stdin_violated (null : F) (t : Table F) (h0 : t 0 = none) :
    (∀ t', NullInput null t t' → t' 0 = none ∧ Lowest t' 0) ∧ ∃ t', NullInput null t t' := by
  refine ⟨?_, _, .failed⟩
  intro t' h
  have : t' 0 = none := by
    cases h with
    | failed => exact h0
    | opened hl =>
      rename_i d
      have hd : d = 0 := Nat.eq_zero_of_not_pos fun hp => hl.2 0 hp h0
      subst hd
      simp [Table.set]
  exact ⟨this, this, by omega⟩

/-- C141 violated: if `/dev/null` cannot be opened the daemon keeps the old standard input, and nobody is told. -/
theorem C141_null_violated (null : F) (p : Proc F) (path : Bytes) (hp : path ≠ []) (pid : Nat) (h1 : pid ≠ p.pid) (h2 : pid ≠ p.group) (h3 : pid ≠ p.session) :
    ∃ out c, Daemonize null p path (.child out c (some (intDec pid ++ [10]))) ∧ c.fds = p.fds := by
  have h := Daemonize.forks (dirOk := true) (openOk := true) (path := path) h1 h2 h3 (NullInput.failed (null := null))
  have e : makePidFile pid path true true 0 = some (intDec pid ++ [10]) := by simp [makePidFile, hp]
  rw [e] at h
  exact ⟨p.unwritten, { (p.fork pid).setsid with fds := p.fds }, h, rfl⟩

/-- All the output that comes of it, once the daemon has written what it has not yet written. -/
def output : Outcome F → Bytes
  | .error p => p.unwritten
  | .child out c _ => out ++ c.unwritten

/-- C141: the output of the process before the call appears once, if it had been written before the call. -/
theorem C141_output_partial {null : F} {p : Proc F} {path : Bytes} {o : Outcome F} (h : Daemonize null p path o) (he : p.unwritten = []) :
    output o = p.unwritten := by
  cases h with
  | forkFails => rfl
  | forks h1 h2 h3 h4 =>
    rename_i pid t dirOk openOk
    have : ((p.fork pid).setsid).unwritten = p.unwritten := by unfold Proc.setsid; split <;> rfl
    simp [output, this, he]

/-- C141 violated: output still in the buffers appears twice, because the parent calls `exit`. -/
theorem C141_output_violated {null : F} {p c : Proc F} {path out : Bytes} {file : Option Bytes} (h : Daemonize null p path (.child out c file)) :
    output (.child out c file) = p.unwritten ++ p.unwritten := by
  cases h with
  | forks h1 h2 h3 h4 =>
    rename_i pid t dirOk openOk
    have : ((p.fork pid).setsid).unwritten = p.unwritten := by unfold Proc.setsid; split <;> rfl
    simp [output, this]

/-- C141 violated: the daemon has the calling thread only; threads started before (workers, the calibration of the clock) are gone. -/
theorem C141_threads_violated {null : F} {p c : Proc F} {path out : Bytes} {file : Option Bytes} (h : Daemonize null p path (.child out c file)) :
    c.threads = 1 := by
  cases h with
  | forks h1 h2 h3 h4 =>
    show (Proc.setsid _).threads = 1
    unfold Proc.setsid; split <;> rfl

example : ∃ o, Daemonize (F := Nat) 9 ⟨100, 100, 50, true, fun k => if k < 3 then some k else none, ascii "hello", 4⟩ (ascii "p.pid") o ∧
    output o = ascii "hellohello" := by
  refine ⟨_, .forks (pid := 101) (dirOk := true) (openOk := true) (by decide) (by decide) (by decide) .failed, ?_⟩
  decide +kernel

/-! ## Threads -/

/-- A thread: its id, its copy of `tlstid` (NamedThread.cpp:36) and its name. -/
structure Thread where
  tid : Nat
  cached : Option Nat
  name : Bytes
deriving DecidableEq, Repr

/-- NamedThread.cpp:35-38 `gettid`: what it returns, and the thread afterwards. -/
def Thread.gettid (t : Thread) : Nat × Thread := match t.cached with
  | some n => (n, t)
  | none => (t.tid, { t with cached := some t.tid })

/-- What a name given to a thread becomes: it is read up to the first NUL, and 15 bytes of it are kept. -/
def cut (name : Bytes) : Bytes := (cstr name).take 15

/-- NamedThread.h:45-47 `Nominator::set`. -/
def Thread.set (t : Thread) (name : Bytes) : Thread := { t with name := cut name }

/-- A new thread made by `t`; NamedThread.h:60-66 `hook`: an empty name is not set. -/
def Thread.spawn (t : Thread) (tid : Nat) (name : Bytes) : Thread :=
  let n : Thread := ⟨tid, none, t.name⟩
  if name = [] then n else n.set name

/-- The thread of a forked process. -/
def Thread.forked (t : Thread) (tid : Nat) : Thread := { t with tid := tid }

/-- What brings a thread about. -/
inductive Life : Thread → Prop
  /-- the first thread of a process -/
  | first (tid : Nat) (name : Bytes) : Life ⟨tid, none, cut name⟩
  | asked {t} : Life t → Life t.gettid.2
  | named {t} (name : Bytes) : Life t → Life (t.set name)
  | spawned {t} (tid : Nat) (name : Bytes) : Life t → Life (t.spawn tid name)
  /-- the process is forked before its id was asked for -/
  | forked {t} (tid : Nat) : Life t → t.cached = none → Life (t.forked tid)

/-- C142, if no process is forked by a thread that has asked for its id: `gettid` gives the id of the calling thread, however often it is
asked. -/
theorem C142_tid_partial {t : Thread} (h : Life t) : t.gettid.1 = t.tid ∧ t.gettid.2.gettid.1 = t.tid := by
  have key : t.cached = none ∨ t.cached = some t.tid := by
    induction h with
    | first tid name => exact .inl rfl
    | @asked t _ ih => rcases ih with h | h <;> simp [Thread.gettid, h]
    | named name _ ih => exact ih
    | @spawned t tid name _ ih =>
      left
      unfold Thread.spawn Thread.set
      simp only
      split <;> rfl
    | @forked t tid _ h ih => exact .inl h
  rcases key with h | h <;> simp [Thread.gettid, h]

/-- C142 violated: a thread that has asked for its id and then forks: in the new process `gettid` gives the id of the old thread for
ever. -/
theorem C142_tid_violated {t : Thread} (h : Life t) (tid : Nat) (hn : tid ≠ t.tid) :
    (t.gettid.2.forked tid).gettid.1 = t.tid ∧ (t.gettid.2.forked tid).gettid.1 ≠ (t.gettid.2.forked tid).tid ∧
    (t.gettid.2.forked tid).gettid.2 = t.gettid.2.forked tid := by
  have hc : t.gettid.2.cached = some t.tid := by
    have h1 := (C142_tid_partial h).1
    unfold Thread.gettid at h1 ⊢
    cases hc : t.cached with
    | none => rfl
    | some n => rw [hc] at h1; simp only at h1 ⊢; rw [hc, h1]
  generalize t.gettid.2 = u at hc ⊢
  simp only [Thread.forked, Thread.gettid, hc]
  exact ⟨trivial, Ne.symm hn, trivial⟩

theorem takeWhile_idem {p : UInt8 → Bool} : ∀ l : Bytes, (∀ c ∈ l, p c = true) → l.takeWhile p = l
  | [], _ => rfl
  | c :: l, h => by
    rw [List.takeWhile_cons, if_pos (h c (by simp)), takeWhile_idem l fun c hc => h c (by simp [hc])]

theorem mem_takeWhile {p : UInt8 → Bool} : ∀ (l : Bytes) (c : UInt8), c ∈ l.takeWhile p → p c = true
  | [], _, h => by simp at h
  | a :: l, c, h => by
    rw [List.takeWhile_cons] at h
    split at h
    · rcases List.mem_cons.1 h with rfl | h
      · assumption
      · exact mem_takeWhile l c h
    · simp at h

theorem cut_cut (n : Bytes) : cut (cut n) = cut n := by
  have h : cstr (cut n) = cut n := by
    refine takeWhile_idem _ fun c hc => ?_
    exact mem_takeWhile n c (List.mem_of_mem_take hc)
  unfold cut at h ⊢
  rw [h, List.take_take, Nat.min_self]

/-- A name the system can hold. -/
def Short (n : Bytes) : Prop := n.length ≤ 15 ∧ 0 ∉ n

theorem cut_short {n : Bytes} (h : Short n) : cut n = n := by
  have : cstr n = n := takeWhile_idem _ fun c hc => by
    have : c ≠ 0 := by rintro rfl; exact h.2 hc
    simpa using this
  unfold cut
  rw [this, List.take_of_length_le h.1]

theorem life_name {t : Thread} (h : Life t) : cut t.name = t.name := by
  induction h with
  | first tid name => exact cut_cut name
  | @asked t _ ih =>
    unfold Thread.gettid
    split <;> exact ih
  | named name _ ih => exact cut_cut name
  | @spawned t tid name _ ih =>
    unfold Thread.spawn Thread.set
    simp only
    split
    · exact ih
    · exact cut_cut name
  | forked tid _ _ ih => exact ih

/-- C142: a thread that is made with a name has it while it runs, if the name is one the system can hold; without one it has that of the
thread that made it. -/
theorem C142_named_partial (t : Thread) (tid : Nat) (name : Bytes) (h : Short name) :
    (t.spawn tid name).tid = tid ∧ (t.spawn tid name).name = if name = [] then t.name else name := by
  unfold Thread.spawn Thread.set
  simp only
  split
  · exact ⟨rfl, rfl⟩
  · exact ⟨rfl, cut_short h⟩

example : Short (ascii "tsc-calibrator") ∧ ((⟨1, none, ascii "nebula"⟩ : Thread).spawn 2 (ascii "tsc-calibrator")).name = ascii "tsc-calibrator" := by
  constructor
  · constructor <;> decide +kernel
  · decide +kernel

/-- C142 violated: the thread of the web service does not have the name it is given (WebService.cpp:118-119), and names that begin with the same 15
bytes cannot be told apart. -/
theorem C142_named_violated (t : Thread) (tid : Nat) (a b c : Bytes) (ha : a.length = 15) (h0 : 0 ∉ a) :
    (t.spawn tid (ascii "webservice-listener")).name = ascii "webservice-list" ∧ (t.spawn tid (a ++ b)).name = (t.spawn tid (a ++ c)).name := by
  constructor
  · unfold Thread.spawn Thread.set
    simp only
    rw [if_neg (by decide +kernel)]
    show cut _ = _
    decide +kernel
  · have hs : ∀ x, cut (a ++ x) = a := by
      intro x
      unfold cut cstr
      rw [List.takeWhile_append_of_pos fun c hc => by
        have : c ≠ 0 := by rintro rfl; exact h0 hc
        simpa using this]
      rw [← ha, List.take_left]
    have hn : ∀ x, a ++ x ≠ [] := by
      intro x h
      have := congrArg List.length h
      simp [ha] at this
    unfold Thread.spawn Thread.set
    simp only [if_neg (hn _), hs]

/-- What a thread does with its name: sets it, and runs something in the scope of a `Nominator`. -/
inductive Prog
  | set (name : Bytes)
  | scope (name : Bytes) (body : List Prog)

mutual
/-- NamedThread.h:34-47, 49-53: the constructor gets the name and sets another, the destructor sets it back. -/
def Prog.run (t : Thread) : Prog → Thread
  | .set n => t.set n
  | .scope n body => (runAll (t.set n) body).set t.name
def runAll (t : Thread) : List Prog → Thread
  | [] => t
  | p :: ps => runAll (Prog.run t p) ps
end

/-- C142: after the scope of a `Nominator` the thread has the name it had before, whatever was done to the name inside. -/
theorem C142_scope {t : Thread} (h : Life t) (name : Bytes) (body : List Prog) : (Prog.run t (.scope name body)).name = t.name := by
  rw [Prog.run]
  exact life_name h

/-- Inside the scope it has the name given, if the system can hold it. -/
theorem C142_inside_partial (t : Thread) (name : Bytes) (h : Short name) : (t.set name).name = name := cut_short h

example : (Prog.run ⟨1, none, ascii "main"⟩ (.scope (ascii "outer") [.set (ascii "x"), .scope (ascii "inner") [.set (ascii "y")], .set (ascii "z")])).name = ascii "main" :=
  C142_scope (.first 1 (ascii "main")) _ _

end Nebula.Process
