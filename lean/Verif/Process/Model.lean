import Verif.Fs.Lines
/-!
# Pid files and commands (src/common/process/ProcessUtils.cpp)

Simplifications: the file is not changed between the test whether it can be read and reading it; making the directory of the pid file is `makeDir`
(C77), its failure is an input here; `daemonize` is in Process/Daemon, the readers of /proc in Fs/Stat.
-/
namespace Nebula
namespace Process

/-- What `::kill(pid, 0)` says. -/
inductive Kill where
  | ok | eperm | esrch | other
deriving DecidableEq, Repr

/-- The process asking, and the processes there are. -/
structure Sys where
  self : Int
  kill : Int → Kill

/-- ProcessUtils.cpp:15-31 `isPidAvailable(pid_t)`: whether the status is OK. -/
def pidAvailable (s : Sys) (pid : Int) : Bool :=
  if pid = s.self then true
  else match s.kill pid with
    | .ok => false
    | .eperm => false
    | .esrch => true
    | .other => false

/-- A pid file as the process sees it. -/
inductive PidFile where
  | missing | denied
  | text (t : Bytes)
deriving DecidableEq, Repr

/-- `std::regex_search` with `([0-9]+)`: the first run of digits. -/
def digitRun (l : Bytes) : Bytes := (l.dropWhile fun c => !isDigit c).takeWhile isDigit

/-- The conversion from `uint32_t` to `pid_t`. -/
def toPid (n : Nat) : Int := if n < 2147483648 then n else n - 4294967296

/-- ProcessUtils.cpp:34-52 `isPidAvailable(const std::string&)`; `none`: `folly::to` throws. -/
def fileAvailable (s : Sys) : PidFile → Option Bool
  | .missing => some true
  | .denied => some false
  | .text t =>
    let it := Fs.open_ (fun l => digitRun l ≠ []) (.file t)
    if !it.valid then some true
    else
      let n := digitsVal 0 (digitRun it.entry)
      if n ≤ 4294967295 then some (pidAvailable s (toPid n)) else none

/-- ProcessUtils.cpp:55-79 `makePidFile`: what the file holds afterwards; `none`: an error is returned and the file is as before. -/
def makePidFile (self : Int) (path : Bytes) (dirOk openOk : Bool) (pid : Int) : Option Bytes :=
  if path = [] then none
  else if !dirOk then none
  else if !openOk then none
  else some (intDec (if pid = 0 then self else pid) ++ [10])

/-! ## Two processes that start -/

/-- A starting process asks whether the pid file is free, and then writes it (`daemonize`). -/
inductive Starter where
  | new | free | refused | running
deriving DecidableEq, Repr

structure Starting where
  file : PidFile
  a : Starter
  b : Starter

/-- A process is there from its start on: `kill` finds it. -/
def twoSys (pa pb : Int) (self : Int) : Sys := ⟨self, fun p => if p = pa ∨ p = pb then .ok else .esrch⟩

inductive StartEvent where
  | a | b
deriving DecidableEq, Repr

/-- What one process does next. -/
def starterStep (pa pb self : Int) (file : PidFile) : Starter → Option (Starter × PidFile)
  | .new => (fileAvailable (twoSys pa pb self) file).map fun ok => (if ok then .free else .refused, file)
  | .free => some (.running, .text (intDec self ++ [10]))
  | _ => none

def startStep (pa pb : Int) (x : Starting) : StartEvent → Option Starting
  | .a => (starterStep pa pb pa x.file x.a).map fun r => { x with a := r.1, file := r.2 }
  | .b => (starterStep pa pb pb x.file x.b).map fun r => { x with b := r.1, file := r.2 }

def startRun (pa pb : Int) : Starting → List StartEvent → Option Starting
  | x, [] => some x
  | x, e :: es => (startStep pa pb x e).bind fun y => startRun pa pb y es

/-! ## Commands -/

/-- The end of the pipe from a command: what is buffered, what `read` will still return, whether it fails in the end or reports the end, and the exit status
of the command. -/
structure Pipe where
  buf : Bytes
  chunks : List Bytes
  fails : Bool
  exit : Int
deriving DecidableEq, Repr

/-- `fread(buf, 1, n, f)`: the bytes and the state afterwards; `true` if the error indicator is set. -/
def fread (n : Nat) (exit : Int) (fails : Bool) : Bytes → List Bytes → Bytes × Pipe × Bool
  | buf, [] => if n ≤ buf.length then (buf.take n, ⟨buf.drop n, [], fails, exit⟩, false) else (buf, ⟨[], [], fails, exit⟩, fails)
  | buf, c :: cs => if n ≤ buf.length then (buf.take n, ⟨buf.drop n, c :: cs, fails, exit⟩, false) else fread n exit fails (buf ++ c) cs

/-- The bytes that are still to come. -/
def Pipe.rest (p : Pipe) : Bytes := p.buf ++ p.chunks.flatten

/-- ProcessUtils.cpp:151-157: the loop; every turn but the last takes 1024 bytes, which bounds the turns. -/
def readLoop : Nat → Pipe → Bytes → Bytes × Bool
  | 0, _, out => (out, false)
  | f + 1, p, out => match fread 1024 p.exit p.fails p.buf p.chunks with
    | (got, p', err) =>
      let out' := if 0 < got.length then out ++ got else out
      if got.length = 1024 then readLoop f p' out' else (out', err)

/-- ProcessUtils.cpp:144-167 `runCommand`: `none` is an error.  The pipe is that of `popen`, `none` if it fails.  The exit status that `pclose` returns is not looked at. -/
def runCommand : Option Pipe → Option Bytes
  | none => none
  | some p => match readLoop (p.rest.length + 1) p [] with
    | (out, err) => if err then none else some out

end Process
end Nebula
