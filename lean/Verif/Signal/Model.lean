/-!
# Signals (C111)

`src/common/base/SignalHandler.{h,cpp}`.  One thread installs handlers; signals arrive between any two of its steps.  The body of a handler is one step, as is the delivery of a
signal (a second signal inside a handler is not modelled).
-/
namespace Nebula
namespace Signal

/-- What the operating system does with a signal: the default, nothing, or `handlerHook`. -/
inductive Action | dfl | ign | hook
deriving DecidableEq, Repr

/-- SignalHandler.cpp:128-132 `GeneralSignalInfo`. -/
structure Info where
  sig : Nat
  pid : Nat
  uid : Nat
deriving DecidableEq, Repr

/-- Why the process has ended. -/
inductive Death | signal (s : Nat) | badCall | check
deriving DecidableEq, Repr

/-- What can be seen from outside: calls of `install`, handlers in place (the return of `install` for one signal), the return for the list, runs of handlers. -/
inductive Obs (H : Type) | called (sigs : List Nat) (h : H) | installed (s : Nat) (h : H) | returned (sigs : List Nat) (h : H) (ok : Bool) | ran (h : H) (i : Info)

/-- Where the installing thread is: `all` is the list given, `done` what is in place, then the signal at hand and the rest. -/
inductive Pc (H : Type)
  | idle
  | initPipe (all done : List Nat) (s : Nat) (rest : List Nat) (h : H)
  | initHup (all done : List Nat) (s : Nat) (rest : List Nat) (h : H)
  | act (all done : List Nat) (s : Nat) (rest : List Nat) (h : H)
  | table (all done : List Nat) (s : Nat) (rest : List Nat) (h : H)

structure St (H : Type) where
  act : Nat → Action
  table : Nat → Option H
  inited : Bool
  pc : Pc H
  dead : Option Death
  trace : List (Obs H)

def init (H : Type) : St H := ⟨fun _ => .dfl, fun _ => none, false, .idle, none, []⟩

def SIGHUP : Nat := 1
def SIGILL : Nat := 4
def SIGABRT : Nat := 6
def SIGBUS : Nat := 7
def SIGFPE : Nat := 8
def SIGKILL : Nat := 9
def SIGSEGV : Nat := 11
def SIGPIPE : Nat := 13
def SIGCHLD : Nat := 17
def SIGSTOP : Nat := 19

/-- What can happen next: a call of `install`, the next system call of the installing thread succeeding or not, the write to the table, a signal. -/
inductive Ev (H : Type) | call (sigs : List Nat) (h : H) | sys (ok : Bool) | write | deliver (i : Info)

/-- SignalHandler.cpp:49-51: the signals that may be installed. -/
def allowed (s : Nat) : Prop := (1 ≤ s ∧ s ≤ 64) ∧ s ≠ SIGKILL ∧ s ≠ SIGSTOP

instance (s : Nat) : Decidable (allowed s) := by unfold allowed; infer_instance

variable {H : Type}

/-- SignalHandler.cpp:56-66, 38-52: the next signal of a list; 38-46 `init` comes first if it has not been done. -/
def next (st : St H) (all done rest : List Nat) (h : H) : St H :=
  match rest with
  | [] => { st with pc := .idle, trace := st.trace ++ [.returned all h true] }
  | s :: rest =>
    if st.inited = false then { st with pc := .initPipe all done s rest h }
    else if allowed s then { st with pc := .act all done s rest h }
    else { st with dead := some .check }

/-- SignalHandler.cpp:59-63, 43, 75: a failed system call ends the list. -/
def fail (st : St H) (all : List Nat) (h : H) : St H := { st with pc := .idle, trace := st.trace ++ [.returned all h false] }

def setAct (st : St H) (s : Nat) (a : Action) : St H := { st with act := fun t => if t = s then a else st.act t }

/-- SignalHandler.cpp:111-115 `handleGeneralSignal`: calling an empty function throws, which ends the process. -/
def general (st : St H) (i : Info) : St H :=
  match st.table i.sig with
  | none => { st with dead := some .badCall }
  | some h => { st with trace := st.trace ++ [.ran h i] }

/-- SignalHandler.cpp:118-125 `handleFatalSignal`: the signal raised at the end waits until `handlerHook` returns, because it is blocked meanwhile. -/
def fatal (st : St H) (i : Info) : St H :=
  match st.table i.sig with
  | none => { st with dead := some .badCall }
  | some h => setAct { st with trace := st.trace ++ [.ran h i] } i.sig .dfl

def isFatal (s : Nat) : Prop := s = SIGSEGV ∨ s = SIGABRT ∨ s = SIGILL ∨ s = SIGFPE ∨ s = SIGBUS

instance (s : Nat) : Decidable (isFatal s) := by unfold isFatal; infer_instance

/-- SignalHandler.cpp:92-108 `doHandle`, and the waiting signal of `handleFatalSignal`. -/
def doHandle (st : St H) (i : Info) : St H :=
  if isFatal i.sig then
    let st := fatal st i
    if st.dead.isSome then st
    else
      let st := general st i
      if st.dead.isSome then st else { st with dead := some (.signal i.sig) }
  else if i.sig = SIGCHLD then
    let st := general st i
    if st.dead.isSome then st else general st i
  else general st i

/-- signal(7): what the default does; child, continue, urgent data and window size are ignored, the stop signals only stop. -/
def survives (s : Nat) : Prop := s ∈ [17, 18, 20, 21, 22, 23, 28]

instance (s : Nat) : Decidable (survives s) := by unfold survives; infer_instance

/-- A signal arrives. -/
def deliver (st : St H) (i : Info) : St H :=
  match st.act i.sig with
  | .ign => st
  | .dfl => if survives i.sig then st else { st with dead := some (.signal i.sig) }
  | .hook => doHandle st i

/-- One step; `none` if it cannot happen. -/
def step (st : St H) (e : Ev H) : Option (St H) :=
  if st.dead.isSome then none
  else match e, st.pc with
    | .call sigs h, .idle => some (next { st with trace := st.trace ++ [.called sigs h] } sigs [] sigs h)
    -- SignalHandler.cpp:16-29 `init`
    | .sys true, .initPipe all done s rest h => some { setAct st SIGPIPE .ign with pc := .initHup all done s rest h }
    | .sys true, .initHup all done s rest h => some (next { setAct st SIGHUP .ign with inited := true } all done (s :: rest) h)
    -- SignalHandler.cpp:69-83 `installInternal`
    | .sys true, .act all done s rest h => some { setAct st s .hook with pc := .table all done s rest h }
    | .write, .table all done s rest h =>
      some (next { st with table := fun t => if t = s then some h else st.table t, trace := st.trace ++ [.installed s h] } all (done ++ [s]) rest h)
    | .sys false, .initPipe all _ _ _ h => some (fail st all h)
    | .sys false, .initHup all _ _ _ h => some (fail st all h)
    | .sys false, .act all _ _ _ h => some (fail st all h)
    | .deliver i, _ => if 1 ≤ i.sig ∧ i.sig ≤ 64 ∧ i.sig ≠ SIGKILL ∧ i.sig ≠ SIGSTOP then some (deliver st i) else none
    | _, _ => none

/-- States that can be reached. -/
inductive Reach : St H → Prop
  | init : Reach (init H)
  | step {st st' e} : Reach st → step st e = some st' → Reach st'

end Signal
end Nebula
