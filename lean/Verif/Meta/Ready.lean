import Verif.Meta.Users
import Verif.Exec
/-!
# Waiting for the meta service and stopping (src/common/clients/meta/MetaClient.cpp:62-115)

`att i` is what the server does during the `i`-th attempt, `running i` is the value of `isRunning_` that is read after it.  The sleep between the
attempts, the configuration and the declaration of flags are left out, and `tryCount` is an integer of any size (with `count = -1` it goes below the
least `int` after 2^31 attempts).
-/
namespace Nebula
namespace Meta

section
variable {R F P S I L D H : Type}

/-- What the server does during one attempt. -/
structure Attempt (R F P S I L D H : Type) where
  beat : Beat
  users : UserAnswers R
  rest : Answers (Users R) F P S I L D H

/-- MetaClient.cpp:62-79 `isMetadReady`. -/
def attempt (a : Attempt R F P S I L D H) (c : UClient R F P S I L D H) : UClient R F P S I L D H × Ending :=
  (cstep c (.ready a.beat a.users a.rest)).2

/-- How the loop ends: after some number of attempts, or with the process. -/
inductive Waited (R F P S I L D H : Type) where
  | left (attempts : Nat) (c : UClient R F P S I L D H)
  | crashed

/-- MetaClient.cpp:88-93: the loop; `none` if it has not ended after `fuel` attempts. -/
def waitLoop (count : Int) (att : Nat → Attempt R F P S I L D H) (running : Nat → Bool) : Nat → Int → Nat → UClient R F P S I L D H →
    Option (Waited R F P S I L D H)
  | 0, _, _, _ => none
  | fuel + 1, tries, i, c => match attempt (att i) c with
    | (_, .crashed) => some .crashed
    | (c', _) =>
      if !c'.ready && ((decide (count = -1) || decide (tries > 0)) && running i) then waitLoop count att running fuel (tries - 1) (i + 1) c'
      else some (.left (i + 1) c')

/-- MetaClient.cpp:81-105 `waitForMetadReady` of a new client: the number of attempts and the result (`none`: the process died); `still` is the value of
`isRunning_` read after the loop. -/
def waitForReady (count : Int) (att : Nat → Attempt R F P S I L D H) (running : Nat → Bool) (still : Bool) (fuel : Nat) : Option (Option (Nat × Bool)) :=
  (waitLoop count att running fuel count 0 freshClient).map fun
    | .crashed => none
    | .left n c => some (n, if !still then false else c.ready)

end

/-! ## `waitForMetadReady` and `stop` called by two threads -/

/-- `bgThread_`: the worker of the client. -/
inductive BgThread where
  | none | idle | started | stopping
deriving DecidableEq, Repr

/-- Where the thread in `waitForMetadReady` is. -/
inductive WaitPc where
  /-- before the call -/
  | before
  /-- in the loop (MetaClient.cpp:89-93) -/
  | loop
  /-- before line 95 -/
  | left
  /-- before line 100 -/
  | start
  /-- before line 103 -/
  | timer
  | returned (ok : Bool)
  | crashed
deriving DecidableEq, Repr

/-- Where the thread in `stop` is. -/
inductive StopPc where
  | before
  /-- before lines 110, 111, 112, 114 -/
  | stop | wait | reset | flag
  | returned
deriving DecidableEq, Repr

structure SState2 where
  bg : BgThread
  isRunning : Bool
  w : WaitPc
  s : StopPc
deriving DecidableEq, Repr

inductive SEvent where
  /-- a step of the thread that waits -/
  | wait
  /-- a step of the thread that stops -/
  | stop
deriving DecidableEq, Repr

/-- One step of either thread.  A method of the null pointer is a crash, and so is `CHECK` of a `start` that fails; a worker is made idle again by
`stop` and `wait`. -/
inductive SStep : SState2 → SEvent → SState2 → Prop
  /-- MetaClient.cpp:87 -/
  | enter {x : SState2} : x.w = .before → SStep x .wait { x with isRunning := true, w := .loop }
  /-- MetaClient.cpp:89-93: another attempt; it was not ready, more may be made and the client runs -/
  | again {x : SState2} : x.w = .loop → x.isRunning = true → SStep x .wait x
  /-- MetaClient.cpp:89: ready, or no attempt is left, or the client does not run -/
  | leave {x : SState2} : x.w = .loop → SStep x .wait { x with w := .left }
  /-- MetaClient.cpp:95-98 -/
  | no {x : SState2} : x.w = .left → x.isRunning = false → SStep x .wait { x with w := .returned false }
  | yes {x : SState2} : x.w = .left → x.isRunning = true → SStep x .wait { x with w := .start }
  /-- MetaClient.cpp:100 -/
  | startOk {x : SState2} : x.w = .start → x.bg = .idle → SStep x .wait { x with bg := .started, w := .timer }
  | startBad {x : SState2} : x.w = .start → x.bg ≠ .idle → SStep x .wait { x with w := .crashed }
  /-- MetaClient.cpp:101-104 -/
  | timerOk {x : SState2} {ready : Bool} : x.w = .timer → x.bg ≠ .none → SStep x .wait { x with w := .returned ready }
  | timerBad {x : SState2} : x.w = .timer → x.bg = .none → SStep x .wait { x with w := .crashed }
  /-- MetaClient.cpp:109 -/
  | stopIf {x : SState2} : x.s = .before → SStep x .stop { x with s := if x.bg = .none then .flag else .stop }
  /-- MetaClient.cpp:110 -/
  | stopWorker {x : SState2} : x.s = .stop → SStep x .stop { x with bg := if x.bg = .started then .stopping else x.bg, s := .wait }
  /-- MetaClient.cpp:111 -/
  | waitWorker {x : SState2} : x.s = .wait → SStep x .stop { x with bg := if x.bg = .stopping then .idle else x.bg, s := .reset }
  /-- MetaClient.cpp:112 -/
  | resetWorker {x : SState2} : x.s = .reset → SStep x .stop { x with bg := .none, s := .flag }
  /-- MetaClient.cpp:114 -/
  | setFlag {x : SState2} : x.s = .flag → SStep x .stop { x with isRunning := false, s := .returned }

/-- A client just made (MetaClient.cpp:38-53). -/
def SState2.start : SState2 := ⟨.idle, false, .before, .before⟩

end Meta
end Nebula
