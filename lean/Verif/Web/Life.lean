import Verif.Web.Handlers
/-!
# Model of the lives of the web service's handlers (src/common/webservice/*Handler.{h,cpp})

For every request proxygen makes a handler (WebService.cpp:29-44, `new`) and calls its functions; requests are served at the same time, so that the calls for different requests
interleave.  `heap` has the handlers that were made and not deleted; a call to one that is not there is undefined.  What a handler keeps is what its `onRequest` and `onBody` have
written; `onEOM` answers and leaves nothing that is used later (a handler does nothing after `sendWithEOM`, so that it does not matter whether proxygen calls `requestComplete`
within it).  The functions are `noexcept`: what they throw ends the process.  Undefined behaviour and the end of the process are `none`.  The log is not modelled.
One call is one step: that the calls to gflags of requests served at the same time interleave is the subject of Verif.Web.Race.
-/
namespace Nebula
namespace Web.Life
open Json Conf Net

/-- The handlers: GetFlagsHandler, SetFlagsHandler, GetStatsHandler, StatusHandler, NotFoundHandler. -/
inductive Kind where
  | flagsGet | flagsSet | stats | status | unknown
deriving DecidableEq, Repr

inductive Meth where
  | get | put | other
deriving DecidableEq, Repr

/-- The head of a request: the method (`none` if proxygen does not know it) and the query parameters that the handlers look for. -/
structure Msg where
  method : Option Meth
  verbose : Option Bytes := none
  format : Option Bytes := none
  flags : Option Bytes := none
  stats : Option Bytes := none
deriving DecidableEq, Repr

/-- What proxygen calls. -/
inductive Ev where
  | request (m : Msg)
  | body (piece : Bytes)
  | upgrade
  | eom
  | complete
  | error
deriving DecidableEq, Repr

/-- A handler: `err_` (only "unsupported method" is kept until `onEOM`), the query and the body. -/
structure Obj where
  kind : Kind
  unsupported : Bool := false
  q : FlagQuery := ⟨false, false, []⟩
  format : Option Bytes := none
  names : Option Bytes := none
  body : Option Bytes := none

/-- What the answers depend on besides the request and the flags (see Verif.Web.Handlers). -/
structure Site (F : Type) where
  D : Doubles F
  C : Conv F
  T : Texts F
  ord : List Bytes → List Bytes
  it : List (Bytes × Dyn F) → List (Bytes × Dyn F)
  accept : FlagInfo → Bytes → Option Bytes
  bigInt : Bytes → Option Int
  read : Bytes → Except Bytes Int
  all : List (Bytes × Int)
  sha : Bytes

/-- `onRequest`: GetFlagsHandler.cpp:23-42, SetFlagsHandler.cpp:22-28, GetStatsHandler.cpp:25-40, StatusHandler.cpp:21-27, NotFoundHandler.cpp:19-21.  An unknown method throws. -/
def Obj.onRequest (o : Obj) (m : Msg) : Option Obj :=
  match o.kind with
  | .unknown => some o
  | .flagsSet =>
    match m.method with
    | none => none
    | some .put => some o
    | some _ => some { o with unsupported := true }
  | .flagsGet =>
    match m.method with
    | none => none
    | some .get => some { o with q := flagQuery m.verbose m.format m.flags }
    | some _ => some { o with unsupported := true }
  | .stats =>
    match m.method with
    | none => none
    | some .get => some { o with format := m.format, names := m.stats }
    | some _ => some { o with unsupported := true }
  | .status =>
    match m.method with
    | none => none
    | some .get => some o
    | some _ => some { o with unsupported := true }

/-- `onBody`: SetFlagsHandler.cpp:31-37 keeps the pieces in a chain; the others do nothing. -/
def Obj.onBody (o : Obj) (piece : Bytes) : Obj :=
  match o.kind with
  | .flagsSet =>
    match o.body with
    | some b => { o with body := some (b ++ piece) }
    | none => { o with body := some piece }
  | _ => o

/-- `onEOM`: GetFlagsHandler.cpp:50-77, SetFlagsHandler.cpp:40-87, GetStatsHandler.cpp:48-69, StatusHandler.cpp:33-51, NotFoundHandler.cpp:29-35: the answer and the flags
afterwards. -/
def Obj.onEOM {F : Type} (S : Site F) (o : Obj) (fs : List FlagInfo) : Option (Reply × List FlagInfo) :=
  match o.kind with
  | .flagsSet => setFlags S.D S.C S.ord S.it S.accept (!o.unsupported) o.body fs
  | .flagsGet => (replyFlags S.D S.C S.T S.ord S.bigInt (!o.unsupported) o.q fs).map fun r => (r, fs)
  | .stats => (replyStats S.D S.C S.ord S.read S.all (!o.unsupported) o.format o.names).map fun r => (r, fs)
  | .status => (replyStatus S.D S.ord (!o.unsupported) S.sha).map fun r => (r, fs)
  | .unknown => some (⟨404, []⟩, fs)

/-- `onError`: whether the handler deletes itself: GetFlagsHandler.cpp:90-94, SetFlagsHandler.cpp:99-103, GetStatsHandler.cpp:91-95, NotFoundHandler.cpp:48-52 do,
StatusHandler.cpp:64-67 does not. -/
def Kind.deletesOnError : Kind → Bool
  | .status => false
  | _ => true

/-- What happens to one handler: it is made, or one of its functions is called. -/
inductive Act where
  | create (k : Kind)
  | call (e : Ev)
deriving DecidableEq, Repr

structure Sys where
  heap : Nat → Option Obj
  flags : List FlagInfo
  /-- the answers, with the number of the request -/
  sent : List (Nat × Reply)

def Sys.set (st : Sys) (id : Nat) (o : Option Obj) : Sys := { st with heap := fun i => if i = id then o else st.heap i }

/-- One call, for request `id`. -/
def Sys.step {F : Type} (S : Site F) (st : Sys) (id : Nat) : Act → Option Sys
  | .create k =>
    match st.heap id with
    | some _ => none
    | none => some (st.set id (some { kind := k }))
  | .call e =>
    match st.heap id with
    | none => none
    | some o =>
      match e with
      | .request m => (o.onRequest m).map fun o' => st.set id (some o')
      | .body p => some (st.set id (some (o.onBody p)))
      | .upgrade => some st
      | .eom => (o.onEOM S st.flags).map fun (r, fs) => { st with flags := fs, sent := st.sent ++ [(id, r)] }
      | .complete => some (st.set id none)
      | .error => some (if o.kind.deletesOnError then st.set id none else st)

/-- A history of the service. -/
def Sys.run {F : Type} (S : Site F) : Sys → List (Nat × Act) → Option Sys
  | st, [] => some st
  | st, (id, a) :: tr => (st.step S id a).bind fun st' => run S st' tr

/-- Before the first request. -/
def Sys.start (fs : List FlagInfo) : Sys := ⟨fun _ => none, fs, []⟩

end Web.Life
end Nebula
