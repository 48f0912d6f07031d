import Verif.Map
import Verif.Exec
import Verif.Host.Model
/-!
# Model of the collection of responses of a multi-host storage request

src/common/clients/storage/StorageClientBase.h `StorageRpcResponse`, StorageClientBase.inl `ResponseContext` and `collectResponse`.
The requests run on different threads, so every operation on the shared response (each takes its lock) is a step of its own.
-/
namespace Nebula
namespace Storage

/-- The error codes the client tells apart (src/common/interface/common.thrift `ErrorCode`); the others are `other`. -/
inductive Code where
  | succeeded | leaderChanged | partNotFound | spaceNotFound | rpcFailure
  | other (n : Int)
deriving DecidableEq

/-- storage.thrift `PartitionResult`. -/
structure PartResult where
  part : Int
  code : Code
  leader : Option HostAddr
deriving DecidableEq

/-- A response of a host.  `body` stands for its payload; `e2e` is the measured time until its arrival (already an `int32_t`). -/
structure Answer where
  failed : List PartResult
  latency : Int
  e2e : Int
  body : Nat
deriving DecidableEq

/-- What the future of a request holds. -/
inductive Reply where
  | exception
  | answer (a : Answer)
deriving DecidableEq

/-- StorageClientBase.h:30-114 `StorageRpcResponse`. -/
structure Resp where
  total : Nat
  failedReqs : Nat
  allSucceeded : Bool
  failedParts : AMap Int Code
  maxLatency : Int
  responses : List Answer
  hostLatency : List (HostAddr × Int × Int)
deriving DecidableEq

/-- StorageClientBase.h:35-37, 104-113: a new response. -/
def Resp.new (n : Nat) : Resp := ⟨n, 0, true, [], 0, [], []⟩

/-- StorageClientBase.h:64-68 `completeness`: arithmetic on `size_t`.  (In a debug build a response of no requests aborts here.) -/
def Resp.completeness (r : Resp) : Nat :=
  if r.total = 0 then 0 else ((r.total + 2 ^ 64 - r.failedReqs) % 2 ^ 64 * 100) % 2 ^ 64 / r.total

/-- StorageClientBase.h:39-42 `succeeded`. -/
def Resp.succeeded (r : Resp) : Bool := r.allSucceeded

/-- What a handler does to the shared state. -/
inductive Op where
  | failedPart (p : Int) (c : Code)
  | failedParts (ps : List Int) (c : Code)
  | markFailure
  | latency (h : HostAddr) (l e : Int)
  | addResponse (a : Answer)
  | updateLeader (p : Int) (l : HostAddr)
  | invalidLeader (p : Int)
deriving DecidableEq

/-- StorageClientBase.h:49-97.  The calls that go to the leader cache leave the response alone. -/
def Resp.apply (r : Resp) : Op → Resp
  | .failedPart p c => { r with failedParts := r.failedParts.emplace p c }
  | .failedParts ps c => { r with failedParts := ps.foldl (fun m p => m.emplace p c) r.failedParts }
  | .markFailure => { r with allSucceeded := false, failedReqs := r.failedReqs + 1 }
  | .latency h l e => { r with maxLatency := if l > r.maxLatency then l else r.maxLatency, hostLatency := r.hostLatency ++ [(h, l, e)] }
  | .addResponse a => { r with responses := r.responses ++ [a] }
  | .updateLeader _ _ => r
  | .invalidLeader _ => r

/-- StorageClientBase.h:247-249 `isValidHostPtr`. -/
def validHost : Option HostAddr → Option HostAddr
  | none => none
  | some h => if h.host = [] ∨ h.port = 0 then none else some h

/-- StorageClientBase.inl:178-190: the call to the leader cache for a failed part. -/
def leaderCall (r : PartResult) : List Op :=
  match r.code with
  | .leaderChanged => match validHost r.leader with
    | some l => [.updateLeader r.part l]
    | none => [.invalidLeader r.part]
  | .partNotFound => [.invalidLeader r.part]
  | .spaceNotFound => [.invalidLeader r.part]
  | _ => []

/-- StorageClientBase.inl:161-211: the continuation of a request with the parts `parts` to host `h`. -/
def handler (h : HostAddr) (parts : List Int) : Reply → List Op
  | .exception => [.failedParts parts .rpcFailure] ++ parts.map .invalidLeader ++ [.markFailure]
  | .answer a => (a.failed.flatMap fun r => .failedPart r.part r.code :: leaderCall r) ++
      (if a.failed = [] then [] else [.markFailure]) ++ [.latency h a.latency a.e2e, .addResponse a]

/-- The shared state, the sender and the handlers. -/
structure CState where
  /-- requests not yet sent (the loop of the sender) -/
  unsent : List HostAddr
  /-- `ongoingRequests_` -/
  ongoing : List HostAddr
  /-- sent requests without a reply -/
  awaiting : List HostAddr
  /-- handlers that run, with what is left of them -/
  running : AMap HostAddr (List Op)
  finishSending : Bool
  fulfilled : Bool
  resp : Resp
  /-- threads that were told to fulfil the promise and have not done it yet -/
  due : Nat
  /-- values the promise was given -/
  delivered : List Resp

inductive CEv where
  | send (h : HostAddr)
  | reply (h : HostAddr) (r : Reply)
  | op (h : HostAddr) (o : Op)
  | remove (h : HostAddr)
  | finish
  | deliver (r : Resp)

/-- The state before `collectResponse`, for requests to the hosts `hosts` (the keys of a map: all different). -/
def CState.init (hosts : List HostAddr) : CState := ⟨hosts, [], [], [], false, false, Resp.new hosts.length, 0, []⟩

/-- StorageClientBase.inl:23-57, 124-220.  `parts h` are the parts of the request to `h`. -/
inductive CStep (parts : HostAddr → List Int) : CState → CEv → CState → Prop
  /-- 137-141 `insertRequest`, then the request is sent -/
  | send {s : CState} {h us} : s.unsent = h :: us →
      CStep parts s (.send h) { s with unsent := us, ongoing := s.ongoing ++ [h], awaiting := s.awaiting ++ [h] }
  /-- 156-163: the future of the request is ready; its handler starts -/
  | reply {s : CState} {h r} : h ∈ s.awaiting →
      CStep parts s (.reply h r) { s with awaiting := s.awaiting.erase h, running := s.running.set h (handler h (parts h) r) }
  /-- the next operation of a handler -/
  | op {s : CState} {h o os} : s.running.find h = some (o :: os) →
      CStep parts s (.op h o) { s with running := s.running.set h os, resp := s.resp.apply o }
  /-- 48-57, 209: `removeRequest` at the end of the handler -/
  | remove {s : CState} {h} : s.running.find h = some [] →
      CStep parts s (.remove h) (let last := s.finishSending && !s.fulfilled && (s.ongoing.erase h).isEmpty
        { s with running := s.running.erase h, ongoing := s.ongoing.erase h, fulfilled := s.fulfilled || last, due := if last then s.due + 1 else s.due })
  /-- 24-33, 214: `finishSending` after the loop -/
  | finish {s : CState} : s.unsent = [] → s.finishSending = false →
      CStep parts s .finish (let last := s.ongoing.isEmpty && !s.fulfilled
        { s with finishSending := true, fulfilled := s.fulfilled || last, due := if last then s.due + 1 else s.due })
  /-- 211, 216: `promise.setValue(std::move(context->resp))` -/
  | deliver {s : CState} {d} : s.due = d + 1 →
      CStep parts s (.deliver s.resp) { s with due := d, delivered := s.delivered ++ [s.resp] }

end Storage
end Nebula
