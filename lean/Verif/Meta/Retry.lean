import Verif.Text
import Verif.Host.Model
/-!
# Requests to the meta server (src/common/clients/meta/MetaClient.cpp:562-667, MetaClient.h:686-693)

One call of `getResponse` as seen from outside: the requests it sends and the moment it fulfils the promise.  What the servers answer, what
other calls do to the shared hosts meanwhile, and the random choices are parameters.
-/
namespace Nebula
namespace Meta

/-- `nebula::cpp2::ErrorCode`, as far as `getResponse` looks at it. -/
inductive RpcCode where
  | succeeded | leaderChanged | other (code : Int)
deriving DecidableEq, Repr

/-- The outcome of an RPC (`folly::Try<RpcResponse>`). -/
inductive RpcOutcome (R : Type) where
  | exception
  | response (code : RpcCode) (leader : HostAddr) (payload : R)
deriving DecidableEq

/-- The value of the promise: `StatusOr<Response>`. -/
inductive RpcResult (A : Type) where
  | value (a : A)
  | ok | error | leaderChanged
deriving DecidableEq

/-- The hosts shared by all requests of a client (MetaClient.h:748-749). -/
structure MetaHosts where
  leader : HostAddr
  active : HostAddr
deriving DecidableEq

/-- What happens around one call of `getResponse`.  The numbers are those of the attempts. -/
structure RpcWorld (R : Type) where
  /-- MetaClient.h:745 `addrs_`, not empty (MetaClient.cpp:43-44). -/
  addrs : List HostAddr
  nonempty : addrs ≠ []
  /-- what other requests do to the hosts before the attempt -/
  env : Nat → MetaHosts → MetaHosts
  /-- the random number drawn after the attempt -/
  random : Nat → Nat
  /-- the outcome of the attempt at a host -/
  answer : Nat → HostAddr → RpcOutcome R

inductive RpcEvent (R A : Type) where
  | sent (host : HostAddr) (outcome : RpcOutcome R)
  | fulfilled (r : RpcResult A)

variable {R A : Type}

/-- `addrs_[folly::Random::rand64(addrs_.size())]`. -/
def RpcWorld.pick (w : RpcWorld R) (k : Nat) : HostAddr :=
  w.addrs[w.random k % w.addrs.length]'(Nat.mod_lt _ (List.length_pos_iff.2 w.nonempty))

/-- MetaClient.h:686-693 `updateLeader`. -/
def updateLeader (w : RpcWorld R) (k : Nat) (h : MetaHosts) (leader : HostAddr) : MetaHosts :=
  if leader ≠ ⟨[], 0⟩ then ⟨leader, h.active⟩ else ⟨w.pick k, h.active⟩

/-- MetaClient.h:681-684 `updateActive`. -/
def updateActive (w : RpcWorld R) (k : Nat) (h : MetaHosts) : MetaHosts := ⟨h.leader, w.pick k⟩

/-- MetaClient.cpp:682-813 `handleResponse`: every code but two is reported as an error. -/
def handleResponse : RpcCode → RpcResult A
  | .succeeded => .ok
  | .leaderChanged => .leaderChanged
  | .other _ => .error

/-- MetaClient.cpp:567-667 `getResponse`.  `retry` is also the number of the attempt. -/
def getResponse (w : RpcWorld R) (respGen : R → A) (toLeader : Bool) (retry : Nat) (retryLimit : Int) (h : MetaHosts) : List (RpcEvent R A) :=
  let h := w.env retry h
  let host := if toLeader then h.leader else h.active
  let t := w.answer retry host
  .sent host t :: match t with
    | .exception =>
      let h := if toLeader then updateLeader w retry h ⟨[], 0⟩ else updateActive w retry h
      if (retry : Int) < retryLimit then getResponse w respGen toLeader (retry + 1) retryLimit h
      else [.fulfilled .error]
    | .response code leader payload =>
      if code = .succeeded then [.fulfilled (.value (respGen payload))]
      else if code = .leaderChanged then
        let h := updateLeader w retry h leader
        if (retry : Int) < retryLimit then getResponse w respGen toLeader (retry + 1) retryLimit h
        else [.fulfilled (handleResponse code)]
      else [.fulfilled (handleResponse code)]
termination_by (retryLimit - retry).toNat

end Meta
end Nebula
