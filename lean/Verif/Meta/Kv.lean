import Verif.Meta.Retry
/-!
# The key-value calls of the meta client (MetaClient.cpp:1296-1438) and what repeated requests do to the server

The server is not part of the repository: `Server` is any server that applies a request as a whole or refuses it.
-/
namespace Nebula
namespace Meta

/-! ## Requests and a server that may apply them more than once -/

/-- A server: the request is applied and answered, or refused. -/
structure Server (S Q R : Type) where
  exec : Q → S → Option (S × R)

/-- What becomes of one attempt: the connection fails before or after the request is applied; the host is not the leader; the host answers. -/
inductive Fate where
  | lost (applied : Bool)
  | redirected (leader : HostAddr)
  | answered
deriving DecidableEq

variable {S Q R A : Type}

/-- The state after the request has been applied or refused. -/
def Server.effect (srv : Server S Q R) (q : Q) (s : S) : S := match srv.exec q s with
  | some (s', _) => s'
  | none => s

/-- What one attempt does. -/
def Server.attempt (srv : Server S Q R) (q : Q) (f : Fate) (s : S) : S := match f with
  | .lost true => srv.effect q s
  | .lost false => s
  | .redirected _ => s
  | .answered => srv.effect q s

/-- The surroundings of one call: what other clients do before the attempts, and the fates of the attempts. -/
structure Around (S : Type) where
  others : Nat → S → S
  fate : Nat → Fate

/-- The state after the first `k` attempts. -/
def Server.state (srv : Server S Q R) (q : Q) (m : Around S) (s : S) : Nat → S
  | 0 => s
  | k + 1 => srv.attempt q (m.fate k) (m.others k (srv.state q m s k))

/-- The state that attempt `k` meets. -/
def Server.met (srv : Server S Q R) (q : Q) (m : Around S) (s : S) (k : Nat) : S := m.others k (srv.state q m s k)

/-- What the client sees: the world of `getResponse` with such a server. -/
def Server.world (srv : Server S Q R) (w : RpcWorld R) (noHost : HostAddr) (noAnswer : R) (q : Q) (m : Around S) (s : S) : RpcWorld R :=
  { w with answer := fun k _ => match m.fate k with
      | .lost _ => .exception
      | .redirected l => .response .leaderChanged l noAnswer
      | .answered => match srv.exec q (srv.met q m s k) with
        | some (_, r) => .response .succeeded noHost r
        | none => .response (.other 0) noHost noAnswer }

/-! ## The key-value calls -/

/-- Common.h:66-72 `checkSegment`: the pattern `^[0-9a-zA-Z]+$`.  (libstdc++ matches recursively; very long segments may exhaust the stack, which is not modelled.) -/
def checkSegment (s : Bytes) : Bool :=
  !s.isEmpty && s.all fun c => (48 ≤ c && c ≤ 57) || (97 ≤ c && c ≤ 122) || (65 ≤ c && c ≤ 90)

/-- The requests (meta.thrift:498-542). -/
inductive KvReq where
  | multiPut (segment : Bytes) (pairs : List (Bytes × Bytes))
  | get (segment key : Bytes)
  | multiGet (segment : Bytes) (keys : List Bytes)
  | scan (segment start stop : Bytes)
  | remove (segment key : Bytes)
  | removeRange (segment start stop : Bytes)
deriving DecidableEq, Repr

/-- The answers: `ExecResp`, `GetResp`, `MultiGetResp`, `ScanResp`. -/
structure KvResp where
  value : Bytes
  values : List Bytes
deriving DecidableEq, Repr

/-- What the callers get. -/
inductive KvAnswer where
  | done (b : Bool)
  | value (v : Bytes)
  | values (vs : List Bytes)
deriving DecidableEq, Repr

/-- A call by name, with its arguments. -/
inductive KvCall where
  | multiPut (segment : Bytes) (pairs : List (Bytes × Bytes))
  | get (segment key : Bytes)
  | multiGet (segment : Bytes) (keys : List Bytes)
  | scan (segment start stop : Bytes)
  | remove (segment key : Bytes)
  | removeRange (segment start stop : Bytes)
deriving DecidableEq, Repr

/-- MetaClient.cpp:1296-1438: the checks of the arguments and the request that is built; `none` is "arguments invalid!". -/
def KvCall.request : KvCall → Option KvReq
  | .multiPut seg pairs => if !checkSegment seg || pairs.isEmpty then none else some (.multiPut seg (pairs.map fun e => (e.1, e.2)))
  | .get seg key => if !checkSegment seg || key.isEmpty then none else some (.get seg key)
  | .multiGet seg keys => if !checkSegment seg || keys.isEmpty then none else some (.multiGet seg keys)
  | .scan seg a b => if !checkSegment seg || a.isEmpty || b.isEmpty then none else some (.scan seg a b)
  | .remove seg key => if !checkSegment seg || key.isEmpty then none else some (.remove seg key)
  | .removeRange seg a b => if !checkSegment seg || a.isEmpty || b.isEmpty then none else some (.removeRange seg a b)

/-- MetaClient.cpp:1296-1438: what is made of a successful answer.  `resp.get_code() == SUCCEEDED` holds whenever it is asked. -/
def KvCall.respGen : KvCall → KvResp → KvAnswer
  | .multiPut _ _, _ => .done true
  | .get _ _, r => .value r.value
  | .multiGet _ _, r => .values r.values
  | .scan _ _ _, r => .values r.values
  | .remove _ _, _ => .done true
  | .removeRange _ _ _, _ => .done true

/-- MetaClient.cpp:1296-1438: a call, as seen from outside. -/
def KvCall.run (c : KvCall) (world : KvReq → RpcWorld KvResp) (limit : Int) (h : MetaHosts) : List (RpcEvent KvResp KvAnswer) := match c.request with
  | none => [.fulfilled .error]
  | some q => getResponse (world q) c.respGen true 0 limit h

end Meta
end Nebula
