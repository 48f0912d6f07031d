import Verif.Storage.Client
import Verif.Meta.Retry
import Verif.Exec
/-!
# Clients and the requests they have started (src/common/clients/storage/StorageClientBase.inl:85-293, InternalStorageClient.cpp:57-147,
src/common/clients/meta/MetaClient.cpp:56-59, 89-96, 567-667)

A request runs on the threads of the IO pool, which is not the client's own; its continuations hold the client by a plain `this`.  The
destructors (StorageClientBase.inl:85-90, MetaClient.cpp:56-59) wait for no request.  The model has one storage client, the meta client it
was given, and any number of requests of both; what a continuation does is cut into the steps that use one of the clients, those that fulfil
the promise of the caller and the rest.

Not here: the continuations of the caller, the calls that fail before anything is sent, the heartbeats of the meta client's own thread (its
destructor waits for that thread, which waits for the answer).  `getReqPartsId` (StorageClientBase.h:199-245) reads no member and is not
counted as a use of the client.
-/
namespace Nebula
namespace Outlive

open Storage Meta

/-- What the continuations hold without owning it. -/
inductive Obj
  | storageClient
  | metaClient
deriving DecidableEq, Repr

/-- A step of the continuation of a request to one storage host. -/
inductive PAct
  /-- `setValue` on the promise of the caller -/
  | settle
  /-- `updateLeader` or `invalidLeader`: through the client to the meta client (StorageClientBase.inl:100-118) -/
  | leader
  /-- InternalStorageClient.cpp:86-89, 138-141: ask again -/
  | again
deriving DecidableEq, Repr

/-- What the steps of `getResponseImpl` are to the caller: fulfilling the promise of `getResponse` runs the callback of the internal client,
if there is one, at once (InternalStorageClient.cpp:84-93, 132-144). -/
def stepOf (internal : Bool) : SAct → PAct
  | .fail => .settle
  | .value a => if internal = true ∧ extractCode (.answer a) = .leaderChanged then .again else .settle
  | .updateLeader _ _ => .leader
  | .invalidLeader _ => .leader

/-- A step of the continuation of a request to the meta server. -/
inductive MAct
  /-- `updateLeader` or `updateActive` (MetaClient.cpp:606-610, 643) -/
  | update
  /-- `respGen` or `handleResponse` (MetaClient.cpp:640, 664) -/
  | generate
  /-- `runAfterDelay` (MetaClient.cpp:612, 645) -/
  | again
  | settle
deriving DecidableEq, Repr

/-- MetaClient.cpp:603-665: the continuation of an attempt. -/
def metaHandler (retry : Nat) (limit : Int) : RpcOutcome Unit → List MAct
  | .exception => .update :: if (retry : Int) < limit then [.again] else [.settle]
  | .response .succeeded _ _ => [.generate, .settle]
  | .response .leaderChanged _ _ => .update :: if (retry : Int) < limit then [.again] else [.generate, .settle]
  | .response (.other _) _ _ => [.generate, .settle]

/-- Where a request is. -/
inductive Req
  /-- to one storage host; the task for the IO thread has not run (StorageClientBase.inl:252) -/
  | pQueued (internal : Bool) (parts : List Int)
  /-- sent, no reply yet -/
  | pSent (internal : Bool) (parts : List Int)
  /-- the continuation runs -/
  | pRun (internal : Bool) (parts : List Int) (rest : List PAct)
  /-- the leader is about to be looked up again (InternalStorageClient.cpp:64, 115) -/
  | pAgain (internal : Bool) (parts : List Int)
  /-- to several storage hosts; `queued` are the hosts whose task has not run (StorageClientBase.inl:144-150) -/
  | coll (parts : HostAddr → List Int) (queued : List HostAddr) (c : CState)
  /-- to the meta server; the task has not run (MetaClient.cpp:580) -/
  | mQueued (limit : Int) (retry : Nat)
  | mSent (limit : Int) (retry : Nat)
  | mRun (limit : Int) (retry : Nat) (rest : List MAct)
  /-- the timer of the next attempt runs -/
  | mTimer (limit : Int) (retry : Nat)

/-- What happens to a request. -/
inductive REv
  | task
  | reply (r : Reply)
  | act (a : PAct)
  | retry (found : Bool)
  | cTask (h : HostAddr)
  | coll (e : CEv)
  | mTask
  | mReply (o : RpcOutcome Unit)
  | mAct (a : MAct)
  | fire

/-- The code of the requests. -/
inductive RStep : Req → REv → Req → Prop
  /-- StorageClientBase.inl:252-261 -/
  | task {i ps} : RStep (.pQueued i ps) .task (.pSent i ps)
  /-- StorageClientBase.inl:262-267: the reply is there, the continuation starts -/
  | reply {i ps r} : RStep (.pSent i ps) (.reply r) (.pRun i ps ((singleHandler ps r).map (stepOf i)))
  /-- StorageClientBase.inl:268-291: the next step of the continuation -/
  | act {i ps a rest} : a ≠ .again → RStep (.pRun i ps (a :: rest)) (.act a) (.pRun i ps rest)
  /-- InternalStorageClient.cpp:86-89, 138-141.  Nothing is left of the continuation of `getResponse` (a value comes last). -/
  | again {i ps rest} : RStep (.pRun i ps (.again :: rest)) (.act .again) (.pAgain i ps)
  /-- InternalStorageClient.cpp:64-84, 115-147: no leader is known -/
  | lost {i ps} : RStep (.pAgain i ps) (.retry false) (.pRun i ps [])
  /-- InternalStorageClient.cpp:64-84, 115-147: the request is sent again -/
  | found {i ps} : RStep (.pAgain i ps) (.retry true) (.pQueued i ps)
  /-- StorageClientBase.inl:133-146 -/
  | cSend {ps q c h c'} : CStep ps c (.send h) c' → RStep (.coll ps q c) (.coll (.send h)) (.coll ps (q ++ [h]) c')
  /-- StorageClientBase.inl:144-156 -/
  | cTask {ps q c h} : h ∈ q → RStep (.coll ps q c) (.cTask h) (.coll ps (q.erase h) c)
  /-- StorageClientBase.inl:156-163 -/
  | cReply {ps q c h r c'} : h ∉ q → CStep ps c (.reply h r) c' → RStep (.coll ps q c) (.coll (.reply h r)) (.coll ps q c')
  /-- StorageClientBase.inl:163-220 -/
  | cElse {ps q c e c'} : (∀ h, e ≠ .send h) → (∀ h r, e ≠ .reply h r) → CStep ps c e c' → RStep (.coll ps q c) (.coll e) (.coll ps q c')
  /-- MetaClient.cpp:589-592 -/
  | mTask {l k} : RStep (.mQueued l k) .mTask (.mSent l k)
  /-- MetaClient.cpp:603 -/
  | mReply {l k o} : RStep (.mSent l k) (.mReply o) (.mRun l k (metaHandler k l o))
  /-- MetaClient.cpp:604-665: the next step of the continuation -/
  | mAct {l k a rest} : a ≠ .again → RStep (.mRun l k (a :: rest)) (.mAct a) (.mRun l k rest)
  /-- MetaClient.cpp:612-628, 645-661 -/
  | mAgain {l k rest} : RStep (.mRun l k (.again :: rest)) (.mAct .again) (.mTimer l (k + 1))
  /-- MetaClient.cpp:619-627, 574-580: the timer calls `getResponse` -/
  | fire {l k} : RStep (.mTimer l k) .fire (.mQueued l k)

/-- The clients whose members a step reads or writes. -/
def REv.uses : REv → List Obj
  /- StorageClientBase.inl:255 `clientsMan_` -/
  | .task => [.storageClient]
  | .reply _ => []
  /- StorageClientBase.inl:100-118 `metaClient_->...` -/
  | .act .leader => [.storageClient, .metaClient]
  | .act _ => []
  /- InternalStorageClient.cpp:64, 115 `getLeader`; StorageClientBase.inl:250 `ioThreadPool_` -/
  | .retry _ => [.storageClient, .metaClient]
  /- StorageClientBase.inl:150 `clientsMan_` -/
  | .cTask _ => [.storageClient]
  /- StorageClientBase.inl:142 `ioThreadPool_` -/
  | .coll (.send _) => [.storageClient]
  | .coll (.op _ (.updateLeader _ _)) => [.storageClient, .metaClient]
  | .coll (.op _ (.invalidLeader _)) => [.storageClient, .metaClient]
  | .coll _ => []
  /- MetaClient.cpp:590 `clientsMan_` -/
  | .mTask => [.metaClient]
  | .mReply _ => []
  /- MetaClient.h:681-693 `addrs_`, `leader_`, `active_` -/
  | .mAct .update => [.metaClient]
  /- MetaClient.cpp:1093, 2504: a `respGen` may use the client -/
  | .mAct .generate => [.metaClient]
  | .mAct _ => []
  /- MetaClient.cpp:574-579 `ioThreadPool_`, `leader_`, `active_` -/
  | .fire => [.metaClient]

/-- The steps with which the caller's future becomes ready. -/
def REv.settles : REv → Bool
  | .act .settle => true
  | .retry false => true
  | .coll (.deliver _) => true
  | .mAct .settle => true
  | _ => false

/-- A request that has just been made. -/
inductive Req.Fresh : Req → Prop
  /-- StorageClientBase.inl:225-252 -/
  | single (internal : Bool) (parts : List Int) : Req.Fresh (.pQueued internal parts)
  /-- StorageClientBase.inl:124-131.  The hosts are the keys of a map. -/
  | many (parts : HostAddr → List Int) (hosts : List HostAddr) : hosts.Nodup → Req.Fresh (.coll parts [] (CState.init hosts))
  /-- MetaClient.cpp:567-580, MetaClient.h: `retry` is 0 -/
  | toMeta (limit : Int) : Req.Fresh (.mQueued limit 0)

/-- The clients a request needs while it goes on. -/
def Req.needs : Req → List Obj
  | .mQueued _ _ => [.metaClient]
  | .mSent _ _ => [.metaClient]
  | .mRun _ _ _ => [.metaClient]
  | .mTimer _ _ => [.metaClient]
  | _ => [.storageClient, .metaClient]

/-- The requests made so far, and the clients destroyed. -/
structure Sys where
  reqs : List Req
  gone : List Obj

inductive Ev
  | submit (r : Req)
  | run (i : Nat) (e : REv)
  | destroy (o : Obj)

def Sys.init : Sys := ⟨[], []⟩

/-- The threads: a caller makes a request of a client that is there; an IO thread runs a step of a request, whether or not the clients are
there; the owner destroys a client (StorageClientBase.inl:85-90, MetaClient.cpp:56-59: nothing waits for a request). -/
inductive Step : Sys → Ev → Sys → Prop
  | submit {s : Sys} {r : Req} : r.Fresh → (∀ o ∈ r.needs, o ∉ s.gone) → Step s (.submit r) { s with reqs := s.reqs ++ [r] }
  | run {s : Sys} {i : Nat} {r r' : Req} {e : REv} : s.reqs[i]? = some r → RStep r e r' → Step s (.run i e) { s with reqs := s.reqs.set i r' }
  | destroy {s : Sys} {o : Obj} : o ∉ s.gone → Step s (.destroy o) { s with gone := o :: s.gone }

end Outlive
end Nebula
