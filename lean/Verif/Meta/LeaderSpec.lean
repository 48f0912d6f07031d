import Verif.Meta.Leader
/-! # Specification vocabulary for the leader cache (C51) -/
namespace Nebula
namespace Meta

/-- The leader last reported for a part (by an update or by a load from the meta server) since the last invalidation. -/
def reportedFrom (k : PartKey) : Option HostAddr → List LEv → Option HostAddr
  | r, [] => r
  | r, .update k' h :: l => reportedFrom k (if k' = k then some h else r) l
  | r, .invalidate k' :: l => reportedFrom k (if k' = k then none else r) l
  | _, .load i :: l => reportedFrom k (i.leaderMap.find k) l
  | r, _ :: l => reportedFrom k r l

def reported (k : PartKey) (l : List LEv) : Option HostAddr := reportedFrom k none l

/-- The gets of the history do not interleave with anything else: a choice directly follows the miss. -/
def AtomicGets (l : List LEv) : Prop :=
  ∀ a b t k h, l = a ++ .pick t k h :: b → ∃ a' hosts, a = a' ++ [.miss t k hosts]

/-- The loads of the history are loads of proper maps. -/
def ProperLoads (l : List LEv) : Prop := ∀ i, LEv.load i ∈ l → i.leaderMap.NodupKeys

/-- A host item lists a part of space `s` under a name that stands for `s`. -/
def Leads (names : AMap Bytes Int) (k : PartKey) (it : HostItem) : Prop :=
  ∃ n ps, (n, ps) ∈ it.leaderParts ∧ names.find n = some k.1 ∧ k.2 ∈ ps

end Meta
end Nebula
