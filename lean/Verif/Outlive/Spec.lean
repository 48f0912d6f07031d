import Verif.Outlive.Model
/-!
# What the owner of a client relies on

Histories only: which requests were made, which were answered, which client was destroyed and which steps of a request use it.
-/
namespace Nebula
namespace Outlive

/-- The requests made in a history, in order. -/
def submits (hist : List Ev) : List Req := hist.filterMap fun
  | .submit r => some r
  | _ => none

/-- The caller has the answer to the request with number `i`. -/
def Settled (hist : List Ev) (i : Nat) : Prop := ∃ e, .run i e ∈ hist ∧ e.settles = true

/-- Nobody destroys a client before every request that needs it has been answered. -/
def Waited (hist : List Ev) : Prop :=
  ∀ pre o post, hist = pre ++ .destroy o :: post → ∀ i r, (submits pre)[i]? = some r → o ∈ r.needs → Settled pre i

/-- Some step of a request uses a client that has been destroyed. -/
def UsedAfter (hist : List Ev) : Prop :=
  ∃ pre o mid i e post, hist = pre ++ .destroy o :: (mid ++ .run i e :: post) ∧ o ∈ e.uses

/-- A request to one storage host. -/
def Req.Single : Req → Prop
  | .pQueued _ _ => True
  | _ => False

end Outlive
end Nebula
