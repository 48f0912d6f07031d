import Verif.Storage.Collect
/-! # Specification vocabulary for C49, C50 and C72 -/
namespace Nebula
namespace Storage

/-- The replies of a history, in the order of their arrival. -/
def repliesOf (hist : List CEv) : List (HostAddr × Reply) :=
  hist.filterMap fun e => match e with
    | .reply h r => some (h, r)
    | _ => none

/-- The failures a reply means for a request with these parts: on an exception every part failed. -/
def failures (parts : List Int) : Reply → List (Int × Code)
  | .exception => parts.map fun p => (p, .rpcFailure)
  | .answer a => a.failed.map fun r => (r.part, r.code)

/-- A reply is a failure if it is an exception or reports a failed part. -/
def failedReply : Reply → Bool
  | .exception => true
  | .answer a => !a.failed.isEmpty

/-- The answer in a reply. -/
def answerOf : Reply → Option Answer
  | .exception => none
  | .answer a => some a

/-- A response is the combination of the replies `rs` to requests with the parts `parts`. -/
structure Combines (parts : HostAddr → List Int) (rs : List (HostAddr × Reply)) (r : Resp) : Prop where
  /-- the answers are kept, each once -/
  responses : r.responses.Perm (rs.filterMap fun x => answerOf x.2)
  /-- the failed parts are those of the failed replies … -/
  failed_iff : ∀ p, (∃ c, r.failedParts.find p = some c) ↔ ∃ x ∈ rs, ∃ c, (p, c) ∈ failures (parts x.1) x.2
  /-- … with a code reported for that part -/
  failed_code : ∀ p c, r.failedParts.find p = some c → ∃ x ∈ rs, (p, c) ∈ failures (parts x.1) x.2
  /-- one failure is counted per failed reply -/
  count : r.failedReqs = (rs.filter fun x => failedReply x.2).length
  /-- it succeeded iff no reply failed -/
  succeeded : r.succeeded = true ↔ ∀ x ∈ rs, failedReply x.2 = false
  /-- every answering host's latencies are kept -/
  latencies : r.hostLatency.Perm (rs.filterMap fun x => (answerOf x.2).map fun a => (x.1, a.latency, a.e2e))
  /-- the latency is the greatest of them (at least 0) -/
  maxLatency : 0 ≤ r.maxLatency ∧ (∀ x ∈ rs, ∀ a, answerOf x.2 = some a → a.latency ≤ r.maxLatency) ∧
    (r.maxLatency = 0 ∨ ∃ x ∈ rs, ∃ a, answerOf x.2 = some a ∧ a.latency = r.maxLatency)

/-- The operations of a history. -/
def opLog (hist : List CEv) : List (HostAddr × Op) :=
  hist.filterMap fun e => match e with
    | .op h o => some (h, o)
    | _ => none

/-- The operations the handler of one host did in a history. -/
def opsOf (hist : List CEv) (h : HostAddr) : List Op := ((opLog hist).filter fun x => x.1 = h).map Prod.snd

end Storage
end Nebula
