import Verif.Wire.Response
import Verif.Wire.Spec
/-!
# Specification of the answers of the graph service on the wire (C92, C93)

What fits the wire (`…Fit`), what arrives (`ExecResponse.image`): the same answer, with the values of the table as
in C67 (`wireImage`); and what a newer peer may send (`withExtra`).
-/
namespace Nebula
namespace Wire

def InI32 (x : Int) : Prop := -2147483648 ≤ x ∧ x ≤ 2147483647

structure AuthFit (r : AuthResponse) : Prop where
  code : InI32 r.errorCode
  session : ∀ x, r.sessionId = some x → InI64 x
  msg : ∀ x, r.errorMsg = some x → Small x.length
  offset : ∀ x, r.timeZoneOffset = some x → InI32 x
  zone : ∀ x, r.timeZoneName = some x → Small x.length

structure StatsFit (p : ProfilingStats) : Prop where
  rows : InI64 p.rows
  exec : InI64 p.execDuration
  total : InI64 p.totalDuration
  other : ∀ m, p.otherStats = some m → Small m.length ∧ (m.map Prod.fst).Nodup ∧
    ∀ kv ∈ m, Small kv.1.length ∧ Small kv.2.length

structure NodeFit (p : PlanNode) : Prop where
  name : Small p.name.length
  id : InI64 p.id
  var : Small p.outputVar.length
  desc : ∀ l, p.description = some l → Small l.length ∧ ∀ kv ∈ l, Small kv.1.length ∧ Small kv.2.length
  prof : ∀ l, p.profiles = some l → Small l.length ∧ ∀ x ∈ l, StatsFit x
  branch : ∀ b, p.branchInfo = some b → InI64 b.conditionNodeId
  deps : ∀ l, p.dependencies = some l → Small l.length ∧ ∀ x ∈ l, InI64 x

structure PlanFit (p : PlanDesc) : Prop where
  nodes : Small p.nodes.length ∧ ∀ x ∈ p.nodes, NodeFit x
  index : Small p.nodeIndexMap.length ∧ (p.nodeIndexMap.map Prod.fst).Nodup ∧ ∀ kv ∈ p.nodeIndexMap, InI64 kv.1 ∧ InI64 kv.2
  format : Small p.format.length
  time : InI32 p.optimizeTime

structure ExecFit (r : ExecResponse) : Prop where
  code : InI32 r.errorCode
  latency : InI32 r.latency
  data : ∀ d, r.data = some d → Fits (.dataset d.1 d.2)
  space : ∀ x, r.spaceName = some x → Small x.length
  msg : ∀ x, r.errorMsg = some x → Small x.length
  plan : ∀ x, r.plan = some x → PlanFit x
  comment : ∀ x, r.comment = some x → Small x.length

/-- What arrives: the table with its values as they arrive. -/
def ExecResponse.image (r : ExecResponse) : ExecResponse :=
  { r with data := r.data.map fun d => (d.1, d.2.map (List.map wireImage)) }

/-- The fields followed by fields unknown to the reader. -/
def withExtra (ex : List (Nat × Datum)) : Nat → List (Nat × Nat × Option Bytes) → Bytes
  | last, [] => encF last ex ++ [0]
  | last, (_, _, none) :: fs => withExtra ex last fs
  | last, (id, ct, some b) :: fs => fieldHeader last id ct ++ (b ++ withExtra ex id fs)

/-- The same entries, in whatever order. -/
def SameEntries {K V : Type} (a b : List (K × V)) : Prop := ∀ kv, kv ∈ a ↔ kv ∈ b

/-- Both absent, or both present and related. -/
def Both {α : Type} (R : α → α → Prop) : Option α → Option α → Prop
  | none, none => True
  | some a, some b => R a b
  | _, _ => False

/-- Of equal length and related one by one. -/
def Each {α : Type} (R : α → α → Prop) (a b : List α) : Prop :=
  a.length = b.length ∧ ∀ (i : Nat) (x y : α), a[i]? = some x → b[i]? = some y → R x y

end Wire
end Nebula
