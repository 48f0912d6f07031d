import Verif.Map
import Verif.Host.Model
import Verif.Part.Model
/-!
# Model of the partitioning of storage requests

`clusterIdsToHosts` and `getHostParts` (src/common/clients/storage/StorageClientBase.inl).  The answers of the meta client are
parameters: `parts` is `partsNum(space)`, `leader p` is the answer to the one call of `getLeader(space, p)`.
-/
namespace Nebula
namespace Storage

/-- What a client function does: answer, return an error status, or abort the process. -/
inductive Out (α : Type) where
  | ok (a : α)
  | error
  | abort

abbrev Clusters (α : Type) := AMap HostAddr (AMap Int (List α))

/-- StorageClientBase.inl:323-329: the leaders of the parts `p`, `p + 1`, … (`n` of them). -/
def leadersFrom (leader : Int → Option HostAddr) : AMap Int HostAddr → Int → Nat → Option (AMap Int HostAddr)
  | m, _, 0 => some m
  | m, p, n + 1 => match leader p with
    | none => none
    | some h => leadersFrom leader (m.set p h) (p + 1) n

/-- StorageClientBase.inl:330-340: the loop over the ids.  `leaders[part]` makes an empty address for an unknown part. -/
def clusterLoop {α : Type} (numParts : Int) (leaders : AMap Int HostAddr) (f : α → Bytes) : Clusters α → List α → Out (Clusters α)
  | m, [] => .ok m
  | m, id :: ids => match partId numParts (f id) with
    | none => .abort
    | some part => clusterLoop numParts leaders f
        (m.update ((leaders.find part).getD ⟨[], 0⟩) [] fun l => l.update part [] fun v => v ++ [id]) ids

/-- StorageClientBase.inl:306-342 `clusterIdsToHosts`. -/
def clusterIds {α : Type} (parts : Option Int) (leader : Int → Option HostAddr) (f : α → Bytes) (ids : List α) : Out (Clusters α) :=
  match parts with
  | none => .error
  | some n => match leadersFrom leader [] 1 n.toNat with
    | none => .error
    | some leaders => clusterLoop n leaders f [] ids

/-- StorageClientBase.inl:354-361: the loop of `getHostParts`. -/
def hostPartsFrom (leader : Int → Option HostAddr) : AMap HostAddr (List Int) → Int → Nat → Option (AMap HostAddr (List Int))
  | m, _, 0 => some m
  | m, p, n + 1 => match leader p with
    | none => none
    | some h => hostPartsFrom leader (m.update h [] fun l => l ++ [p]) (p + 1) n

/-- StorageClientBase.inl:347-363 `getHostParts`. -/
def hostParts (parts : Option Int) (leader : Int → Option HostAddr) : Out (AMap HostAddr (List Int)) :=
  match parts with
  | none => .error
  | some n => match hostPartsFrom leader [] 1 n.toNat with
    | none => .error
    | some m => .ok m

end Storage
end Nebula
