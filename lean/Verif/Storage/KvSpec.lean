import Verif.Storage.Cluster
/-!
# Specification vocabulary for the key-value client (C126)

The storage service is not part of the repository.  A part is a map from keys to values that all its replicas agree on; a host that gets
a request applies it to the parts that are named in it.
-/
namespace Nebula
namespace Storage

/-- The contents of the parts of a space. -/
abbrev Parts := Int → Bytes → Option Bytes

/-- The last value of a key in a list of pairs. -/
def lastValue : List (Bytes × Bytes) → Bytes → Option Bytes
  | [], _ => none
  | (k', v) :: l, k => match lastValue l k with
    | some w => some w
    | none => if k' = k then some v else none

/-- One entry of a request applied to its part: the pairs are stored in order. -/
def putPart (st : Parts) (part : Int) (kvs : List (Bytes × Bytes)) : Parts := fun p k =>
  if p = part then match lastValue kvs k with
    | some v => some v
    | none => st p k
  else st p k

/-- The entries of the requests to all hosts: parts and what is asked of them. -/
def requests {α : Type} (m : Clusters α) : List (Int × List α) := m.flatMap Prod.snd

/-- Entries applied one after the other. -/
def putAll (st : Parts) (l : List (Int × List (Bytes × Bytes))) : Parts := l.foldl (fun st x => putPart st x.1 x.2) st

/-- One entry of a request to remove keys. -/
def removePart (st : Parts) (part : Int) (keys : List Bytes) : Parts := fun p k => if p = part ∧ k ∈ keys then none else st p k

/-- Entries applied one after the other. -/
def removeAll (st : Parts) (l : List (Int × List Bytes)) : Parts := l.foldl (fun st x => removePart st x.1 x.2) st

/-- The pairs that all hosts answer together. -/
def answers (st : Parts) (l : List (Int × List Bytes)) : List (Bytes × Bytes) :=
  l.flatMap fun x => x.2.filterMap fun k => (st x.1 k).map fun v => (k, v)

/-- What a space of `n` parts holds under a key: the key is looked up in its part. -/
def holds (n : Int) (st : Parts) (k : Bytes) : Option Bytes := (partId n k).bind fun p => st p k

end Storage
end Nebula
