import Verif.Storage.Client
/-!
# Model of the key-value client and of requests to one part

src/common/clients/storage/GeneralStorageClient.cpp: `get`, `put`, `remove`; src/common/clients/storage/GraphStorageClient.cpp:
`updateVertex`, `updateEdge`, `getUUID`, `scanEdge`, `scanVertex`, `lookupIndex`, `lookupAndTraverse`.  The calls are modelled up to
`collectResponse` or `getResponse` (C49, C72): what is sent to whom.  Fields that are only copied into the request (columns,
conditions, flags) are part of the item.
-/
namespace Nebula
namespace Storage

/-- GeneralStorageClient.cpp:14-46 `get` and :81-106 `remove`: the keys by host and part. -/
def keysCall (parts : Option Int) (leader : Int → Option HostAddr) (keys : List Bytes) : Out (Clusters Bytes) := clusterIds parts leader id keys

/-- GeneralStorageClient.cpp:50-80 `put`: the pairs by host and part. -/
def putCall (parts : Option Int) (leader : Int → Option HostAddr) (kvs : List (Bytes × Bytes)) : Out (Clusters (Bytes × Bytes)) :=
  clusterIds parts leader Prod.fst kvs

/-- GraphStorageClient.cpp:326-363 (`updateVertex`) and :381-416 (`updateEdge`): the host, the part and the item with its ids as they are
sent. -/
def updateCall {α : Type} (vidType : Option VidType) (parts : Option Int) (leader : Int → Option HostAddr)
    (f : VidType → α → Option (Bytes × α)) (item : α) : Out (HostAddr × Int × α) :=
  match vidType with
  | none => .error
  | some .unsupported => .error
  | some t => match parts with
    | none => .error
    | some n => match f t item with
      | none => .abort
      | some (k, item') => match partId n k with
        | none => .abort
        | some p => match leader p with
          | none => .error
          | some h => .ok (h, p, item')

/-- GraphStorageClient.cpp:434-460 `getUUID`: the host and the part. -/
def uuidCall (parts : Option Int) (leader : Int → Option HostAddr) (name : Bytes) : Out (HostAddr × Int) :=
  match parts with
  | none => .error
  | some n => match partId n name with
    | none => .abort
    | some p => match leader p with
      | none => .error
      | some h => .ok (h, p)

/-- GraphStorageClient.cpp:539-555 `scanEdge` and :555-565 `scanVertex`: the host. -/
def scanCall (leader : Int → Option HostAddr) (part : Int) : Out HostAddr := match leader part with
  | none => .error
  | some h => .ok h

/-- GraphStorageClient.cpp:472-506 `lookupIndex` and :506-527 `lookupAndTraverse`: the parts by host. -/
def lookupCall (parts : Option Int) (leader : Int → Option HostAddr) : Out (AMap HostAddr (List Int)) := hostParts parts leader

end Storage
end Nebula
