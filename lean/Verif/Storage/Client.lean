import Verif.Storage.Cluster
import Verif.Storage.Collect
import Verif.Value.Model
/-!
# Model of the clients built on `StorageClientBase`

src/common/clients/storage/GraphStorageClient.cpp: the functions that find the vertex id of an item (574-771) and the shape of the calls
around them; StorageClientBase.inl `getResponseImpl`; InternalStorageClient.cpp.
-/
namespace Nebula
namespace Storage

/-- The `k` low bytes of a number, lowest first. -/
def leNat : Nat → Nat → Bytes
  | 0, _ => []
  | k + 1, n => UInt8.ofNat (n % 256) :: leNat k (n / 256)

/-- `std::string(reinterpret_cast<const char*>(&i), 8)` of an `int64_t` on a little-endian machine. -/
def intBytes (i : Int) : Bytes := leNat 8 (i % 2 ^ 64).toNat

/-- `getSpaceVidType` gives one of these or an error; any other property type is refused (GraphStorageClient.cpp:611). -/
inductive VidType where
  | int64 | fixedString | unsupported
deriving DecidableEq

/-- The conversion of one id (GraphStorageClient.cpp:584-590): the id in place becomes a string.  `none`: the `CHECK` of `getInt` or `getStr`
fails. -/
def vidInPlace : VidType → Value → Option (Bytes × Value)
  | .int64, .int i => some (intBytes i, .str (intBytes i))
  | .fixedString, .str s => some (s, .str s)
  | _, _ => none

/-- A vertex to insert, a vertex id to delete or a tag to delete (their id), an edge key or an edge to insert (source and destination).
`rest` stands for all other fields. -/
inductive Item where
  | vertex (id : Value) (rest : Nat)
  | edge (src dst : Value) (rest : Nat)

/-- GraphStorageClient.cpp:621-772 `getIdFromNewVertex`, `getIdFromValue`, `getIdFromDelTags`, `getIdFromNewEdge`, `getIdFromEdgeKey`: the
key, and the item as it is afterwards.  In a string space the destination is looked at by a `DCHECK` only. -/
def idFromItem (t : VidType) : Item → Option (Bytes × Item)
  | .vertex id r => match vidInPlace t id with
    | some (k, id') => some (k, .vertex id' r)
    | none => none
  | .edge src dst r => match vidInPlace t src with
    | none => none
    | some (k, src') => match t with
      | .int64 => match vidInPlace t dst with
        | some (_, dst') => some (k, .edge src' dst' r)
        | none => none
      | _ => some (k, .edge src' dst r)

/-- GraphStorageClient.cpp:576-619 `getIdFromRow`.  An access past the end of the row is `none`. -/
def idFromRow (t : VidType) (isEdge : Bool) (row : List Value) : Option (Bytes × List Value) :=
  match row[0]? with
  | none => none
  | some v => match vidInPlace t v with
    | none => none
    | some (k, v') => match t, isEdge with
      | .int64, true => match row[3]? with
        | none => none
        | some w => match vidInPlace t w with
          | some (_, w') => some (k, (row.set 0 v').set 3 w')
          | none => none
      | _, _ => some (k, row.set 0 v')

/-- The conversions of a list of items, one after the other. -/
def convertAll {α : Type} (f : α → Option (Bytes × α)) : List α → Option (List (Bytes × α))
  | [] => some []
  | a :: l => match f a with
    | none => none
    | some x => match convertAll f l with
      | none => none
      | some xs => some (x :: xs)

/-- A call of `getNeighbors`, `getProps`, `addVertices`, `addEdges`, `deleteEdges`, `deleteVertices` or `deleteTags` up to
`collectResponse` (GraphStorageClient.cpp:29-50, 92-113, …): what is sent to whom, and the list of the caller afterwards.  `vidType` is the answer
of `getSpaceVidType`.  In the code the ids are converted one by one inside the loop of `clusterIdsToHosts`; here all before it, which differs only
in what an aborting process did last.  The caller sees the converted list if it passed it by reference (`getNeighbors` and `getProps`). -/
def groupCall {α : Type} (vidType : Option VidType) (parts : Option Int) (leader : Int → Option HostAddr)
    (f : VidType → α → Option (Bytes × α)) (items : List α) : Out (Clusters (Bytes × α) × List α) :=
  match vidType with
  | none => .error
  | some .unsupported => .error
  | some t => match clusterIds parts leader Prod.fst ([] : List (Bytes × α)) with
    | .error => .error
    | .abort => .abort
    | .ok _ => match convertAll (f t) items with
      | none => .abort
      | some xs => match clusterIds parts leader Prod.fst xs with
        | .ok m => .ok (m, xs.map Prod.snd)
        | .error => .error
        | .abort => .abort

/-- What `getResponseImpl` does when the reply is there. -/
inductive SAct where
  | fail
  | value (a : Answer)
  | updateLeader (p : Int) (l : HostAddr)
  | invalidLeader (p : Int)
deriving DecidableEq

/-- StorageClientBase.inl:275-287: one failed part of a single request. -/
def singleCall (r : PartResult) : List SAct :=
  match r.code with
  | .leaderChanged => match validHost r.leader with
    | some l => [.updateLeader r.part l]
    | none => [.invalidLeader r.part]
  | .partNotFound => [.invalidLeader r.part]
  | .spaceNotFound => [.invalidLeader r.part]
  | _ => []

/-- StorageClientBase.inl:262-289: the continuation of a request to one host. -/
def singleHandler (parts : List Int) : Reply → List SAct
  | .exception => .fail :: parts.map .invalidLeader
  | .answer a => a.failed.flatMap singleCall ++ [.value a]

/-- What the promise of `getResponse` gets: a status or the response. -/
def singleResult : Reply → Option Answer
  | .exception => none
  | .answer a => some a

/-- InternalStorageClient.cpp:13-37 `extractErrorCode`.  The future of `getResponse` always has a value: a failed call is a status with the code
`kError`, for which the transform is not implemented (`E_UNKNOWN`, here `other 0`). -/
def extractCode (r : Reply) : Code :=
  match singleResult r with
  | none => .other 0
  | some a => match a.failed with
    | [] => .succeeded
    | p :: _ => p.code

/-- The result of `forwardTransaction` or `getValue` and the hosts asked; `none` after `n` attempts without a result. -/
structure Forwarded where
  result : Option Code
  asked : List HostAddr
deriving DecidableEq

/-- InternalStorageClient.cpp:57-94 `forwardTransactionImpl` (`missing` = `E_SPACE_NOT_FOUND`) and 109-147 `getValueImpl` (`missing` =
`E_PART_NOT_FOUND`, see `getValueMissing`).  `world i` is what the `i`-th attempt finds: the cached leader and, if there is one, the reply. -/
def forward (missing : Code) (world : Nat → Option HostAddr × Reply) : Nat → Nat → Forwarded
  | _, 0 => ⟨none, []⟩
  | i, n + 1 => match (world i).1 with
    | none => ⟨some missing, []⟩
    | some h => match extractCode (world i).2 with
      | .leaderChanged => let r := forward missing world (i + 1) n
                          ⟨r.result, ⟨h.host, wrapI32 (h.port - 2)⟩ :: r.asked⟩
      | c => ⟨some c, [⟨h.host, wrapI32 (h.port - 2)⟩]⟩

/-- `std::string::find` as a condition: a position, or `npos` (which is not 0). -/
def findPos (needle : Bytes) : Nat → Bytes → Nat
  | i, [] => if needle = [] then i else 2 ^ 64 - 1
  | i, b :: s => if needle.isPrefixOf (b :: s) then i else findPos needle (i + 1) s

/-- InternalStorageClient.cpp:116-121: the code `getValue` gives if there is no leader, by the text of the status. -/
def getValueMissing (status : Bytes) : Code :=
  if findPos [112, 97, 114, 116, 105, 100] 0 status ≠ 0 then .partNotFound else .spaceNotFound

end Storage
end Nebula
