import Verif.Text
/-!
# Partition of a vertex id

Model of `MetaClient::partId` (`src/common/clients/meta/MetaClient.cpp`), `MurmurHash2`
(`src/common/base/MurmurHash2.h`) and of the caller in
`src/common/clients/storage/InternalStorageClient.cpp`. Little-endian machine.
-/
namespace Nebula

/-- A 64-bit word read from memory: the first eight bytes, little endian. -/
def loadWord (d : Bytes) : UInt64 :=
  (d.take 8).foldr (fun b acc => acc <<< 8 ||| b.toUInt64) 0

/-- `m` (MurmurHash2.h:48). -/
def murmurM : UInt64 := 0xc6a4a7935bd1e995

/-- One round of the loop (MurmurHash2.h:53-63). -/
def murmurRound (h k : UInt64) : UInt64 :=
  let k := k * murmurM
  let k := k ^^^ (k >>> 47)
  let k := k * murmurM
  (h ^^^ k) * murmurM

/-- The loop (MurmurHash2.h:53-63): `n` words; what is left of the data. -/
def murmurLoop : Nat → UInt64 → Bytes → UInt64 × Bytes
  | 0, h, d => (h, d)
  | n + 1, h, d => murmurLoop n (murmurRound h (loadWord d)) (d.drop 8)

/-- The cases of the switch that are passed through, from `case n` down to `case 1` without the
multiplication (MurmurHash2.h:66-81): `h ^= uint64_t(data2[n-1]) << 8*(n-1)`. -/
def murmurCases : Nat → UInt64 → Bytes → UInt64
  | 0, h, _ => h
  | n + 1, h, d => murmurCases n (h ^^^ ((d.getD n 0).toUInt64 <<< (8 * n).toUInt64)) d

/-- MurmurHash2.h:44-86. -/
def murmur2 (s : Bytes) : UInt64 :=
  let h : UInt64 := 0xc70f6907 ^^^ (s.length.toUInt64 * murmurM)
  let p := murmurLoop (s.length / 8) h s
  let h := if s.length % 8 = 0 then p.1 else murmurCases (s.length % 8) p.1 p.2 * murmurM
  let h := h ^^^ (h >>> 47)
  let h := h * murmurM
  h ^^^ (h >>> 47)

/-- The hash input of an id that is not eight bytes long (MetaClient.cpp:1041: `hash(id.data())` makes a
`std::string` of a C string). -/
def vidWord (id : Bytes) : UInt64 :=
  if id.length = 8 then loadWord id else murmur2 (cstr id)

/-- `partId` (MetaClient.cpp:1033-1046). `numParts` is an `int32_t`, converted to `uint64_t` for the
remainder; the result is converted to `int32_t`. `none`: division by zero or a failed `CHECK`. -/
def partId (numParts : Int) (id : Bytes) : Option Int :=
  let n : Int := numParts % 2 ^ 64
  if n = 0 then none
  else
    let p := wrapI32 ((vidWord id).toNat % n + 1)
    if p > 0 then some p else none

/-- The partition `InternalStorageClient::getValue` asks for (InternalStorageClient.cpp:101-102): the source
id is in the key after the partition id; the space id is passed where `partId` wants the number of
partitions. -/
def getValuePart (vIdLen : Nat) (spaceId : Int) (key : Bytes) : Option Int :=
  partId spaceId ((key.drop 4).take vIdLen)

end Nebula
