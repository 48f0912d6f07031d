import Verif.Base
/-! # Model of `HostAddr` and `KeyValue` (src/common/datatypes/HostAddr.{h,cpp}, KeyValue.h) -/
namespace Nebula

/-- HostAddr.h:17-19. -/
structure HostAddr where
  host : Bytes
  port : Int
deriving DecidableEq, Repr

namespace HostAddr
/-- HostAddr.cpp:14-16 `operator==`. -/
def beq (a b : HostAddr) : Bool := a.host == b.host && a.port == b.port
/-- HostAddr.cpp:22-27 `operator<`. -/
def lt (a b : HostAddr) : Bool :=
  if a.host == b.host then decide (a.port < b.port) else bytesLt a.host b.host
/-- HostAddr.cpp:34-39 hash: `fnv32` (external, arbitrary functions here) of the host bytes in the
upper half, of the port in the lower half. -/
def hash (fs : Bytes → Nat) (fp : Int → Nat) (h : HostAddr) : Nat := (fs h.host <<< 32) ||| fp h.port
end HostAddr

/-- KeyValue.h:13-14. -/
structure KeyValue where
  key : Bytes
  value : Bytes
deriving DecidableEq, Repr

namespace KeyValue
/-- KeyValue.h:36-41. -/
def beq (a b : KeyValue) : Bool := if a.key != b.key then false else a.value == b.value
/-- KeyValue.h:43-48. -/
def lt (a b : KeyValue) : Bool := if a.key != b.key then bytesLt a.key b.key else bytesLt a.value b.value
end KeyValue
end Nebula
