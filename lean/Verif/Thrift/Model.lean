import Verif.Text
import Verif.Map
/-!
# The clients of a thread (src/common/thrift/ThriftClientManager.inl)

One map of `folly::ThreadLocal`: the calls of one thread.  A connection is a number; what it was made for is remembered beside it.  Whether a connection is
still usable (its channel is good and its transport is not hung up) may change between calls and is asked at every call.

Simplifications: a host name that folly cannot resolve is kept (the socket made for it is not usable; that is up to `usable`); the event bases are
numbers; counters and logs are left out.
-/
namespace Nebula
namespace Thrift

/-- `HostAddr`. -/
structure Host where
  host : Bytes
  port : Nat
deriving DecidableEq, Repr

/-- A connection: its identity, and what it was made with. -/
structure Conn where
  id : Nat
  addr : Host
  evb : Nat
  compat : Bool
  timeout : Nat
deriving DecidableEq, Repr

/-- What a call finds outside the manager. -/
structure World where
  /-- `folly::IPAddress::validate`. -/
  isIp : Bytes → Bool
  /-- `folly::SocketAddress(host, port, true)`: the address of a name, if there is one. -/
  resolve : Bytes → Option Bytes
  /-- The channel is there and `good()`. -/
  good : Nat → Bool
  /-- The transport is there and does not `hangup()`. -/
  up : Nat → Bool
  /-- The event base of the calling thread. -/
  ownEvb : Nat

/-- `clientMap_` of the thread, and how many connections were made so far. -/
structure Mgr where
  map : AMap (Host × Nat) Conn
  next : Nat

/-- ThriftClientManager.inl:52-66: the address to connect to. -/
def resolved (w : World) (h : Host) : Host :=
  if w.isIp h.host then h else match w.resolve h.host with
    | some ip => { h with host := ip }
    | none => h

/-- ThriftClientManager.inl:26-44: the connection of the map if it is usable, and the map, from which one that is not usable is erased. -/
def lookup (w : World) (m : AMap (Host × Nat) Conn) (h : Host) (evb : Nat) : Option Conn × AMap (Host × Nat) Conn :=
  match m.find (h, evb) with
  | none => (none, m)
  | some c =>
    if !w.good c.id then (none, m.erase (h, evb))
    else if !w.up c.id then (none, m.erase (h, evb))
    else (some c, m)

/-- ThriftClientManager.inl:18-88 `client`; `evb = none`: no event base given. -/
def client (w : World) (g : Mgr) (h : Host) (evb : Option Nat) (compat : Bool) (timeout : Nat) : Conn × Mgr :=
  let evb := evb.getD w.ownEvb
  match lookup w g.map h evb with
  | (some c, m) => (c, { g with map := m })
  | (none, m) =>
    let addr := resolved w h
    let c : Conn := ⟨g.next, addr, evb, compat, timeout⟩
    (c, ⟨m.emplace (addr, evb) c, g.next + 1⟩)

/-- A call with what it finds. -/
structure Call where
  w : World
  host : Host
  evb : Option Nat
  compat : Bool
  timeout : Nat

/-- The calls of a thread and the connections they get. -/
def run : Mgr → List Call → List Conn × Mgr
  | g, [] => ([], g)
  | g, c :: cs =>
    let r := client c.w g c.host c.evb c.compat c.timeout
    let rest := run r.2 cs
    (r.1 :: rest.1, rest.2)

/-- The manager of a new thread. -/
def Mgr.new : Mgr := ⟨[], 0⟩

end Thrift
end Nebula
