import Verif.Thrift.Model
import Verif.Exec
/-!
# Who keeps a connection open (src/common/thrift/ThriftClientManager.inl, ThriftClientManager.h)

The calls of several threads, each with its own map (Thrift/Model), and the shared pointers to the connections: one in the map, those given to callers and
their copies.  When the last one goes the deleter runs (ThriftClientManager.inl:84: on the thread of the event base the connection was made for, and it waits
for that), which closes the connection.  Maps are destroyed entry by entry, when a thread ends or the manager is destroyed (ThriftClientManager.h:48).
-/
namespace Nebula
namespace Thrift
namespace Life

/-- A connection with the thread that made it. -/
abbrev Link := Nat × Conn

structure St where
  /-- `clientMap_` of each thread -/
  mgr : Nat → Mgr := fun _ => .new
  /-- shared pointers outside the maps -/
  held : List Link := []
  /-- all connections made -/
  made : List Link := []
  /-- the connections whose deleter has run, in order -/
  closed : List Link := []

inductive Ev
  /-- `client` is called on a thread, and gives a connection -/
  | call (t : Nat) (c : Call) (x : Conn)
  /-- a caller copies its pointer -/
  | copy (l : Link)
  /-- a caller drops its pointer -/
  | drop (l : Link)
  /-- an entry of the map of a thread is destroyed with the map -/
  | evict (t : Nat) (k : Host × Nat)

/-- Some shared pointer to the connection is left. -/
def St.owned (s : St) (l : Link) : Bool := s.held.contains l || (s.mgr l.1).map.any fun e => e.2 == l.2

/-- A shared pointer to `l` has gone: if it was the last one, the deleter runs (ThriftClientManager.inl:82-84). -/
def St.release (s : St) (l : Link) : St := if s.owned l then s else { s with closed := s.closed ++ [l] }

/-- The map of a thread after something. -/
def St.setMgr (s : St) (t : Nat) (g : Mgr) : St := { s with mgr := fun i => if i = t then g else s.mgr i }

/-- ThriftClientManager.inl:23-44: what the call erases from the map of its thread. -/
def erased (g : Mgr) (c : Call) : Option Conn :=
  match lookup c.w g.map c.host (c.evb.getD c.w.ownEvb) with
  | (some _, _) => none
  | (none, _) => g.map.find (c.host, c.evb.getD c.w.ownEvb)

/-- ThriftClientManager.inl:18-87 `client` on thread `t`: the map changes, the pointer that was erased from it goes, the caller gets a pointer. -/
def St.call (s : St) (t : Nat) (c : Call) : Conn × St :=
  let r := client c.w (s.mgr t) c.host c.evb c.compat c.timeout
  let s1 := s.setMgr t r.2
  let s2 := { s1 with made := if (s.mgr t).next < r.2.next then s1.made ++ [(t, r.1)] else s1.made, held := (t, r.1) :: s1.held }
  (r.1, match erased (s.mgr t) c with
    | some old => s2.release (t, old)
    | none => s2)

inductive Step : St → Ev → St → Prop
  /-- ThriftClientManager.inl:18-87 -/
  | call {s : St} {t : Nat} {c : Call} : Step s (.call t c (s.call t c).1) (s.call t c).2
  /-- copying a `shared_ptr` -/
  | copy {s : St} {l : Link} : l ∈ s.held → Step s (.copy l) { s with held := l :: s.held }
  /-- the end of a `shared_ptr` -/
  | drop {s : St} {l : Link} : l ∈ s.held → Step s (.drop l) (({ s with held := s.held.erase l } : St).release l)
  /-- ThriftClientManager.h:48: the end of an entry of `clientMap_` -/
  | evict {s : St} {t : Nat} {k : Host × Nat} {x : Conn} : (s.mgr t).map.find k = some x →
      Step s (.evict t k) ((s.setMgr t { s.mgr t with map := (s.mgr t).map.erase k }).release (t, x))

end Life
end Thrift
end Nebula
