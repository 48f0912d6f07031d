import Verif.Base
/-!
# Model of the LRU caches (src/common/base/ConcurrentLRUCache.h)

`std::list` nodes have an identity (a number), so that the iterators stored in the map are modelled
as node identities; using an iterator of a node that is not in the list, decrementing `end()` of an
empty list, and a failed `CHECK` are the outcome `none`.  The `uint64_t` counters are natural
numbers (no wrap-around).
-/
namespace Nebula

/-- ConcurrentLRUCache.h:292-298: the members of `LRU`. `map_` is a list of entries
(key, (value, iterator)) in arbitrary order; `next` is the identity of the next node allocated. -/
structure LRU (K V : Type) where
  map : List (K × V × Nat)
  list : List (Nat × K)
  next : Nat
  capacity : Nat
  total : Nat
  hits : Nat
  evicts : Nat

namespace LRU
variable {K V : Type} [DecidableEq K]

/-- ConcurrentLRUCache.h:186-188. -/
def init (capacity : Nat) : LRU K V := ⟨[], [], 0, capacity, 0, 0, 0⟩

/-- `map_.find(key)`. -/
def find (s : LRU K V) (k : K) : Option (K × V × Nat) := s.map.find? fun e => e.1 = k

/-- ConcurrentLRUCache.h:192-194. -/
def size (s : LRU K V) : Nat := s.map.length

/-- ConcurrentLRUCache.h:204-206. -/
def contains (s : LRU K V) (k : K) : Bool := (s.find k).isSome

/-- `list_.splice(list_.begin(), list_, j)`. -/
def splice (l : List (Nat × K)) (j : Nat) : Option (List (Nat × K)) :=
  match l.find? fun n => n.1 = j with
  | none => none
  | some n => some (n :: l.filter fun m => m.1 ≠ j)

/-- ConcurrentLRUCache.h:284-290 `evict()`: the least recently used item. -/
def evictLast (s : LRU K V) : Option (LRU K V) :=
  match s.list.getLast? with
  | none => none
  | some n => some { s with
      map := s.map.filter fun e => e.1 ≠ n.2
      list := s.list.dropLast
      evicts := s.evicts + 1 }

/-- ConcurrentLRUCache.h:208-227 `insert`. -/
def insert (s : LRU K V) (k : K) (v : V) : Option (LRU K V) :=
  match s.find k with
  | none =>
    match (if s.size ≥ s.capacity then s.evictLast else some s) with
    | none => none
    | some s => some { s with
        list := (s.next, k) :: s.list
        map := (k, v, s.next) :: s.map
        next := s.next + 1 }
  | some e =>
    match splice s.list e.2.2 with
    | none => none
    | some l => some { s with
        map := s.map.map fun x => if x.1 = k then (x.1, v, x.2.2) else x
        list := l }

/-- ConcurrentLRUCache.h:229-249 `get`. -/
def get (s : LRU K V) (k : K) : Option (LRU K V × Option V) :=
  match s.find k with
  | none => some ({ s with total := s.total + 1 }, none)
  | some e =>
    match s.list.find? fun n => n.1 = e.2.2 with
    | none => none
    | some n =>
      if n.2 ≠ k then none
      else match (if s.list.head? = some n then some s.list else splice s.list e.2.2) with
        | none => none
        | some l => some ({ s with total := s.total + 1, hits := s.hits + 1, list := l }, some e.2.1)

/-- ConcurrentLRUCache.h:257-264 `evict(key)`. -/
def evict (s : LRU K V) (k : K) : Option (LRU K V) :=
  match s.find k with
  | none => some s
  | some e =>
    match s.list.find? fun n => n.1 = e.2.2 with
    | none => none
    | some _ => some { s with
        list := s.list.filter fun n => n.1 ≠ e.2.2
        map := s.map.filter fun x => x.1 ≠ k
        evicts := s.evicts + 1 }

/-- ConcurrentLRUCache.h:263-269 `clear`. -/
def clear (s : LRU K V) : LRU K V := { s with map := [], list := [], total := 0, hits := 0, evicts := 0 }

end LRU

/-- The operations of the caches. -/
inductive CacheOp (K V : Type) where
  | contains (k : K)
  | insert (k : K) (v : V)
  | get (k : K)
  | putIfAbsent (k : K) (v : V)
  | evict (k : K)
  | clear

/-- What an operation returns: nothing, a boolean, a value, an error status, or the status
"inserted". -/
inductive CacheRes (V : Type) where
  | unit
  | bool (b : Bool)
  | value (v : V)
  | error
  | inserted

namespace LRU
variable {K V : Type} [DecidableEq K]

/-- ConcurrentLRUCache.h:96-145: the methods of `Bucket`. Each holds the bucket's lock, so it is one
step. -/
def step (s : LRU K V) : CacheOp K V → Option (LRU K V × CacheRes V)
  | .contains k => some (s, .bool (s.contains k))
  | .insert k v => (s.insert k v).map (·, .unit)
  | .get k => match s.get k with
    | none => none
    | some (s, none) => some (s, .error)
    | some (s, some v) => some (s, .value v)
  | .putIfAbsent k v => match s.get k with
    | none => none
    | some (s, none) => (s.insert k v).map (·, .inserted)
    | some (s, some w) => some (s, .value w)
  | .evict k => (s.evict k).map (·, .unit)
  | .clear => some (s.clear, .unit)

/-- A sequence of operations: the final state and the results. -/
def run (s : LRU K V) : List (CacheOp K V) → Option (LRU K V × List (CacheRes V))
  | [] => some (s, [])
  | op :: ops => match s.step op with
    | none => none
    | some (s, r) => match run s ops with
      | none => none
      | some (s, rs) => some (s, r :: rs)

end LRU

/-! ## The sharded cache -/

/-- ConcurrentLRUCache.h:158-161. -/
structure ShardedCache (K V : Type) where
  buckets : List (LRU K V)
  exp : Nat

namespace ShardedCache
variable {K V : Type} [DecidableEq K]

/-- ConcurrentLRUCache.h:27-39: the constructor; `none` is a failed `CHECK`. -/
def init (capacity exp : Nat) : Option (ShardedCache K V) :=
  if capacity > 2 ^ exp ∧ 2 ^ exp > 0 then
    let per := capacity >>> exp
    let left := capacity - (2 ^ exp - 1) * per
    if left > 0 then
      some ⟨List.replicate (2 ^ exp - 1) (LRU.init per) ++ [LRU.init left], exp⟩
    else none
  else none

/-- ConcurrentLRUCache.h:152-155 `bucketIndex`. -/
def bucketIndex (hash : K → UInt64) (exp : Nat) (k : K) (hint : Int) : Nat :=
  if hint ≥ 0 then hint.toNat &&& (2 ^ exp - 1) else (hash k).toNat &&& (2 ^ exp - 1)

/-- One operation with its key and hint: ConcurrentLRUCache.h:41-63. -/
def onBucket (c : ShardedCache K V) (i : Nat) (op : CacheOp K V) : Option (ShardedCache K V × CacheRes V) :=
  match c.buckets[i]? with
  | none => none
  | some b => match b.step op with
    | none => none
    | some (b, r) => some ({ c with buckets := c.buckets.set i b }, r)

/-- ConcurrentLRUCache.h:71-93 `total`, `hits`, `evicts`. -/
def total (c : ShardedCache K V) : Nat := (c.buckets.map (·.total)).sum
def hits (c : ShardedCache K V) : Nat := (c.buckets.map (·.hits)).sum
def evicts (c : ShardedCache K V) : Nat := (c.buckets.map (·.evicts)).sum

end ShardedCache
end Nebula
