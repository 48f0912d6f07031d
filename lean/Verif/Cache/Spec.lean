import Verif.Cache.Model
/-!
# Specification of the LRU cache

Two specifications: a recency list (most recently used entry first), and one that only looks at
the history of operations.
-/
namespace Nebula.Spec
variable {K V : Type} [DecidableEq K]

/-- The entries, most recently used first. -/
abbrev Recency (K V : Type) := List (K × V)

def Recency.value (l : Recency K V) (k : K) : Option V := l.lookup k
def Recency.without (l : Recency K V) (k : K) : Recency K V := l.filter fun e => e.1 ≠ k

/-- Insert or overwrite: the entry becomes the most recent; a new entry in a full cache pushes out
the last one. -/
def Recency.put (cap : Nat) (l : Recency K V) (k : K) (v : V) : Recency K V :=
  match l.value k with
  | some _ => (k, v) :: l.without k
  | none => if cap ≤ l.length then (k, v) :: l.dropLast else (k, v) :: l

def Recency.step (cap : Nat) (l : Recency K V) : CacheOp K V → Recency K V × CacheRes V
  | .contains k => (l, .bool (l.value k).isSome)
  | .insert k v => (l.put cap k v, .unit)
  | .get k => match l.value k with
    | none => (l, .error)
    | some v => ((k, v) :: l.without k, .value v)
  | .putIfAbsent k v => match l.value k with
    | none => (l.put cap k v, .inserted)
    | some w => ((k, w) :: l.without k, .value w)
  | .evict k => (l.without k, .unit)
  | .clear => ([], .unit)

def Recency.run (cap : Nat) (l : Recency K V) : List (CacheOp K V) → Recency K V × List (CacheRes V)
  | [] => (l, [])
  | op :: ops =>
    let (l, r) := Recency.step cap l op
    let (l, rs) := Recency.run cap l ops
    (l, r :: rs)

/-! The second specification.  Histories are lists of operations with their results, latest
operation *first*. -/

abbrev History (K V : Type) := List (CacheOp K V × CacheRes V)

/-- The value last stored for `k` and not removed by `evict` or `clear` since: the value a cache
without bound would hold. -/
def stored (k : K) : History K V → Option V
  | [] => none
  | (.insert k' v, _) :: h => if k' = k then some v else stored k h
  | (.putIfAbsent k' v, .inserted) :: h => if k' = k then some v else stored k h
  | (.clear, _) :: _ => none
  | (.evict k', _) :: h => if k' = k then none else stored k h
  | _ :: h => stored k h

/-- The other keys used (inserted or found) since `k` was last inserted or found. -/
def usedSince (k : K) : History K V → List K
  | [] => []
  | (.insert k' _, _) :: h => if k' = k then [] else k' :: usedSince k h
  | (.get k', .value _) :: h => if k' = k then [] else k' :: usedSince k h
  | (.putIfAbsent k' _, _) :: h => if k' = k then [] else k' :: usedSince k h
  | _ :: h => usedSince k h

/-- How many lookups (`get` and `putIfAbsent`) there were since the last `clear`. -/
def lookups : History K V → Nat
  | [] => 0
  | (.clear, _) :: _ => 0
  | (.get _, _) :: h => lookups h + 1
  | (.putIfAbsent _ _, _) :: h => lookups h + 1
  | _ :: h => lookups h

/-- How many of them found the key. -/
def found : History K V → Nat
  | [] => 0
  | (.clear, _) :: _ => 0
  | (.get _, .value _) :: h => found h + 1
  | (.putIfAbsent _ _, .value _) :: h => found h + 1
  | _ :: h => found h

/-- The eviction counter in one step: evictions plus entries grows by one exactly if the step adds a
key that was not in the cache, so that every entry that disappears is counted once; `clear` resets
everything. -/
def CountsEvictions (s : LRU K V) (op : CacheOp K V) (s' : LRU K V) : Prop :=
  match op with
  | .clear => s'.evicts = 0 ∧ s'.size = 0 ∧ s'.total = 0 ∧ s'.hits = 0
  | .insert k _ => s'.evicts + s'.size = s.evicts + s.size + (if s.contains k then 0 else 1)
  | .putIfAbsent k _ => s'.evicts + s'.size = s.evicts + s.size + (if s.contains k then 0 else 1)
  | .evict k => s'.size + (if s.contains k then 1 else 0) = s.size ∧
      s'.evicts = s.evicts + (if s.contains k then 1 else 0)
  | _ => s'.evicts = s.evicts ∧ s'.size = s.size

end Nebula.Spec
