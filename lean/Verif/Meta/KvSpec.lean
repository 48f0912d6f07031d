import Verif.Meta.Kv
import Verif.Meta.RetryProps
import Verif.Base
/-!
# Specification of the key-value store of the meta service (C123)

A store gives every key of a segment a value or none.  The answers to `scan` are left to the store, see `KvStore.Scans`.
-/
namespace Nebula
namespace Meta

/-- The contents: segment, key, value. -/
abbrev Contents := Bytes → Bytes → Option Bytes

/-- The contents with one value set or removed. -/
def Contents.set (s : Contents) (seg key : Bytes) (v : Option Bytes) : Contents := fun g k => if g = seg ∧ k = key then v else s g k

/-- `start ≤ k < stop` in the order of bytes. -/
def InRange (a b k : Bytes) : Prop := bytesLt k a = false ∧ bytesLt k b = true

instance (a b k : Bytes) : Decidable (InRange a b k) := inferInstanceAs (Decidable (_ ∧ _))

/-- The store: puts are applied in the order of the pairs; `get` and `multiGet` are refused if a key is missing. -/
def kvServer (scan : Contents → Bytes → Bytes → Bytes → List Bytes) : Server Contents KvReq KvResp where
  exec
    | .multiPut seg ps, s => some (ps.foldl (fun s p => s.set seg p.1 (some p.2)) s, ⟨[], []⟩)
    | .get seg k, s => (s seg k).map fun v => (s, ⟨v, []⟩)
    | .multiGet seg ks, s => (ks.mapM (s seg)).map fun vs => (s, ⟨[], vs⟩)
    | .scan seg a b, s => some (s, ⟨[], scan s seg a b⟩)
    | .remove seg k, s => some (s.set seg k none, ⟨[], []⟩)
    | .removeRange seg a b, s => some (fun g k => if g = seg ∧ InRange a b k then none else s g k, ⟨[], []⟩)

/-- A scan gives the values of the keys in the range, in the order of the keys. -/
def Scans (scan : Contents → Bytes → Bytes → Bytes → List Bytes) (s : Contents) : Prop :=
  ∀ seg a b, ∃ ks : List Bytes, ks.Pairwise (fun x y => bytesLt x y = true) ∧ (∀ k, k ∈ ks ↔ InRange a b k ∧ (s seg k).isSome) ∧ scan s seg a b = ks.filterMap (s seg)

/-- The value a list of pairs gives a key: that of the last pair. -/
def lastOf (ps : List (Bytes × Bytes)) (k : Bytes) : Option Bytes := (ps.reverse.find? fun p => p.1 == k).map Prod.snd

/-- The names of segments: letters and digits, at least one. -/
def SegmentName (s : Bytes) : Prop :=
  s ≠ [] ∧ ∀ c ∈ s, c ∈ ascii "0123456789abcdefghijklmnopqrstuvwxyzABCDEFGHIJKLMNOPQRSTUVWXYZ"

/-- A result of a call: what the promise was given. -/
def Result {R A : Type} (log : List (RpcEvent R A)) (r : RpcResult A) : Prop := log.getLast? = some (.fulfilled r)

/-- No other client does anything meanwhile. -/
def Around.Alone {S : Type} (m : Around S) : Prop := ∀ k s, m.others k s = s

/-- Applying the request a second time changes nothing. -/
def Idempotent {S Q R : Type} (srv : Server S Q R) (q : Q) : Prop := ∀ s, srv.effect q (srv.effect q s) = srv.effect q s

end Meta
end Nebula
