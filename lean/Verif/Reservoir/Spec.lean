import Verif.Reservoir.Model
/-!
# Specification of sampling

All histories of draws of a uniform source, and the chance of an event as the fraction of these histories.
-/
namespace Nebula

/-- `ds` is a possible list of draws for offering `n` elements to a reservoir of size `k`: the draw for
element number `i` (from 0) is below `i`, except that nothing is drawn for the first `k` elements (these
entries are 0). -/
def DrawsFor (k : Nat) (ds : List Nat) : Prop :=
  ∀ i, (h : i < ds.length) → if i < k then ds[i] = 0 else ds[i] < i

/-- All lists of draws for offering `n` elements to a reservoir of size `k`, each exactly once. -/
def allDraws (k : Nat) : Nat → List (List Nat)
  | 0 => [[]]
  | n + 1 => if n < k then (allDraws k n).map (· ++ [0])
      else (allDraws k n).flatMap fun ds => (List.range n).map fun i => ds ++ [i]

/-- The sample after offering the elements 0, 1, 2, … with the given draws. -/
def sampleOf (k : Nat) (ds : List Nat) : List Nat :=
  ((Reservoir.new k).offer ((List.range ds.length).zip ds)).1.samples

/-- In how many of the equally likely histories of `n` offers element number `i` ends up in the sample. -/
def keptCount (k n i : Nat) : Nat := (allDraws k n).countP fun ds => i ∈ sampleOf k ds

/-- The chance that element number `i` of `n` is in the sample at the end is `p / q`. -/
def ChanceIs (k n i p q : Nat) : Prop := keptCount k n i * q = p * (allDraws k n).length ∧ 0 < (allDraws k n).length ∧ 0 < q

end Nebula
