import Verif.Base
/-!
# Reservoir sampling

Model of `src/common/algorithm/ReservoirSampling.h`. The random draws are an input: a draw is asked for with
its bound and is any number below that bound.
-/
namespace Nebula

/-- `ReservoirSampling` (ReservoirSampling.h:44-47): the samples, how many elements were offered, how many
are kept. The counter is a `uint64_t`; fewer than 2^64 offers are assumed. -/
structure Reservoir (T : Type) where
  samples : List T
  cnt : Nat
  num : Nat
deriving DecidableEq, Repr

namespace Reservoir
variable {T : Type}

/-- Constructor (ReservoirSampling.h:18-21). -/
def new (num : Nat) : Reservoir T := ⟨[], 0, num⟩

/-- The bound of the draw the next offer asks for, if it asks for one (ReservoirSampling.h:24, 29). -/
def bound (r : Reservoir T) : Option Nat := if r.cnt < r.num then none else some r.cnt

/-- `sampling` (ReservoirSampling.h:23-38); `index` is the draw (not looked at while the reservoir is not
full). The Boolean is the result. -/
def sampling (r : Reservoir T) (x : T) (index : Nat) : Reservoir T × Bool :=
  if r.cnt < r.num then ({ r with samples := r.samples ++ [x], cnt := r.cnt + 1 }, true)
  else if index < r.num then ({ r with samples := r.samples.set index x, cnt := r.cnt + 1 }, true)
  else ({ r with cnt := r.cnt + 1 }, false)

/-- Offering elements one after another with the given draws, one draw per offer; the results. -/
def offer : Reservoir T → List (T × Nat) → Reservoir T × List Bool
  | r, [] => (r, [])
  | r, (x, i) :: rest =>
    let p := r.sampling x i
    let q := offer p.1 rest
    (q.1, p.2 :: q.2)

end Reservoir
end Nebula
