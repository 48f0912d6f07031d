import Verif.Base
/-!
# `collectNSucceeded`

Model of `src/common/base/CollectNSucceeded.inl`. The callbacks run one at a time (the code asks for all
futures to be on one executor); the evaluator does not throw.
-/
namespace Nebula

/-- How an input future completed. -/
inductive Outcome (V : Type)
  | value (v : V)
  | exception
deriving DecidableEq, Repr

/-- `Context` (CollectNSucceeded.inl:23-34); `promise` is the value it was fulfilled with. -/
structure CollectCtx (V : Type) where
  results : List (Nat × V)
  numCompleted : Nat
  nSucceeded : Nat
  promise : Option (List (Nat × V))
  nTotal : Nat
deriving DecidableEq, Repr

/-- What `collectNSucceeded` gives back at once (CollectNSucceeded.inl:19-21, 39-43, 45-46). -/
inductive CollectStart (V : Type)
  | empty
  | notEnough
  | running (c : CollectCtx V)
deriving DecidableEq, Repr

def CollectStart.start (V : Type) (n total : Nat) : CollectStart V :=
  if n = 0 then .empty
  else if total < n then .notEnough
  else .running ⟨[], 0, 0, none, total⟩

/-- Counting a result (CollectNSucceeded.inl:55-60). -/
def CollectCtx.count {V : Type} (eval : Nat → V → Bool) (c : CollectCtx V) (index : Nat) : Outcome V → CollectCtx V
  | .exception => c
  | .value v => { c with nSucceeded := if eval index v then c.nSucceeded + 1 else c.nSucceeded, results := c.results ++ [(index, v)] }

/-- The callback of future number `index` (CollectNSucceeded.inl:52-75). `none`: the promise is fulfilled a
second time, which throws. -/
def CollectCtx.complete {V : Type} (n : Nat) (eval : Nat → V → Bool) (c : CollectCtx V) (index : Nat) (o : Outcome V) :
    Option (CollectCtx V) :=
  if c.promise.isSome then some c
  else
    let c1 := c.count eval index o
    let c2 := { c1 with numCompleted := c1.numCompleted + 1 }
    if c2.numCompleted = c2.nTotal ∨ c2.nSucceeded = n then
      match c2.promise with
      | some _ => none
      | none => some { c2 with promise := some c2.results, results := [] }
    else some c2

/-- Callbacks in the order of completion. -/
def CollectCtx.run {V : Type} (n : Nat) (eval : Nat → V → Bool) : CollectCtx V → List (Nat × Outcome V) → Option (CollectCtx V)
  | c, [] => some c
  | c, (i, o) :: rest => (c.complete n eval i o).bind fun c => run n eval c rest

end Nebula
