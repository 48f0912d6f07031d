import Verif.Value.Model
/-!
# Specification vocabulary for aggregates (C47)
-/
namespace Nebula
namespace AggSpec

/-- Neither NULL (of any kind) nor EMPTY. -/
def isPresent : Value → Bool
  | .null _ => false
  | .empty => false
  | _ => true

/-- The values an aggregate looks at. -/
def present (vs : List Value) : List Value := vs.filter isPresent

/-- The number a numeric value denotes, if it is finite. -/
def ratOf : Value → Option Rat
  | .int i => some i
  | .float (.fin q) => some q
  | _ => none

/-- The sum. -/
def sumR : List Rat → Rat
  | [] => 0
  | q :: qs => q + sumR qs

/-- `r` is a greatest element of `vs` in the order `lt`. -/
def Greatest (lt : Value → Value → Bool) (vs : List Value) (r : Value) : Prop := r ∈ vs ∧ ∀ v ∈ vs, lt r v = false

/-- The values without repetitions: a value equal to one kept before is dropped. -/
def firsts (eq : Value → Value → Bool) : List Value → List Value → List Value
  | _, [] => []
  | seen, v :: vs => if ∃ x ∈ seen, eq x v = true then firsts eq seen vs else v :: firsts eq (seen ++ [v]) vs

end AggSpec
end Nebula
