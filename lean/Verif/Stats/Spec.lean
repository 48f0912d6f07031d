import Verif.Stats.Model
/-! # Specification vocabulary for C62 -/
namespace Nebula
namespace Stats

/-- The name a call registers. -/
def Call.name : Call → Option Bytes
  | .stats n _ => some n
  | .histo n _ => some n
  | .add _ _ => none

/-- The values added under an id in a history, oldest first. -/
def addedUnder (id : Int) : List Call → List Int
  | [] => []
  | .add i v :: cs => if i = id then v :: addedUnder id cs else addedUnder id cs
  | _ :: cs => addedUnder id cs

/-- The call that registered a name first. -/
def firstCall (name : Bytes) : List Call → Option Call
  | [] => none
  | c :: cs => if c.name = some name then some c else firstCall name cs

/-- The state before any call. -/
def init : State := ⟨[], [], []⟩

/-- The series of an id. -/
def seriesOf (st : State) (id : Int) : Option (List Int) :=
  if id > 0 then st.stats[(id - 1).toNat]? else if id < 0 then st.histos[(-(id + 1)).toNat]? else none

/-- A counter name that a metric name can carry. -/
def PlainName (n : Bytes) : Prop := n ≠ [] ∧ (46 : UInt8) ∉ n

end Stats
end Nebula
