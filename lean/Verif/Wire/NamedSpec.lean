import Verif.Wire.Spec
/-!
# Specification for protocols that identify fields by name (C148)

`textImage`: what arrives through such a protocol: as with the compact protocol (`wireImage`), except that every set
arrives empty.  `Setless`: there is no set with an element inside the value (nor is it one).
-/
namespace Nebula
namespace Wire

mutual
/-- What arrives. -/
def textImage : Value → Value
  | .vertex v => .vertex (timgVertex v)
  | .edge ⟨s, d, t, n, r, p⟩ => .edge ⟨textImage s, textImage d, dir t, n, r, timgProps p⟩
  | .path ⟨v, ss⟩ => .path ⟨timgVertex v, timgSteps ss⟩
  | .list l => .list (timgVec l)
  | .map m => .map (timgProps m)
  | .set _ => .set []
  | .dataset c r => .dataset c (timgRows r)
  | .empty => .empty
  | .null n => .null n
  | .bool b => .bool b
  | .int i => .int i
  | .float f => .float f
  | .str s => .str s
  | .date d => .date d
  | .time t => .time t
  | .datetime d => .datetime d
def timgVertex : Vertex Value → Vertex Value
  | ⟨v, ts⟩ => ⟨textImage v, timgTags ts⟩
def timgTags : List (Tag Value) → List (Tag Value)
  | [] => []
  | ⟨n, p⟩ :: ts => ⟨n, timgProps p⟩ :: timgTags ts
def timgSteps : List (Step Value) → List (Step Value)
  | [] => []
  | ⟨v, t, n, r, p⟩ :: ss => ⟨timgVertex v, dir t, n, r, timgProps p⟩ :: timgSteps ss
def timgProps : List (Bytes × Value) → List (Bytes × Value)
  | [] => []
  | (k, v) :: ps => (k, textImage v) :: timgProps ps
def timgVec : List Value → List Value
  | [] => []
  | v :: vs => textImage v :: timgVec vs
def timgRows : List (List Value) → List (List Value)
  | [] => []
  | r :: rs => timgVec r :: timgRows rs
end

def SetlessHere : Value → Prop
  | .set l => l = []
  | _ => True
/-- No set with an element, at any depth. -/
def Setless (v : Value) : Prop := Value.Hered SetlessHere v

end Wire
end Nebula
