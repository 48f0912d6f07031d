import Verif.Value.Model
/-!
# Specification of paths: the vertices and directed edges a path visits
-/
namespace Nebula.Spec

/-- The vertices of a path, in order. -/
def vertices (p : Path Value) : List (Vertex Value) := p.src :: p.steps.map (·.dst)

/-- One edge of a path, as traversed. -/
structure Hop where
  tail : Vertex Value
  head : Vertex Value
  type : Int
  name : Bytes
  ranking : Int
  props : Props Value

/-- The edges of a path that starts at `v`. -/
def hopsFrom (v : Vertex Value) : List (Step Value) → List Hop
  | [] => []
  | s :: ss => ⟨v, s.dst, s.type, s.name, s.ranking, s.props⟩ :: hopsFrom s.dst ss

def hops (p : Path Value) : List Hop := hopsFrom p.src p.steps

/-- The same edge traversed in the other direction. -/
def Hop.opposite (h : Hop) : Hop := ⟨h.head, h.tail, -h.type, h.name, h.ranking, h.props⟩

/-- Two hops are the same stored edge: same ranking, and the same type and endpoints, or the
opposite type and swapped endpoints (for type 0 the code takes the endpoints reversed on both
sides, which changes nothing). -/
def Hop.sameEdge (eq : Value → Value → Bool) (a b : Hop) : Prop :=
  a.ranking = b.ranking ∧
  ((a.type = b.type ∧ eq a.tail.vid b.tail.vid = true ∧ eq a.head.vid b.head.vid = true) ∨
   (a.type ≠ 0 ∧ a.type = -b.type ∧ eq a.tail.vid b.head.vid = true ∧ eq a.head.vid b.tail.vid = true))

end Nebula.Spec
