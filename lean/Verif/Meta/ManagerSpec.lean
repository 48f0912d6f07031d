import Verif.Meta.Manager
import Verif.Meta.LoadDataProps
/-! # What a user expects of the schema and index managers: they answer from the last complete refresh -/
namespace Nebula
namespace Meta

section
variable {U F S I L H : Type}

abbrev MAnswers (U F S I L H : Type) := Answers U F PartAnswer S I L SpaceDesc H

/-- The client's cache is that of a refresh that completed with the answers `a` of the server.  Refreshes that failed later do not change this
(C80). -/
def Holds (a : MAnswers U F S I L H) (c : MClient U F S I L H) : Prop :=
  c.ready = true ∧ ∃ c0 c1 seen, loadData a c0 = (seen, c1, .done) ∧ c.snap = c1.snap

/-- The server lists a space with that id and name. -/
def ListsSpace (a : MAnswers U F S I L H) (id : Int) (name : Bytes) : Prop := ∃ sps, a.spaces = some sps ∧ (id, name) ∈ sps

/-- Answers of a meta server that works: ids and names are unique, the versions of a schema come together and the newest first. -/
structure GoodServer (a : MAnswers U F S I L H) : Prop where
  ids : ∀ sps, a.spaces = some sps → (sps.map Prod.fst).Nodup
  names : ∀ sps, a.spaces = some sps → (sps.map Prod.snd).Nodup
  tags : ∀ s l, a.tags s = some l → Listing l
  tagNames : ∀ s l, a.tags s = some l → ∀ x ∈ l, ∀ y ∈ l, (x.name = y.name ↔ x.id = y.id)
  edges : ∀ s l, a.edges s = some l → Listing l
  edgeNames : ∀ s l, a.edges s = some l → ∀ x ∈ l, ∀ y ∈ l, (x.name = y.name ↔ x.id = y.id)
  tagIndexes : ∀ s l, a.tagIndexes s = some l → (l.map fun x => x.2.1).Nodup
  edgeIndexes : ∀ s l, a.edgeIndexes s = some l → (l.map fun x => x.2.1).Nodup

/-- `x` is the version `v` of the schema `id` among the listed ones; a negative version is the newest. -/
def IsVersion (l : List (SItem S)) (id v : Int) (x : SItem S) : Prop :=
  x ∈ l ∧ x.id = id ∧ (0 ≤ v → x.ver = v) ∧ (v < 0 → ∀ y ∈ l, y.id = id → y.ver ≤ x.ver)

end
end Meta
end Nebula
