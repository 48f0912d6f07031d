import Verif.Meta.Remote
import Verif.Meta.CacheSpec
/-!
# Specification vocabulary for the listener lookups (C124)
-/
namespace Nebula
namespace Meta

/-- What the server answered for every space of the cluster; `none` for a space that does not exist. -/
abbrev ListenerListing := Int → Option (List Listed)

/-- A cache holds a listing: it has exactly the spaces of the listing, and the listeners of each are what `loadListeners` makes of
the answer, in any iteration order. -/
def Keeps (c : LocalCache) (listing : ListenerListing) : Prop :=
  c.NodupKeys ∧ (∀ s, c.find s = none ↔ listing s = none) ∧
  ∀ s x ls, c.find s = some x → listing s = some ls → x.listeners.Perm (loadListeners ls)

/-- What the server said about a host, in its order: the pairs of part and type. -/
def onHost (ls : List Listed) (h : HostAddr) : List (Int × Int) := (ls.filter fun l => decide (l.host = h)).map fun l => (l.part, l.type)

/-- What the server said about a part: the pairs of host and type. -/
def onPart (ls : List Listed) (p : Int) : List (HostAddr × Int) := (ls.filter fun l => decide (l.part = p)).map fun l => (l.host, l.type)

end Meta
end Nebula
