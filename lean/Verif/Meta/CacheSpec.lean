import Verif.Meta.Cache
import Verif.Exec
/-!
# Specification vocabulary for the part cache (C52, C53, C55)
-/
namespace Nebula
namespace Meta

/-- The peers of a part according to a cache. -/
def peersOf (c : LocalCache) (s p : Int) : Option (List HostAddr) := (c.find s).bind fun x => x.partsAlloc.find p

/-- A cache as `loadData` builds it: maps have every key once and `partsOnHost` is made from `partsAlloc`. -/
def Loaded (c : LocalCache) : Prop :=
  c.NodupKeys ∧ ∀ s x, c.find s = some x → x.partsAlloc.NodupKeys ∧ x.partsOnHost = reverse x.partsAlloc

/-- For every known space, the known things of a kind `K` and their peers. -/
abbrev ViewOf (K : Type) := Int → Option (K → Option (List HostAddr))

/-- What a host knows: for every space it serves, the parts it serves and their peers. -/
abbrev View := ViewOf Int

/-- What host `me` should know: the parts that list it as a peer, and the spaces that have such a part. -/
noncomputable def viewOf (me : HostAddr) (c : LocalCache) : View := fun s =>
  open Classical in
  if ∃ p hs, peersOf c s p = some hs ∧ me ∈ hs then
    some fun p => (peersOf c s p).filter fun hs => decide (me ∈ hs)
  else none

/-- What a view says about one part. -/
def partOf (v : View) (s p : Int) : Option (List HostAddr) := (v s).bind fun f => f p

/-- Replace what is known about one space. -/
def ViewOf.put {K : Type} (v : ViewOf K) (s : Int) (x : Option (K → Option (List HostAddr))) : ViewOf K := fun s' => if s' = s then x else v s'

/-- Replace what is known about one part (or listener). -/
def putPart {K : Type} [DecidableEq K] (f : K → Option (List HostAddr)) (p : K) (x : Option (List HostAddr)) : K → Option (List HostAddr) :=
  fun p' => if p' = p then x else f p'

/-- One notification, as the receiver understands it.  Every notification must make sense: a space or part that is added was not
known, one that is removed or updated was known, an update changes something, a space that is removed has no parts left. -/
inductive Told : View → Note → View → Prop
  | spaceAdded {v s} : v s = none → Told v (.spaceAdded s false) (v.put s (some fun _ => none))
  | spaceRemoved {v s f} : v s = some f → (∀ p, f p = none) → Told v (.spaceRemoved s false) (v.put s none)
  | partAdded {v f} {ph : PartHosts} : v ph.spaceId = some f → f ph.partId = none →
      Told v (.partAdded ph) (v.put ph.spaceId (some (putPart f ph.partId (some ph.hosts))))
  | partUpdated {v f hs} {ph : PartHosts} : v ph.spaceId = some f → f ph.partId = some hs → hs ≠ ph.hosts →
      Told v (.partUpdated ph) (v.put ph.spaceId (some (putPart f ph.partId (some ph.hosts))))
  | partRemoved {v s p f hs} : v s = some f → f p = some hs → Told v (.partRemoved s p) (v.put s (some (putPart f p none)))

/-- The same for listeners: a space is known to the listener side if it has a listener on this host; listeners are known by part
and type. -/
abbrev LView := ViewOf (Int × Int)

/-- A loaded cache in which no listener is registered twice. -/
def ListenersLoaded (c : LocalCache) : Prop :=
  c.NodupKeys ∧ ∀ s x, c.find s = some x → x.listeners.NodupKeys ∧ ∀ h l, x.listeners.find h = some l → l.Nodup

/-- The peers of the data replica of part `k.1` if host `me` has a listener of type `k.2` for it. -/
noncomputable def listenerPeers (me : HostAddr) (c : LocalCache) (s : Int) (k : Int × Int) : Option (List HostAddr) :=
  open Classical in
  if ∃ x l, c.find s = some x ∧ x.listeners.find me = some l ∧ k ∈ l then peersOf c s k.1 else none

/-- What the listener side of host `me` should know. -/
noncomputable def listenersViewOf (me : HostAddr) (c : LocalCache) : LView := fun s =>
  open Classical in
  if ∃ k hs, listenerPeers me c s k = some hs then some (listenerPeers me c s) else none

/-- One listener notification, as the receiver understands it; every notification must make sense. -/
inductive ListenerTold : LView → Note → LView → Prop
  | spaceAdded {v s} : v s = none → ListenerTold v (.spaceAdded s true) (v.put s (some fun _ => none))
  | spaceRemoved {v s f} : v s = some f → (∀ k, f k = none) → ListenerTold v (.spaceRemoved s true) (v.put s none)
  | listenerAdded {v s p f} {l : ListenerHosts} : v s = some f → f (p, l.type) = none →
      ListenerTold v (.listenerAdded s p l) (v.put s (some (putPart f (p, l.type) (some l.peers))))
  | listenerRemoved {v s p t f hs} : v s = some f → f (p, t) = some hs →
      ListenerTold v (.listenerRemoved s p t) (v.put s (some (putPart f (p, t) none)))

/-- A receiver that takes every listener notification at its word, whether or not it makes sense. -/
def heed (v : LView) : Note → LView
  | .spaceAdded s true => v.put s (some ((v s).getD fun _ => none))
  | .spaceRemoved s true => v.put s none
  | .listenerAdded s p l => v.put s (some (putPart ((v s).getD fun _ => none) (p, l.type) (some l.peers)))
  | .listenerRemoved s p t => v.put s ((v s).map fun f => putPart f (p, t) none)
  | _ => v

end Meta
end Nebula
