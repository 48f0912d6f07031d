import Verif.Storage.Cluster
/-! # Specification vocabulary for C48 -/
namespace Nebula
namespace Storage

/-- The ids sent to a host for a part. -/
def sentTo {α : Type} (m : Clusters α) (h : HostAddr) (p : Int) : List α := (((m.find h).getD []).find p).getD []

/-- All that is sent. -/
def allSent {α : Type} (m : Clusters α) : List α := m.flatMap fun e => e.2.flatMap Prod.snd

end Storage
end Nebula
