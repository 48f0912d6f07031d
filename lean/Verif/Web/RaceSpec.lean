import Verif.Web.Race
import Verif.Web.HandlersSpec
/-!
# What flags requests served at the same time may do (C153)
-/
namespace Nebula
namespace Web.Race
open Json Conf Net Life

/-- What becomes of a flag `f` if requests asked for the texts `asked`: if none of the texts is accepted it stays, otherwise it has one of those that are. -/
inductive Outcome (accept : FlagInfo → Bytes → Option Bytes) (asked : Nat → List (Bytes × Bytes)) (f : FlagInfo) : FlagInfo → Prop
  | kept : (∀ id t, (f.name, t) ∈ asked id → accept f t = none) → Outcome accept asked f f
  | set {id t t'} : (f.name, t) ∈ asked id → accept f t = some t' → Outcome accept asked f { f with current := t', isDefault := false }

/-- A request that has finished. -/
def Job.Finished {F : Type} : Job F → Prop
  | .setting todo _ => todo = []
  | .reading _ todo _ => todo = []
  | .readingAll _ => False

/-- `P k n d` for every name and entry, at moments that follow one another, not before moment `k`. -/
inductive Moments {α β : Type} (P : Nat → α → β → Prop) : Nat → List α → List β → Prop
  | nil {k} : Moments P k [] []
  | cons {k k' n d ns ds} : k ≤ k' → P k' n d → Moments P (k' + 1) ns ds → Moments P k (n :: ns) (d :: ds)

end Web.Race
end Nebula
