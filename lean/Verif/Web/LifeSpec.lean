import Verif.Web.Life
/-!
# What proxygen promises, and what is to be answered (C152)
-/
namespace Nebula
namespace Web.Life
open Json Conf Net

/-- A piece of a body, or a change of protocol. -/
def Ev.Between : Ev → Prop
  | .body _ => True
  | .upgrade => True
  | _ => False

/-- The calls for one request: the head, then any number of pieces of the body, then the end of the request and of the answer, or an error at some point. -/
def Whole (es : List Ev) : Prop :=
  ∃ m mid tail, es = .request m :: mid ++ tail ∧ (∀ e ∈ mid, e.Between) ∧ (tail = [.eom, .complete] ∨ tail = [.eom, .error] ∨ tail = [.error])

/-- The calls for request `id` in a history. -/
def own (id : Nat) (tr : List (Nat × Act)) : List Act := (tr.filter fun x => x.1 = id).map (·.2)

/-- proxygen makes at most one handler for a request, and calls it as promised; requests may be unfinished. -/
def Proper (tr : List (Nat × Act)) : Prop :=
  ∀ id, own id tr = [] ∨ ∃ k es more, own id tr = .create k :: es.map .call ∧ Whole (es ++ more)

/-- The pieces of a body. -/
def pieces : List Ev → List Bytes
  | [] => []
  | .body p :: es => p :: pieces es
  | _ :: es => pieces es

/-- The answer to a request with head `m` whose body came in the pieces `ps`, and the flags afterwards, as Verif.Web.Handlers has them. -/
def served {F : Type} (S : Site F) (k : Kind) (m : Msg) (ps : List Bytes) (fs : List FlagInfo) : Option (Reply × List FlagInfo) :=
  match k with
  | .flagsSet => setFlags S.D S.C S.ord S.it S.accept (m.method == some .put) (if ps = [] then none else some ps.flatten) fs
  | .flagsGet =>
    if m.method = some .get then (replyFlags S.D S.C S.T S.ord S.bigInt true (flagQuery m.verbose m.format m.flags) fs).map (·, fs) else some (⟨405, []⟩, fs)
  | .stats => if m.method = some .get then (replyStats S.D S.C S.ord S.read S.all true m.format m.stats).map (·, fs) else some (⟨405, []⟩, fs)
  | .status => if m.method = some .get then (replyStatus S.D S.ord true S.sha).map (·, fs) else some (⟨405, []⟩, fs)
  | .unknown => some (⟨404, []⟩, fs)

end Web.Life
end Nebula
