import Verif.Meta.Users
/-! # What a user expects of logins: they follow the last complete list of users -/
namespace Nebula
namespace Meta

section
variable {R F P S I L D H : Type}

/-- The users were asked for. -/
def CEvent.Asks : CEvent R F P S I L D H → Prop
  | .ready b _ _ => b ≠ .failed
  | .beat b newer _ _ => b = .ok ∧ newer = true
  | .refresh _ _ => True

def CEvent.answers : CEvent R F P S I L D H → UserAnswers R
  | .ready _ u _ => u
  | .beat _ _ u _ => u
  | .refresh u _ => u

/-- The server answered everything: the list and the roles of every user in it. -/
def CEvent.Told (e : CEvent R F P S I L D H) (l : List (Bytes × Bytes)) : Prop :=
  e.Asks ∧ e.answers.list = some l ∧ ∀ x ∈ l, e.answers.roles x.1 ≠ none

/-- `e` was the last time the server told everything about the users, and `l` was the list. -/
def LastTold (h : List (CEvent R F P S I L D H)) (e : CEvent R F P S I L D H) (l : List (Bytes × Bytes)) : Prop :=
  ∃ before after, h = before ++ e :: after ∧ e.Told l ∧ ∀ x ∈ after, ∀ l', ¬ x.Told l'

/-- A history of a client: what happened, and the state it is in afterwards.  A crash ends it. -/
inductive Lives : List (CEvent R F P S I L D H) → UClient R F P S I L D H → Prop
  | new : Lives [] freshClient
  | step {h c c' e seen end_} : Lives h c → cstep c e = (seen, c', end_) → end_ ≠ .crashed → Lives (h ++ [e]) c'

/-- What other threads may see during the last event of a history, or after it. -/
inductive Sees : List (CEvent R F P S I L D H) → UClient R F P S I L D H → Prop
  | after {h c} : Lives h c → Sees h c
  | during {h c x c' e seen end_} : Lives h c → cstep c e = (seen, c', end_) → x ∈ seen → Sees (h ++ [e]) x

/-- Every list of users names a user once (it is a map on the wire). -/
def Distinct (h : List (CEvent R F P S I L D H)) : Prop := ∀ e ∈ h, ∀ l, e.answers.list = some l → (l.map Prod.fst).Nodup

end
end Meta
end Nebula
