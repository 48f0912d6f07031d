import Verif.Meta.LoadData
/-!
# Users, passwords and roles in the cache of the meta client (src/common/clients/meta/MetaClient.cpp:62-79, 118-167, 2377-2414, 3183-3186)

`R` stands for a role item.  The rest of the cache is that of `Verif.Meta.LoadData`.  A password is the text the server sends for it.
-/
namespace Nebula
namespace Meta

/-- MetaClient.h:762-763: `userRolesMap_`, `userPasswordMap_`. -/
structure Users (R : Type) where
  roles : AMap Bytes (List R)
  passwords : AMap Bytes Bytes

/-- What the server answers while the users are loaded: the list of users with their passwords and, for each of them, the roles; `none` is a
failed request. -/
structure UserAnswers (R : Type) where
  list : Option (List (Bytes × Bytes))
  roles : Bytes → Option (List R)

section
variable {R F P S I L D H : Type}

/-- MetaClient.cpp:151-159: the loop over the users. -/
def userLoop (roles : Bytes → Option (List R)) : Users R → List (Bytes × Bytes) → Option (Users R)
  | u, [] => some u
  | u, x :: xs => match roles x.1 with
    | none => none
    | some r => userLoop roles ⟨u.roles.set x.1 r, u.passwords.set x.1 x.2⟩ xs

/-- MetaClient.cpp:144-167 `loadUsersAndRoles`: the maps that replace the old ones, `none` if a request failed. -/
def loadUsers (a : UserAnswers R) : Option (Users R) := a.list.bind (userLoop a.roles ⟨[], []⟩)

abbrev UClient (R F P S I L D H : Type) := Client (Users R) F P S I L D H

/-- How a heartbeat is answered. -/
inductive Beat where
  | ok | leaderChanged | failed
deriving DecidableEq, Repr

/-- What the client does in the course of time. -/
inductive CEvent (R F P S I L D H : Type) where
  /-- `isMetadReady` -/
  | ready (b : Beat) (users : UserAnswers R) (rest : Answers (Users R) F P S I L D H)
  /-- `heartBeatThreadFunc`; `newer` says whether the server has changes -/
  | beat (b : Beat) (newer : Bool) (users : UserAnswers R) (rest : Answers (Users R) F P S I L D H)
  /-- `refreshCache` -/
  | refresh (users : UserAnswers R) (rest : Answers (Users R) F P S I L D H)

/-- MetaClient.cpp:170-299 `loadData` with the users. -/
def loadAll (users : UserAnswers R) (rest : Answers (Users R) F P S I L D H) (c : UClient R F P S I L D H) :
    List (UClient R F P S I L D H) × UClient R F P S I L D H × Ending := loadData { rest with users := loadUsers users } c

/-- MetaClient.cpp:62-79 `isMetadReady`, 118-141 `heartBeatThreadFunc`, 3183-3186 `refreshCache`: the states others may see while it runs, and the
last.  The configuration is left out; whether the server has changes is an input (see `Verif.Meta.Refresh`). -/
def cstep (c : UClient R F P S I L D H) : CEvent R F P S I L D H → List (UClient R F P S I L D H) × UClient R F P S I L D H × Ending
  | .ready .failed _ _ => ([], { c with ready := false }, .failed)
  | .ready _ u a => loadAll u a c
  | .beat .ok true u a => loadAll u a c
  | .beat _ _ _ _ => ([], c, .done)
  | .refresh u a => loadAll u a c

/-- MetaClient.h:778 `ready_`: a new client. -/
def freshClient : UClient R F P S I L D H := ⟨none, none, none, [], [], emptySnapshot, false⟩

/-- MetaClient.cpp:2377-2388 `getRolesByUserFromCache`. -/
def rolesOf (c : UClient R F P S I L D H) (user : Bytes) : List R :=
  if !c.ready then [] else match c.users with
    | none => []
    | some u => match u.roles.find user with
      | none => []
      | some r => r

/-- MetaClient.cpp:2391-2401 `authCheckFromCache`. -/
def authCheck (c : UClient R F P S I L D H) (account password : Bytes) : Bool :=
  if !c.ready then false else match c.users with
    | none => false
    | some u => match u.passwords.find account with
      | none => false
      | some p => p == password

/-- MetaClient.cpp:2404-2414 `checkShadowAccountFromCache`. -/
def shadowCheck (c : UClient R F P S I L D H) (account : Bytes) : Bool :=
  if !c.ready then false else match c.users with
    | none => false
    | some u => match u.passwords.find account with
      | some _ => true
      | none => false

end
end Meta
end Nebula
