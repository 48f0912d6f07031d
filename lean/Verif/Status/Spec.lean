import Verif.Status.Model
/-! # Specification for statuses and tagged unions -/
namespace Nebula

/-- What a `Status` variable should mean: a code and a message. -/
structure StatusVal where
  code : StatusCode
  msg : Bytes
deriving DecidableEq, Repr

/-- OK without a message. -/
def StatusVal.ok : StatusVal := ⟨.ok, []⟩

/-- The intended effect of an operation: copies keep the source, a moved-from variable is OK, moving a
variable to itself changes nothing. -/
def StatusVal.step (env : Nat → StatusVal) : StatusOp → Nat → StatusVal
  | .setOk i => fun k => if k = i then .ok else env k
  | .make i c m => fun k => if k = i then ⟨c, m⟩ else env k
  | .copyCtor i j => fun k => if k = i then env j else env k
  | .moveCtor i j => fun k => if k = i then env j else if k = j then .ok else env k
  | .copyAssign i j => fun k => if k = i then env j else env k
  | .moveAssign i j => fun k => if k = i then env j else if k = j then .ok else env k

/-- The meaning of all variables after a program, starting with every variable OK. -/
def StatusVal.run (env : Nat → StatusVal) (ops : List StatusOp) : Nat → StatusVal := ops.foldl StatusVal.step env

/-- Programs that construct from another variable (not from the one under construction), with codes other
than OK and messages below 65536 bytes. -/
def StatusOp.Proper : StatusOp → Prop
  | .make _ c m => c ≠ .ok ∧ m.length < 65536
  | .moveCtor i j => i ≠ j
  | _ => True

/-- What a `StatusOr`/`EitherOr` variable should be. -/
inductive UVal (L R : Type)
  | void
  | left (l : L)
  | right (r : R)
deriving DecidableEq, Repr

namespace UVal
variable {L R : Type}

abbrev Env (L R : Type) := Nat → Option (UVal L R)

def Env.set (e : Env L R) (i : Nat) (v : Option (UVal L R)) : Env L R := fun k => if k = i then v else e k

/-- The intended effect of an operation; `none` where the program is wrong: an access to something that
is not held, to a variable that does not exist, or a construction of one that does. -/
def step (e : Env L R) : UOp L R → Option (Env L R × UOut L R)
  | .default i => match e i with | none => some (Env.set e i (some .void), .unit) | _ => none
  | .ofLeft i l => match e i with | none => some (Env.set e i (some (.left l)), .unit) | _ => none
  | .ofRight i r => match e i with | none => some (Env.set e i (some (.right r)), .unit) | _ => none
  | .copyCtor i j => match e i, e j with | none, some v => some (Env.set e i (some v), .unit) | _, _ => none
  | .moveCtor i j => match e i, e j with
    | none, some v => some (Env.set (Env.set e i (some v)) j (some .void), .unit)
    | _, _ => none
  | .copyAssign i j => match e i, e j with | some _, some v => some (Env.set e i (some v), .unit) | _, _ => none
  | .moveAssign i j => match e i, e j with
    | some _, some v => if i = j then some (e, .unit) else some (Env.set (Env.set e i (some v)) j (some .void), .unit)
    | _, _ => none
  | .setLeft i l => match e i with | some _ => some (Env.set e i (some (.left l)), .unit) | _ => none
  | .setRight i r => match e i with | some _ => some (Env.set e i (some (.right r)), .unit) | _ => none
  | .setLeftRef i j => match e i, e j with | some _, some (.left l) => some (Env.set e i (some (.left l)), .unit) | _, _ => none
  | .setRightRef i j => match e i, e j with | some _, some (.right r) => some (Env.set e i (some (.right r)), .unit) | _, _ => none
  | .isVoid i => match e i with | some .void => some (e, .bool true) | some _ => some (e, .bool false) | none => none
  | .isLeft i => match e i with | some (.left _) => some (e, .bool true) | some _ => some (e, .bool false) | none => none
  | .isRight i => match e i with | some (.right _) => some (e, .bool true) | some _ => some (e, .bool false) | none => none
  | .getLeft i => match e i with | some (.left l) => some (e, .left l) | _ => none
  | .getRight i => match e i with | some (.right r) => some (e, .right r) | _ => none
  | .takeLeft i => match e i with | some (.left l) => some (Env.set e i (some .void), .left l) | _ => none
  | .takeRight i => match e i with | some (.right r) => some (Env.set e i (some .void), .right r) | _ => none
  | .destroy i => match e i with | some _ => some (Env.set e i none, .unit) | _ => none

/-- The results of a program on the intended semantics. -/
def run : Env L R → List (UOp L R) → Option (Env L R × List (UOut L R))
  | e, [] => some (e, [])
  | e, op :: ops => (step e op).bind fun p => (run p.1 ops).map fun q => (q.1, p.2 :: q.2)

end UVal

/-- Operations that do not assign to a variable from a reference into that same variable. -/
def UOp.NotOwn {L R : Type} (k : UKind) : UOp L R → Prop
  | .setLeftRef i j => k = .eitherOr → i ≠ j
  | .setRightRef i j => i ≠ j
  | _ => True

end Nebula
