import Verif.Text
/-!
# `Status`, `StatusOr` and `EitherOr`

Model of `src/common/base/Status.h`, `src/common/base/Status.cpp`, `src/common/base/StatusOr.h`,
`src/common/base/EitherOr.h` and `src/common/base/ErrorOr.h`.

A program is a list of operations on numbered variables. `none` is undefined behaviour or a failed
`CHECK`/`DCHECK` (both abort or corrupt the process).
-/
namespace Nebula

/-! ## `Status` -/

/-- `Status::Code` (Status.h:158-188). -/
inductive StatusCode
  | ok | inserted | error | noSuchFile | notSupported | syntaxError | statementEmpty | semanticError
  | keyNotFound | partialSuccess | spaceNotFound | hostNotFound | tagNotFound | edgeNotFound
  | userNotFound | leaderChanged | balanced | indexNotFound | partNotFound | groupNotFound
  | zoneNotFound | listenerNotFound | permissionError
deriving DecidableEq, Repr

/-- The heap buffer behind `state_` (Status.h:214-224): header with a 16-bit size and the code, then the
message bytes. -/
structure StatusBuf where
  size : Nat
  code : StatusCode
  data : Bytes
deriving DecidableEq, Repr

/-- `Status` (Status.h:224): `none` is the null pointer, which means OK. -/
abbrev Status := Option StatusBuf

/-- `Status(Code, StringPiece)` (Status.cpp:12-20): the size is narrowed to `uint16_t`. -/
def Status.make (code : StatusCode) (msg : Bytes) : Status :=
  let size := msg.length % 65536
  some ⟨size, code, msg.take size⟩

/-- `copyState` (Status.cpp:37-43): copies as many bytes as the header says. -/
def Status.copyState (b : StatusBuf) : Option StatusBuf :=
  if b.size ≤ b.data.length then some { b with data := b.data.take b.size } else none

/-- `code()` (Status.h:190-195). -/
def Status.code (s : Status) : StatusCode :=
  match s with
  | none => .ok
  | some b => b.code

/-- `message()` (Status.cpp:22-25). -/
def Status.message (s : Status) : Option Bytes :=
  match s with
  | none => some []
  | some b => if b.size ≤ b.data.length then some (b.data.take b.size) else none

/-- `toString(Code)` (Status.cpp:53-104). -/
def StatusCode.text : StatusCode → Bytes
  | .ok => ascii "OK"
  | .inserted => ascii "Inserted: "
  | .error => []
  | .noSuchFile => ascii "NoSuchFile: "
  | .notSupported => ascii "NotSupported: "
  | .syntaxError => ascii "SyntaxError: "
  | .statementEmpty => ascii "StatementEmpty: "
  | .semanticError => ascii "SemanticError: "
  | .keyNotFound => ascii "KeyNotFound: "
  | .partialSuccess => ascii "PartialSuccess: "
  | .spaceNotFound => ascii "SpaceNotFound: "
  | .hostNotFound => ascii "HostNotFound: "
  | .tagNotFound => ascii "TagNotFound: "
  | .edgeNotFound => ascii "EdgeNotFound: "
  | .groupNotFound => ascii "GroupNotFound: "
  | .zoneNotFound => ascii "ZoneNotFound: "
  | .userNotFound => ascii "UserNotFound: "
  | .leaderChanged => ascii "LeaderChanged: "
  | .balanced => ascii "Balanced: "
  | .indexNotFound => ascii "IndexNotFound: "
  | .partNotFound => ascii "PartNotFound: "
  | .permissionError => ascii "PermissionError: "
  | .listenerNotFound => ascii "ListenerNotFound"

/-- `toString()` (Status.cpp:27-35). -/
def Status.toString (s : Status) : Option Bytes :=
  if s.code = .ok then some (ascii "OK")
  else match s with
    | none => none
    | some b => if b.size ≤ b.data.length then some (b.code.text ++ b.data.take b.size) else none

/-- `vsnprintf` of a format without arguments: `%%` is a percent sign, every other conversion reads an
argument that is not there. -/
def formatNoArgs : Bytes → Option Bytes
  | [] => some []
  | 37 :: 37 :: r => (formatNoArgs r).map (37 :: ·)
  | 37 :: _ => none
  | c :: r => (formatNoArgs r).map (c :: ·)

/-- `Status::ERROR(const char*, ...)` called with just a message (Status.h:101-108, Status.cpp:46-50):
the message is a format, the result is cut to the 256-byte buffer including its final NUL. -/
def Status.fromFormat (code : StatusCode) (fmt : Bytes) : Option Status :=
  (formatNoArgs (cstr fmt)).map fun m => Status.make code (m.take 255)

/-- What a program can do with `Status` variables. -/
inductive StatusOp
  /-- default constructor or `OK()` -/
  | setOk (i : Nat)
  /-- `ERROR(msg)` with a string, by move -/
  | make (i : Nat) (code : StatusCode) (msg : Bytes)
  /-- copy constructor into a fresh variable -/
  | copyCtor (i j : Nat)
  /-- move constructor into a fresh variable -/
  | moveCtor (i j : Nat)
  | copyAssign (i j : Nat)
  | moveAssign (i j : Nat)
deriving DecidableEq, Repr

/-- One operation. Two variables hold the same pointer exactly if they are the same variable or both
null (`unique_ptr` owns its buffer). -/
def Status.step (env : Nat → Status) : StatusOp → Option (Nat → Status)
  -- Status.h:27, 88-90
  | .setOk i => some fun k => if k = i then none else env k
  -- Status.h:92-99 and the move assignment of the result
  | .make i c m => some fun k => if k = i then Status.make c m else env k
  -- Status.h:31-33
  | .copyCtor i j =>
    match env j with
    | none => some fun k => if k = i then none else env k
    | some b => (Status.copyState b).map fun b' => fun k => if k = i then some b' else env k
  -- Status.h:44-46
  | .moveCtor i j =>
    if i = j then none
    else some fun k => if k = i then env j else if k = j then none else env k
  -- Status.h:35-42
  | .copyAssign i j =>
    if i = j ∨ (env i = none ∧ env j = none) then some env
    else match env j with
      | none => some fun k => if k = i then none else env k
      | some b => (Status.copyState b).map fun b' => fun k => if k = i then some b' else env k
  -- Status.h:48-55
  | .moveAssign i j =>
    if i = j ∨ (env i = none ∧ env j = none) then some env
    else some fun k => if k = i then env j else if k = j then none else env k

/-- A program from all variables OK. -/
def Status.run : List StatusOp → (Nat → Status) → Option (Nat → Status)
  | [], env => some env
  | op :: ops, env => (Status.step env op).bind (Status.run ops)

/-- `operator==` (Status.h:71-78) of variables `i` and `j`. -/
def Status.eqVars (env : Nat → Status) (i j : Nat) : Bool :=
  if i = j ∨ (env i = none ∧ env j = none) then true else (env i).code = (env j).code

/-! ## Tagged unions -/

/-- The storage of a `union` of two types: nothing constructed, or one alternative. -/
inductive Slot (L R : Type)
  | raw
  | left (l : L)
  | right (r : R)
deriving DecidableEq, Repr

/-- Placement `new` over storage: constructing over a live object would leak it. -/
def Slot.construct {L R : Type} (s : Slot L R) (x : Slot L R) : Option (Slot L R) :=
  match s with
  | .raw => some x
  | _ => none

/-- Destroying the left alternative. -/
def Slot.killLeft {L R : Type} : Slot L R → Option (Slot L R)
  | .left _ => some .raw
  | _ => none

/-- Destroying the right alternative. -/
def Slot.killRight {L R : Type} : Slot L R → Option (Slot L R)
  | .right _ => some .raw
  | _ => none

/-- Reading the left alternative. -/
def Slot.readLeft {L R : Type} : Slot L R → Option L
  | .left l => some l
  | _ => none

/-- Reading the right alternative. -/
def Slot.readRight {L R : Type} : Slot L R → Option R
  | .right r => some r
  | _ => none

/-- The tag `state_`: `kVoid`/`kStatus`/`kValue` (StatusOr.h:327-329) or
`VOID`/`LEFT_TYPE`/`RIGHT_TYPE` (EitherOr.h:18-22). -/
inductive UTag | void | left | right
deriving DecidableEq, Repr

/-- A `StatusOr<R>` (`L` is `Status`) or an `EitherOr<L, R>`. -/
structure UObj (L R : Type) where
  tag : UTag
  slot : Slot L R
deriving DecidableEq, Repr

/-- What a program can do with variables of such a type. `setLeftRef i j` is `i = j.left()` (or
`i = j.status()`), `setRightRef i j` is `i = j.right()` (or `i = j.value()`). -/
inductive UOp (L R : Type)
  | default (i : Nat)
  | ofLeft (i : Nat) (l : L)
  | ofRight (i : Nat) (r : R)
  | copyCtor (i j : Nat)
  | moveCtor (i j : Nat)
  | copyAssign (i j : Nat)
  | moveAssign (i j : Nat)
  | setLeft (i : Nat) (l : L)
  | setRight (i : Nat) (r : R)
  | setLeftRef (i j : Nat)
  | setRightRef (i j : Nat)
  | isVoid (i : Nat)
  | isLeft (i : Nat)
  | isRight (i : Nat)
  | getLeft (i : Nat)
  | getRight (i : Nat)
  | takeLeft (i : Nat)
  | takeRight (i : Nat)
  | destroy (i : Nat)
deriving DecidableEq, Repr

/-- What an operation returns. -/
inductive UOut (L R : Type)
  | unit
  | bool (b : Bool)
  | left (l : L)
  | right (r : R)
deriving DecidableEq, Repr

/-- Live variables. -/
abbrev UEnv (L R : Type) := Nat → Option (UObj L R)

def UEnv.set {L R : Type} (e : UEnv L R) (i : Nat) (o : Option (UObj L R)) : UEnv L R :=
  fun k => if k = i then o else e k

namespace UObj
variable {L R : Type}

/-! ### `StatusOr` -/

/-- `destruct` (StatusOr.h:297-306). -/
def soDestruct (o : UObj L R) : Option (UObj L R) :=
  match o.tag with
  | .void => some o
  | .right => o.slot.killRight.map fun s => { o with slot := s }
  | .left => o.slot.killLeft.map fun s => { o with slot := s }

/-- `reset` (StatusOr.h:308-311). -/
def soReset (o : UObj L R) : Option (UObj L R) := o.soDestruct.map fun o => { o with tag := .void }

/-- `resetValue` (StatusOr.h:287-290). -/
def soResetValue (o : UObj L R) : Option (UObj L R) := o.slot.killRight.map fun s => ⟨.void, s⟩

/-- `resetStatus` (StatusOr.h:292-295). -/
def soResetStatus (o : UObj L R) : Option (UObj L R) := o.slot.killLeft.map fun s => ⟨.void, s⟩

/-- Copy constructor (StatusOr.h:98-114). -/
def soCopy (rhs : UObj L R) : Option (UObj L R) :=
  match rhs.tag with
  | .right => rhs.slot.readRight.map fun v => ⟨.right, .right v⟩
  | .left => rhs.slot.readLeft.map fun v => ⟨.left, .left v⟩
  | .void => some ⟨.void, .raw⟩

/-- Move constructor (StatusOr.h:133-155): the new object and what is left of the old one. -/
def soMove (rhs : UObj L R) : Option (UObj L R × UObj L R) :=
  match rhs.tag with
  | .right => rhs.slot.readRight.bind fun v => rhs.soResetValue.map fun r => (⟨.right, .right v⟩, r)
  | .left => rhs.slot.readLeft.bind fun v => rhs.soResetStatus.map fun r => (⟨.left, .left v⟩, r)
  | .void => some (⟨.void, .raw⟩, rhs)

/-- Copy assignment from another object (StatusOr.h:117-130). -/
def soCopyAssign (o rhs : UObj L R) : Option (UObj L R) :=
  o.soReset.bind fun o =>
    match rhs.tag with
    | .right => rhs.slot.readRight.bind fun v => (o.slot.construct (.right v)).map fun s => ⟨.right, s⟩
    | .left => rhs.slot.readLeft.bind fun v => (o.slot.construct (.left v)).map fun s => ⟨.left, s⟩
    | .void => some o

/-- Move assignment from another object (StatusOr.h:158-175, 179-193). -/
def soMoveAssign (o rhs : UObj L R) : Option (UObj L R × UObj L R) :=
  o.soReset.bind fun o =>
    match rhs.tag with
    | .right => rhs.slot.readRight.bind fun v => (o.slot.construct (.right v)).bind fun s =>
        rhs.soResetValue.map fun r => (⟨.right, s⟩, r)
    | .left => rhs.slot.readLeft.bind fun v => (o.slot.construct (.left v)).bind fun s =>
        rhs.soResetStatus.map fun r => (⟨.left, s⟩, r)
    | .void => some (o, rhs)

/-- Assignment from a status (StatusOr.h:205-218). -/
def soSetLeft (o : UObj L R) (l : L) : Option (UObj L R) :=
  o.soDestruct.bind fun o => (o.slot.construct (.left l)).map fun s => ⟨.left, s⟩

/-- Assignment from a value (StatusOr.h:196-202). -/
def soSetRight (o : UObj L R) (r : R) : Option (UObj L R) :=
  o.soDestruct.bind fun o => (o.slot.construct (.right r)).map fun s => ⟨.right, s⟩

/-- Assignment from a reference to the object's own value (StatusOr.h:197-202): the value is destroyed
before it is read. -/
def soSetRightOwn (o : UObj L R) : Option (UObj L R) :=
  o.soDestruct.bind fun o => o.slot.readRight.bind fun r => (o.slot.construct (.right r)).map fun s => ⟨.right, s⟩

/-! ### `EitherOr` -/

/-- `destruct` (EitherOr.h:454-464). -/
def eoDestruct (o : UObj L R) : Option (UObj L R) :=
  match o.tag with
  | .void => some o
  | .left => o.slot.killLeft.map fun s => { o with slot := s }
  | .right => o.slot.killRight.map fun s => { o with slot := s }

/-- `reset` (EitherOr.h:466-469). -/
def eoReset (o : UObj L R) : Option (UObj L R) := o.eoDestruct.map fun o => { o with tag := .void }

/-- `left() &&` (EitherOr.h:427-433): the value and what is left. -/
def eoTakeLeft (o : UObj L R) : Option (L × UObj L R) :=
  if o.tag = .left then
    o.slot.readLeft.bind fun l => o.slot.killLeft.map fun s => (l, ⟨.void, s⟩)
  else none

/-- `right() &&` (EitherOr.h:445-451). -/
def eoTakeRight (o : UObj L R) : Option (R × UObj L R) :=
  if o.tag = .right then
    o.slot.readRight.bind fun r => o.slot.killRight.map fun s => (r, ⟨.void, s⟩)
  else none

/-- `left() const &` (EitherOr.h:417-425). -/
def eoLeft (o : UObj L R) : Option L := if o.tag = .left then o.slot.readLeft else none

/-- `right() const &` (EitherOr.h:435-443). -/
def eoRight (o : UObj L R) : Option R := if o.tag = .right then o.slot.readRight else none

/-- Copy constructor (EitherOr.h:129-142, 159-179). -/
def eoCopy (rhs : UObj L R) : Option (UObj L R) :=
  match rhs.tag with
  | .void => some ⟨.void, .raw⟩
  | .left => rhs.slot.readLeft.map fun v => ⟨.left, .left v⟩
  | .right => rhs.slot.readRight.map fun v => ⟨.right, .right v⟩

/-- Move constructor (EitherOr.h:144-157, 181-201). -/
def eoMove (rhs : UObj L R) : Option (UObj L R × UObj L R) :=
  match rhs.tag with
  | .void => some (⟨.void, .raw⟩, rhs)
  | .left => rhs.eoTakeLeft.map fun v => (⟨.left, .left v.1⟩, v.2)
  | .right => rhs.eoTakeRight.map fun v => (⟨.right, .right v.1⟩, v.2)

/-- Copy assignment from another object (EitherOr.h:309-329, 353-372). -/
def eoCopyAssign (o rhs : UObj L R) : Option (UObj L R) :=
  o.eoReset.bind fun o =>
    match rhs.tag with
    | .void => some o
    | .left => rhs.eoLeft.bind fun v => (o.slot.construct (.left v)).map fun s => ⟨.left, s⟩
    | .right => rhs.eoRight.bind fun v => (o.slot.construct (.right v)).map fun s => ⟨.right, s⟩

/-- Move assignment from another object (EitherOr.h:331-351, 374-393). -/
def eoMoveAssign (o rhs : UObj L R) : Option (UObj L R × UObj L R) :=
  o.eoReset.bind fun o =>
    match rhs.tag with
    | .void => some (o, rhs)
    | .left => rhs.eoTakeLeft.bind fun v => (o.slot.construct (.left v.1)).map fun s => (⟨.left, s⟩, v.2)
    | .right => rhs.eoTakeRight.bind fun v => (o.slot.construct (.right v.1)).map fun s => (⟨.right, s⟩, v.2)

/-- Assignment from a left value (EitherOr.h:267-279). -/
def eoSetLeft (o : UObj L R) (l : L) : Option (UObj L R) :=
  o.eoReset.bind fun o => (o.slot.construct (.left l)).map fun s => ⟨.left, s⟩

/-- Assignment from a right value (EitherOr.h:281-293). -/
def eoSetRight (o : UObj L R) (r : R) : Option (UObj L R) :=
  o.eoReset.bind fun o => (o.slot.construct (.right r)).map fun s => ⟨.right, s⟩

/-- Assignment from a reference to the object's own left value: destroyed before it is read. -/
def eoSetLeftOwn (o : UObj L R) : Option (UObj L R) :=
  o.eoReset.bind fun o => o.slot.readLeft.bind fun l => (o.slot.construct (.left l)).map fun s => ⟨.left, s⟩

/-- Assignment from a reference to the object's own right value: destroyed before it is read. -/
def eoSetRightOwn (o : UObj L R) : Option (UObj L R) :=
  o.eoReset.bind fun o => o.slot.readRight.bind fun r => (o.slot.construct (.right r)).map fun s => ⟨.right, s⟩

end UObj

/-- Which of the two classes. -/
inductive UKind | statusOr | eitherOr
deriving DecidableEq, Repr

namespace UEnv
variable {L R : Type}

/-- A fresh variable `i` gets the object `o`; constructing over a live variable is not a C++ program. -/
def fresh (e : UEnv L R) (i : Nat) (o : Option (UObj L R)) : Option (UEnv L R × UOut L R) :=
  match e i with
  | some _ => none
  | none => o.map fun o => (e.set i (some o), .unit)

/-- A live variable `i` is updated. -/
def update (e : UEnv L R) (i : Nat) (f : UObj L R → Option (UObj L R)) : Option (UEnv L R × UOut L R) :=
  (e i).bind fun o => (f o).map fun o' => (e.set i (some o'), .unit)

/-- One operation of a program. -/
def step (k : UKind) (e : UEnv L R) : UOp L R → Option (UEnv L R × UOut L R)
  -- StatusOr.h:67-69, EitherOr.h:127
  | .default i => e.fresh i (some ⟨.void, .raw⟩)
  -- StatusOr.h:78-82, EitherOr.h:203-211
  | .ofLeft i l => e.fresh i (some ⟨.left, .left l⟩)
  -- StatusOr.h:86-95, EitherOr.h:213-221
  | .ofRight i r => e.fresh i (some ⟨.right, .right r⟩)
  | .copyCtor i j => (e j).bind fun rhs => e.fresh i (match k with | .statusOr => rhs.soCopy | .eitherOr => rhs.eoCopy)
  | .moveCtor i j => (e j).bind fun rhs =>
      (match k with | .statusOr => rhs.soMove | .eitherOr => rhs.eoMove).bind fun (p : UObj L R × UObj L R) =>
        match e i with
        | some _ => none
        | none => some ((e.set i (some p.1)).set j (some p.2), .unit)
  | .copyAssign i j => (e j).bind fun rhs =>
      if i = j then some (e, .unit)
      else e.update i fun o => match k with | .statusOr => o.soCopyAssign rhs | .eitherOr => o.eoCopyAssign rhs
  | .moveAssign i j => (e j).bind fun rhs =>
      if i = j then some (e, .unit)
      else (e i).bind fun o =>
        (match k with | .statusOr => o.soMoveAssign rhs | .eitherOr => o.eoMoveAssign rhs).map fun (p : UObj L R × UObj L R) =>
          ((e.set i (some p.1)).set j (some p.2), .unit)
  | .setLeft i l => e.update i fun o => match k with | .statusOr => o.soSetLeft l | .eitherOr => o.eoSetLeft l
  | .setRight i r => e.update i fun o => match k with | .statusOr => o.soSetRight r | .eitherOr => o.eoSetRight r
  -- `StatusOr::status() const &` returns a copy (StatusOr.h:232-235), `EitherOr::left()` a reference
  | .setLeftRef i j => (e j).bind fun rhs => (rhs.eoLeft).bind fun l =>
      e.update i fun o => match k with
        | .statusOr => o.soSetLeft l
        | .eitherOr => if i = j then o.eoSetLeftOwn else o.eoSetLeft l
  -- `value()` and `right()` return references (StatusOr.h:246-255, EitherOr.h:435-443)
  | .setRightRef i j => (e j).bind fun rhs => (rhs.eoRight).bind fun r =>
      e.update i fun o => match k with
        | .statusOr => if i = j then o.soSetRightOwn else o.soSetRight r
        | .eitherOr => if i = j then o.eoSetRightOwn else o.eoSetRight r
  -- StatusOr.h:267-277, EitherOr.h:400-410
  | .isVoid i => (e i).map fun o => (e, .bool (o.tag = .void))
  | .isLeft i => (e i).map fun o => (e, .bool (o.tag = .left))
  | .isRight i => (e i).map fun o => (e, .bool (o.tag = .right))
  -- StatusOr.h:232-235 (CHECK), 246-255 (DCHECK), EitherOr.h:417-443 (CHECK)
  | .getLeft i => (e i).bind fun o => o.eoLeft.map fun l => (e, .left l)
  | .getRight i => (e i).bind fun o => o.eoRight.map fun r => (e, .right r)
  -- StatusOr.h:237-242, 259-264, EitherOr.h:427-433, 445-451
  | .takeLeft i => (e i).bind fun o => o.eoTakeLeft.map fun p => (e.set i (some p.2), .left p.1)
  | .takeRight i => (e i).bind fun o => o.eoTakeRight.map fun p => (e.set i (some p.2), .right p.1)
  -- StatusOr.h:72-74, EitherOr.h:118-120: nothing may be left constructed
  | .destroy i => (e i).bind fun o =>
      (match k with | .statusOr => o.soDestruct | .eitherOr => o.eoDestruct).bind fun o =>
        match o.slot with
        | .raw => some (e.set i none, .unit)
        | _ => none

/-- A program: the results of its operations. -/
def run (k : UKind) : UEnv L R → List (UOp L R) → Option (UEnv L R × List (UOut L R))
  | e, [] => some (e, [])
  | e, op :: ops => (step k e op).bind fun p => (run k p.1 ops).map fun q => (q.1, p.2 :: q.2)

end UEnv

/-- `ok(err)` of `ErrorOr.h:42-46`: nothing held counts as success. -/
def UObj.errorOrOk {L R : Type} (o : UObj L R) : Bool := o.tag ≠ .left

end Nebula
