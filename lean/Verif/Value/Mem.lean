import Verif.Base
/-!
# Model of the life of a `Value` object: construction, copies, moves, assignment and destruction

Value.h and Value.cpp implement a tagged union by hand: `type_` says which member of the union is
alive, small members sit in the union, the others behind a `std::unique_ptr`.  The model is a
memory of `Value` objects and of payloads (`std::string`, `Vertex`, ..., `DataSet`).

Simplifications.
* A payload is its plain contents (numbers and texts) and the list of the `Value` objects inside it,
  in the order in which its members hold them (a vertex: vid, then the properties of its tags).  The
  copy and move constructors and the destructors of the payload types (Vertex.h:24-32, 72-75,
  Edge.h:26-39, Path.h:24-34, 120-122, List.h:21-22, Map.h:19-20, Set.h:19-20, DataSet.h:27-34) and of
  the standard containers copy, move and destroy their members one by one; a container that is moved
  from is empty (libstdc++).
* Addresses are never reused, so that each use of a destroyed object is seen.
* A local variable of a payload type (a `List`, ...) is the payload of a local holder, which has the
  form of a `Value` object.
* An allocation never fails.
`none` is undefined behaviour: the use of an object or payload that is not alive, of a union member
that is not alive, or of a null pointer; or a recursion without end.
-/
namespace Nebula.VMem

/-- Addresses of objects and of payloads. -/
scoped notation "Addr" => Nat

/-- Value.h:63-80 `enum class Type`. -/
inductive Ty where
  | empty | null | bool | int | float | str | date | time | datetime | vertex | edge | path | list | map | set | dataset
deriving DecidableEq, Repr

/-- Value.h:329-348 the members of `union Storage`. -/
inductive Mb where
  | nVal | bVal | iVal | fVal | sVal | dVal | tVal | dtVal | vVal | eVal | pVal | lVal | mVal | uVal | gVal
deriving DecidableEq, Repr

/-- Value.h:329-348: the members that are a `std::unique_ptr`. -/
def Mb.boxed : Mb → Bool
  | .sVal | .vVal | .eVal | .pVal | .lVal | .mVal | .uVal | .gVal => true
  | _ => false

/-- The numbers and the texts of a member or payload. -/
structure Plain where
  nums : List Int
  texts : List Bytes
deriving DecidableEq, Repr

/-- What is in the storage of a `Value`: nothing alive, a member held in the union, or a
`unique_ptr`, which may be null. -/
inductive Word where
  | none
  | plain (k : Mb) (d : Plain)
  | ptr (k : Mb) (p : Option Addr)
deriving DecidableEq, Repr

/-- A `Value` object. -/
structure Obj where
  ty : Ty
  word : Word
deriving DecidableEq, Repr

/-- A payload: its type (named by the member that points to it), plain contents, and the `Value`
objects in it. -/
structure Cell where
  kind : Mb
  data : Plain
  kids : List Addr
deriving DecidableEq, Repr

/-- The memory.  `next` is above all addresses in use. -/
structure Mem where
  obj : Addr → Option Obj
  cell : Addr → Option Cell
  next : Addr

/-- Write to a `Value` object. -/
def Mem.putObj (m : Mem) (l : Addr) (o : Obj) : Mem :=
  { m with obj := fun a => if a = l then some o else m.obj a }

/-- The end of the life of a `Value` object. -/
def Mem.dropObj (m : Mem) (l : Addr) : Mem :=
  { m with obj := fun a => if a = l then none else m.obj a }

/-- Write to a payload. -/
def Mem.putCell (m : Mem) (p : Addr) (c : Cell) : Mem :=
  { m with cell := fun a => if a = p then some c else m.cell a }

/-- The end of the life of a payload. -/
def Mem.dropCell (m : Mem) (p : Addr) : Mem :=
  { m with cell := fun a => if a = p then none else m.cell a }

/-- Memory for one more object. -/
def Mem.alloc (m : Mem) : Mem := { m with next := m.next + 1 }

/-- Value.cpp:1254-1481: the type written by `setN`, `setB`, ..., by the member written with it.
(`setU(Set&&)`, line 1456, names the member `vVal`; all members of the union have the same address, and
the object made there is a `unique_ptr<Set>`.) -/
def setTy : Mb → Ty
  | .nVal => .null | .bVal => .bool | .iVal => .int | .fVal => .float | .sVal => .str | .dVal => .date
  | .tVal => .time | .dtVal => .datetime | .vVal => .vertex | .eVal => .edge | .pVal => .path | .lVal => .list
  | .mVal => .map | .uVal => .set | .gVal => .dataset

/-- Value.cpp:988-1068: the member destroyed by `clear`, by type. -/
def clearArm : Ty → Option Mb
  | .empty => none
  | .null => some .nVal | .bool => some .bVal | .int => some .iVal | .float => some .fVal | .str => some .sVal
  | .date => some .dVal | .time => some .tVal | .datetime => some .dtVal | .vertex => some .vVal
  | .edge => some .eVal | .path => some .pVal | .list => some .lVal | .map => some .mVal | .set => some .uVal
  | .dataset => some .gVal

/-- Value.cpp:188-273: the member read and set by the copy constructor, by the type of `rhs`. -/
def copyArm : Ty → Option Mb
  | .empty => none
  | .null => some .nVal | .bool => some .bVal | .int => some .iVal | .float => some .fVal | .str => some .sVal
  | .date => some .dVal | .time => some .tVal | .datetime => some .dtVal | .vertex => some .vVal
  | .edge => some .eVal | .path => some .pVal | .list => some .lVal | .map => some .mVal | .set => some .uVal
  | .dataset => some .gVal

/-- Value.cpp:99-182: the same for the move constructor. -/
def moveArm : Ty → Option Mb
  | .empty => none
  | .null => some .nVal | .bool => some .bVal | .int => some .iVal | .float => some .fVal | .str => some .sVal
  | .date => some .dVal | .time => some .tVal | .datetime => some .dtVal | .vertex => some .vVal
  | .edge => some .eVal | .path => some .pVal | .list => some .lVal | .map => some .mVal | .set => some .uVal
  | .dataset => some .gVal

/-- Value.cpp:1163-1249: the same for the copy assignment. -/
def assignArm : Ty → Option Mb
  | .empty => none
  | .null => some .nVal | .bool => some .bVal | .int => some .iVal | .float => some .fVal | .str => some .sVal
  | .date => some .dVal | .time => some .tVal | .datetime => some .dtVal | .vertex => some .vVal
  | .edge => some .eVal | .path => some .pVal | .list => some .lVal | .map => some .mVal | .set => some .uVal
  | .dataset => some .gVal

/-- Value.cpp:1072-1160: the same for the move assignment. -/
def moveAssignArm : Ty → Option Mb
  | .empty => none
  | .null => some .nVal | .bool => some .bVal | .int => some .iVal | .float => some .fVal | .str => some .sVal
  | .date => some .dVal | .time => some .tVal | .datetime => some .dtVal | .vertex => some .vVal
  | .edge => some .eVal | .path => some .pVal | .list => some .lVal | .map => some .mVal | .set => some .uVal
  | .dataset => some .gVal

mutual
/-- Value.cpp:986-1069 `clear`. -/
def clear (m : Mem) (l : Addr) : Option Mem := do
  let o ← m.obj l
  match clearArm o.ty with
  | none => some m
  | some k =>
    let m1 ← destruct m k o.word
    let _ ← m1.obj l
    some (m1.putObj l ⟨.empty, .none⟩)
partial_fixpoint

/-- Value.h:351-353 `destruct`, with the destructor of `unique_ptr`. -/
def destruct (m : Mem) (k : Mb) (w : Word) : Option Mem :=
  match w with
  | .none => none
  | .plain k' _ => if k' = k ∧ k.boxed = false then some m else none
  | .ptr k' none => if k' = k ∧ k.boxed = true then some m else none
  | .ptr k' (some p) => if k' = k ∧ k.boxed = true then deletePayload m k p else none
partial_fixpoint

/-- `delete` of a payload: the objects in it are destroyed, then its memory is given back. -/
def deletePayload (m : Mem) (k : Mb) (p : Addr) : Option Mem := do
  let c ← m.cell p
  if c.kind = k then
    let m1 ← destroyAll m c.kids
    some (m1.dropCell p)
  else none
partial_fixpoint

/-- The destructors of some `Value` objects (Value.h:130 `~Value`). -/
def destroyAll (m : Mem) (ls : List Addr) : Option Mem :=
  match ls with
  | [] => some m
  | l :: ls => do
    let m1 ← clear m l
    destroyAll (m1.dropObj l) ls
partial_fixpoint
end

mutual
/-- Value.cpp:188-273 `Value(const Value&)`; `l` is the new object. -/
def copyCtor (m : Mem) (l r : Addr) : Option Mem :=
  let m0 := m.putObj l ⟨.empty, .none⟩
  if l = r then some m0 else do
  let o ← m0.obj r
  match copyArm o.ty with
  | none => some m0
  | some k => setCopy m0 l k r
partial_fixpoint

/-- Value.cpp:1254-1477 `setN(const NullType&)`, ..., `setV(const std::unique_ptr<Vertex>&)`, ...: the
type is written first, then the member of `r` is read and copied. -/
def setCopy (m : Mem) (l : Addr) (k : Mb) (r : Addr) : Option Mem := do
  let m0 := m.putObj l ⟨setTy k, .none⟩
  let o ← m0.obj r
  match o.word with
  | .none => none
  | .plain k' d => if k' = k ∧ k.boxed = false then some (m0.putObj l ⟨setTy k, .plain k d⟩) else none
  | .ptr _ none => none
  | .ptr k' (some p) =>
    if k' = k ∧ k.boxed = true then do
      let (m1, q) ← copyPayload m0 p
      some (m1.putObj l ⟨setTy k, .ptr k (some q)⟩)
    else none
partial_fixpoint

/-- `new X(*v)`: the copy constructor of a payload. -/
def copyPayload (m : Mem) (p : Addr) : Option (Mem × Addr) := do
  let c ← m.cell p
  let (m1, ls) ← copyAll m c.kids
  some (m1.alloc.putCell m1.next ⟨c.kind, c.data, ls⟩, m1.next)
partial_fixpoint

/-- New objects, each a copy of one of the objects given. -/
def copyAll (m : Mem) (rs : List Addr) : Option (Mem × List Addr) :=
  match rs with
  | [] => some (m, [])
  | r :: rs => do
    let m1 ← copyCtor m.alloc m.next r
    let (m2, ls) ← copyAll m1 rs
    some (m2, m.next :: ls)
partial_fixpoint
end

/-- The body of the move constructor and of the move assignment (Value.cpp:102-181, 1076-1159) for
`rhs` at `r`: the member is set from `std::move(rhs.value_.*)` — a `unique_ptr` is taken over — and then
`rhs.clear()`. -/
def moveInto (arm : Ty → Option Mb) (m : Mem) (l r : Addr) : Option Mem := do
  let o ← m.obj r
  match arm o.ty with
  | none => some m
  | some k =>
    match o.word with
    | .none => none
    | .plain k' d => if k' = k ∧ k.boxed = false then clear (m.putObj l ⟨setTy k, .plain k d⟩) r else none
    | .ptr k' p =>
      if k' = k ∧ k.boxed = true then clear ((m.putObj l ⟨setTy k, .ptr k p⟩).putObj r ⟨o.ty, .ptr k none⟩) r
      else none

/-- Value.cpp:99-182 `Value(Value&&)`. -/
def moveCtor (m : Mem) (l r : Addr) : Option Mem :=
  let m0 := m.putObj l ⟨.empty, .none⟩
  if l = r then some m0 else moveInto moveArm m0 l r

/-- Value.cpp:1163-1251 `operator=(const Value&)`. -/
def copyAssign (m : Mem) (l r : Addr) : Option Mem :=
  if l = r then some m else do
  let m1 ← clear m l
  let o ← m1.obj r
  match assignArm o.ty with
  | none => some m1
  | some k =>
    let m2 ← setCopy m1 l k r
    let o' ← m2.obj r
    let x ← m2.obj l
    some (m2.putObj l ⟨o'.ty, x.word⟩)

/-- Value.cpp:1072-1160 `operator=(Value&&)`. -/
def moveAssign (m : Mem) (l r : Addr) : Option Mem :=
  if l = r then some m else do
  let m1 ← clear m l
  moveInto moveAssignArm m1 l r

/-- Value.cpp:473-541, 558-586 `setNull`, `setBool`, `setInt`, `setFloat`, `setDate`, `setTime`, `setDateTime`.  (The argument
may be a reference to the member itself: `clear` leaves its bytes in place.) -/
def setPlain (m : Mem) (l : Addr) (k : Mb) (d : Plain) : Option Mem := do
  let m1 ← clear m l
  some (m1.putObj l ⟨setTy k, .plain k d⟩)

/-- Value.cpp:275-329, 343-365: the constructors from a `NullType`, `bool`, integer, `double`, `Date`, `Time`
or `DateTime`. -/
def plainCtor (m : Mem) (l : Addr) (k : Mb) (d : Plain) : Mem := m.putObj l ⟨setTy k, .plain k d⟩

/-- Value.cpp:714-804 `getStr`, `getVertex`, `getVertexPtr`, ..., and 825-886 `mutable...`: the payload of the
object at `r`, which must have the type (`CHECK_EQ`). -/
def payloadOf (m : Mem) (k : Mb) (r : Addr) : Option Addr := do
  let o ← m.obj r
  if o.ty = setTy k then
    match o.word with
    | .ptr k' (some p) => if k' = k then some p else none
    | _ => none
  else none

/-- Value.cpp:543-556, 588-695 `setStr(const std::string&)`, `setVertex(const Vertex&)`, ...: `clear()`, then
the type is written and the argument, the payload at `p`, is copied. -/
def setPayload (m : Mem) (l : Addr) (k : Mb) (p : Addr) : Option Mem := do
  let m1 ← clear m l
  let (m2, q) ← copyPayload (m1.putObj l ⟨setTy k, .none⟩) p
  some (m2.putObj l ⟨setTy k, .ptr k (some q)⟩)

/-- Value.cpp:331-341, 367-425: the constructors from a payload that is copied. -/
def payloadCtor (m : Mem) (l : Addr) (k : Mb) (p : Addr) : Option Mem := do
  let (m2, q) ← copyPayload (m.putObj l ⟨setTy k, .none⟩) p
  some (m2.putObj l ⟨setTy k, .ptr k (some q)⟩)

/-- The number of `Value` members of a payload itself, as opposed to elements of its containers: the
vid of a vertex, the ends of an edge, the vid of the source of a path (Vertex.h:68, Edge.h:18-19,
Path.h:116). -/
def embedded : Mb → Nat
  | .vVal => 1
  | .eVal => 2
  | .pVal => 1
  | _ => 0

/-- New objects, each moved from one of the objects given. -/
def moveAll (m : Mem) (rs : List Addr) : Option (Mem × List Addr) :=
  match rs with
  | [] => some (m, [])
  | r :: rs => do
    let m1 ← moveCtor m.alloc m.next r
    let (m2, ls) ← moveAll m1 rs
    some (m2, m.next :: ls)

/-- `new X(std::move(v))`: the move constructor of a payload.  `Value` members are moved one by one, the
elements of containers stay where they are and change hands, numbers are copied, texts are taken. -/
def movePayload (m : Mem) (p : Addr) : Option (Mem × Addr) := do
  let c ← m.cell p
  let (m1, ls) ← moveAll m (c.kids.take (embedded c.kind))
  let m2 := m1.putCell p ⟨c.kind, ⟨c.data.nums, []⟩, c.kids.take (embedded c.kind)⟩
  some (m2.alloc.putCell m2.next ⟨c.kind, c.data, ls ++ c.kids.drop (embedded c.kind)⟩, m2.next)

/-- Value.cpp:548-551, 593-596, ..., 683-686 `setStr(std::string&&)`, `setVertex(Vertex&&)`, .... -/
def setPayloadMove (m : Mem) (l : Addr) (k : Mb) (p : Addr) : Option Mem := do
  let m1 ← clear m l
  let (m2, q) ← movePayload (m1.putObj l ⟨setTy k, .none⟩) p
  some (m2.putObj l ⟨setTy k, .ptr k (some q)⟩)

/-- Value.cpp:335-337, 371-373, ..., 423-425: the constructors from a payload that is moved. -/
def payloadMoveCtor (m : Mem) (l : Addr) (k : Mb) (p : Addr) : Option Mem := do
  let (m2, q) ← movePayload (m.putObj l ⟨setTy k, .none⟩) p
  some (m2.putObj l ⟨setTy k, .ptr k (some q)⟩)

/-- Value.cpp:598-601, ..., 688-691 `setVertex(std::unique_ptr<Vertex>&&)`, ...; the holder at `r` loses its
pointer and ends. -/
def setPayloadPtr (m : Mem) (l : Addr) (k : Mb) (r p : Addr) : Option Mem := do
  let m1 ← clear m l
  some ((m1.putObj l ⟨setTy k, .ptr k (some p)⟩).dropObj r)

/-- Value.cpp:909-914, 934-984 `moveStr`, `moveVertex`, ..., `moveDataSet`: a local payload is move-constructed from the
payload of the object at `r`, which is then cleared.  `l` is the holder of the local. -/
def moveOut (m : Mem) (l : Addr) (k : Mb) (r : Addr) : Option Mem := do
  let p ← payloadOf m k r
  let (m1, q) ← movePayload m p
  let m2 ← clear m1 r
  some (m2.putObj l ⟨setTy k, .ptr k (some q)⟩)

/-- Value.cpp:1832-1836 `swap`: with a local `temp` that is destroyed at the end. -/
def swap (m : Mem) (a b : Addr) : Option Mem := do
  let t := m.next
  let m1 ← moveCtor m.alloc t a
  let m2 ← moveAssign m1 a b
  let m3 ← moveAssign m2 b t
  destroyAll m3 [t]

/-- A payload made from copies of some values, like `List({a, b})`. -/
def makePayload (m : Mem) (l : Addr) (k : Mb) (d : Plain) (rs : List Addr) : Option Mem := do
  let (m1, ls) ← copyAll m rs
  some ((m1.alloc.putCell m1.next ⟨k, d, ls⟩).putObj l ⟨setTy k, .ptr k (some m1.next)⟩)

/-! ## Programs -/

/-- A reference to a `Value`: the number of a variable and the way from it into nested payloads, as in
`v.mutableList().values[3]`. -/
abbrev Ref := List Nat

/-- The address of the object reached from the object at `l` (Value.cpp:734-886 `get...`, `mutable...`). -/
def descend (m : Mem) (l : Addr) : List Nat → Option Addr
  | [] => some l
  | i :: is => match m.obj l with
    | some ⟨_, .ptr _ (some p)⟩ => match m.cell p with
      | some c => match c.kids[i]? with
        | some l' => descend m l' is
        | none => none
      | none => none
    | _ => none

/-- The address a reference stands for, with the variables at the addresses `E`. -/
def locate (m : Mem) (E : List Addr) : Ref → Option Addr
  | [] => none
  | i :: is => match E[i]? with
    | some l => descend m l is
    | none => none

/-- The calls.  Those that make a variable put it after the others. -/
inductive Op where
  /-- `Value v;` -/
  | fresh
  /-- `Value v(5);` -/
  | ofPlain (k : Mb) (d : Plain)
  /-- `Value v(r);` -/
  | copy (r : Ref)
  /-- `Value v(std::move(r));` -/
  | move (r : Ref)
  /-- `d = s;` -/
  | assign (d s : Ref)
  /-- `d = std::move(s);` -/
  | moveAssign (d s : Ref)
  /-- `d.setInt(5);` -/
  | setPlain (d : Ref) (k : Mb) (x : Plain)
  /-- `d.clear();` -/
  | clear (d : Ref)
  /-- `swap(a, b);` -/
  | swap (a b : Ref)
  /-- `List v({a, b, c});` -/
  | make (k : Mb) (x : Plain) (rs : List Ref)
  /-- `Value v(s.getList());` -/
  | ofPayload (k : Mb) (s : Ref)
  /-- `Value v(std::move(s.mutableList()));` -/
  | ofPayloadMove (k : Mb) (s : Ref)
  /-- `d.setList(s.getList());` -/
  | setPayload (d : Ref) (k : Mb) (s : Ref)
  /-- `d.setList(std::move(s.mutableList()));` -/
  | setPayloadMove (d : Ref) (k : Mb) (s : Ref)
  /-- `d.setList(std::move(p))`, with a local `std::unique_ptr<List> p` that ends with it. -/
  | setPayloadPtr (d : Ref) (k : Mb) (i : Nat)
  /-- `List v = s.moveList();` -/
  | moveOut (k : Mb) (s : Ref)
  /-- The end of a variable. -/
  | drop (i : Nat)

/-- One call, in the memory `m` with the variables at `E`. -/
def exec (m : Mem) (E : List Addr) : Op → Option (Mem × List Addr)
  | .fresh => some (m.alloc.putObj m.next ⟨.empty, .none⟩, E ++ [m.next])
  | .ofPlain k d => some (plainCtor m.alloc m.next k d, E ++ [m.next])
  | .copy r => do
    let a ← locate m E r
    let m1 ← copyCtor m.alloc m.next a
    some (m1, E ++ [m.next])
  | .move r => do
    let a ← locate m E r
    let m1 ← moveCtor m.alloc m.next a
    some (m1, E ++ [m.next])
  | .assign d s => do
    let a ← locate m E d
    let b ← locate m E s
    let m1 ← copyAssign m a b
    some (m1, E)
  | .moveAssign d s => do
    let a ← locate m E d
    let b ← locate m E s
    let m1 ← VMem.moveAssign m a b
    some (m1, E)
  | .setPlain d k x => do
    let a ← locate m E d
    let m1 ← VMem.setPlain m a k x
    some (m1, E)
  | .clear d => do
    let a ← locate m E d
    let m1 ← VMem.clear m a
    some (m1, E)
  | .swap d s => do
    let a ← locate m E d
    let b ← locate m E s
    let m1 ← VMem.swap m a b
    some (m1, E)
  | .make k x rs => do
    let as ← rs.mapM (locate m E)
    let m1 ← makePayload m.alloc m.next k x as
    some (m1, E ++ [m.next])
  | .ofPayload k s => do
    let a ← locate m E s
    let p ← payloadOf m k a
    let m1 ← payloadCtor m.alloc m.next k p
    some (m1, E ++ [m.next])
  | .ofPayloadMove k s => do
    let a ← locate m E s
    let p ← payloadOf m k a
    let m1 ← payloadMoveCtor m.alloc m.next k p
    some (m1, E ++ [m.next])
  | .setPayload d k s => do
    let a ← locate m E d
    let b ← locate m E s
    let p ← payloadOf m k b
    let m1 ← VMem.setPayload m a k p
    some (m1, E)
  | .setPayloadMove d k s => do
    let a ← locate m E d
    let b ← locate m E s
    let p ← payloadOf m k b
    let m1 ← VMem.setPayloadMove m a k p
    some (m1, E)
  | .setPayloadPtr d k i => do
    let a ← locate m E d
    let b ← E[i]?
    let p ← payloadOf m k b
    let m1 ← VMem.setPayloadPtr m a k b p
    some (m1, E.eraseIdx i)
  | .moveOut k s => do
    let a ← locate m E s
    let m1 ← VMem.moveOut m.alloc m.next k a
    some (m1, E ++ [m.next])
  | .drop i => do
    let a ← E[i]?
    let m1 ← destroyAll m [a]
    some (m1, E.eraseIdx i)

/-- A program: calls one after the other. -/
def execAll (m : Mem) (E : List Addr) : List Op → Option (Mem × List Addr)
  | [] => some (m, E)
  | op :: ops => do
    let (m1, E1) ← exec m E op
    execAll m1 E1 ops

/-- The memory of a program that has no variables yet. -/
def Mem.start : Mem := ⟨fun _ => none, fun _ => none, 0⟩

end Nebula.VMem
