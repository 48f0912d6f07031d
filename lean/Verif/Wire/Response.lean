import Verif.Wire.Ops
/-!
# Model of the answers of the graph service (src/common/graph)

`Response.h`: the structures with their `operator==` and `clear`; `*Ops.inl`: their serialisers.  The state of
a reader is the object together with the numbers of the fields read so far (the variables
`isset_…`), from which the check for the required fields at `_end` is made.

Simplifications: an error code is the `int32_t` it is written as (the enumeration is read by
`static_cast`); the entries of a hash map are iterated in the order in which they were inserted.
-/
namespace Nebula
namespace Wire

/-! ## Fields -/

/-- `writeFieldBegin` … `writeFieldStop` of a structure: the fields in order, each with number, type and
contents; `none` for a field that is not written (a null pointer). -/
def writeFields : Nat → List (Nat × Nat × Option Bytes) → Bytes
  | _, [] => [0]
  | last, (_, _, none) :: fs => writeFields last fs
  | last, (id, ct, some b) :: fs => fieldHeader last id ct ++ (b ++ writeFields id fs)

/-- A block that reads a component, stores it and sets `isset`. -/
def fld {σ α : Type} (id : Nat) (rd : Bytes → Option (α × Bytes)) (set : σ → α → σ) :
    σ × List Nat → Bytes → Option ((σ × List Nat) × Bytes) :=
  block rd fun s x => (set s.1 x, id :: s.2)

/-- `read` into the object `o`, with the check for the required fields. -/
def readStruct {σ : Type} (R : Reader (σ × List Nat)) (required : List Nat) (o : σ) (bs : Bytes) : Option (σ × Bytes) :=
  match R.read (o, []) bs with
  | none => none
  | some (s, r) => if required.all fun i => s.2.contains i then some (s.1, r) else none

/-- `protocol_methods<map<…>>::write`. -/
def writeMap {K V : Type} (wk : K → Bytes) (wv : V → Bytes) (kt vt : Nat) (m : List (K × V)) : Bytes :=
  mapHeader m.length kt vt ++ m.flatMap fun kv => wk kv.1 ++ wv kv.2

/-- `map[key] = value`. -/
def setEntry {K V : Type} [BEq K] (m : List (K × V)) (k : K) (v : V) : List (K × V) :=
  if m.any fun kv => kv.1 == k then m.map fun kv => if kv.1 == k then (k, v) else kv else m ++ [(k, v)]

/-- `protocol_methods<map<…>>::read`: entries of other types are skipped. -/
def readMap {K V : Type} [BEq K] (rk : Bytes → Option (K × Bytes)) (rv : Bytes → Option (V × Bytes)) (kt vt : Nat)
    (bs : Bytes) : Option (List (K × V) × Bytes) :=
  match readMapHeader bs with
  | none => none
  | some (k, v, n, r) =>
    if n = 0 then some ([], r)
    else if k = kt ∧ v = vt then
      match readN (fun b => match rk b with
          | none => none
          | some (k, b) => match rv b with
            | none => none
            | some (v, b) => some ((k, v), b)) n r with
      | none => none
      | some (kvs, r) => some (kvs.foldl (fun m kv => setEntry m kv.1 kv.2) [], r)
    else
      match readN (fun b => match skip (b.length + 1) (elemCt k) b with
          | none => none
          | some b => (skip (b.length + 1) (elemCt v) b).map fun r => ((), r)) n r with
      | none => none
      | some (_, r) => some ([], r)

/-! ## AuthResponse -/

/-- Response.h:208-241; a pointer is an option. -/
structure AuthResponse where
  errorCode : Int := 0
  sessionId : Option Int := none
  errorMsg : Option Bytes := none
  timeZoneOffset : Option Int := none
  timeZoneName : Option Bytes := none

/-- Response.h:210-214: the time zone is kept. -/
def AuthResponse.clear (r : AuthResponse) : AuthResponse := { r with errorCode := 0, sessionId := none, errorMsg := none }

/-- Response.h:196-205. -/
def checkPointer {α : Type} (eq : α → α → Bool) : Option α → Option α → Bool
  | none, none => true
  | some a, some b => eq a b
  | _, _ => false

/-- Response.h:220-234: the time zone name is compared with itself. -/
def AuthResponse.beq (l r : AuthResponse) : Bool :=
  if l.errorCode ≠ r.errorCode then false
  else if !checkPointer (· == ·) l.sessionId r.sessionId then false
  else if !checkPointer (· == ·) l.errorMsg r.errorMsg then false
  else if !checkPointer (· == ·) l.timeZoneOffset r.timeZoneOffset then false
  else checkPointer (· == ·) l.timeZoneName l.timeZoneName

/-- AuthResponseOps.inl:61-100. -/
def authFields (r : AuthResponse) : List (Nat × Nat × Option Bytes) :=
  [(1, ctI32, some (writeInt r.errorCode)), (2, ctBinary, r.errorMsg.map writeBinary),
    (3, ctI64, r.sessionId.map writeInt), (4, ctI32, r.timeZoneOffset.map writeInt),
    (5, ctBinary, r.timeZoneName.map writeBinary)]

/-- The fields of `authFields` up to the stop byte. -/
def writeAuth (r : AuthResponse) : Bytes := writeFields 0 (authFields r)

/-- AuthResponseOps.inl:103-218. -/
def authReader : Reader (AuthResponse × List Nat) where
  label id :=
    if id = 1 then some (ctI32, fld 1 readI32 fun s x => { s with errorCode := x })
    else if id = 2 then some (ctBinary, fld 2 readBinary fun s x => { s with errorMsg := some x })
    else if id = 3 then some (ctI64, fld 3 readI64 fun s x => { s with sessionId := some x })
    else if id = 4 then some (ctI32, fld 4 readI32 fun s x => { s with timeZoneOffset := some x })
    else if id = 5 then some (ctBinary, fld 5 readBinary fun s x => { s with timeZoneName := some x })
    else none
  next id :=
    if id = 0 then some (1, ctI32) else if id = 1 then some (2, ctBinary) else if id = 2 then some (3, ctI64)
    else if id = 3 then some (4, ctI32) else if id = 4 then some (5, ctBinary) else none

def readAuth : AuthResponse → Bytes → Option (AuthResponse × Bytes) := readStruct authReader [1]

/-! ## ProfilingStats -/

/-- Response.h:230-266. -/
structure ProfilingStats where
  rows : Int := 0
  execDuration : Int := 0
  totalDuration : Int := 0
  otherStats : Option (List (Bytes × Bytes)) := none

/-- Response.h:256-268; hash maps are equal if they have the same entries. -/
def ProfilingStats.beq (l r : ProfilingStats) : Bool :=
  if l.rows ≠ r.rows then false
  else if l.execDuration ≠ r.execDuration then false
  else if l.totalDuration ≠ r.totalDuration then false
  else checkPointer (fun a b : List (Bytes × Bytes) =>
    a.length == b.length && a.all fun kv => b.lookup kv.1 == some kv.2) l.otherStats r.otherStats

/-- ProfilingStatsOps.inl:58-90. -/
def statsFields (p : ProfilingStats) : List (Nat × Nat × Option Bytes) :=
  [(1, ctI64, some (writeInt p.rows)), (2, ctI64, some (writeInt p.execDuration)),
    (3, ctI64, some (writeInt p.totalDuration)),
    (4, ctMap, p.otherStats.map (writeMap writeBinary writeBinary ctBinary ctBinary))]

/-- The fields of `statsFields` up to the stop byte. -/
def writeStats (p : ProfilingStats) : Bytes := writeFields 0 (statsFields p)

/-- ProfilingStatsOps.inl:93-209. -/
def statsReader : Reader (ProfilingStats × List Nat) where
  label id :=
    if id = 1 then some (ctI64, fld 1 readI64 fun s x => { s with rows := x })
    else if id = 2 then some (ctI64, fld 2 readI64 fun s x => { s with execDuration := x })
    else if id = 3 then some (ctI64, fld 3 readI64 fun s x => { s with totalDuration := x })
    else if id = 4 then some (ctMap, fld 4 (readMap readBinary readBinary ctBinary ctBinary) fun s x => { s with otherStats := some x })
    else none
  next id :=
    if id = 0 then some (1, ctI64) else if id = 1 then some (2, ctI64) else if id = 2 then some (3, ctI64)
    else if id = 3 then some (4, ctMap) else none

def readStats : ProfilingStats → Bytes → Option (ProfilingStats × Bytes) := readStruct statsReader [1, 2, 3]

/-! ## PlanNodeBranchInfo -/

/-- Response.h:269-288. -/
structure BranchInfo where
  isDoBranch : Bool := false
  conditionNodeId : Int := -1
deriving DecidableEq

/-- PlanNodeBranchInfoOps.inl:53-68; a Boolean is written in the type of its field. -/
def branchFields (b : BranchInfo) : List (Nat × Nat × Option Bytes) :=
  [(1, if b.isDoBranch then ctTrue else ctFalse, some []), (2, ctI64, some (writeInt b.conditionNodeId))]

/-- The fields of `branchFields` up to the stop byte. -/
def writeBranch (b : BranchInfo) : Bytes := writeFields 0 (branchFields b)

/-- PlanNodeBranchInfoOps.inl:70-148.  Only the general path (`_loop`) is modelled: `advanceToNextField` reads the
same header when it is the expected one. -/
def runBranch : Nat → Int → BranchInfo × List Nat → Bytes → Option ((BranchInfo × List Nat) × Bytes)
  | 0, _, _, _ => none
  | f + 1, curr, s, bs =>
    match readFieldHeader curr bs with
    | none => none
    | some (none, r) => some (s, r)
    | some (some (id, ct), r) =>
      if id = 1 ∧ (ct = ctTrue ∨ ct = ctFalse) then
        runBranch f id ({ s.1 with isDoBranch := ct = ctTrue }, 1 :: s.2) r
      else if id = 2 ∧ ct = ctI64 then
        match readI64 r with
        | none => none
        | some (x, r) => runBranch f id ({ s.1 with conditionNodeId := x }, 2 :: s.2) r
      else match skip (r.length + 1) ct r with
        | none => none
        | some r => runBranch f id s r

def readBranch (o : BranchInfo) (bs : Bytes) : Option (BranchInfo × Bytes) :=
  match runBranch (bs.length + 1) 0 (o, []) bs with
  | none => none
  | some (s, r) => if [1, 2].all fun i => s.2.contains i then some (s.1, r) else none

/-! ## Pair -/

/-- PairOps.inl:51-64 (key, value; Response.h:301-317). -/
def pairFields (p : Bytes × Bytes) : List (Nat × Nat × Option Bytes) :=
  [(1, ctBinary, some (writeBinary p.1)), (2, ctBinary, some (writeBinary p.2))]

/-- The fields of `pairFields` up to the stop byte. -/
def writePair (p : Bytes × Bytes) : Bytes := writeFields 0 (pairFields p)

/-- PairOps.inl:66-142. -/
def pairReader : Reader ((Bytes × Bytes) × List Nat) where
  label id :=
    if id = 1 then some (ctBinary, fld 1 readBinary fun s x => (x, s.2))
    else if id = 2 then some (ctBinary, fld 2 readBinary fun s x => (s.1, x))
    else none
  next id := if id = 0 then some (1, ctBinary) else if id = 1 then some (2, ctBinary) else none

def readPair : Bytes × Bytes → Bytes → Option ((Bytes × Bytes) × Bytes) := readStruct pairReader [1, 2]

/-! ## PlanNodeDescription -/

/-- Response.h:319-345. -/
structure PlanNode where
  name : Bytes := []
  id : Int := -1
  outputVar : Bytes := []
  description : Option (List (Bytes × Bytes)) := none
  profiles : Option (List ProfilingStats) := none
  branchInfo : Option BranchInfo := none
  dependencies : Option (List Int) := none

/-- Comparison of vectors. -/
def listBeq {α : Type} (eq : α → α → Bool) : List α → List α → Bool
  | [], [] => true
  | a :: l, b :: r => eq a b && listBeq eq l r
  | _, _ => false

/-- Response.cpp:11-28: the output variable is not compared. -/
def PlanNode.beq (l r : PlanNode) : Bool :=
  if l.name ≠ r.name then false
  else if l.id ≠ r.id then false
  else if !checkPointer (listBeq fun a b => a.1 == b.1 && a.2 == b.2) l.description r.description then false
  else if !checkPointer (listBeq ProfilingStats.beq) l.profiles r.profiles then false
  else if !checkPointer (fun a b : BranchInfo => a.isDoBranch == b.isDoBranch && a.conditionNodeId == b.conditionNodeId)
    l.branchInfo r.branchInfo then false
  else checkPointer (listBeq fun a b => a == b) l.dependencies r.dependencies

/-- PlanNodeDescriptionOps.inl:69-114. -/
def nodeFields (p : PlanNode) : List (Nat × Nat × Option Bytes) :=
  [(1, ctBinary, some (writeBinary p.name)), (2, ctI64, some (writeInt p.id)),
    (3, ctBinary, some (writeBinary p.outputVar)), (4, ctList, p.description.map (writeList writePair ctStruct)),
    (5, ctList, p.profiles.map (writeList writeStats ctStruct)), (6, ctStruct, p.branchInfo.map writeBranch),
    (7, ctList, p.dependencies.map (writeList writeInt ctI64))]

/-- The fields of `nodeFields` up to the stop byte. -/
def writeNode (p : PlanNode) : Bytes := writeFields 0 (nodeFields p)

/-- PlanNodeDescriptionOps.inl:116-289. -/
def nodeReader : Reader (PlanNode × List Nat) where
  label id :=
    if id = 1 then some (ctBinary, fld 1 readBinary fun s x => { s with name := x })
    else if id = 2 then some (ctI64, fld 2 readI64 fun s x => { s with id := x })
    else if id = 3 then some (ctBinary, fld 3 readBinary fun s x => { s with outputVar := x })
    else if id = 4 then some (ctList, fld 4 (readList (readPair ([], [])) ctStruct) fun s x => { s with description := some x })
    else if id = 5 then some (ctList, fld 5 (readList (readStats {}) ctStruct) fun s x => { s with profiles := some x })
    else if id = 6 then some (ctStruct, fld 6 (readBranch {}) fun s x => { s with branchInfo := some x })
    else if id = 7 then some (ctList, fld 7 (readList readI64 ctI64) fun s x => { s with dependencies := some x })
    else none
  next id :=
    if id = 0 then some (1, ctBinary) else if id = 1 then some (2, ctI64) else if id = 2 then some (3, ctBinary)
    else if id = 3 then some (4, ctList) else if id = 4 then some (5, ctList) else if id = 5 then some (6, ctStruct)
    else if id = 6 then some (7, ctList) else none

def readNode : PlanNode → Bytes → Option (PlanNode × Bytes) := readStruct nodeReader [1, 2, 3]

/-! ## PlanDescription -/

/-- Response.h:339-366. -/
structure PlanDesc where
  nodes : List PlanNode := []
  nodeIndexMap : List (Int × Int) := []
  format : Bytes := []
  optimizeTime : Int := 0

/-- Response.h:359-362: the time of the optimiser is not compared. -/
def PlanDesc.beq (l r : PlanDesc) : Bool :=
  listBeq PlanNode.beq l.nodes r.nodes &&
  (l.nodeIndexMap.length == r.nodeIndexMap.length &&
    l.nodeIndexMap.all fun kv => r.nodeIndexMap.lookup kv.1 == some kv.2) &&
  l.format == r.format

/-- PlanDescriptionOps.inl:57-85. -/
def planFields (p : PlanDesc) : List (Nat × Nat × Option Bytes) :=
  [(1, ctList, some (writeList writeNode ctStruct p.nodes)),
    (2, ctMap, some (writeMap writeInt writeInt ctI64 ctI64 p.nodeIndexMap)), (3, ctBinary, some (writeBinary p.format)),
    (4, ctI32, some (writeInt p.optimizeTime))]

/-- The fields of `planFields` up to the stop byte. -/
def writePlan (p : PlanDesc) : Bytes := writeFields 0 (planFields p)

/-- PlanDescriptionOps.inl:87-212. -/
def planReader : Reader (PlanDesc × List Nat) where
  label id :=
    if id = 1 then some (ctList, fld 1 (readList (readNode {}) ctStruct) fun s x => { s with nodes := x })
    else if id = 2 then some (ctMap, fld 2 (readMap readI64 readI64 ctI64 ctI64) fun s x => { s with nodeIndexMap := x })
    else if id = 3 then some (ctBinary, fld 3 readBinary fun s x => { s with format := x })
    else if id = 4 then some (ctI32, fld 4 readI32 fun s x => { s with optimizeTime := x })
    else none
  next id :=
    if id = 0 then some (1, ctList) else if id = 1 then some (2, ctMap) else if id = 2 then some (3, ctBinary)
    else if id = 3 then some (4, ctI32) else none

def readPlan : PlanDesc → Bytes → Option (PlanDesc × Bytes) := readStruct planReader [1, 2, 3, 4]

/-! ## ExecutionResponse -/

/-- Response.h:374-421; the data set is columns and rows. -/
structure ExecResponse where
  errorCode : Int := 0
  latency : Int := 0
  data : Option (List Bytes × List (List Value)) := none
  spaceName : Option Bytes := none
  errorMsg : Option Bytes := none
  plan : Option PlanDesc := none
  comment : Option Bytes := none

/-- Response.h:369-377. -/
def ExecResponse.clear (_ : ExecResponse) : ExecResponse := {}

/-- Response.h:389-412; data sets are compared as in DataSet.h:177-179. -/
def ExecResponse.beq (l r : ExecResponse) : Bool :=
  if l.errorCode ≠ r.errorCode then false
  else if l.latency ≠ r.latency then false
  else if !checkPointer (fun a b : List Bytes × List (List Value) => Value.beq (.dataset a.1 a.2) (.dataset b.1 b.2)) l.data r.data then false
  else if !checkPointer (· == ·) l.spaceName r.spaceName then false
  else if !checkPointer (· == ·) l.errorMsg r.errorMsg then false
  else if !checkPointer PlanDesc.beq l.plan r.plan then false
  else checkPointer (· == ·) l.comment r.comment

/-- ExecutionResponseOps.inl:69-114, over the writer of values. -/
def execFields (w : Value → Bytes) (r : ExecResponse) : List (Nat × Nat × Option Bytes) :=
  [(1, ctI32, some (writeInt r.errorCode)), (2, ctI32, some (writeInt r.latency)),
    (3, ctStruct, r.data.map fun d => writeDataSet w d.1 d.2), (4, ctBinary, r.spaceName.map writeBinary),
    (5, ctBinary, r.errorMsg.map writeBinary), (6, ctStruct, r.plan.map writePlan),
    (7, ctBinary, r.comment.map writeBinary)]

/-- The fields of `execFields` up to the stop byte. -/
def writeExec (w : Value → Bytes) (r : ExecResponse) : Bytes := writeFields 0 (execFields w r)

/-- ExecutionResponseOps.inl:116-279, over the reader of values. -/
def execReader (rv : Value → Bytes → Option (Value × Bytes)) : Reader (ExecResponse × List Nat) where
  label id :=
    if id = 1 then some (ctI32, fld 1 readI32 fun s x => { s with errorCode := x })
    else if id = 2 then some (ctI32, fld 2 readI32 fun s x => { s with latency := x })
    else if id = 3 then some (ctStruct, fld 3 ((dataSetReader rv .empty).read ([], [])) fun s x => { s with data := some x })
    else if id = 4 then some (ctBinary, fld 4 readBinary fun s x => { s with spaceName := some x })
    else if id = 5 then some (ctBinary, fld 5 readBinary fun s x => { s with errorMsg := some x })
    else if id = 6 then some (ctStruct, fld 6 (readPlan {}) fun s x => { s with plan := some x })
    else if id = 7 then some (ctBinary, fld 7 readBinary fun s x => { s with comment := some x })
    else none
  next id :=
    if id = 0 then some (1, ctI32) else if id = 1 then some (2, ctI32) else if id = 2 then some (3, ctStruct)
    else if id = 3 then some (4, ctBinary) else if id = 4 then some (5, ctBinary) else if id = 5 then some (6, ctStruct)
    else if id = 6 then some (7, ctBinary) else none

def readExec (rv : Value → Bytes → Option (Value × Bytes)) : ExecResponse → Bytes → Option (ExecResponse × Bytes) :=
  readStruct (execReader rv) [1, 2]

/-- Serialising with the writer of values. -/
def serializeExec (bits : F64 → Nat) (r : ExecResponse) : Bytes := writeExec (writeValue bits) r

/-- Deserialising into the object `o`. -/
def deserializeExec (o : ExecResponse) (bs : Bytes) : Option (ExecResponse × Bytes) :=
  readExec (readValue (bs.length + 1)) o bs

end Wire
end Nebula
