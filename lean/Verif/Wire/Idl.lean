import Verif.Wire.Spec
import Verif.Wire.ResponseSpec
/-!
# Specification: the structures declared by the interface files (C131)

Clients in other languages are generated from src/common/interface/common.thrift and graph.thrift.  `idl` gives the
datum that these files declare for a value: its fields with their numbers and types.  `room` is the largest number of
bytes that a datum can take: a field header four, an `i16` three, an `i32` five, an `i64` ten, a string five and its
bytes, a list, set or map six and its elements.
-/
namespace Nebula
namespace Wire

mutual
/-- The most bytes a datum can take. -/
def Datum.room : Datum → Nat
  | .bool _ => 1
  | .byte _ => 1
  | .i16 _ => 3
  | .i32 _ => 5
  | .i64 _ => 10
  | .double _ => 8
  | .binary s => 5 + s.length
  | .list _ l => 6 + roomL l
  | .set _ l => 6 + roomL l
  | .map _ _ l => 6 + roomM l
  | .struct fs => roomF fs + 1
def roomL : List Datum → Nat
  | [] => 0
  | d :: l => d.room + roomL l
def roomM : List (Datum × Datum) → Nat
  | [] => 0
  | (k, v) :: l => (k.room + v.room) + roomM l
def roomF : List (Nat × Datum) → Nat
  | [] => 0
  | (_, d) :: fs => (4 + d.room) + roomF fs
end

/-- common.thrift `enum NullType`. -/
def nullCode : NullType → Int
  | .null => 0
  | .nan => 1
  | .badData => 2
  | .badType => 3
  | .errOverflow => 4
  | .unknownProp => 5
  | .divByZero => 6
  | .outOfRange => 7

/-- common.thrift `struct Date`. -/
def Date.idl (d : Date) : Datum := .struct [(1, .i16 d.year), (2, .byte d.month), (3, .byte d.day)]
/-- common.thrift `struct Time`. -/
def Time.idl (t : Time) : Datum := .struct [(1, .byte t.hour), (2, .byte t.minute), (3, .byte t.sec), (4, .i32 t.microsec)]
/-- common.thrift `struct DateTime`. -/
def DateTime.idl (d : DateTime) : Datum :=
  .struct [(1, .i16 d.year), (2, .byte d.month), (3, .byte d.day), (4, .byte d.hour), (5, .byte d.minute), (6, .byte d.sec), (7, .i32 d.microsec)]
/-- common.thrift `struct KeyValue`. -/
def keyValueIdl (kv : Bytes × Bytes) : Datum := .struct [(1, .binary kv.1), (2, .binary kv.2)]
/-- common.thrift `struct HostAddr`. -/
def hostAddrIdl (h : HostAddr) : Datum := .struct [(1, .binary h.host), (2, .i32 h.port)]

mutual
/-- common.thrift `union Value`: at most one field.  `bits` gives the bit pattern of a number. -/
def idl (bits : F64 → Nat) : Value → Datum
  | .empty => .struct []
  | .null n => .struct [(1, .i32 (nullCode n))]
  | .bool b => .struct [(2, .bool b)]
  | .int i => .struct [(3, .i64 i)]
  | .float f => .struct [(4, .double (bits f))]
  | .str s => .struct [(5, .binary s)]
  | .date d => .struct [(6, Date.idl d)]
  | .time t => .struct [(7, Time.idl t)]
  | .datetime d => .struct [(8, DateTime.idl d)]
  | .vertex v => .struct [(9, idlVertex bits v)]
  | .edge ⟨s, d, t, n, r, p⟩ => .struct [(10, .struct [(1, idl bits s), (2, idl bits d), (3, .i32 (dir t)), (4, .binary n),
      (5, .i64 r), (6, .map ctBinary ctStruct (idlProps bits p))])]
  | .path ⟨v, ss⟩ => .struct [(11, .struct [(1, idlVertex bits v), (2, .list ctStruct (idlSteps bits ss))])]
  | .list l => .struct [(12, .struct [(1, .list ctStruct (idlVec bits l))])]
  | .map m => .struct [(13, .struct [(1, .map ctBinary ctStruct (idlProps bits m))])]
  | .set l => .struct [(14, .struct [(1, .set ctStruct (idlVec bits l))])]
  | .dataset c r => .struct [(15, .struct [(1, .list ctBinary (c.map .binary)), (2, .list ctStruct (idlRows bits r))])]
/-- `struct Vertex` -/
def idlVertex (bits : F64 → Nat) : Vertex Value → Datum
  | ⟨v, ts⟩ => .struct [(1, idl bits v), (2, .list ctStruct (idlTags bits ts))]
/-- `struct Tag` -/
def idlTags (bits : F64 → Nat) : List (Tag Value) → List Datum
  | [] => []
  | ⟨n, p⟩ :: ts => .struct [(1, .binary n), (2, .map ctBinary ctStruct (idlProps bits p))] :: idlTags bits ts
/-- `struct Step` -/
def idlSteps (bits : F64 → Nat) : List (Step Value) → List Datum
  | [] => []
  | ⟨v, t, n, r, p⟩ :: ss => .struct [(1, idlVertex bits v), (2, .i32 (dir t)), (3, .binary n), (4, .i64 r),
      (5, .map ctBinary ctStruct (idlProps bits p))] :: idlSteps bits ss
/-- `map<binary, Value>` -/
def idlProps (bits : F64 → Nat) : List (Bytes × Value) → List (Datum × Datum)
  | [] => []
  | (k, v) :: ps => (.binary k, idl bits v) :: idlProps bits ps
/-- `list<Value>` -/
def idlVec (bits : F64 → Nat) : List Value → List Datum
  | [] => []
  | v :: vs => idl bits v :: idlVec bits vs
/-- `list<Row>` -/
def idlRows (bits : F64 → Nat) : List (List Value) → List Datum
  | [] => []
  | r :: rs => .struct [(1, .list ctStruct (idlVec bits r))] :: idlRows bits rs
end

/-- `struct DataSet`. -/
def dataSetIdl (bits : F64 → Nat) (c : List Bytes) (r : List (List Value)) : Datum :=
  .struct [(1, .list ctBinary (c.map .binary)), (2, .list ctStruct (idlRows bits r))]

/-- An optional field: absent for a null pointer. -/
def opt {α : Type} (id : Nat) (f : α → Datum) : Option α → List (Nat × Datum)
  | none => []
  | some a => [(id, f a)]

/-- graph.thrift `struct AuthResponse`. -/
def authIdl (r : AuthResponse) : Datum :=
  .struct ([(1, .i32 r.errorCode)] ++ opt 2 .binary r.errorMsg ++ opt 3 .i64 r.sessionId ++ opt 4 .i32 r.timeZoneOffset ++
    opt 5 .binary r.timeZoneName)

/-- graph.thrift `struct ProfilingStats`. -/
def statsIdl (p : ProfilingStats) : Datum :=
  .struct ([(1, .i64 p.rows), (2, .i64 p.execDuration), (3, .i64 p.totalDuration)] ++
    opt 4 (fun m => .map ctBinary ctBinary (m.map fun kv => (.binary kv.1, .binary kv.2))) p.otherStats)

/-- graph.thrift `struct PlanNodeBranchInfo`. -/
def branchIdl (b : BranchInfo) : Datum := .struct [(1, .bool b.isDoBranch), (2, .i64 b.conditionNodeId)]

/-- graph.thrift `struct Pair`. -/
def pairIdl (p : Bytes × Bytes) : Datum := .struct [(1, .binary p.1), (2, .binary p.2)]

/-- graph.thrift `struct PlanNodeDescription`. -/
def nodeIdl (p : PlanNode) : Datum :=
  .struct ([(1, .binary p.name), (2, .i64 p.id), (3, .binary p.outputVar)] ++
    opt 4 (fun l => .list ctStruct (l.map pairIdl)) p.description ++ opt 5 (fun l => .list ctStruct (l.map statsIdl)) p.profiles ++
    opt 6 branchIdl p.branchInfo ++ opt 7 (fun l => .list ctI64 (l.map .i64)) p.dependencies)

/-- graph.thrift `struct PlanDescription`. -/
def planIdl (p : PlanDesc) : Datum :=
  .struct [(1, .list ctStruct (p.nodes.map nodeIdl)), (2, .map ctI64 ctI64 (p.nodeIndexMap.map fun kv => (.i64 kv.1, .i64 kv.2))),
    (3, .binary p.format), (4, .i32 p.optimizeTime)]

/-- graph.thrift `struct ExecutionResponse`. -/
def execIdl (bits : F64 → Nat) (r : ExecResponse) : Datum :=
  .struct ([(1, .i32 r.errorCode), (2, .i32 r.latency)] ++ opt 3 (fun d => dataSetIdl bits d.1 d.2) r.data ++
    opt 4 .binary r.spaceName ++ opt 5 .binary r.errorMsg ++ opt 6 planIdl r.plan ++ opt 7 .binary r.comment)

end Wire
end Nebula
