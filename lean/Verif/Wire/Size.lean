import Verif.Wire.Response
/-!
# Model of the sizes announced before writing (src/common/datatypes/*Ops.inl, src/common/graph/*Ops.inl)

`Cpp2Ops<T>::serializedSize` and `serializedSizeZC`, instantiated with the compact protocol.  The flag `zc` tells which of
the two is called.  The sums are `uint32_t`; addition modulo 2^32 is associative, so the reduction is made once, in
`announced`.  Not modelled: `ExecutionResponse::serializedSize` (ExecutionResponseOps.inl:283-319), whose lines 302, 306 and 315
pass a pointer instead of a string, and the branches of `ValueOps` for a null pointer, which no value has (see C127).
-/
namespace Nebula
namespace Wire

/-! ## The library: `CompactProtocolWriter::serializedSize…` -/

def sizeStop : Nat := 1
def sizeBool : Nat := 1
def sizeByte : Nat := 1
def sizeI16 : Nat := 3
/-- `serializedFieldSize`: the type and the number. -/
def sizeField : Nat := sizeByte + sizeI16
def sizeI32 : Nat := 5
def sizeI64 : Nat := 10
def sizeDouble : Nat := 8
/-- `serializedSizeBinary`, `serializedSizeString`. -/
def sizeBinary (s : Bytes) : Nat := sizeI32 + s.length
/-- `serializedSizeZCBinary` of a string. -/
def sizeZCBinary (s : Bytes) : Nat := sizeBinary s
/-- `protocol_methods<list<…>>::serializedSize`, `set<…>`. -/
def sizeList {α : Type} (f : α → Nat) (l : List α) : Nat := sizeByte + sizeI32 + (l.map f).sum
/-- `protocol_methods<map<…>>::serializedSize`. -/
def sizeMap {K V : Type} (f : K → Nat) (g : V → Nat) (m : List (K × V)) : Nat :=
  sizeByte + sizeI32 + (m.map fun kv => f kv.1 + g kv.2).sum

/-- Which of the two functions is called for a string. -/
def sizeStr (zc : Bool) (s : Bytes) : Nat := if zc then sizeZCBinary s else sizeBinary s

/-! ## Data types -/

/-- DateOps.inl:173-193, 196-216. -/
def szDate (_ : Date) : Nat := sizeField + sizeI16 + sizeField + sizeByte + sizeField + sizeByte + sizeStop

/-- DateOps.inl:395-419, 422-446. -/
def szTime (_ : Time) : Nat :=
  sizeField + sizeByte + sizeField + sizeByte + sizeField + sizeByte + sizeField + sizeI32 + sizeStop

/-- DateOps.inl:714-750, 753-789. -/
def szDateTime (_ : DateTime) : Nat :=
  sizeField + sizeI16 + sizeField + sizeByte + sizeField + sizeByte + sizeField + sizeByte + sizeField + sizeByte +
  sizeField + sizeByte + sizeField + sizeI32 + sizeStop

/-- HostAddrOps.inl:145-160, 163-178: both use `serializedSizeString`. -/
def szHostAddr (h : HostAddr) : Nat := sizeField + sizeBinary h.host + sizeField + sizeI32 + sizeStop

/-- KeyValueOps.inl:141-155, 158-172. -/
def szKeyValue (zc : Bool) (kv : Bytes × Bytes) : Nat :=
  sizeField + sizeStr zc kv.1 + sizeField + sizeStr zc kv.2 + sizeStop

section
variable {V : Type} (s : Bool → V → Nat)

/-- `protocol_methods<map<binary, structure>, …>::serializedSize<false>`. -/
def szProps (m : Props V) : Nat := sizeMap sizeBinary (s false) m

/-- VertexOps.inl:154-171, 174-191. -/
def szTag (zc : Bool) (t : Tag V) : Nat := sizeField + sizeStr zc t.name + sizeField + szProps s t.props + sizeStop

/-- VertexOps.inl:324-338, 341-355: the tags are always measured by `serializedSize<false>`. -/
def szVertex (zc : Bool) (v : Vertex V) : Nat :=
  sizeField + s zc v.vid + sizeField + sizeList (szTag s false) v.tags + sizeStop

/-- EdgeOps.inl:253-284, 287-318. -/
def szEdge (zc : Bool) (e : Edge V) : Nat :=
  sizeField + s zc e.src + sizeField + s zc e.dst + sizeField + sizeI32 + sizeField + sizeStr zc e.name +
  sizeField + sizeI64 + sizeField + szProps s e.props + sizeStop

/-- PathOps.inl:235-263, 266-294. -/
def szStep (zc : Bool) (e : Step V) : Nat :=
  sizeField + szVertex s zc e.dst + sizeField + sizeI32 + sizeField + sizeStr zc e.name + sizeField + sizeI64 +
  sizeField + szProps s e.props + sizeStop

/-- PathOps.inl:429-446, 449-466. -/
def szPath (zc : Bool) (p : Path V) : Nat :=
  sizeField + szVertex s zc p.src + sizeField + sizeList (szStep s false) p.steps + sizeStop

/-- ListOps.inl:124-137, 140-153. -/
def szList (_ : Bool) (l : List V) : Nat := sizeField + sizeList (s false) l + sizeStop

/-- MapOps.inl:124-137, 140-153. -/
def szMap (_ : Bool) (m : Props V) : Nat := sizeField + szProps s m + sizeStop

/-- SetOps.inl:125-137, 140-152. -/
def szSet (_ : Bool) (l : List V) : Nat := sizeField + sizeList (s false) l + sizeStop

/-- DataSetOps.inl:163-183, 186-206. -/
def szDataSet (_ : Bool) (c : List Bytes) (r : List (List V)) : Nat :=
  sizeField + sizeList sizeBinary c + sizeField + sizeList (szList s false) r + sizeStop
end

/-- ValueOps.inl:471-615 `serializedSize`, 619-768 `serializedSizeZC`, over the sizes of the nested values. -/
def szUnion (s : Bool → Value → Nat) (zc : Bool) : Value → Nat
  | .empty => sizeStop
  | .null _ => sizeField + sizeI32 + sizeStop
  | .bool _ => sizeField + sizeBool + sizeStop
  | .int _ => sizeField + sizeI64 + sizeStop
  | .float _ => sizeField + sizeDouble + sizeStop
  | .str x => sizeField + sizeStr zc x + sizeStop
  | .date d => sizeField + szDate d + sizeStop
  | .time t => sizeField + szTime t + sizeStop
  | .datetime d => sizeField + szDateTime d + sizeStop
  | .vertex v => sizeField + szVertex s zc v + sizeStop
  | .edge e => sizeField + szEdge s zc e + sizeStop
  | .path p => sizeField + szPath s zc p + sizeStop
  | .list l => sizeField + szList s zc l + sizeStop
  | .map m => sizeField + szMap s zc m + sizeStop
  | .set l => sizeField + szSet s zc l + sizeStop
  | .dataset c r => sizeField + szDataSet s zc c r + sizeStop

mutual
/-- `szUnion` as structural recursion (see `szValue_eqn`). -/
def szValue : Value → Bool → Nat
  | .vertex v, zc => sizeField + sVertex v zc + sizeStop
  | .edge ⟨a, b, _, n, _, p⟩, zc => sizeField + (sizeField + szValue a zc + sizeField + szValue b zc + sizeField + sizeI32 +
      sizeField + sizeStr zc n + sizeField + sizeI64 + sizeField + (sizeByte + sizeI32 + sEntries p) + sizeStop) + sizeStop
  | .path ⟨v, ss⟩, zc => sizeField + (sizeField + sVertex v zc + sizeField + (sizeByte + sizeI32 + sSteps ss) + sizeStop) + sizeStop
  | .list l, _ => sizeField + (sizeField + (sizeByte + sizeI32 + sVec l) + sizeStop) + sizeStop
  | .map m, _ => sizeField + (sizeField + (sizeByte + sizeI32 + sEntries m) + sizeStop) + sizeStop
  | .set l, _ => sizeField + (sizeField + (sizeByte + sizeI32 + sVec l) + sizeStop) + sizeStop
  | .dataset c r, _ => sizeField + (sizeField + sizeList sizeBinary c + sizeField + (sizeByte + sizeI32 + sRows r) + sizeStop) + sizeStop
  | .empty, _ => sizeStop
  | .null _, _ => sizeField + sizeI32 + sizeStop
  | .bool _, _ => sizeField + sizeBool + sizeStop
  | .int _, _ => sizeField + sizeI64 + sizeStop
  | .float _, _ => sizeField + sizeDouble + sizeStop
  | .str x, zc => sizeField + sizeStr zc x + sizeStop
  | .date d, _ => sizeField + szDate d + sizeStop
  | .time t, _ => sizeField + szTime t + sizeStop
  | .datetime d, _ => sizeField + szDateTime d + sizeStop
/-- `szVertex`. -/
def sVertex : Vertex Value → Bool → Nat
  | ⟨v, ts⟩, zc => sizeField + szValue v zc + sizeField + (sizeByte + sizeI32 + sTags ts) + sizeStop
/-- the tags of `szVertex`. -/
def sTags : List (Tag Value) → Nat
  | [] => 0
  | ⟨n, p⟩ :: ts => (sizeField + sizeStr false n + sizeField + (sizeByte + sizeI32 + sEntries p) + sizeStop) + sTags ts
/-- the steps of `szPath`. -/
def sSteps : List (Step Value) → Nat
  | [] => 0
  | ⟨v, _, n, _, p⟩ :: ss => (sizeField + sVertex v false + sizeField + sizeI32 + sizeField + sizeStr false n + sizeField + sizeI64 +
      sizeField + (sizeByte + sizeI32 + sEntries p) + sizeStop) + sSteps ss
/-- the entries of `szProps`. -/
def sEntries : List (Bytes × Value) → Nat
  | [] => 0
  | (k, v) :: ps => (sizeBinary k + szValue v false) + sEntries ps
/-- the elements of a list. -/
def sVec : List Value → Nat
  | [] => 0
  | v :: vs => szValue v false + sVec vs
/-- the rows of a table. -/
def sRows : List (List Value) → Nat
  | [] => 0
  | r :: rs => (sizeField + (sizeByte + sizeI32 + sVec r) + sizeStop) + sRows rs
end

/-- The `uint32_t` that is returned. -/
def announced (n : Nat) : Nat := n % 2 ^ 32

/-! ## Answers of the graph service -/

/-- A field that is left out for a null pointer. -/
def sizeOpt {α : Type} (f : α → Nat) : Option α → Nat
  | none => 0
  | some a => sizeField + f a

/-- AuthResponseOps.inl:226-258, 260-292: the offset of the time zone is measured as an `int64_t`. -/
def szAuth (zc : Bool) (r : AuthResponse) : Nat :=
  sizeField + sizeI32 + sizeOpt (sizeStr zc) r.errorMsg + sizeOpt (fun _ => sizeI64) r.sessionId +
  sizeOpt (fun _ => sizeI64) r.timeZoneOffset + sizeOpt (sizeStr zc) r.timeZoneName + sizeStop

/-- ProfilingStatsOps.inl:215-243, 245-273. -/
def szStats (p : ProfilingStats) : Nat :=
  sizeField + sizeI64 + sizeField + sizeI64 + sizeField + sizeI64 + sizeOpt (sizeMap sizeBinary sizeBinary) p.otherStats + sizeStop

/-- PlanNodeBranchInfoOps.inl:152-166, 168-182. -/
def szBranch (_ : BranchInfo) : Nat := sizeField + sizeBool + sizeField + sizeI64 + sizeStop

/-- PairOps.inl:144-154, 156-167. -/
def szPair (zc : Bool) (p : Bytes × Bytes) : Nat := sizeField + sizeStr zc p.1 + sizeField + sizeStr zc p.2 + sizeStop

/-- PlanNodeDescriptionOps.inl:291-330, 332-371. -/
def szNode (zc : Bool) (p : PlanNode) : Nat :=
  sizeField + sizeStr zc p.name + sizeField + sizeI64 + sizeField + sizeStr zc p.outputVar +
  sizeOpt (sizeList (szPair false)) p.description + sizeOpt (sizeList szStats) p.profiles + sizeOpt szBranch p.branchInfo +
  sizeOpt (sizeList fun _ => sizeI64) p.dependencies + sizeStop

/-- PlanDescriptionOps.inl:214-237, 239-263. -/
def szPlan (zc : Bool) (p : PlanDesc) : Nat :=
  sizeField + sizeList (szNode false) p.nodes + sizeField + sizeMap (fun _ => sizeI64) (fun _ => sizeI64) p.nodeIndexMap +
  sizeField + sizeStr zc p.format + sizeField + sizeI32 + sizeStop

/-- ExecutionResponseOps.inl:321-358 `serializedSizeZC`. -/
def szExec (r : ExecResponse) : Nat :=
  sizeField + sizeI32 + sizeField + sizeI32 + sizeOpt (fun d => szDataSet (fun zc v => szValue v zc) true d.1 d.2) r.data +
  sizeOpt (sizeStr true) r.spaceName + sizeOpt (sizeStr true) r.errorMsg + sizeOpt (szPlan true) r.plan +
  sizeOpt (sizeStr true) r.comment + sizeStop

end Wire
end Nebula
