import Verif.Value.Graph
/-!
# The text of a value (`Value::toString` and the `toString` of everything a value can hold)

src/common/datatypes/{Value,List,Set,Map,Vertex,Edge}.cpp, {Path,DataSet}.h.  `fmt` is
`folly::to<std::string>(double)`, an arbitrary function.  The entries of hash maps and hash sets are in
the order of the model's lists, which stands for the order in which the container yields them.
-/
namespace Nebula
namespace Value

/-- `folly::join(",", …)`. -/
def joinComma : List Bytes → Bytes
  | [] => []
  | [t] => t
  | t :: u :: ts => t ++ 44 :: joinComma (u :: ts)

mutual
/-- Value.cpp:1484-1556 `toString`; List.cpp:14-23, Set.cpp:14-23, Map.cpp:14-25, Vertex.cpp:51-61, Edge.cpp:15-34, Path.h:136-145, DataSet.h:158-175. -/
def text (fmt : F64 → Bytes) : Value → Bytes
  | .empty => ascii "__EMPTY__"
  | .null n => nullText n
  | .bool b => boolText b
  | .int i => intDec i
  | .float f => fmt f
  | .str s => 34 :: (s ++ [34])
  | .date d => d.toText
  | .time t => t.toText
  | .datetime d => d.toText
  | .vertex v => textVertex fmt v
  | .edge ⟨s, d, t, n, r, ps⟩ =>
    40 :: text fmt s ++ ascii ")-[" ++ n ++ 40 :: intDec t ++ ascii ")]->(" ++ text fmt d ++ ascii ")@" ++ intDec r ++
      (match textProps fmt ps with
      | [] => []
      | x => 32 :: joinComma x)
  | .path ⟨v, ss⟩ => 40 :: textVertex fmt v ++ ascii ") " ++ textSteps fmt ss
  | .list vs => 91 :: joinComma (texts fmt vs) ++ [93]
  | .map kvs => 123 :: joinComma (textProps fmt kvs) ++ [125]
  | .set vs => 123 :: joinComma (texts fmt vs) ++ [125]
  | .dataset cs rs => (cs.flatMap fun c => c ++ [124]) ++ 10 :: textRows fmt rs ++ [10]
/-- Vertex.cpp:51-61 `Vertex::toString`. -/
def textVertex (fmt : F64 → Bytes) : Vertex Value → Bytes
  | ⟨v, []⟩ => 40 :: text fmt v ++ [41]
  | ⟨v, t :: ts⟩ => 40 :: text fmt v ++ 41 :: 32 :: textTags fmt (t :: ts)
/-- Vertex.cpp:14-26 `Tag::toString`, Vertex.cpp:56-58. -/
def textTags (fmt : F64 → Bytes) : List (Tag Value) → Bytes
  | [] => []
  | ⟨n, ps⟩ :: ts => ascii "Tag: " ++ n ++ ascii ", " ++ joinComma (textProps fmt ps) ++ textTags fmt ts
/-- Path.h:54-65 `Step::toString`, Path.h:140-143.  The last character is removed: the blank if there are no properties, otherwise the comma. -/
def textSteps (fmt : F64 → Bytes) : List (Step Value) → Bytes
  | [] => []
  | ⟨v, t, n, r, ps⟩ :: ss =>
    (ascii "-[" ++ n ++ 40 :: intDec t ++ ascii ")]->(" ++ textVertex fmt v ++ ascii ")@" ++ intDec r ++
      (32 :: (textProps fmt ps).flatMap fun p => p ++ [44])).dropLast ++ 32 :: textSteps fmt ss
/-- Map.cpp:16-20, Vertex.cpp:16-21, Edge.cpp:25-30, Path.h:59-61: `key:value`. -/
def textProps (fmt : F64 → Bytes) : List (Bytes × Value) → List Bytes
  | [] => []
  | (k, v) :: kvs => (k ++ 58 :: text fmt v) :: textProps fmt kvs
/-- List.cpp:16-19, Set.cpp:16-19. -/
def texts (fmt : F64 → Bytes) : List Value → List Bytes
  | [] => []
  | v :: vs => text fmt v :: texts fmt vs
/-- DataSet.h:167-172. -/
def textRows (fmt : F64 → Bytes) : List (List Value) → Bytes
  | [] => []
  | r :: rs => ((texts fmt r).flatMap fun c => c ++ [124]) ++ 10 :: textRows fmt rs
end

end Value
end Nebula
