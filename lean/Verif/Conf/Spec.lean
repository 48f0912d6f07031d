import Verif.Conf.Model
import Verif.Json.Spec
/-!
# What the configuration promises

`Item c key v`: the object `c` has `v` under `key`.  `CutAt line p`: `p` is the line up to its first comment mark.
-/
namespace Nebula
namespace Conf
open Json
variable {F : Type}

/-- The configuration `c` has the value `v` under `key`. -/
def Item (c : Dyn F) (key : Bytes) (v : Dyn F) : Prop := ∃ l, c = .obj l ∧ (l.find? fun e => e.1 == key) = some (key, v)

/-- A configuration without an item `key`. -/
def NoItem (c : Dyn F) (key : Bytes) : Prop := ∃ l, c = .obj l ∧ ∀ v, (key, v) ∉ l

/-- What is asked of fetching an item of one type (`mk x` is the item with value `x`) into a variable that holds `val`: the value if there is such an
item; otherwise an error, and the variable keeps its value. -/
def FetchSpec {T : Type} (mk : T → Dyn F) (c : Dyn F) (key : Bytes) (val : T) (res : Option (Res × T)) : Prop :=
  (∀ x, Item c key (mk x) → res = some (.ok, x)) ∧ ((∀ x, ¬ Item c key (mk x)) → res = some (.error, val))

/-- A comment begins here: `#` or `//`. -/
def Mark (s : Bytes) : Prop := (∃ t, s = 35 :: t) ∨ ∃ t, s = 47 :: 47 :: t

/-- `p` is the part of the line before its first comment, the whole line if it has none. -/
def CutAt (line p : Bytes) : Prop := (∃ rest, line = p ++ rest ∧ (rest = [] ∨ Mark rest)) ∧ ∀ i < p.length, ¬ Mark (line.drop i)

/-- Lines with their ends, and the last line, put together. -/
def joinLines : List (Bytes × UInt8) → Bytes → Bytes
  | [], last => last
  | (l, e) :: ls, last => l ++ e :: joinLines ls last

/-- A text without line ends. -/
def OneLine (l : Bytes) : Prop := (10 : UInt8) ∉ l ∧ (13 : UInt8) ∉ l

end Conf
end Nebula
