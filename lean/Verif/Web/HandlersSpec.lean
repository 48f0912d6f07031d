import Verif.Web.Handlers
import Verif.Conf.FlagsSpec
/-!
# What the flags service promises
-/
namespace Nebula
namespace Web
open Json Conf Net
variable {F : Type}

/-- The integer types of flags with their ranges. -/
def intRanges : List (Bytes × Int × Int) :=
  [(ascii "int32", -2147483648, 2147483647), (ascii "uint32", 0, 4294967295), (ascii "int64", -9223372036854775808, 9223372036854775807),
   (ascii "uint64", 0, 18446744073709551615)]

/-- The value of a flag of a type with a text (unsigned 64-bit integers above the signed range excepted). -/
inductive FlagValue (T : Texts F) (bigInt : Bytes → Option Int) : Bytes → Bytes → Dyn F → Prop
  | int {ty text n lo hi} : (ty, lo, hi) ∈ intRanges → bigInt text = some n → lo ≤ n → n ≤ hi → n ≤ 9223372036854775807 → FlagValue T bigInt ty text (.int n)
  | bool {ty text b} : ty = ascii "bool" → T.toBool text = some b → FlagValue T bigInt ty text (.bool b)
  | dbl {ty text d} : ty = ascii "double" → T.toDbl text = some d → FlagValue T bigInt ty text (.dbl d)
  | str {ty} (text) : ty = ascii "string" → FlagValue T bigInt ty text (.str text)

/-- How a value is written in the plain answer. -/
inductive Shown (C : Conv F) : Dyn F → Bytes → Prop
  | int (n) : Shown C (.int n) (intDec n)
  | yes : Shown C (.bool true) (ascii "1")
  | no : Shown C (.bool false) (ascii "0")
  | dbl (d) : Shown C (.dbl d) (C.strOfDbl d)
  | str (s) : Shown C (.str s) (ascii "\"" ++ s ++ ascii "\"")
  | unknown : Shown C .null (ascii "nullptr")

/-- The value reported for a name: that of the flag, null if there is no such flag. -/
inductive Reported (T : Texts F) (bigInt : Bytes → Option Int) (fs : List FlagInfo) (name : Bytes) : Dyn F → Prop
  | flag {f v} : f ∈ fs → f.name = name → FlagValue T bigInt f.type f.current v → Reported T bigInt fs name v
  | unknown : (∀ f ∈ fs, f.name ≠ name) → Reported T bigInt fs name .null

/-- What the JSON answer tells about a name; with `verbose` also the default value, the type and so on. -/
inductive Described (T : Texts F) (bigInt : Bytes → Option Int) (verbose : Bool) (fs : List FlagInfo) (name : Bytes) : Dyn F → Prop
  | unknown : (∀ f ∈ fs, f.name ≠ name) → Described T bigInt verbose fs name (.obj [(ascii "name", .str name), (ascii "value", .null)])
  | short {f v} : verbose = false → f ∈ fs → f.name = name → FlagValue T bigInt f.type f.current v →
      Described T bigInt verbose fs name (.obj [(ascii "name", .str name), (ascii "value", v)])
  | long {f v d} : verbose = true → f ∈ fs → f.name = name → FlagValue T bigInt f.type f.current v → FlagValue T bigInt f.type f.default d →
      Described T bigInt verbose fs name (.obj [(ascii "name", .str name), (ascii "value", v), (ascii "default", d), (ascii "type", .str f.type),
        (ascii "description", .str f.description), (ascii "file", .str f.file), (ascii "is_default", .bool f.isDefault)])

/-- The text of the verbose answer for a flag. -/
structure LongText (C : Conv F) (T : Texts F) (bigInt : Bytes → Option Int) (fs : List FlagInfo) (name text : Bytes) : Prop where
  shape : ∃ f ∈ fs, f.name = name ∧ ∃ v d vt dt, FlagValue T bigInt f.type f.current v ∧ FlagValue T bigInt f.type f.default d ∧ Shown C v vt ∧ Shown C d dt ∧
    text = ascii "--" ++ name ++ ascii ": " ++ f.description ++ ascii "\n  file: " ++ f.file ++ ascii ", type: " ++ f.type ++ ascii ", default: " ++ dt ++
      ascii ", current: " ++ vt ++ (if f.isDefault then ascii "(default)" else []) ++ ascii "\n"

/-- No two flags have the same name. -/
def DistinctNames (fs : List FlagInfo) : Prop := (fs.map (·.name)).Nodup

/-- The flag after a request with the items `l`: set to the text given for its name if that is accepted, otherwise as before. -/
inductive After (accept : FlagInfo → Bytes → Option Bytes) (l : List (Bytes × Bytes)) (f : FlagInfo) : FlagInfo → Prop
  | unnamed : (∀ t, (f.name, t) ∉ l) → After accept l f f
  | refused {t} : (f.name, t) ∈ l → accept f t = none → After accept l f f
  | set {t t'} : (f.name, t) ∈ l → accept f t = some t' → After accept l f { f with current := t', isDefault := false }

/-- The names of a request that are not set: there is no such flag, or it refuses the text. -/
def Failed (accept : FlagInfo → Bytes → Option Bytes) (fs : List FlagInfo) (name text : Bytes) : Prop :=
  ∀ f ∈ fs, f.name = name → accept f text = none

/-- What the answer tells about a counter: its value, or why there is none. -/
def statValue (read : Bytes → Except Bytes Int) (name : Bytes) : Dyn F :=
  match read name with
  | .ok v => .int v
  | .error t => .str t

/-- The line of the plain answer about a counter. -/
def statLine (read : Bytes → Except Bytes Int) (name : Bytes) : Bytes :=
  name ++ ascii "=" ++ (match read name with | .ok v => intDec v | .error t => t) ++ ascii "\n"

end Web
end Nebula
