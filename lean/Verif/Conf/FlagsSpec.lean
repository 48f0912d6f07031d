import Verif.Conf.Flags
import Verif.Conf.Spec
/-!
# What a registered flag says

`Means`: the value that the text of a flag stands for.  `Listed c key names`: the configuration has an array of texts under `key`.
-/
namespace Nebula
namespace Conf
open Json
variable {F : Type}

/-- The text of a JSON scalar. -/
inductive ScalarText (C : Conv F) : Dyn F → Bytes → Prop
  | str (s) : ScalarText C (.str s) s
  | int (i) : ScalarText C (.int i) (intDec i)
  | yes : ScalarText C (.bool true) (ascii "1")
  | no : ScalarText C (.bool false) (ascii "0")
  | dbl (d) : ScalarText C (.dbl d) (C.strOfDbl d)

/-- The types of integer flags. -/
def intTypes : List Bytes := [ascii "int32", ascii "uint32", ascii "int64", ascii "uint64"]

/-- What the text of a flag stands for. -/
inductive Means (D : Doubles F) (C : Conv F) (T : Texts F) : Bool → Bytes → Bytes → FlagVal F → Prop
  | int {ty text n} : ty ∈ intTypes → T.toInt text = some n → Means D C T false ty text (.int n)
  | dbl {ty text d} : ty = ascii "double" → T.toDbl text = some d → Means D C T false ty text (.dbl d)
  | bool {ty text b} : ty = ascii "bool" → T.toBool text = some b → Means D C T false ty text (.bool b)
  | str {ty} (text) : ty = ascii "string" → Means D C T false ty text (.str text)
  | map {ty text l m} : parse D text = some (.obj l) → All2 (fun e t => e.1 = t.1 ∧ ScalarText C e.2 t.2) l m → (l.map (·.1)).Nodup →
      Means D C T true ty text (.map m)

/-- The names listed under `key`, all of them texts or numbers; none if there is no such array. -/
def Listed (C : Conv F) (c : Dyn F) (key : Bytes) (names : List Bytes) : Prop :=
  (∃ l, Item c key (.arr l) ∧ All2 (ScalarText C) l names) ∨
  (names = [] ∧ ∀ l, Item c key (.arr l) → ∃ v ∈ l, ∀ s, ¬ ScalarText C v s)

end Conf
end Nebula
