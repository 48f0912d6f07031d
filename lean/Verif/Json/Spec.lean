import Verif.Json.Model
/-!
# What it means that a JSON text is read back

`Same`: equal up to the order of the entries of objects.  `Fine`: a value whose text can be read back.  `Depth`: how deeply values are nested.
-/
namespace Nebula
namespace Json

/-- `R` holds between the elements of two lists at the same places. -/
inductive All2 {α β : Type} (R : α → β → Prop) : List α → List β → Prop
  | nil : All2 R [] []
  | cons {a b l m} : R a b → All2 R l m → All2 R (a :: l) (b :: m)

mutual
/-- Equal up to the order in which the entries of objects are listed. -/
inductive Same {F : Type} : Dyn F → Dyn F → Prop
  | null : Same .null .null
  | bool (b) : Same (.bool b) (.bool b)
  | int (i) : Same (.int i) (.int i)
  | dbl (d) : Same (.dbl d) (.dbl d)
  | str (s) : Same (.str s) (.str s)
  | arr {l m} : SameList l m → Same (.arr l) (.arr m)
  | obj {l l' m} : l.Perm l' → SameEntries l' m → Same (.obj l) (.obj m)
/-- `Same` element by element. -/
inductive SameList {F : Type} : List (Dyn F) → List (Dyn F) → Prop
  | nil : SameList [] []
  | cons {a b l m} : Same a b → SameList l m → SameList (a :: l) (b :: m)
/-- The same keys with values that are `Same`, entry by entry. -/
inductive SameEntries {F : Type} : List (Bytes × Dyn F) → List (Bytes × Dyn F) → Prop
  | nil : SameEntries [] []
  | cons {k a b l m} : Same a b → SameEntries l m → SameEntries ((k, a) :: l) ((k, b) :: m)
end

/-- The text of a number that is not an integer: sign, digits, and a fraction or an exponent or both. -/
structure RealText (t : Bytes) : Prop where
  shape : ∃ sign ds frac ex : Bytes, t = sign ++ (ds ++ (frac ++ ex)) ∧ (sign = [] ∨ sign = [45]) ∧ ds ≠ [] ∧ (∀ c ∈ ds, isDigit c = true) ∧
    (frac = [] ∨ ∃ fs, frac = 46 :: fs ∧ ∀ c ∈ fs, isDigit c = true) ∧
    (ex = [] ∨ ∃ e s xs, ex = e :: (s ++ xs) ∧ (e = 101 ∨ e = 69) ∧ (s = [] ∨ s = [43] ∨ s = [45]) ∧ xs ≠ [] ∧
      ∀ c ∈ xs, isDigit c = true) ∧
    (frac ≠ [] ∨ ex ≠ [])

mutual
/-- Integers are 64-bit integers; the text of a double shows that it is a double and stands for it; no object has a key twice. -/
def Fine {F : Type} (D : Doubles F) : Dyn F → Prop
  | .null => True
  | .bool _ => True
  | .int i => InI64 i
  | .dbl d => RealText (D.text d) ∧ D.read (D.text d) = some d
  | .str _ => True
  | .arr l => FineList D l
  | .obj l => (l.map (·.1)).Nodup ∧ FineEntries D l
/-- `Fine` for every element. -/
def FineList {F : Type} (D : Doubles F) : List (Dyn F) → Prop
  | [] => True
  | j :: l => Fine D j ∧ FineList D l
/-- `Fine` for every value. -/
def FineEntries {F : Type} (D : Doubles F) : List (Bytes × Dyn F) → Prop
  | [] => True
  | (_, j) :: l => Fine D j ∧ FineEntries D l
end

mutual
/-- The nesting of a value: 1 for a value without parts. -/
def depth {F : Type} : Dyn F → Nat
  | .arr l => depthList l + 1
  | .obj l => depthEntries l + 1
  | _ => 1
/-- The deepest element. -/
def depthList {F : Type} : List (Dyn F) → Nat
  | [] => 0
  | j :: l => max (depth j) (depthList l)
/-- The deepest value. -/
def depthEntries {F : Type} : List (Bytes × Dyn F) → Nat
  | [] => 0
  | (_, j) :: l => max (depth j) (depthEntries l)
end

end Json
end Nebula
