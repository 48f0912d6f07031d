import Verif.Text
/-!
# Specification: patterns that are wildcards (C149)
-/
namespace Nebula
namespace Regex

/-- The pieces of a wildcard: a character, any one character, any characters. -/
inductive Glob where
  | lit (c : UInt8)
  | one
  | many
deriving DecidableEq, Repr

/-- As a pattern: the character, `.`, `.*`. -/
def Glob.text : Glob → Bytes
  | .lit c => [c]
  | .one => [46]
  | .many => [46, 42]

/-- No character that ends a line. -/
def OneLine (u : Bytes) : Prop := ∀ c ∈ u, c ≠ 10 ∧ c ≠ 13

/-- The texts that a wildcard stands for. -/
inductive Stands : List Glob → Bytes → Prop
  | nil : Stands [] []
  | lit {c gs s} : Stands gs s → Stands (.lit c :: gs) (c :: s)
  | one {c gs s} : OneLine [c] → Stands gs s → Stands (.one :: gs) (c :: s)
  | many {u gs s} : OneLine u → Stands gs s → Stands (.many :: gs) (u ++ s)

/-- The characters without a meaning of their own in a pattern. -/
def PlainChar (c : UInt8) : Prop := c ∉ ascii "^$\\.*+?()[]{}|"

end Regex
end Nebula
