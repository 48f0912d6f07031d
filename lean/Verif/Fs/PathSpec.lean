import Verif.Fs.Path
import Verif.Net.Model
/-! # Specification vocabulary for C63: what a path denotes -/
namespace Nebula
namespace Fs
open Net

/-- The names on the way to the file: slashes may be repeated, and `.` is the directory itself. -/
def comps (p : Bytes) : List Bytes := (splitAll 47 p).filter fun e => decide (e ≠ [] ∧ e ≠ [46])

/-- Does the path start at the root? -/
def absolute (p : Bytes) : Bool := p.head? = some 47

/-- Two paths name the same file (without following links). -/
def SamePath (p q : Bytes) : Prop := absolute p = absolute q ∧ comps p = comps q

/-- A text that can be a C string. -/
def NoNul (p : Bytes) : Prop := (0 : UInt8) ∉ p
/-- A text without line ends. -/
def NoEol (p : Bytes) : Prop := (10 : UInt8) ∉ p ∧ (13 : UInt8) ∉ p

end Fs
end Nebula
