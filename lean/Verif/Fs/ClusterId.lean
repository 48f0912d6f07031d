import Verif.Text
/-!
# The cluster id file: src/common/clients/meta/FileBasedClusterIdMan.cpp

The file is modelled by its bytes, `none` if it does not exist; the id by its 64 bits.
-/
namespace Nebula
namespace Fs

abbrev IdFile := Option Bytes

/-- `k` bytes of a number, low byte first. -/
def leBytes : Nat → Nat → Bytes
  | 0, _ => []
  | k + 1, n => UInt8.ofNat (n % 256) :: leBytes k (n / 256)

/-- The number of some bytes, low byte first. -/
def leNum : Bytes → Nat
  | [] => 0
  | b :: s => b.toNat + 256 * leNum s

/-- What the system calls do: the answers of `makeDir`, `remove` and `open`, and how many bytes `write` writes (`none`: it fails). -/
structure Sys where
  dirOk : Bool
  removeOk : Bool
  openOk : Bool
  wrote : Option Nat

/-- The states of the file after each system call of `persistInFile`, and the result. -/
structure Persisted where
  ok : Bool
  /-- the states of the file, the first one is that before the call -/
  states : List IdFile

/-- FileBasedClusterIdMan.cpp:15-39 `persistInFile`. -/
def persistInFile (sys : Sys) (file : IdFile) (id : UInt64) : Persisted :=
  if !sys.dirOk then ⟨false, [file]⟩
  else
    let removed := if sys.removeOk then none else file
    if !sys.openOk then ⟨false, [file, removed]⟩
    else match sys.wrote with
      | none => ⟨false, [file, removed, some []]⟩
      | some n => ⟨decide (min n 8 = 8), [file, removed, some [], some ((leBytes 8 id.toNat).take (min n 8))]⟩

/-- FileBasedClusterIdMan.cpp:43-59 `getClusterIdFromFile`, if `open` and `read` do not fail. -/
def getClusterIdFromFile : IdFile → UInt64
  | none => 0
  | some s => if (s.take 8).length = 8 then UInt64.ofNat (leNum (s.take 8)) else 0

end Fs
end Nebula
