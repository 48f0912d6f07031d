import Verif.Base
/-! # libstdc++'s `std::hash<std::string>` on 64-bit machines (`_Hash_bytes`, GCC's hash_bytes.cc) -/
namespace Nebula.StdHash

/-- `load_bytes`: the bytes as a little-endian number. -/
def loadBytes : Bytes → UInt64
  | [] => 0
  | b :: r => (loadBytes r <<< 8) + b.toUInt64

def shiftMix (v : UInt64) : UInt64 := v ^^^ (v >>> 47)

def mul : UInt64 := ((0xc6a4a793 : UInt64) <<< 32) + 0x5bd1e995

/-- Whole words, then the rest. -/
def go (h : UInt64) (s : Bytes) : UInt64 :=
  if 8 ≤ s.length then
    go ((h ^^^ shiftMix (loadBytes (s.take 8) * mul) * mul) * mul) (s.drop 8)
  else if s = [] then h
  else (h ^^^ loadBytes s) * mul
termination_by s.length
decreasing_by simp; omega

def hash (s : Bytes) : UInt64 :=
  shiftMix (shiftMix (go (0xc70f6907 ^^^ (s.length.toUInt64 * mul)) s) * mul)

end Nebula.StdHash
