import Verif.FullText.Spec
import Verif.Process.Model
/-!
# Specification vocabulary for downloads and ingests (C125)
-/
namespace Nebula
namespace Http

/-- A text cut at every `c`. -/
def pieces (c : UInt8) : Bytes → List Bytes
  | [] => [[]]
  | b :: bs => if b = c then [] :: pieces c bs else match pieces c bs with
    | [] => [[b]]
    | p :: ps => (b :: p) :: ps

/-- A text cut at the first `c`. -/
def cut (c : UInt8) (t : Bytes) : Bytes × Bytes := (t.takeWhile (· ≠ c), (t.dropWhile (· ≠ c)).drop 1)

/-- An address as a web server reads it: what is before the `?`, and the named arguments after it. -/
def readUrl (url : Bytes) : Bytes × List (Bytes × Bytes) := ((cut 63 url).1, (pieces 38 (cut 63 url).2).map (cut 61))

/-- A text that means itself in the arguments of an address between double quotes: no `&`, nothing the shell reads. -/
def SafeArg (t : Bytes) : Prop := ∀ b ∈ t, b ≠ 38 ∧ FullText.QuotableByte b

/-- A host name that means itself in an address. -/
def SafeHost (t : Bytes) : Prop := ∀ b ∈ t, b ≠ 63 ∧ FullText.QuotableByte b

/-- What a command printed until it closed its output; `none` if it could not be started or reading failed. -/
def printed : Option Process.Pipe → Option Bytes
  | none => none
  | some p => if p.fails then none else some (p.buf ++ p.chunks.flatten)

end Http
end Nebula
