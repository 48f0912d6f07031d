import Verif.Cord.Model
/-!
# Specification for cords

What a cord should hold: the bytes written since the last `clear`, in order.
-/
namespace Nebula

/-- A visitor run over a list of pieces, stopping at the first refusal. -/
def visitAll {σ : Type} (visitor : σ → Bytes → σ × Bool) : List Bytes → σ → σ × Bool
  | [], s => (s, true)
  | p :: ps, s => if (visitor s p).2 then visitAll visitor ps (visitor s p).1 else ((visitor s p).1, false)

/-- `Cord.Made c bs`: `c` came out of a sequence of constructor, `write`, `clear` and `operator<<`
calls, none of them undefined, and `bs` is the concatenation of what was written since the last `clear`
(a cord written into another contributes all its bytes). -/
inductive Cord.Made : Cord → Bytes → Prop
  | new (csize : Nat) (h : 0 < csize) : Made (Cord.new csize) []
  | write {c c' : Cord} {bs : Bytes} (v : Bytes) : Made c bs → c.write v = some c' → Made c' (bs ++ v)
  | clear {c c' : Cord} {bs : Bytes} : Made c bs → c.clear = some c' → Made c' []
  | append {c d c' : Cord} {bs ds : Bytes} : Made c bs → Made d ds → c.appendCord d = some c' →
      Made c' (bs ++ ds)

/-- The same for `ICord`, without `clear` and without appending cords. -/
inductive ICord.Written : ICord → Bytes → Prop
  | new (exp : Nat) : Written (ICord.new exp) []
  | write {c c' : ICord} {bs : Bytes} (v : Bytes) : Written c bs → c.write v = some c' → Written c' (bs ++ v)

end Nebula
