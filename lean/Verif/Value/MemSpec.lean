import Verif.Value.Mem
/-!
# What a program may expect of `Value` variables

A program sees each variable as a value of its own: `Val`.  `run` says what each call does to the
values of the variables, without any memory.  `Owned` says that the memory holds those values, and
nothing else: each live object or payload belongs to exactly one variable.
-/
namespace Nebula.VMem

/-- A value: empty, plain (a number, a date, ...), or a payload with nested values. -/
inductive Val where
  | empty
  | plain (k : Mb) (d : Plain)
  | box (k : Mb) (d : Plain) (kids : List Val)

/-- The type `type()` reports for a value that lives in a member. -/
def typeOf : Mb → Ty
  | .nVal => .null | .bVal => .bool | .iVal => .int | .fVal => .float | .sVal => .str | .dVal => .date
  | .tVal => .time | .dtVal => .datetime | .vVal => .vertex | .eVal => .edge | .pVal => .path | .lVal => .list
  | .mVal => .map | .uVal => .set | .gVal => .dataset

/-- Something is alive at the address. -/
def Mem.Live (m : Mem) (a : Addr) : Prop := m.obj a ≠ none ∨ m.cell a ≠ none

mutual
/-- The object at `l` holds the value, using exactly the addresses `fp`. -/
def Holds (m : Mem) : Val → Addr → List Addr → Prop
  | .empty, l, fp => m.obj l = some ⟨.empty, .none⟩ ∧ m.cell l = none ∧ fp = [l]
  | .plain k d, l, fp =>
    k.boxed = false ∧ m.obj l = some ⟨typeOf k, .plain k d⟩ ∧ m.cell l = none ∧ fp = [l]
  | .box k d ks, l, fp =>
    k.boxed = true ∧ ∃ p ls f, m.obj l = some ⟨typeOf k, .ptr k (some p)⟩ ∧ m.cell l = none ∧
      m.cell p = some ⟨k, d, ls⟩ ∧ m.obj p = none ∧ HoldsAll m ks ls f ∧ fp = l :: p :: f
/-- The objects at `ls` hold the values, using exactly the addresses `fp`. -/
def HoldsAll (m : Mem) : List Val → List Addr → List Addr → Prop
  | [], ls, fp => ls = [] ∧ fp = []
  | v :: vs, ls, fp => ∃ l ls' f g, ls = l :: ls' ∧ Holds m v l f ∧ HoldsAll m vs ls' g ∧ fp = f ++ g
end

/-- The variables at `E` hold the values `S`; no address is used twice; and whatever is alive is used:
nothing has leaked. -/
def Owned (m : Mem) (E : List Addr) (S : List Val) : Prop :=
  ∃ F, HoldsAll m S E F ∧ F.Nodup ∧ (∀ a, m.Live a ↔ a ∈ F) ∧ (∀ a ∈ F, a < m.next)

/-- The value a reference stands for. -/
def look : List Val → Ref → Option Val
  | _, [] => none
  | S, [i] => S[i]?
  | S, i :: j :: is => match S[i]? with
    | some (.box _ _ ks) => look ks (j :: is)
    | _ => none

/-- The variables, with another value at a reference. -/
def upd : List Val → Ref → Val → List Val
  | S, [], _ => S
  | S, [i], w => S.set i w
  | S, i :: j :: is, w => match S[i]? with
    | some (.box k d ks) => S.set i (.box k d (upd ks (j :: is) w))
    | _ => S

/-- Neither of the two values contains the other. -/
def Apart (r s : Ref) : Prop := ¬ r <+: s ∧ ¬ s <+: r

/-- The value is a payload of the type. -/
def Val.IsBox (k : Mb) : Val → Prop
  | .box k' _ _ => k' = k
  | _ => False

/-- How many values are members of a payload of the type. -/
def ownValues : Mb → Nat
  | .vVal => 1
  | .eVal => 2
  | .pVal => 1
  | _ => 0

/-- What is left of a payload that was moved from: the numbers, and empty values as members. -/
def husk : Val → Val
  | .box k d ks => .box k ⟨d.nums, []⟩ ((ks.take (ownValues k)).map fun _ => .empty)
  | v => v

/-- What the calls do to the values of the variables. -/
def run (S : List Val) : Op → List Val
  | .fresh => S ++ [.empty]
  | .ofPlain k d => S ++ [.plain k d]
  | .copy r => S ++ [(look S r).getD .empty]
  | .move r => upd S r .empty ++ [(look S r).getD .empty]
  | .assign d s => upd S d ((look S s).getD .empty)
  | .moveAssign d s => if d = s then S else upd (upd S d ((look S s).getD .empty)) s .empty
  | .setPlain d k x => upd S d (.plain k x)
  | .clear d => upd S d .empty
  | .swap a b => if a = b then S else upd (upd S a ((look S b).getD .empty)) b ((look S a).getD .empty)
  | .make k x rs => S ++ [.box k x (rs.filterMap (look S))]
  | .ofPayload _ s => S ++ [(look S s).getD .empty]
  | .ofPayloadMove _ s => upd S s (husk ((look S s).getD .empty)) ++ [(look S s).getD .empty]
  | .setPayload d _ s => upd S d ((look S s).getD .empty)
  | .setPayloadMove d _ s => upd (upd S d ((look S s).getD .empty)) s (husk ((look S s).getD .empty))
  | .setPayloadPtr d _ i => (upd S d (S[i]?.getD .empty)).eraseIdx i
  | .moveOut _ s => upd S s .empty ++ [(look S s).getD .empty]
  | .drop i => S.eraseIdx i

/-- The calls a program may make: the references stand for values, payloads have the type asked for,
and a call with two references gets values of which neither contains the other — or, for the
assignments and `swap`, the same value twice. -/
def Legal (S : List Val) : Op → Prop
  | .fresh => True
  | .ofPlain k _ => k.boxed = false
  | .copy r | .move r | .clear r => ∃ v, look S r = some v
  | .assign d s | .moveAssign d s | .swap d s =>
    (∃ v, look S d = some v) ∧ (∃ v, look S s = some v) ∧ (d = s ∨ Apart d s)
  | .setPlain d k _ => (∃ v, look S d = some v) ∧ k.boxed = false
  | .make k _ rs => k.boxed = true ∧ ∀ r ∈ rs, ∃ v, look S r = some v
  | .ofPayload k s | .ofPayloadMove k s | .moveOut k s => ∃ v, look S s = some v ∧ v.IsBox k
  | .setPayload d k s | .setPayloadMove d k s =>
    (∃ v, look S d = some v) ∧ (∃ v, look S s = some v ∧ v.IsBox k) ∧ Apart d s
  | .setPayloadPtr d k i => (∃ v, look S d = some v) ∧ (∃ v, S[i]? = some v ∧ v.IsBox k) ∧ Apart d [i]
  | .drop i => i < S.length

/-- A program all of whose calls are legal. -/
def LegalAll : List Val → List Op → Prop
  | _, [] => True
  | S, op :: ops => Legal S op ∧ LegalAll (run S op) ops

/-- The values of the variables after a program. -/
def runAll (S : List Val) (ops : List Op) : List Val := ops.foldl run S

end Nebula.VMem
