/-!
# Object pools (C112)

`src/common/base/ObjectPool.h`.  Any number of threads use one pool; every step of the spin lock, every deletion and every insertion is a step of its own.
-/
namespace Nebula
namespace ObjPool

/-- An object: its address, the type it was added as (it is deleted as that type), and whether its destructor uses the same pool. -/
structure Obj where
  addr : Nat
  type : Nat
  uses : Bool
deriving DecidableEq, Repr

/-- Where a thread is: outside, waiting for or holding the lock in `add` or `clear`, or waiting for the lock inside a destructor run by its own `clear`. -/
inductive Pc | idle | wantAdd (o : Obj) | adding (o : Obj) | wantClear | clearing | inside
deriving DecidableEq, Repr

/-- `held` is `objects_`, oldest first; `added` and `deleted` are the histories. -/
structure St where
  held : List Obj
  lock : Option Nat
  pc : Nat → Pc
  added : List Obj
  deleted : List Obj

def init : St := ⟨[], none, fun _ => .idle, [], []⟩

def setPc (st : St) (t : Nat) (p : Pc) : Nat → Pc := fun u => if u = t then p else st.pc u

/-- ObjectPool.h:29-32 `clear` (a `std::list` is cleared from the front; ObjectPool.h:61-63 the holder deletes its object), 34-42 `add`; `makeAndAdd` is a construction and `add`. -/
inductive Step : St → St → Prop
  | callAdd (st t o) : st.pc t = .idle → Step st { st with pc := setPc st t (.wantAdd o) }
  | lockAdd (st t o) : st.pc t = .wantAdd o → st.lock = none → Step st { st with lock := some t, pc := setPc st t (.adding o) }
  | add (st t o) : st.pc t = .adding o →
      Step st { st with held := st.held ++ [o], added := st.added ++ [o], lock := none, pc := setPc st t .idle }
  | callClear (st t) : st.pc t = .idle → Step st { st with pc := setPc st t .wantClear }
  | lockClear (st t) : st.pc t = .wantClear → st.lock = none → Step st { st with lock := some t, pc := setPc st t .clearing }
  | delete (st t o os) : st.pc t = .clearing → st.held = o :: os → o.uses = false → Step st { st with held := os, deleted := st.deleted ++ [o] }
  | deleteInside (st t o os) : st.pc t = .clearing → st.held = o :: os → o.uses = true →
      Step st { st with held := os, deleted := st.deleted ++ [o], pc := setPc st t .inside }
  | cleared (st t) : st.pc t = .clearing → st.held = [] → Step st { st with lock := none, pc := setPc st t .idle }

inductive Reach : St → Prop
  | init : Reach init
  | step {st st'} : Reach st → Step st st' → Reach st'

/-- ObjectPool.h:27 the destructor: no thread uses the pool any more; what is left is deleted from the front.  `none` if a destructor uses the pool that is being destroyed. -/
def destroy (st : St) : Option (List Obj) := if st.held.all (fun o => !o.uses) then some (st.deleted ++ st.held) else none

/-- ObjectPool.h:49-51 `empty`. -/
def empty (st : St) : Bool := st.held.isEmpty

end ObjPool
end Nebula
