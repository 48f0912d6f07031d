/-!
# Threads, reader-writer locks and shared data

The common part of the models of code that protects shared data by `folly::RWSpinLock`.  A function is
written as `Code`: which data it reads and writes, which locks it holds meanwhile, where it branches and
where it loops.  Any number of threads run such functions at any time, and their steps interleave in any
order.  `folly::RWSpinLock` is a dependency: `Step.acqR` and `Step.acqW` state what it promises (a reader
gets in when no writer is in, a writer when nobody is in; nobody may enter twice when one of the two is a
writer).
-/
namespace Nebula.Locks

/-- How data is accessed, and how a lock is held. -/
inductive Mode | rd | wr
  deriving DecidableEq, Repr

/-- What a function does with locks `L` and data `V`. -/
inductive Code (L V : Type)
  /-- nothing. -/
  | skip
  /-- one access to a datum. -/
  | acc (m : Mode) (v : V)
  /-- one after the other. -/
  | seq (a b : Code L V)
  /-- one of the two, as the branches and the early returns of the function decide. -/
  | alt (a b : Code L V)
  /-- a loop. -/
  | star (a : Code L V)
  /-- a block that holds a lock: `ReadHolder` / `WriteHolder` until the end of the scope. -/
  | hold (m : Mode) (l : L) (a : Code L V)

/-- One step of a thread. -/
inductive Act (L V : Type)
  | acq (m : Mode) (l : L)
  | rel (m : Mode) (l : L)
  | acc (m : Mode) (v : V)
  deriving DecidableEq

variable {L V F : Type}

/-- The sequences of steps a function can take. -/
inductive Run : Code L V → List (Act L V) → Prop
  | skip : Run .skip []
  | acc {m v} : Run (.acc m v) [.acc m v]
  | seq {a b t u} : Run a t → Run b u → Run (.seq a b) (t ++ u)
  | altL {a b t} : Run a t → Run (.alt a b) t
  | altR {a b t} : Run b t → Run (.alt a b) t
  | starNil {a} : Run (.star a) []
  | starCons {a t u} : Run a t → Run (.star a) u → Run (.star a) (t ++ u)
  | hold {m l a t} : Run a t → Run (.hold m l a) (.acq m l :: (t ++ [.rel m l]))

/-- The functions of a class, and which of them only its own background thread runs (thread 0). -/
structure System (L V F : Type) where
  body : F → Code L V
  own : F → Bool

/-- The locks each thread holds, the latest first, and what it has still to do. -/
structure State (L V : Type) where
  held : Nat → List (Mode × L)
  todo : Nat → List (Act L V)

/-- Before anything runs. -/
def init : State L V := ⟨fun _ => [], fun _ => []⟩

/-- Thread `i` now holds `h` and has still to do `t`. -/
def State.put (s : State L V) (i : Nat) (h : List (Mode × L)) (t : List (Act L V)) : State L V :=
  ⟨fun j => if j = i then h else s.held j, fun j => if j = i then t else s.todo j⟩

/-- A thread that has work takes its next step. -/
inductive Step [DecidableEq L] (s : State L V) : State L V → Prop
  | acqR {i l t} : s.todo i = .acq .rd l :: t → (∀ j, (Mode.wr, l) ∉ s.held j) →
      Step s (s.put i ((.rd, l) :: s.held i) t)
  | acqW {i l t} : s.todo i = .acq .wr l :: t → (∀ j m, (m, l) ∉ s.held j) →
      Step s (s.put i ((.wr, l) :: s.held i) t)
  | rel {i m l t} : s.todo i = .rel m l :: t → Step s (s.put i ((s.held i).erase (m, l)) t)
  | acc {i m v t} : s.todo i = .acc m v :: t → Step s (s.put i (s.held i) t)

/-- The states that threads running the functions `uses` can reach: an idle thread may begin any of them,
the background thread's own functions only on thread 0. -/
inductive Reach [DecidableEq L] (S : System L V F) (uses : F → Prop) : State L V → Prop
  | init : Reach S uses init
  | start {s i f t} : Reach S uses s → uses f → (S.own f = true → i = 0) → s.todo i = [] →
      Run (S.body f) t → Reach S uses (s.put i (s.held i) t)
  | step {s s'} : Reach S uses s → Step s s' → Reach S uses s'

/-! ## The specification -/

/-- A data race on `v`: two threads are both about to access it, and one of them writes. -/
def RaceOn (v : V) (s : State L V) : Prop :=
  ∃ i j m t u, i ≠ j ∧ s.todo i = .acc .wr v :: t ∧ s.todo j = .acc m v :: u

/-- No thread is in the middle of a function. -/
def Quiet (s : State L V) : Prop := ∀ i, s.todo i = [] ∧ s.held i = []

/-- Any number of steps of the threads that are at work, none of which begins anything new. -/
inductive Steps [DecidableEq L] : State L V → State L V → Prop
  | refl {s} : Steps s s
  | head {s t u} : Step s t → Steps t u → Steps s u

end Nebula.Locks
