import Verif.Latch.Model
/-!
# Specification of Latch and Barrier histories

Everything here is read off the history of calls and returns alone.
-/
namespace Nebula

/-- The event is a call that counted down. -/
def LatchEv.counts : LatchEv → Bool
  | .down _ | .downLast _ | .downBlock _ => true
  | _ => false

/-- How often the latch was counted down. -/
def latchDowns (h : List LatchEv) : Nat := h.countP LatchEv.counts

/-- The event ends a `wait` or `downWait`. -/
def LatchEv.endsWait : LatchEv → Bool
  | .downLast _ | .waitReturn _ | .wakeReturn _ => true
  | _ => false

/-- Thread `t` is inside `wait` or `downWait` after the history (given newest first). -/
def latchInside (t : Nat) : List LatchEv → Bool
  | [] => false
  | .downBlock u :: h | .waitBlock u :: h => if u = t then true else latchInside t h
  | .wakeReturn u :: h => if u = t then false else latchInside t h
  | _ :: h => latchInside t h

/-- The event is an arrival at the barrier. -/
def BarrierEv.arrives : BarrierEv → Bool
  | .block _ | .last _ | .lastThrow _ => true
  | _ => false

/-- How many arrivals there were. -/
def arrivals (h : List BarrierEv) : Nat := h.countP BarrierEv.arrives

/-- The completion callback was called in this event. -/
def BarrierEv.completes : BarrierEv → Bool
  | .last _ | .lastThrow _ => true
  | _ => false

/-- How often the completion callback was called. -/
def completions (h : List BarrierEv) : Nat := h.countP BarrierEv.completes

/-- If thread `t` is inside `wait` after the history (newest first): the number of its arrival, counted
over all threads from 0. -/
def barrierInside (t : Nat) : List BarrierEv → Option Nat
  | [] => none
  | .block u :: h => if u = t then some (arrivals h) else barrierInside t h
  | .wakeReturn u :: h => if u = t then none else barrierInside t h
  | _ :: h => barrierInside t h

/-- No callback threw. -/
def NoThrow (h : List BarrierEv) : Prop := ∀ t, .lastThrow t ∉ h

end Nebula
