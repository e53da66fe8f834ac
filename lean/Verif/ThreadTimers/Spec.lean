import Verif.ThreadTimers.Model

/-! # What timers promise, in terms of the log (newest event first) -/

namespace Verif.ThreadTimers

/-- the time of the event loop: the last clock reading -/
def loopTime : List Ev → Int
  | [] => 0
  | .updated c :: _ => c
  | _ :: r => loopTime r

/-- when the timer is due: the interval, counted from the time of the event loop at its start -/
def due (id : Nat) : List Ev → Option Int
  | [] => none
  | .started id' iv _ :: r => if id' = id then some (loopTime r + iv) else due id r
  | _ :: r => due id r

/-- number of invocations of the callback of a timer -/
def callCount (id : Nat) : List Ev → Nat
  | [] => 0
  | .called id' _ _ :: r => (if id' = id then 1 else 0) + callCount id r
  | _ :: r => callCount id r

/-- the timers that fired (not: were cancelled), newest first -/
def firedIds : List Ev → List Nat
  | [] => []
  | .called id false _ :: r => id :: firedIds r
  | _ :: r => firedIds r

/-- the timer was started -/
def Started (log : List Ev) (id : Nat) : Prop := ∃ iv c, Ev.started id iv c ∈ log

end Verif.ThreadTimers
