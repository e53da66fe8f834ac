/-!
# How the wx backend takes messages of other threads

Source: `src/rotor/wx/supervisor_wx.cpp:32-45, 49-75`. The supervisors of one locality share the queue of their leader
(`supervisor.h:182`) and the event handler of one window toolkit thread; any number of other threads call `enqueue`.

wx: `CallAfter` may be called from any thread; the event loop runs the closures one at a time, in the order of the calls. A handler that runs a
nested event loop (a modal dialog) is not modelled. The event loop is supposed to run as long as there are closures.
-/

namespace Verif.WxLoop

/-- an entry of the queue of the locality: a message of another thread, or one of an actor of the locality -/
inductive Item where
  | outside (m : Nat)
  | inside (m : Nat)
deriving DecidableEq, Repr

/-- a closure given to `CallAfter` -/
inductive Job where
  /-- `enqueue`, lines 68-75 -/
  | put (m : Nat)
  /-- `start`, lines 49-55 -/
  | go
  /-- `shutdown`, lines 57-66: `do_shutdown` sends a message (`m`), unless the supervisor is shutting down already -/
  | down (m : Option Nat)
deriving DecidableEq, Repr

/-- `busy`: the loop is in `do_process` (`delivery.cpp:39-50`); `taken`: what has been dispatched so far, oldest first -/
structure State where
  busy : Bool
  queue : List Item
  taken : List Item
  pending : List Job

/-- the root supervisor has been initialized, which leaves messages in its queue, and `start` was called -/
def State.init (msgs : List Nat) : State := ⟨false, msgs.map .inside, [], [.go]⟩

inductive Label where
  /-- a thread calls `enqueue` -/
  | push (m : Nat)
  /-- any thread calls `shutdown` of a supervisor -/
  | down (m : Option Nat)
  /-- the loop runs the next closure -/
  | next
  /-- a timer expires, lines 32-45: its callback sends messages, then `do_process` -/
  | timer (ms : List Nat)
  /-- the first message of the queue is processed; the handlers send messages -/
  | dispatch (ms : List Nat)
  /-- `do_process` returns -/
  | done
deriving DecidableEq, Repr

def Job.items : Job → List Item
  | .put m => [.outside m]
  | .go => []
  | .down none => []
  | .down (some m) => [.inside m]

def step (σ : State) : Label → Option State
  | .push m => some { σ with pending := σ.pending ++ [.put m] }
  | .down m => some { σ with pending := σ.pending ++ [.down m] }
  | .next =>
    if σ.busy then none
    else match σ.pending with
      | [] => none
      | j :: js => some { σ with busy := true, pending := js, queue := σ.queue ++ j.items }
  | .timer ms => if σ.busy then none else some { σ with busy := true, queue := σ.queue ++ ms.map .inside }
  | .dispatch ms =>
    if σ.busy then
      match σ.queue with
      | [] => none
      | x :: q => some { σ with queue := q ++ ms.map .inside, taken := σ.taken ++ [x] }
    else none
  | .done => if σ.busy ∧ σ.queue = [] then some { σ with busy := false } else none

def run : State → List Label → Option State
  | σ, [] => some σ
  | σ, l :: ls => match step σ l with
    | none => none
    | some σ' => run σ' ls

/-- the messages of other threads -/
def outsiders : List Item → List Nat
  | [] => []
  | .outside m :: l => m :: outsiders l
  | .inside _ :: l => outsiders l

/-- in the order of the calls -/
def pushed : List Label → List Nat
  | [] => []
  | .push m :: l => m :: pushed l
  | _ :: l => pushed l

/-- those a closure carries -/
def carried : List Job → List Nat
  | [] => []
  | .put m :: l => m :: carried l
  | _ :: l => carried l

end Verif.WxLoop
