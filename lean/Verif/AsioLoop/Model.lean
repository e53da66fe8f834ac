/-!
# Model of a locality of the boost.asio backend and of the threads that send to it

Sources: `src/rotor/asio/supervisor_asio.cpp` (`enqueue` 81-91, `do_process` 105-133, the timer 50-65, `start` 38, `shutdown` 40),
`include/rotor/asio/forwarder.hpp:130-217`.

Any number of sending threads; the supervisors of a locality have the same strand (`make_address`, line 36; `Verif.Locality`). Atomic steps are
the operations of the lock-free queue, `defer`, the dispatch of one message and the thread-local code in between. The strand runs one closure
after the other, in the order of the `defer`s.

Simplifications:
* how long `do_process` polls for messages, and whether it does, is a choice: `poll_duration`, the time, and what `do_process` of the base class
  returns are not modelled;
* what handlers, forwarded calls and timer callbacks do is a choice: the messages they leave behind in the locality; messages to the own locality by
  `enqueue` are those of one more thread;
* a timer that is not in the map any more (line 57) does nothing: left out.
-/

namespace Verif.AsioLoop

inductive Item where
  | outside (m : Nat)
  | inside (m : Nat)
deriving DecidableEq, Repr

/-- a closure in the strand -/
inductive Job where
  /-- `do_process`, lines 87-90 and 38 -/
  | wake
  /-- a timer, lines 53-63: the callback, then `do_process` -/
  | timer
  /-- a forwarded call, `forwarder.hpp:135-143` and the like: the handler, then `do_process` of the base class -/
  | call
deriving DecidableEq, Repr

/-- where the strand is -/
inductive Pc where
  | idle
  /-- in `while (inbound.pop(ptr))`, lines 114-116 -/
  | moving
  /-- in `do_process` of the base class, lines 118, 130; `last`: nothing follows -/
  | proc (last : Bool)
  /-- in the loop of lines 124-128 -/
  | polling
deriving DecidableEq, Repr

structure State where
  pc : Pc
  inbound : List Nat
  queue : List Item
  taken : List Item
  strand : List Job
  /-- the threads between `push` and `defer`, lines 84-87 -/
  threads : Nat → Bool

def upd {α : Type} (f : Nat → α) (i : Nat) (v : α) : Nat → α := fun j => if j = i then v else f j

/-- the root supervisor has been initialized, which leaves messages in its queue, and `start` was called (line 38) -/
def State.init (msgs : List Nat) : State where
  pc := .idle
  inbound := []
  queue := msgs.map .inside
  taken := []
  strand := [.wake]
  threads := fun _ => false

inductive Label where
  /-- thread `i` calls `enqueue`: line 84 -/
  | push (i m : Nat)
  /-- .. lines 87-90 -/
  | defer (i : Nat)
  /-- somebody defers a closure: `start`, a timer, a forwarded call -/
  | post (j : Job)
  /-- the strand begins with its next closure; the callback or call leaves messages behind -/
  | begin (msgs : List Nat)
  | pop
  /-- in `polling`: the loop is left because of the time or a message -/
  | leave
  /-- one message is dispatched, its handlers leave messages behind -/
  | dispatch (msgs : List Nat)
  /-- the queue is empty: `do_process` of the base class returns; `poll`: lines 122-123 -/
  | return (poll : Bool)
deriving DecidableEq, Repr

def step (σ : State) : Label → Option State
  | .push i m => if σ.threads i = false then some { σ with inbound := σ.inbound ++ [m], threads := upd σ.threads i true } else none
  | .defer i => if σ.threads i = true then some { σ with strand := σ.strand ++ [.wake], threads := upd σ.threads i false } else none
  | .post j => some { σ with strand := σ.strand ++ [j] }
  | .begin msgs =>
    match σ.pc, σ.strand with
    | .idle, .wake :: js => some { σ with pc := .moving, strand := js }
    | .idle, .timer :: js => some { σ with pc := .moving, strand := js, queue := σ.queue ++ msgs.map .inside }
    | .idle, .call :: js => some { σ with pc := .proc true, strand := js, queue := σ.queue ++ msgs.map .inside }
    | _, _ => none
  | .pop =>
    match σ.inbound with
    | m :: l =>
      match σ.pc with
      | .moving | .polling => some { σ with inbound := l, queue := σ.queue ++ [.outside m] }
      | _ => none
    | [] =>
      match σ.pc with
      | .moving => some { σ with pc := if σ.queue = [] then .idle else .proc false }
      | .polling => some σ
      | _ => none
  | .leave => if σ.pc = .polling then some { σ with pc := if σ.queue = [] then .idle else .proc true } else none
  | .dispatch msgs =>
    match σ.pc, σ.queue with
    | .proc _, x :: q => some { σ with queue := q ++ msgs.map .inside, taken := σ.taken ++ [x] }
    | _, _ => none
  | .return poll =>
    match σ.pc, σ.queue with
    | .proc last, [] => some { σ with pc := if poll && !last then .polling else .idle }
    | _, _ => none

def run (σ : State) : List Label → Option State
  | [] => some σ
  | l :: ls =>
    match step σ l with
    | none => none
    | some σ' => run σ' ls

end Verif.AsioLoop
