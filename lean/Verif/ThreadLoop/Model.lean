/-!
# Model of the event loop of the thread backend and of the threads that send to it

Sources: `src/rotor/thread/system_context_thread.cpp:38-81` (`run`),
`src/rotor/thread/supervisor_thread.cpp:25-30` (`enqueue`).

Interleaving semantics with atomic steps: operations of the lock-free queue, of the mutex, of the
condition variable, and the thread-local code in between.  Simplifications: a message is a number; that the
root supervisor shuts down is a choice of the handlers and of the timer callbacks.
-/

namespace Verif.ThreadLoop

/-- position of the loop in `run` -/
inductive Pc where
  /-- `root_sup.do_process()`, line 56 -/
  | process
  /-- `try_pop_inbound()`, line 58 -/
  | pop
  /-- the polling stage, lines 59-68, until the given time -/
  | spin (until_ : Int)
  /-- `if (queue.empty())`, line 69 -/
  | decide
  /-- `std::unique_lock lock(mutex)`, line 71 -/
  | lock
  /-- holding the mutex: the deadline is computed and the predicate checked, lines 72-75 -/
  | check
  /-- still holding the mutex, the predicate was false: about to wait; unlocking and falling asleep is one step of the condition variable -/
  | wait (deadline : Int)
  /-- waiting at the condition variable until the deadline; `notified` if it was notified -/
  | asleep (deadline : Int) (notified : Bool)
  /-- woken up (`timeout`: because the deadline has passed), acquiring the mutex again -/
  | relock (deadline : Int) (timeout : Bool)
  /-- holding the mutex again: the predicate is checked, unless the deadline has passed -/
  | recheck (deadline : Int) (timeout : Bool)
  /-- `update_time()`, line 77 -/
  | update
  /-- the last `root_sup.do_process()`, line 80 -/
  | last
  /-- `run` has returned -/
  | returned
deriving DecidableEq, Repr

/-- position of a sending thread in `enqueue` -/
inductive Ppc where
  | idle
  /-- pushed, line 27, about to lock the mutex -/
  | pushed
  /-- holding the mutex, line 28, about to notify -/
  | locked
  /-- notified, line 29, about to unlock -/
  | notified
deriving DecidableEq, Repr

/-- who holds the mutex -/
inductive Owner where
  | nobody | loop | thread (i : Nat)
deriving DecidableEq, Repr

/-- a message in the queue of the locality: sent by other threads, or by the locality itself -/
inductive Msg where
  | outside (m : Nat) | inside (m : Nat)
deriving DecidableEq, Repr

/-- `inbound`: the inbound queue of the root supervisor; `nested k`: the one of the nested supervisor
`k` (every `supervisor_t` has its own, `include/rotor/supervisor.h:298`); `queue`: the queue of the
locality; `taken`: what was dispatched; `timers`: the deadlines of the pending timers; `down`: the state of
the root supervisor is SHUT_DOWN (`condition` of line 41 is its negation) -/
structure State where
  pc : Pc
  inbound : List Nat
  nested : Nat → List Nat
  queue : List Msg
  taken : List Msg
  mutex : Owner
  threads : Nat → Ppc
  timers : List Int
  clock : Int
  down : Bool

/-- choices of the environment -/
inductive Label where
  /-- the loop makes a step; handlers and timer callbacks leave behind the messages `msgs` and the
  timers `timers`, and may shut down the root supervisor (`stop`); `spurious`: a wake-up without a reason -/
  | loop (msgs : List Nat) (timers : List Int) (spurious stop : Bool)
  /-- thread `i` starts sending `m` to the root supervisor (`none`) or a nested one -/
  | push (i m : Nat) (dest : Option Nat)
  /-- thread `i` goes on -/
  | thread (i : Nat)
  /-- time passes -/
  | tick (d : Nat)
deriving DecidableEq, Repr

/-- the earliest deadline: `timer_nodes.front().deadline` (the list is ordered, `Verif.ThreadTimers`) -/
def front : List Int → Option Int
  | [] => none
  | t :: ts => match front ts with
    | none => some t
    | some u => some (if t ≤ u then t else u)

/-- line 74: the front deadline, or one minute (60000 ms) from now -/
def waitDeadline (clock : Int) (timers : List Int) : Int := (front timers).getD (clock + 60000)

/-- lines 60-63; `poll`: the configured `poll_duration` -/
def spinDeadline (poll clock : Int) (timers : List Int) : Int :=
  match front timers with
  | none => clock + poll
  | some d => if d < clock + poll then d else clock + poll

/-- a step of the loop; `none`: not possible now -/
def loopStep (poll : Int) (s : State) (msgs : List Nat) (timers : List Int) (spurious stop : Bool) : Option State :=
  match s.pc with
  | .process => some { s with pc := if s.down || stop then .last else .pop, queue := [], taken := s.taken ++ s.queue, timers := timers, down := s.down || stop }
  | .pop => match s.inbound with
    | m :: r => some { s with inbound := r, queue := s.queue ++ [.outside m] }
    | [] => if poll ≠ 0 ∧ s.queue = [] then some { s with pc := .spin (spinDeadline poll s.clock s.timers) }
            else some { s with pc := .decide }
  | .spin u => match s.inbound with
    | m :: r => if s.queue = [] ∧ ¬ s.clock < u then some { s with pc := .decide }
                else some { s with inbound := r, queue := s.queue ++ [.outside m] }
    | [] => if s.queue = [] ∧ s.clock < u then some s else some { s with pc := .decide }
  | .decide => some { s with pc := if s.queue = [] then .lock else .update }
  | .lock => if s.mutex = .nobody then some { s with pc := .check, mutex := .loop } else none
  | .check =>
    if s.inbound ≠ [] then some { s with pc := .update, mutex := .nobody }
    else some { s with pc := .wait (waitDeadline s.clock s.timers) }
  | .wait d => some { s with pc := .asleep d false, mutex := .nobody }
  | .asleep d n =>
    if n then some { s with pc := .relock d false }
    else if d ≤ s.clock then some { s with pc := .relock d true }
    else if spurious then some { s with pc := .relock d false }
    else none
  | .relock d t => if s.mutex = .nobody then some { s with pc := .recheck d t, mutex := .loop } else none
  | .recheck d t =>
    if s.inbound ≠ [] ∨ t = true then some { s with pc := .update, mutex := .nobody }
    else some { s with pc := .wait d }
  | .update => some { s with pc := if s.down || stop then .last else .process, queue := s.queue ++ msgs.map .inside, timers := timers, down := s.down || stop }
  | .last => some { s with pc := .returned, queue := [], taken := s.taken ++ s.queue, timers := timers }
  | .returned => none

/-- `f` with the value at `i` replaced -/
def upd {α : Type} (f : Nat → α) (i : Nat) (v : α) : Nat → α := fun j => if j = i then v else f j

/-- `supervisor_thread_t::enqueue`, line 27: pushes to the inbound queue of the supervisor the message
is for -/
def pushStep (s : State) (i m : Nat) (dest : Option Nat) : Option State :=
  if s.threads i = .idle then
    match dest with
    | none => some { s with inbound := s.inbound ++ [m], threads := upd s.threads i .pushed }
    | some k => some { s with nested := upd s.nested k (s.nested k ++ [m]), threads := upd s.threads i .pushed }
  else none

/-- the rest of `enqueue`, lines 28-30: lock, notify, unlock -/
def threadStep (s : State) (i : Nat) : Option State :=
  match s.threads i with
  | .idle => none
  | .pushed => if s.mutex = .nobody then some { s with mutex := .thread i, threads := upd s.threads i .locked } else none
  | .locked =>
    some { s with threads := upd s.threads i .notified,
                  pc := match s.pc with | .asleep d _ => .asleep d true | p => p }
  | .notified => some { s with mutex := .nobody, threads := upd s.threads i .idle }

def step (poll : Int) (s : State) : Label → Option State
  | .loop ms ts sp st => loopStep poll s ms ts sp st
  | .push i m d => pushStep s i m d
  | .thread i => threadStep s i
  | .tick d => some { s with clock := s.clock + d }

def run (poll : Int) (s : State) : List Label → Option State
  | [] => some s
  | l :: ls => match step poll s l with
    | none => none
    | some s' => run poll s' ls

def State.init (clock : Int) : State := ⟨.process, [], fun _ => [], [], [], .nobody, fun _ => .idle, [], clock, false⟩

end Verif.ThreadLoop
