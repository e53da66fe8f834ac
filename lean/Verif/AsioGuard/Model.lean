/-!
# Model of `guard_context`: when `io_context::run` returns

Sources: `src/rotor/asio/supervisor_asio.cpp` (constructor 29-34, `start` 38, `shutdown` 40, `do_start_timer` 42-67, `do_cancel_timer` 69-79,
`enqueue` 81-91, `shutdown_finish` 93-97, `do_process` 105-133), `include/rotor/asio/supervisor_config_asio.h:31-34, 64-68`,
`include/rotor/asio/supervisor_asio.h:113-126`.

One `io_context` with any number of supervisors in any number of localities (a locality has one strand), any number of threads in `run` and any
number of other threads. From boost.asio the model takes: every deferred closure, every `async_wait` and every work guard counts as a piece of work
from its creation to the end of its handler (of the guard: to its destruction); the loop is stopped when the last piece ends, and `run` returns when
the loop is stopped or finds no work; a stopped loop calls no handlers (nobody calls `restart`); the closures of a strand are called one after the
other, in the order of the `defer`s.

Simplifications:
* what happens inside a closure is a choice: any labels in between its `begin` and its `ended`;
* the queue of the locality (`leader_queue`) and the dispatch of its messages are left out: `Verif.AsioLoop`;
* a supervisor reaches `shutdown_finish` at any time in some closure: when it does so is the matter of `Verif.Lifecycle` and `Verif.SupTeardown`;
* a supervisor may be destroyed at any time: that references keep it alive is the matter of `Verif.SupRefs`.
-/

namespace Verif.AsioGuard

/-- a handler that the `io_context` has to call -/
inductive Handler where
  /-- a closure with `do_process`, lines 87-90 and 38, in the strand of locality `l` -/
  | wake (l : Nat)
  /-- any other closure without it: `shutdown` (line 40), forwarded calls (`forwarder.hpp:130-217`) -/
  | call (l : Nat)
  /-- the inner closure of a timer, lines 53-63 -/
  | timer (l id : Nat)
  /-- the outer handler of a timer, lines 50-65; `ok`: `!ec`. It is not in the strand. -/
  | waited (l id : Nat) (ok : Bool)
deriving DecidableEq, Repr

/-- the strand of a handler -/
def Handler.strand? : Handler → Option Nat
  | .wake l | .call l | .timer l _ => some l
  | .waited _ _ _ => none

structure State where
  /-- the supervisors with a `guard`, `supervisor_asio.h:126` -/
  guards : List Nat
  /-- the counter of `io_context`: pieces of work -/
  work : Nat
  stopped : Bool
  /-- some thread has called `run` -/
  called : Bool
  /-- handlers to be called, in the order of `defer` -/
  pending : List Handler
  /-- `async_wait`s of timers that have neither expired nor been cancelled: locality and request id -/
  waits : List (Nat × Nat)
  /-- `timers_map` -/
  timers : List (Nat × Nat)
  /-- closures that have begun: the locality, and whether the first loop of `do_process` (lines 114-116) is still to find the queue empty -/
  running : List (Nat × Bool)
  /-- the messages in the `inbound_queue`s of the leaders: locality and message, the oldest first -/
  inbound : List (Nat × Nat)
  /-- thread `i` is in `enqueue` for this locality, between lines 84 and 87 -/
  threads : Nat → Option Nat
  /-- supervisors that exist or existed, and whether they were made with `guard_context` (for the properties only) -/
  made : List (Nat × Bool)
  /-- supervisors that have been through `shutdown_finish` or were destroyed (for the properties only) -/
  over : List Nat

def State.init : State where
  guards := []
  work := 0
  stopped := false
  called := false
  pending := []
  waits := []
  timers := []
  running := []
  inbound := []
  threads := fun _ => none
  made := []
  over := []

def upd {α : Type} (f : Nat → α) (i : Nat) (v : α) : Nat → α := fun j => if j = i then v else f j

/-- boost.asio: one more piece of work -/
def started (σ : State) : State := { σ with work := σ.work + 1 }

/-- boost.asio: a piece of work ends; the last one stops the loop -/
def finished (σ : State) : State :=
  { σ with work := σ.work - 1, stopped := σ.stopped || σ.work - 1 == 0 }

/-- `asio::defer` -/
def defer (h : Handler) (σ : State) : State := started { σ with pending := σ.pending ++ [h] }

/-- `if (guard) guard.reset();`, lines 94-95; the destructor does the same -/
def resetGuard (s : Nat) (σ : State) : State :=
  if s ∈ σ.guards then finished { σ with guards := σ.guards.erase s } else σ

/-- boost.asio: the wait of a timer is cancelled, by `timer->cancel(ec)` (line 72) or as the timer is destroyed (lines 61, 76): the handler is called
with an error, unless the wait is over -/
def cancelWait (l id : Nat) (σ : State) : State :=
  if (l, id) ∈ σ.waits then { σ with waits := σ.waits.erase (l, id), pending := σ.pending ++ [.waited l id false] } else σ

/-- `timers_map.erase(timer_id)`, lines 61, 76 -/
def eraseTimer (l id : Nat) (σ : State) : State := cancelWait l id { σ with timers := σ.timers.erase (l, id) }

inductive Label where
  /-- a thread calls `io_context::run` -/
  | run
  /-- the constructor, lines 29-34; `g`: `config_.guard_context` -/
  | create (s : Nat) (g : Bool)
  /-- thread `i` calls `enqueue`: line 84 -/
  | push (l i m : Nat)
  /-- .. lines 86-90 -/
  | defer (i : Nat)
  /-- `start`, line 38 -/
  | start (l : Nat)
  /-- `shutdown`, line 40, or a forwarded call -/
  | call (l : Nat)
  /-- the loop takes the `n`-th handler -/
  | begin (n : Nat)
  /-- in the closure of locality `l`: `inbound.pop(ptr)` -/
  | pop (l : Nat)
  /-- in the closure of locality `l`: `do_start_timer` -/
  | startTimer (l id : Nat)
  /-- in the closure of locality `l`: `do_cancel_timer` -/
  | cancelTimer (l id : Nat)
  /-- the time of the `n`-th wait has come -/
  | expire (n : Nat)
  /-- in some closure: `shutdown_finish` of supervisor `s`, lines 93-97 -/
  | finish (s : Nat)
  /-- the destructor of supervisor `s`: `guard` is a `std::unique_ptr` -/
  | destroy (s : Nat)
  /-- the closure of locality `l` returns -/
  | ended (l : Nat)
deriving DecidableEq, Repr

/-- the `n`-th handler may be called: it is in no strand, or the first one of a strand that is not busy -/
def ready (σ : State) (n : Nat) (h : Handler) : Bool :=
  match h.strand? with
  | none => true
  | some l => !((σ.pending.take n).any fun h' => h'.strand? == some l) && !(σ.running.any fun r => r.1 == l)

/-- the beginning of a handler that has been taken off the list -/
def enter (σ : State) : Handler → State
  | .wake l => { σ with running := σ.running ++ [(l, true)] }
  | .call l => { σ with running := σ.running ++ [(l, false)] }
  -- lines 56-62: nothing happens if the timer is not in the map
  | .timer l id =>
    if (l, id) ∈ σ.timers then eraseTimer l id { σ with running := σ.running ++ [(l, true)] }
    else { σ with running := σ.running ++ [(l, false)] }
  -- lines 52-64, and the handler is over
  | .waited l id ok => if ok then finished (defer (.timer l id) σ) else finished σ

def step (σ : State) : Label → Option State
  | .run => some { σ with called := true, stopped := σ.stopped || σ.work == 0 }
  | .create s g =>
    if σ.made.any (fun p => p.1 == s) then none
    else
      let σ := { σ with made := σ.made ++ [(s, g)] }
      some (if g then started { σ with guards := σ.guards ++ [s] } else σ)
  | .push l i m =>
    match σ.threads i with
    | none => some { σ with inbound := σ.inbound ++ [(l, m)], threads := upd σ.threads i (some l) }
    | some _ => none
  | .defer i =>
    match σ.threads i with
    | some l => some (defer (.wake l) { σ with threads := upd σ.threads i none })
    | none => none
  | .start l => some (defer (.wake l) σ)
  | .call l => some (defer (.call l) σ)
  | .begin n =>
    match σ.pending[n]? with
    | some h =>
      if σ.called && !σ.stopped && ready σ n h then some (enter { σ with pending := σ.pending.eraseIdx n } h) else none
    | none => none
  | .pop l =>
    if σ.inbound.any (fun p => p.1 == l) then
      if σ.running.any (fun r => r.1 == l) then some { σ with inbound := σ.inbound.eraseP fun p => p.1 == l } else none
    else if (l, true) ∈ σ.running then some { σ with running := σ.running.map fun r => if r.1 = l then (l, false) else r }
    else none
  | .startTimer l id =>
    if σ.running.any (fun r => r.1 == l) && !((l, id) ∈ σ.timers) then
      some (started { σ with waits := σ.waits ++ [(l, id)], timers := σ.timers ++ [(l, id)] })
    else none
  | .cancelTimer l id =>
    if σ.running.any (fun r => r.1 == l) && ((l, id) ∈ σ.timers) then
      some (eraseTimer l id (cancelWait l id σ))
    else none
  | .expire n =>
    match σ.waits[n]? with
    | some (l, id) => some { σ with waits := σ.waits.eraseIdx n, pending := σ.pending ++ [.waited l id true] }
    | none => none
  | .finish s =>
    if σ.running ≠ [] ∧ (σ.made.any (fun p => p.1 == s)) then some (resetGuard s { σ with over := s :: σ.over }) else none
  | .destroy s =>
    if σ.made.any (fun p => p.1 == s) then some (resetGuard s { σ with over := s :: σ.over }) else none
  | .ended l => if (l, false) ∈ σ.running then some (finished { σ with running := σ.running.erase (l, false) }) else none

def run (σ : State) : List Label → Option State
  | [] => some σ
  | l :: ls =>
    match step σ l with
    | none => none
    | some σ' => run σ' ls

end Verif.AsioGuard
