/-!
# Model of the timers of the event loop backends

Sources: `src/rotor/asio/supervisor_asio.cpp:42-79`, `src/rotor/ev/supervisor_ev.cpp:39-56, 92-116`,
`src/rotor/fltk/supervisor_fltk.cpp:32-76`, `src/rotor/wx/supervisor_wx.cpp:32-45, 77-95`,
`src/rotor/actor_base.cpp:257-268` (`cancel_timer`, `on_timer_trigger`),
`include/rotor/supervisor.h:378-392` (`actor_base_t::start_timer`).

The event loops themselves are represented by the set of armed timers: an armed timer may expire at
any moment, a stopped one does not. In asio an expiry only posts a closure to the strand, and the
closures already posted can not be taken back.

Simplifications: the `timers_map`s of all actors of one supervisor are one set of identities
(identities are unique, C13); a rehash of the actor's `timers_map` while a callback runs (which
invalidates the iterator kept by `on_timer_trigger`) is not modelled; time is not modelled.
-/

namespace Verif.LoopTimers

inductive Kind where
  | asio | ev | fltk | wx
deriving DecidableEq, Repr

/-- what user code does inside a handler or a timer callback -/
inductive Act where
  /-- `start_timer(interval, ...)` -/
  | start
  /-- `cancel_timer(id)` -/
  | cancel (id : Nat)
deriving DecidableEq, Repr

/-- observable events, newest first in the log -/
inductive Ev where
  | started (id : Nat)
  /-- the user cancels the timer -/
  | cancelReq (id : Nat)
  /-- the callback of the timer is invoked -/
  | called (id : Nat) (cancelled : Bool)
deriving DecidableEq, Repr

/-- the behaviour of all the callbacks: what they do may depend on everything that happened -/
abbrev Env := List Ev → List Act

/-- `table` - keys of the supervisor's `timers_map`; `map` - keys of the actors' `timers_map`;
`armed` - timers the event loop will fire; `posted` - (asio) closures deferred to the strand;
`aborted` - (asio) completion handlers that will be invoked with an error; `refs` - references to
the supervisor held on behalf of timers; `stack` - callbacks in progress (for the specification) -/
structure State where
  table : List Nat
  map : List Nat
  armed : List Nat
  posted : List Nat
  aborted : List Nat
  refs : Nat
  next : Nat
  stack : List Nat
  log : List Ev
deriving DecidableEq, Repr

def State.init : State := ⟨[], [], [], [], [], 0, 0, [], []⟩

/-- outcomes other than normal completion -/
inductive Err where
  /-- exception leaving a `noexcept` function or undefined behaviour (a dangling timer or handler) -/
  | fault
  /-- the user cancels a timer that is not pending: not allowed (`actor_base.cpp:258` asserts) -/
  | illegal
  | outOfFuel
deriving DecidableEq, Repr

/-- removal of a key -/
def without (id : Nat) (l : List Nat) : List Nat := l.filter (· ≠ id)

/-- references to the supervisor taken by `do_start_timer`: asio - `self` in the completion handler
(`supervisor_asio.cpp:48-50`), ev - `intrusive_ptr_add_ref` (`supervisor_ev.cpp:101`), fltk - the
pointer in `timer_t` and `intrusive_ptr_add_ref` (`supervisor_fltk.cpp:57-62`), wx - the pointer in
`timer_t` (`supervisor_wx.cpp:78-79`) -/
def perTimer : Kind → Nat
  | .asio => 1
  | .ev => 1
  | .fltk => 2
  | .wx => 1

/-- `do_start_timer` (asio 42-67, ev 92-103, fltk 56-63, wx 77-83) and the `emplace` of
`actor_base_t::start_timer` (`supervisor.h:384`) -/
def startTimer (k : Kind) (s : State) : State :=
  let id := s.next
  { s with next := id + 1, table := id :: s.table, map := id :: s.map, armed := id :: s.armed,
           refs := s.refs + perTimer k, log := .started id :: s.log }

/-- `timer->cancel(ec)` (asio 72), `ev_timer_stop` (108), `Fl::remove_timeout` (68), `Stop` (88):
an asio timer still waiting has its handler invoked later with an error -/
def disarm (k : Kind) (id : Nat) (s : State) : State :=
  if k = .asio ∧ id ∈ s.armed then { s with armed := without id s.armed, aborted := id :: s.aborted }
  else { s with armed := without id s.armed }

/-- `timers_map.erase(timer_id)` followed (ev, fltk) by `intrusive_ptr_release`; destroying a timer
object the event loop still points to is an error (asio: the destructor cancels) -/
def dropTimer (k : Kind) (id : Nat) (s : State) : Except Err State :=
  if id ∈ s.armed ∧ k ≠ .asio then .error .fault
  else .ok { s with table := without id s.table, refs := if k = .asio then s.refs else s.refs - perTimer k }

/-- the library functions -/
inductive Cmd where
  | acts (l : List Act)
  | cancel (id : Nat)
  | fire (id : Nat)
  | trigger (id : Nat) (cancelled : Bool)
deriving DecidableEq, Repr

/-- All of them in one function, with fuel, as callbacks may call back into the library.

* `acts`: the calls made by user code, with the assertion of `cancel_timer` (`actor_base.cpp:258`);
  cancelling a timer from within its own callback is not allowed either;
* `cancel`: `do_cancel_timer` (asio 69-79 throws if the timer is unknown; ev 105-116, fltk 65-76 and
  wx 85-95 ignore that);
* `fire`: the deferred closure (asio 53-63), `timer_cb` (ev 39-56), `on_timeout` (fltk 32-49),
  `Notify` (wx 32-45): all but asio reach the identity through the timer and its handler;
* `trigger`: `actor_base_t::on_timer_trigger` (262-268). -/
def exec : Nat → Kind → Env → Cmd → State → Except Err State
  | 0, _, _, _, _ => .error .outOfFuel
  | _ + 1, _, _, .acts [], s => .ok s
  | n + 1, k, env, .acts (.start :: l), s => exec n k env (.acts l) (startTimer k s)
  | n + 1, k, env, .acts (.cancel id :: l), s =>
    if id ∉ s.map ∨ id ∈ s.stack then .error .illegal
    else match exec n k env (.cancel id) s with
      | .error e => .error e
      | .ok s1 => exec n k env (.acts l) s1
  | n + 1, k, env, .cancel id, s =>
    if id ∉ s.table then (if k = .asio then .error .fault else .ok s)
    else if id ∉ s.map then .error .fault
    else match exec n k env (.trigger id true) { disarm k id s with log := .cancelReq id :: s.log } with
      | .error e => .error e
      | .ok s1 => dropTimer k id s1
  | n + 1, k, env, .fire id, s =>
    if id ∉ s.table then (if k = .asio then .ok s else .error .fault)
    else if id ∉ s.map then .error .fault
    else match exec n k env (.trigger id false) s with
      | .error e => .error e
      | .ok s1 => dropTimer k id s1
  | n + 1, k, env, .trigger id c, s =>
    if id ∉ s.map then .ok s
    else
      let log := .called id c :: s.log
      match exec n k env (.acts (env log)) { s with stack := id :: s.stack, log := log } with
      | .error e => .error e
      | .ok s1 => .ok { s1 with stack := s.stack, map := without id s1.map }

/-- what happens around the library: handlers of actors run, armed timers expire, the strand runs a
closure -/
inductive Op where
  | user (l : List Act)
  | expire (id : Nat)
  | runPosted (id : Nat)
  | runAborted (id : Nat)
deriving DecidableEq, Repr

/-- one of them; those that can not happen now leave the state as it is. In asio the completion
handler (`supervisor_asio.cpp:50-65`) posts a closure, which holds the reference from then on until
it has run and is destroyed. -/
def step (fuel : Nat) (k : Kind) (env : Env) (s : State) : Op → Except Err State
  | .user l => exec fuel k env (.acts l) s
  | .expire id =>
    if id ∈ s.armed then
      let s1 := { s with armed := without id s.armed }
      if k = .asio then .ok { s1 with posted := id :: s.posted } else exec fuel k env (.fire id) s1
    else .ok s
  | .runPosted id =>
    if id ∈ s.posted then
      match exec fuel k env (.fire id) s with
      | .error e => .error e
      | .ok s1 => .ok { s1 with posted := s1.posted.erase id, refs := s1.refs - 1 }
    else .ok s
  | .runAborted id =>
    if id ∈ s.aborted then .ok { s with aborted := s.aborted.erase id, refs := s.refs - 1 } else .ok s

def run (fuel : Nat) (k : Kind) (env : Env) : State → List Op → Except Err State
  | s, [] => .ok s
  | s, op :: l =>
    match step fuel k env s op with
    | .error e => .error e
    | .ok s1 => run fuel k env s1 l

end Verif.LoopTimers
