/-!
# Model of the timers of the thread backend

Sources: `src/rotor/thread/system_context_thread.cpp:83-126`, `src/rotor/thread/supervisor_thread.cpp:32-54`,
`src/rotor/actor_base.cpp:257-268` (`cancel_timer`, `on_timer_trigger`),
`include/rotor/supervisor.h:378-392` (`actor_base_t::start_timer`).

Simplifications: the `timers_map`s of all actors are one set of timer identities (identities are
unique, C13); intervals are non-negative; a rehash of `timers_map` while a callback runs is not
modelled.
-/

namespace Verif.ThreadTimers

/-- what user code does inside a handler or a timer callback -/
inductive Act where
  /-- takes time -/
  | work (d : Nat)
  /-- `start_timer(interval, ...)` -/
  | start (interval : Nat)
  /-- `cancel_timer(id)` -/
  | cancel (id : Nat)
deriving DecidableEq, Repr

/-- observable events, newest first in the log -/
inductive Ev where
  /-- `update_time` read the clock -/
  | updated (clock : Int)
  /-- the timer `id` was started at the time `clock` -/
  | started (id interval : Nat) (clock : Int)
  /-- the user asked to cancel the timer -/
  | cancelReq (id : Nat)
  /-- the callback of the timer was invoked -/
  | called (id : Nat) (cancelled : Bool) (clock : Int)
deriving DecidableEq, Repr

/-- the behaviour of all the callbacks: what they do may depend on everything that happened, and on
whether they are called while a blocking handler runs (`intercepting`) -/
abbrev Env := Bool → List Ev → List Act

/-- `system_context_thread_t` (`include/rotor/thread/system_context_thread.h:85-101`): `timer_nodes`
(identity and deadline), `now`, `intercepting`; `map` - identities in the actors' `timers_map`; the
real clock; the next identity; and, for the specification, the callbacks in progress and the log -/
structure State where
  nodes : List (Nat × Int)
  map : List Nat
  now : Int
  intercepting : Bool
  clock : Int
  next : Nat
  stack : List Nat
  log : List Ev
deriving DecidableEq, Repr

/-- outcomes other than normal completion -/
inductive Err where
  /-- failed assertion or undefined behaviour -/
  | fault
  /-- the user cancels a timer that is not pending: not allowed (`actor_base.cpp:258` asserts) -/
  | illegal
  /-- `cancel_timer` of a blocking handler does not find the timer, which was pending when it was
  called (`system_context_thread.cpp:122` asserts, and otherwise `it` is dereferenced); with what
  happened so far -/
  | notFound (id : Nat) (log : List Ev)
  | outOfFuel
deriving DecidableEq, Repr

/-- the search for the position and `insert` in `start_timer`, `system_context_thread.cpp:108-114` -/
def ins (x : Nat × Int) : List (Nat × Int) → List (Nat × Int)
  | [] => [x]
  | y :: r => if x.2 < y.2 then x :: y :: r else y :: ins x r

/-- `timer_nodes.erase(it)` for the node of timer `id` -/
def eraseNode (id : Nat) (l : List (Nat × Int)) : List (Nat × Int) := l.filter (fun x => x.1 != id)

/-- the node behind the one of timer `id` -/
def succOf (id : Nat) : List (Nat × Int) → Option Nat
  | [] => none
  | x :: r => if x.1 = id then r.head?.map (·.1) else succOf id r

/-- deadline of a node -/
def deadline? (id : Nat) (l : List (Nat × Int)) : Option Int := (l.find? (fun x => x.1 == id)).map (·.2)

/-- the library functions -/
inductive Cmd where
  | acts (l : List Act)
  | update
  | loop (cursor : Option Nat)
  | trigger (id : Nat) (cancelled : Bool)
deriving DecidableEq, Repr

/-- All of them in one function, with fuel, as callbacks may call back into the library.

* `acts`: the calls made by user code; `start` is `actor_base_t::start_timer`
  (`supervisor.h:378-392`) with `system_context_thread_t::start_timer` (104-115), `cancel` is
  `actor_base_t::cancel_timer` with `system_context_thread_t::cancel_timer` (117-126);
* `update`: `update_time` (94-102), `loop` its `while` loop with the iterator;
* `trigger`: `actor_base_t::on_timer_trigger` (`actor_base.cpp:262-268`).

In a blocking handler `start_timer` and `cancel_timer` update the time first (105-106, 118-119); the
events `started` and `cancelReq` are put into the log after that. -/
def exec : Nat → Env → Cmd → State → Except Err State
  | 0, _, _, _ => .error .outOfFuel
  | _ + 1, _, .acts [], s => .ok s
  | n + 1, env, .acts (.work d :: l), s => exec n env (.acts l) { s with clock := s.clock + d }
  | n + 1, env, .acts (.start iv :: l), s =>
    let id := s.next
    let s0 := { s with next := s.next + 1 }
    match (if s0.intercepting then exec n env .update s0 else .ok s0) with
    | .error e => .error e
    | .ok s1 => exec n env (.acts l) { s1 with
        log := .started id iv s.clock :: s1.log, nodes := ins (id, s1.now + iv) s1.nodes, map := id :: s1.map }
  | n + 1, env, .acts (.cancel id :: l), s =>
    if id ∉ s.map ∨ id ∈ s.stack then .error .illegal
    else
      match (if s.intercepting then exec n env .update s else .ok s) with
      | .error e => .error e
      | .ok s1 =>
        if deadline? id s1.nodes = none then .error (if s.intercepting then .notFound id s1.log else .fault)
        else match exec n env (.trigger id true) { s1 with log := .cancelReq id :: s1.log } with
          | .error e => .error e
          | .ok s2 =>
            if deadline? id s2.nodes = none then .error .fault
            else exec n env (.acts l) { s2 with nodes := eraseNode id s2.nodes }
  | n + 1, env, .update, s =>
    exec n env (.loop (s.nodes.head?.map (·.1))) { s with now := s.clock, log := .updated s.clock :: s.log }
  | _ + 1, _, .loop none, s => .ok s
  | n + 1, env, .loop (some id), s =>
    match deadline? id s.nodes with
    | none => .error .fault
    | some d =>
      if d < s.now then
        match exec n env (.trigger id false) s with
        | .error e => .error e
        | .ok s1 =>
          if deadline? id s1.nodes = none then .error .fault
          else exec n env (.loop (succOf id s1.nodes)) { s1 with nodes := eraseNode id s1.nodes }
      else .ok s
  | n + 1, env, .trigger id c, s =>
    if id ∉ s.map then .ok s
    else
      let s1 := { s with log := .called id c s.clock :: s.log, stack := id :: s.stack }
      match exec n env (.acts (env s.intercepting s1.log)) s1 with
      | .error e => .error e
      | .ok s2 =>
        if id ∉ s2.map then .error .fault
        else .ok { s2 with map := s2.map.erase id, stack := s2.stack.tail }

/-- what the event loop does: runs handlers, plain or tagged for blocking io, and updates the time -/
inductive Op where
  | handler (l : List Act)
  | io (l : List Act)
  | update
deriving DecidableEq, Repr

/-- `supervisor_thread_t::intercept` (`supervisor_thread.cpp:32-44`) with `check()`
(`system_context_thread.cpp:83-92`, only `update_time` matters here) -/
def stepOp (n : Nat) (env : Env) (s : State) : Op → Except Err State
  | .handler l => exec n env (.acts l) s
  | .update => exec n env .update s
  | .io l =>
    match exec n env .update { s with intercepting := true } with
    | .error e => .error e
    | .ok s1 => match exec n env (.acts l) s1 with
      | .error e => .error e
      | .ok s2 => exec n env .update { s2 with intercepting := false }

def run (n : Nat) (env : Env) (s : State) : List Op → Except Err State
  | [] => .ok s
  | op :: ops => match stepOp n env s op with
    | .error e => .error e
    | .ok s' => run n env s' ops

/-- constructor of the context, `system_context_thread.cpp:36` -/
def State.init (clock : Int) : State := ⟨[], [], clock, false, clock, 1, [], [.updated clock]⟩

end Verif.ThreadTimers
