import Verif.Basic.AMap
/-!
# Taking back the request for initialization

Sources: `src/rotor/plugin/child_manager.cpp:93-164, 202-208, 312-333, 379-409`, `src/rotor/supervisor.cpp:53-59, 121-144`,
`include/rotor/supervisor.h:336-344, 379-392, 513-541, 543-561`, `src/rotor/actor_base.cpp:97-101, 126-145, 257-268`,
`src/rotor/plugin/init_shutdown.cpp:40-47`.

A supervisor asks each child to initialize itself, by a request with a timeout; a root supervisor asks itself. When the
initialization is not wanted any more, because the child is to be shut down or is gone, the child manager takes the request back
(`cancel_init`): it reads the identifier of the request from the message that the child holds and, if it has a timer of this number,
discards the request. The number was drawn by the supervisor that has sent the request, which for the supervisor itself is its
parent (`request_shutdown`, line 385, calls `cancel_init` before it looks whose shutdown it is); numbers are drawn from a counter
of the locality.

Simplifications:
* the counter is unbounded; that numbers of requests in use are skipped after an overflow is C13;
* of the messages only the requests for initialization are kept; that a response is there is an oracle (`response`), as it is that
  a timer expires (`expire`). Which of them comes, and how often, is left open; C09 and C10 are about this;
* a child holds the message until it answers (`actor_base.cpp:97-101`, `child_manager.cpp:112-114`). `cancel_init` reads this field of the
  child, which may run in another thread, at once;
* an actor is created once; a spawner creates another one;
* timers of actors that are no supervisors are kept by the actors; they only use up numbers (`number`).
-/

namespace Verif.InitCancel
open Verif

/-- the actors: the parent (for an actor that is no supervisor, its supervisor; none for a root), whether it is a supervisor, and the
locality leader (`supervisor.h:285-289`, `actor_base.h:440-448`) -/
structure Cfg where
  parent : Nat → Option Nat
  isSup : Nat → Bool
  loc : Nat → Nat

/-- who asks `x` to initialize itself: its parent (`child_manager.cpp:202-208`), or itself (`supervisor.cpp:57-59`) -/
def Cfg.mgr (c : Cfg) (x : Nat) : Nat := (c.parent x).getD x

/-- `actor->supervisor`: a supervisor is its own one (`supervisor.cpp:31`) -/
def Cfg.home (c : Cfg) (x : Nat) : Nat := if c.isSup x then x else c.mgr x

/-- what a number was drawn for: the request that `x` initializes itself, a request of the actor `a`, or a timer of the supervisor -/
inductive What where
  | init (x : Nat)
  | user (a : Nat)
  | timer
deriving DecidableEq, Repr

/-- how it ended: by a response, by its timeout (or the timer expired), by `cancel_init` for the actor `x`, by the end of the actor `a`, by
`cancel_timer` of the user -/
inductive How where
  | answered
  | expired
  | givenUp (x : Nat)
  | stopped (a : Nat)
  | cancelled
deriving DecidableEq, Repr

/-- events, newest first in the log; the supervisor and the number come first -/
inductive Ev where
  | made (s n : Nat) (w : What)
  | ended (s n : Nat) (w : What) (h : How)
  /-- a response nobody waits for is dropped, `supervisor.h:549-553` -/
  | dropped (s n : Nat)
deriving DecidableEq, Repr

inductive Fault where
  /-- an assertion of `supervisor.cpp:141` or `actor_base.cpp:258` -/
  | assertion
  /-- what the user, or another part of the library, does not do -/
  | illegal
deriving DecidableEq, Repr

structure State where
  /-- `last_req_id` of a locality leader, `supervisor.h:277` -/
  last : Nat → Nat
  /-- `timers_map` of a supervisor; the request or timer tells the method to be called, `supervisor.h:379-385` -/
  timers : Nat → AMap Nat What
  /-- `request_map` of a supervisor -/
  reqs : Nat → AMap Nat What
  /-- `active_requests` of an actor, `actor_base.h:500` -/
  active : Nat → List Nat
  /-- requests for initialization under way -/
  net : List (Nat × Nat)
  /-- the number in `init_request` of an actor -/
  held : Nat → Option Nat
  /-- actors that were asked to initialize themselves -/
  created : List Nat
  log : List Ev

def State.init : State :=
  { last := fun _ => 0, timers := fun _ => [], reqs := fun _ => [], active := fun _ => [], net := [], held := fun _ => none,
    created := [], log := [] }

def upd {α : Type} (f : Nat → α) (k : Nat) (v : α) : Nat → α := fun x => if x = k then v else f x

/-- the actor that made the request, `request_curry_t::source`; the requests for initialization are made by the supervisor -/
def source (s : Nat) : What → Nat
  | .init _ => s
  | .user a => a
  | .timer => s

/-- `next_request_id`, `supervisor.h:336-344` -/
def draw (c : Cfg) (s : Nat) (σ : State) : Nat := σ.last (c.loc s) + 1

/-- `request_builder_t::send`, `supervisor.h:531-541`, of the supervisor `s` -/
def ask (c : Cfg) (s : Nat) (w : What) (σ : State) : State :=
  let n := draw c s σ
  { σ with
    last := upd σ.last (c.loc s) n
    reqs := upd σ.reqs s ((n, w) :: σ.reqs s)
    timers := upd σ.timers s ((n, w) :: σ.timers s)
    active := upd σ.active (source s w) (n :: σ.active (source s w))
    log := .made s n w :: σ.log }

/-- `start_timer` of the supervisor itself, `supervisor.h:388-392` -/
def startTimer (c : Cfg) (s : Nat) (σ : State) : State :=
  let n := draw c s σ
  { σ with
    last := upd σ.last (c.loc s) n
    timers := upd σ.timers s ((n, What.timer) :: σ.timers s)
    log := .made s n .timer :: σ.log }

/-- `on_request_trigger`, `supervisor.cpp:121-138` -/
def onRequestTrigger (s n : Nat) (h : How) (σ : State) : State :=
  match AMap.find (σ.reqs s) n with
  | none => σ
  | some w =>
    { σ with
      active := upd σ.active (source s w) ((σ.active (source s w)).filter (fun m => decide (m ≠ n)))
      reqs := upd σ.reqs s (AMap.erase (σ.reqs s) n)
      log := .ended s n w h :: σ.log }

/-- `on_timer_trigger` of the supervisor, `actor_base.cpp:262-268`. The backends call it when the timer expires and from
`do_cancel_timer` -/
def onTimerTrigger (s n : Nat) (h : How) (σ : State) : State :=
  match AMap.find (σ.timers s) n with
  | none => σ
  | some w =>
    let σ1 := if w = .timer then { σ with log := .ended s n .timer h :: σ.log } else onRequestTrigger s n h σ
    { σ1 with timers := upd σ1.timers s (AMap.erase (σ1.timers s) n) }

/-- `cancel_timer` of the supervisor, `actor_base.cpp:257-260` -/
def cancelTimer (s n : Nat) (h : How) (σ : State) : Except Fault State :=
  if (AMap.find (σ.timers s) n).isSome then .ok (onTimerTrigger s n h σ) else .error .assertion

/-- `discard_request`, `supervisor.cpp:140-144` -/
def discardRequest (s n : Nat) (h : How) (σ : State) : Except Fault State :=
  if (AMap.find (σ.reqs s) n).isSome then
    match cancelTimer s n h σ with
    | .error e => .error e
    | .ok σ1 => .ok { σ1 with reqs := upd σ1.reqs s (AMap.erase (σ1.reqs s) n) }
  else .error .assertion

/-- `cancel_init(x)` of the child manager of `s`, `child_manager.cpp:322-333` -/
def cancelInit (s x : Nat) (σ : State) : Except Fault State :=
  match σ.held x with
  | none => .ok σ
  | some n => if (AMap.find (σ.timers s) n).isSome then discardRequest s n (.givenUp x) σ else .ok σ

/-- the handler of responses, `supervisor.h:544-561` -/
def onResponse (s n : Nat) (σ : State) : Except Fault State :=
  if (AMap.find (σ.reqs s) n).isSome then discardRequest s n .answered σ
  else .ok { σ with log := .dropped s n :: σ.log }

/-- the loops of `shutdown_finish`, `actor_base.cpp:131-136`: the timers of the actor, which are kept here for supervisors only, and its
requests. Each call removes its entry, so the entries are taken from the maps as they are before each loop -/
def stop (c : Cfg) (a : Nat) (σ : State) : State :=
  let σ1 := if c.isSup a then (AMap.keys (σ.timers a)).foldl (fun τ n => onTimerTrigger a n (.stopped a) τ) σ else σ
  (σ1.active a).foldl (fun τ n => onTimerTrigger (c.home a) n (.stopped a) τ) σ1

inductive Op where
  /-- `x` is asked to initialize itself, `child_manager.cpp:202-208`, `supervisor.cpp:57-59` -/
  | create (x : Nat)
  /-- `x` gets the request, `init_shutdown.cpp:40-47` -/
  | arrive (x n : Nat)
  /-- `x` answers, `actor_base.cpp:97-101`, `child_manager.cpp:111-115` -/
  | reply (x : Nat)
  /-- the actor `a` makes a request -/
  | request (a : Nat)
  /-- the supervisor `s` starts a timer -/
  | start (s : Nat)
  /-- the user cancels a timer of the supervisor -/
  | cancel (s n : Nat)
  /-- another number of the locality of `s` is used -/
  | number (s : Nat)
  /-- a response to the request `n` of `s` is there -/
  | response (s n : Nat)
  /-- the timer `n` of `s` expires -/
  | expire (s n : Nat)
  /-- `request_shutdown` (line 385) or `remove_child` (line 124) of `s` for its child `x` or for itself -/
  | giveUp (s x : Nat)
  /-- `shutdown_finish` of `a` -/
  | stop (a : Nat)
deriving DecidableEq, Repr

def step (c : Cfg) (σ : State) : Op → Except Fault State
  | .create x =>
    if x ∉ σ.created ∧ c.isSup (c.mgr x) = true then
      .ok { ask c (c.mgr x) (.init x) σ with created := x :: σ.created, net := (x, draw c (c.mgr x) σ) :: σ.net }
    else .error .illegal
  | .arrive x n =>
    if (x, n) ∈ σ.net then .ok { σ with net := σ.net.erase (x, n), held := upd σ.held x (some n) } else .error .illegal
  | .reply x => .ok { σ with held := upd σ.held x none }
  | .request a => if c.isSup (c.home a) = true then .ok (ask c (c.home a) (.user a) σ) else .error .illegal
  | .start s => if c.isSup s = true then .ok (startTimer c s σ) else .error .illegal
  | .cancel s n =>
    if AMap.find (σ.timers s) n = some .timer then cancelTimer s n .cancelled σ else .error .illegal
  | .number s => .ok { σ with last := upd σ.last (c.loc s) (draw c s σ) }
  | .response s n => onResponse s n σ
  | .expire s n => .ok (onTimerTrigger s n .expired σ)
  | .giveUp s x => if (x = s ∨ c.parent x = some s) ∧ c.isSup s = true then cancelInit s x σ else .error .illegal
  | .stop a => if c.isSup (c.home a) = true then .ok (stop c a σ) else .error .illegal

def run (c : Cfg) : State → List Op → Except Fault State
  | σ, [] => .ok σ
  | σ, op :: ops =>
    match step c σ op with
    | .error e => .error e
    | .ok σ1 => run c σ1 ops

end Verif.InitCancel
