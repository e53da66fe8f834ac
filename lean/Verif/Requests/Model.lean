import Verif.Basic.AMap

/-!
# Model of requests, responses, request timers and user timers in one locality

Sources: `include/rotor/supervisor.h:336-344` (`next_request_id`), `378-392` (`start_timer`), `511-565`
(`request_builder_t`), `src/rotor/supervisor.cpp:121-144,165-171` (`on_request_trigger`,
`discard_request`, `uplift_last_message`), `src/rotor/actor_base.cpp:121-145,257-268`
(`shutdown_finish`, `cancel_timer`, `on_timer_trigger`).

Supervisors are actors; an actor `a` belongs to the supervisor `supOf a` (a supervisor to itself for the
purpose of requests: `actor_base_t::supervisor` of a supervisor is the supervisor itself).

Simplifications:
* the event loop's timers are the ones in the `timers_map` of their owners; the loop may fire any of
  them at any time (its own bookkeeping is the subject of `Verif.ThreadTimers` and `Verif.LoopTimers`);
* what message handlers do are further operations, after the message has been taken from the queue;
* the wrapper address of `(actor, response type)` is represented by the supervisor whose `request_map`
  its handler consults (how it is found is the subject of `Verif.AddressMapping`); replies that arrive
  after it was unsubscribed meet no request anyway;
* the counter of identities overflows at `M` (`2^64` in the code), which is a separate outcome here;
  what happens then is the subject of `Verif.RequestIds`.
-/

namespace Verif.Requests

open Verif

/-- configuration of the locality -/
structure Cfg where
  /-- the supervisor of an actor -/
  supOf : Nat → Nat
  /-- `locality_leader` -/
  leader : Nat
  /-- one more than the largest identity -/
  M : Nat

/-- `request_curry_t`, `include/rotor/request.hpp:301-313`: who asked, and where the response goes -/
structure Curry where
  source : Nat
  origin : Nat
deriving DecidableEq, Repr

/-- what a timer is for -/
inductive TKind where
  /-- guards a request -/
  | request
  /-- started by user code -/
  | user
deriving DecidableEq, Repr

/-- messages in the queue of the locality -/
inductive Msg where
  /-- a request on its way to the replier -/
  | request (id : Nat)
  /-- a reply at the wrapper address, of supervisor `sup` -/
  | reply (sup id payload : Nat)
  /-- the response for the requester; `none` is a timeout error -/
  | response (id origin : Nat) (payload : Option Nat)
  /-- anything else -/
  | other (n : Nat)
deriving DecidableEq, Repr

/-- observable events, newest first in the log -/
inductive Ev where
  /-- actor `a` made the request `id`, the response should go to `origin` -/
  | requested (a id origin : Nat)
  /-- the request was resolved: a response has been created -/
  | resolved (id : Nat) (payload : Option Nat)
  /-- the request was given up because its actor (or its supervisor) has been shut down -/
  | abandoned (id : Nat)
  /-- the message was dispatched to its handlers; `tag`: ordinal of its arrival in the queue -/
  | delivered (tag : Nat) (m : Msg)
  /-- user timer `id` of actor `a` -/
  | started (a id : Nat)
  | called (a id : Nat) (cancelled : Bool)
  /-- `shutdown_finish` of the actor begins / ends -/
  | finishing (a : Nat)
  | finished (a : Nat)
deriving DecidableEq, Repr

/-- what user code can do in a timer callback -/
inductive Act where
  | start
  | cancel (id : Nat)
  | request (origin : Nat)
deriving DecidableEq, Repr

/-- the behaviour of the timer callbacks: arbitrary, may depend on everything that happened -/
abbrev Env := List Ev → List Act

/-- `last`: `last_req_id` of the leader; `reqs`: the `request_map`s of the supervisors; `timers`: the
`timers_map`s of the actors; `active`: the `active_requests` of the actors; `queue`: the queue of the
locality with the ordinals of arrival (`tag` is the next one); `stack`: timer callbacks in progress -/
structure State where
  last : Nat
  reqs : AMap (Nat × Nat) Curry
  timers : AMap (Nat × Nat) TKind
  active : List (Nat × Nat)
  queue : List (Nat × Msg)
  tag : Nat
  stack : List (Nat × Nat)
  log : List Ev
deriving DecidableEq, Repr

inductive Err where
  /-- failed assertion or undefined behaviour -/
  | fault
  /-- user code broke a documented precondition: cancels a timer that is not running -/
  | illegal
  /-- the counter of identities is exhausted -/
  | wrapped
  | outOfFuel
deriving DecidableEq, Repr

/-- `next_request_id`, `supervisor.h:336-344`; the first argument bounds the search -/
def nextId (c : Cfg) : Nat → AMap (Nat × Nat) Curry → Nat → Except Err Nat
  | 0, _, _ => .error .wrapped
  | n + 1, reqs, last =>
    if last + 1 ≥ c.M then .error .wrapped
    else if (reqs.find (c.leader, last + 1)).isSome then nextId c n reqs (last + 1)
    else .ok (last + 1)

/-- `supervisor_t::put`: a new message at the end of the queue -/
def put (s : State) (m : Msg) : State := { s with queue := s.queue ++ [(s.tag, m)], tag := s.tag + 1 }

/-- `timers_map.emplace` after `do_start_timer`, `supervisor.h:383-384`: an existing entry would stay
and the new handler would be destroyed, while the loop refers to it -/
def startTimer (s : State) (owner id : Nat) (k : TKind) : Except Err State :=
  if (s.timers.find (owner, id)).isSome then .error .fault
  else .ok { s with timers := s.timers.set (owner, id) k }

/-- `request_map.emplace`: keeps an existing entry -/
def emplace (m : AMap (Nat × Nat) Curry) (k : Nat × Nat) (v : Curry) : AMap (Nat × Nat) Curry :=
  if (m.find k).isSome then m else m.set k v

/-- `active_requests.emplace` -/
def emplaceSet (l : List (Nat × Nat)) (x : Nat × Nat) : List (Nat × Nat) := if x ∈ l then l else x :: l

/-- `request_builder_t`: the constructor (511-529) draws the identity, `send` (531-541) does the rest -/
def request (c : Cfg) (s : State) (a origin : Nat) : Except Err State :=
  match nextId c c.M s.reqs s.last with
  | .error e => .error e
  | .ok id =>
    let sup := c.supOf a
    let s1 := { s with last := id, reqs := emplace s.reqs (sup, id) ⟨a, origin⟩, log := .requested a id origin :: s.log }
    match startTimer (put s1 (.request id)) sup id .request with
    | .error e => .error e
    | .ok s2 => .ok { s2 with active := emplaceSet s2.active (a, id) }

/-- `start_timer(interval, ...)`, `supervisor.h:387-392` -/
def userTimer (c : Cfg) (s : State) (a : Nat) : Except Err State :=
  match nextId c c.M s.reqs s.last with
  | .error e => .error e
  | .ok id => startTimer { s with last := id, log := .started a id :: s.log } a id .user

/-- `supervisor_t::on_request_trigger`, `supervisor.cpp:121-138`; `given`: whether a cancellation is due
to a reply that has been passed on already (for the log only) -/
def onRequestTrigger (s : State) (sup id : Nat) (cancelled given : Bool) : Except Err State :=
  match s.reqs.find (sup, id) with
  | none => .ok s
  | some cur =>
    let s1 := if cancelled = false then put { s with log := .resolved id none :: s.log } (.response id cur.origin none)
              else if given = false then { s with log := .abandoned id :: s.log } else s
    if (cur.source, id) ∉ s1.active then .error .fault
    else .ok { s1 with active := s1.active.erase (cur.source, id), reqs := s1.reqs.erase (sup, id) }

/-- the library functions that may run user code -/
inductive Cmd where
  /-- user code of actor `a` -/
  | acts (a : Nat) (l : List Act)
  /-- `on_timer_trigger` of `owner`; `given` as above -/
  | trigger (owner id : Nat) (cancelled given : Bool)
  /-- `shutdown_finish` of `a`, the loop of lines 131-133 -/
  | drainTimers (a : Nat)
  /-- `shutdown_finish` of `a`, the loop of lines 134-136 -/
  | drainRequests (a : Nat)
deriving DecidableEq, Repr

/-- the first timer of `a` in iteration order: `timers_map.begin()` -/
def firstTimer (a : Nat) (l : AMap (Nat × Nat) TKind) : Option Nat := (l.find? (fun p => p.1.1 == a)).map (·.1.2)

/-- the first active request of `a`: `active_requests.begin()` -/
def firstActive (a : Nat) (l : List (Nat × Nat)) : Option Nat := (l.find? (fun p => p.1 == a)).map (·.2)

/-- * `acts`: calls of `start_timer`, `cancel_timer` (`actor_base.cpp:257-260`) and `request(...).send`;
* `trigger`: `on_timer_trigger`, `actor_base.cpp:262-268`: the callback, then `timers_map.erase(it)`;
* `drainTimers`, `drainRequests`: `shutdown_finish`, `actor_base.cpp:131-136`. -/
def exec (c : Cfg) : Nat → Env → Cmd → State → Except Err State
  | 0, _, _, _ => .error .outOfFuel
  | _ + 1, _, .acts _ [], s => .ok s
  | n + 1, env, .acts a (.start :: l), s =>
    match userTimer c s a with
    | .error e => .error e
    | .ok s1 => exec c n env (.acts a l) s1
  | n + 1, env, .acts a (.request o :: l), s =>
    match request c s a o with
    | .error e => .error e
    | .ok s1 => exec c n env (.acts a l) s1
  | n + 1, env, .acts a (.cancel id :: l), s =>
    if s.timers.find (a, id) ≠ some .user ∨ (a, id) ∈ s.stack then .error .illegal
    else match exec c n env (.trigger a id true false) s with
      | .error e => .error e
      | .ok s1 => exec c n env (.acts a l) s1
  | n + 1, env, .trigger o id cancelled given, s =>
    match s.timers.find (o, id) with
    | none => .ok s
    | some .request =>
      match onRequestTrigger s o id cancelled given with
      | .error e => .error e
      | .ok s1 => .ok { s1 with timers := s1.timers.erase (o, id) }
    | some .user =>
      let s1 := { s with log := .called o id cancelled :: s.log, stack := (o, id) :: s.stack }
      match exec c n env (.acts o (env s1.log)) s1 with
      | .error e => .error e
      | .ok s2 =>
        if s2.timers.find (o, id) = none then .error .fault
        else .ok { s2 with timers := s2.timers.erase (o, id), stack := s2.stack.tail }
  | n + 1, env, .drainTimers a, s =>
    match firstTimer a s.timers with
    | none => .ok s
    | some id => match exec c n env (.trigger a id true false) s with
      | .error e => .error e
      | .ok s1 => exec c n env (.drainTimers a) s1
  | n + 1, env, .drainRequests a, s =>
    match firstActive a s.active with
    | none => .ok s
    | some id =>
      if s.timers.find (c.supOf a, id) = none then .error .fault
      else match exec c n env (.trigger (c.supOf a) id true false) s with
        | .error e => .error e
        | .ok s1 => exec c n env (.drainRequests a) s1

/-- `uplift_last_message`, `supervisor.cpp:165-171` -/
def uplift (q : List (Nat × Msg)) : Except Err (List (Nat × Msg)) :=
  match q.getLast? with
  | none => .error .fault
  | some m => .ok (m :: q.dropLast)

/-- the handler at the wrapper address, `supervisor.h:544-561`, with `discard_request`
(`supervisor.cpp:140-144`).  The message it sends inherits the ordinal of the reply. -/
def onReply (c : Cfg) (n : Nat) (env : Env) (s : State) (tag sup id payload : Nat) : Except Err State :=
  match s.reqs.find (sup, id) with
  | none => .ok s
  | some cur =>
    let s1 := { s with queue := s.queue ++ [(tag, .response id cur.origin (some payload))], log := .resolved id (some payload) :: s.log }
    if s1.timers.find (sup, id) = none then .error .fault
    else match exec c n env (.trigger sup id true true) s1 with
      | .error e => .error e
      | .ok s2 =>
        match uplift s2.queue with
        | .error e => .error e
        | .ok q => .ok { s2 with queue := q, reqs := s2.reqs.erase (sup, id) }

/-- `process()`: takes the first message, `supervisor.h:447-457` -/
def process (c : Cfg) (n : Nat) (env : Env) (s : State) : Except Err State :=
  match s.queue with
  | [] => .ok s
  | (tag, m) :: rest =>
    let s1 := { s with queue := rest }
    match m with
    | .reply sup id payload => onReply c n env s1 tag sup id payload
    | m => .ok { s1 with log := .delivered tag m :: s1.log }

/-- `actor_base_t::shutdown_finish`, `actor_base.cpp:131-136`, and the assertion of `supervisor_t::shutdown_finish`, `supervisor.cpp:146-149`
(for an actor that is no supervisor it says nothing: it has no entries) -/
def finish (c : Cfg) (n : Nat) (env : Env) (s : State) (a : Nat) : Except Err State :=
  match exec c n env (.drainTimers a) { s with log := .finishing a :: s.log } with
  | .error e => .error e
  | .ok s1 => match exec c n env (.drainRequests a) s1 with
    | .error e => .error e
    | .ok s2 =>
      if s2.reqs.any (fun p => p.1.1 == a) then .error .fault
      else .ok { s2 with log := .finished a :: s2.log }

/-- what can arrive from other actors, in this or other localities: a reply, forged or not, or anything
that is not a response -/
inductive Ext where
  | reply (sup id payload : Nat)
  | other (n : Nat)
deriving DecidableEq, Repr

inductive Op where
  /-- user code of an actor runs (in a message handler) -/
  | act (a : Nat) (l : List Act)
  /-- a message is put into the queue -/
  | arrive (m : Ext)
  /-- the loop dispatches the next message -/
  | process
  /-- the timer `(owner, id)` expires -/
  | fire (owner id : Nat)
  /-- an actor finishes its shutdown -/
  | finish (a : Nat)
deriving DecidableEq, Repr

def stepOp (c : Cfg) (n : Nat) (env : Env) (s : State) : Op → Except Err State
  | .act a l => exec c n env (.acts a l) s
  | .arrive (.reply sup id p) => .ok (put s (.reply sup id p))
  | .arrive (.other k) => .ok (put s (.other k))
  | .process => process c n env s
  | .fire o id => exec c n env (.trigger o id false false) s
  | .finish a => finish c n env s a

def run (c : Cfg) (n : Nat) (env : Env) (s : State) : List Op → Except Err State
  | [] => .ok s
  | op :: ops => match stepOp c n env s op with
    | .error e => .error e
    | .ok s' => run c n env s' ops

def State.init : State := ⟨0, [], [], [], [], 0, [], []⟩

end Verif.Requests
