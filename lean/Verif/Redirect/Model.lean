/-!
# Redirected messages

One locality: the queue of the locality leader, the dispatch loop, and handlers that send, route,
redirect and keep messages.  A message is an object; the queue and user code hold references to
it, and `redirect` changes the object.

Simplifications: one message type; the subscriptions do not change (they are in `Subscription` and
`Reentry`); messages of other localities are in `Net`, and the second hop of a message that is
processed by several threads is in `Routing`.
-/

namespace Verif.Redirect

abbrev Addr := Nat
abbrev Handler := Nat

/-- The fields `address` and `next_route` of `message_base_t` (`include/rotor/message.h:64-68`). -/
structure Msg where
  addr : Addr
  next : Option Addr
deriving Repr, DecidableEq

/-- What happened, newest first in `St.log`. -/
inductive Ev where
  /-- the message was put into the queue, for this address -/
  | put (m : Nat) (a : Addr)
  /-- the message was taken from the queue and dispatched to the handlers of this address -/
  | dispatch (m : Nat) (a : Addr)
  /-- the handler was called with the message -/
  | call (h : Handler) (m : Nat)
  /-- a message was redirected while it was in the queue -/
  | clash (m : Nat)
deriving Repr, DecidableEq

structure St where
  /-- the objects -/
  heap : Nat → Msg
  fresh : Nat
  /-- `supervisor_t::queue` of the leader -/
  queue : List Nat
  /-- references kept by user code -/
  held : List Nat
  log : List Ev

/-- `message_base_t::use_count()` as seen by the dispatch loop, which holds one reference. -/
def useCount (s : St) (m : Nat) : Nat := 1 + s.queue.count m + s.held.count m

/-- `supervisor_t::put` (`include/rotor/supervisor.h:182`) of an existing message. -/
def put (s : St) (m : Nat) : St :=
  { s with queue := s.queue ++ [m], log := .put m (s.heap m).addr :: s.log }

/-- `m->address = a; m->next_route = n` -/
def assign (s : St) (m : Nat) (a : Addr) (n : Option Addr) : St :=
  { s with heap := fun x => if x = m then { addr := a, next := n } else s.heap x }

/-- `actor_base_t::send` and `actor_base_t::route` (`include/rotor/supervisor.h:367-374`): a new
message (`include/rotor/message.h:124-151`). -/
def send (s : St) (a : Addr) (n : Option Addr) : St :=
  put { assign s s.fresh a n with fresh := s.fresh + 1 } s.fresh

/-- `actor_base_t::redirect` (`actor_base.cpp:48-52`). -/
def redirect (s : St) (m : Nat) (a : Addr) (n : Option Addr) : St :=
  let s := if m ∈ s.queue then { s with log := .clash m :: s.log } else s
  put (assign s m a n) m

/-- what a handler does; `redirect` and `keep` without an identity refer to the message it was
called with -/
inductive Op where
  | send (a : Addr) (n : Option Addr)
  | redirect (a : Addr) (n : Option Addr)
  /-- `message_ptr_t{&message}` stored somewhere -/
  | keep
  /-- a kept message is redirected and the reference given up -/
  | release (m : Nat) (a : Addr) (n : Option Addr)
  /-- a kept reference is given up -/
  | forget (m : Nat)
deriving Repr, DecidableEq

/-- one operation of a handler that was called with `m` -/
def runOp (m : Nat) (s : St) : Op → St
  | .send a n => send s a n
  | .redirect a n => redirect s m a n
  | .keep => { s with held := m :: s.held }
  | .release x a n => if x ∈ s.held then redirect { s with held := s.held.erase x } x a n else s
  | .forget x => { s with held := s.held.erase x }

/-- the user code -/
abbrev Env := Handler → Nat → St → List Op

/-- `handler->call(message)` -/
def call (env : Env) (m : Nat) (s : St) (h : Handler) : St :=
  (env h m s).foldl (runOp m) { s with log := .call h m :: s.log }

/-- One turn of the dispatch loop, `delivery_plugin_t<local_delivery_t>::process`
(`include/rotor/supervisor.h:445-469`), for a message of the own locality: take the first message,
call the handlers of its address, then move it on to `next_route` if nobody else refers to it. -/
def turn (subs : Addr → List Handler) (env : Env) (s : St) : St :=
  match s.queue with
  | [] => s
  | m :: q =>
    let a := (s.heap m).addr
    let s1 := { s with queue := q, log := .dispatch m a :: s.log }
    let s2 := (subs a).foldl (call env m) s1
    match (s2.heap m).next with
    | none => s2
    | some n => if useCount s2 m = 1 then put (assign s2 m n none) m else s2

/-- what happens to the locality: a turn of the loop, or somebody sends a message -/
inductive Act where
  | turn
  | send (a : Addr) (n : Option Addr)
deriving Repr, DecidableEq

def step (subs : Addr → List Handler) (env : Env) (s : St) : Act → St
  | .turn => turn subs env s
  | .send a n => send s a n

def init : St := { heap := fun _ => { addr := 0, next := none }, fresh := 0, queue := [], held := [], log := [] }

/-- any execution -/
def run (subs : Addr → List Handler) (env : Env) (l : List Act) : St := l.foldl (step subs env) init

end Verif.Redirect
