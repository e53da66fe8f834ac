import Verif.Basic.ActorState
/-!
# Subscribers from other localities when a supervisor shuts down

Sources: `src/rotor/plugin/foreigners_support.cpp:30-94`, `src/rotor/plugin/lifetime.cpp:57-73`, `src/rotor/plugin/plugin_base.cpp:36-97`,
`src/rotor/actor_base.cpp:74-93`, `src/rotor/supervisor.cpp:90-109`, `src/rotor/subscription.cpp:25-45, 65-104`,
`src/rotor/plugin/delivery.cpp:39-50`.

A supervisor is asked by actors of other localities to subscribe them to its addresses, and is told when they leave. The plugin
`foreigners_support_plugin_t` handles both, and the calls of handlers of the children of the supervisor that are subscribed to
addresses of other localities. Here the supervisor shuts down meanwhile (in `Verif.Net` supervisors stay). The plugin is
deactivated in one of two ways: together with the other plugins, when the children are gone (`init_shutdown.cpp:70-73`), or
by itself, when the last foreign subscriber leaves while the supervisor is shutting down (`foreigners_support.cpp:91-93`).

Simplifications:
* one supervisor. A subscription (a handler of a foreign actor with an address of the supervisor) is a number; that the same is not
  made twice at a time is a precondition of the user, as in `Verif.Net`;
* a foreign actor removes its subscription without waiting for the supervisor (`plugin_base.cpp:87-95`): it is gone for the actor
  when `commit_unsubscription_t` is sent. The messages before this, of the actor to itself, are in `Verif.Net`;
* the other plugins, and what the removal of the last subscription of the plugin leads to (`plugin_base.cpp:77-79`), are in
  `Verif.SupTeardown`; the lifetime plugin, which handles the unsubscription messages, is deactivated last (C72);
* children are created before the shutdown; a child is in `kids` while it is in `alive_actors` and not `SHUT_DOWN`, and the
  checks of its subscription (`foreigners_support.cpp:60-68`) are C07.
-/

namespace Verif.Farewell
open Verif

/-- the three handlers of the plugin, `foreigners_support.cpp:33-35` -/
inductive H where
  | call | unsub | ext
deriving DecidableEq, Repr

inductive Msg where
  /-- `external_subscription_t` -/
  | ext (x : Nat)
  /-- `commit_unsubscription_t` -/
  | commit (x : Nat)
  /-- `handler_call_t` for a child -/
  | call (k : Nat)
  /-- `unsubscription_confirmation_t` of the supervisor to itself for a handler of the plugin -/
  | off (h : H)
  /-- a message for the address that foreign actors have subscribed to -/
  | user (u : Nat)
deriving DecidableEq, Repr

/-- events, newest first in the log -/
inductive Ev where
  /-- a foreign actor asks for a subscription -/
  | asked (x : Nat)
  /-- it is told that it is subscribed -/
  | confirmed (x : Nat)
  /-- its request was taken from the queue, but nobody is subscribed to such requests -/
  | unheard (x : Nat)
  /-- a foreign actor tells that it has removed its subscription -/
  | left (x : Nat)
  /-- the supervisor removes the subscription -/
  | removed (x : Nat)
  /-- the message was taken from the queue, but nobody is subscribed to such messages -/
  | forgotten (x : Nat)
  /-- the handler of a child is called -/
  | called (k : Nat)
  /-- a call for a child that is still there was taken from the queue, but nobody is subscribed to calls -/
  | lost (k : Nat)
  /-- a message is passed to the foreign subscriber -/
  | passed (u x : Nat)
  /-- the last foreign subscriber has left during the shutdown -/
  | emptied
  /-- `deactivate_plugins` -/
  | deactivated
deriving DecidableEq, Repr

/-- `st`: state of the supervisor; `kids`: its children; `own`: `own_subscriptions` of the plugin (changed together with the table of
subscriptions); `uns`: those that are `UNSUBSCRIBING`; `active`: `actor` of the plugin is not null; `deact`: the plugin is in
`deactivating_plugins`; `fp`: `foreign_points`; `table`: the subscriptions with foreign handlers in `subscription_map`
(`internal_infos`, `mine_handlers[..].external`); `queue`: the queue of the locality; `chan l`: messages from locality `l` that have not
been moved to the queue, in order (C05); `sub`: the subscriptions the foreign actors have -/
structure State where
  st : AState
  kids : List Nat
  own : List H
  uns : List H
  active : Bool
  deact : Bool
  fp : List Nat
  table : List Nat
  queue : List Msg
  chan : Nat → List Msg
  sub : Nat → Bool
  log : List Ev

inductive Err where
  /-- failed assertion, `end()` or null dereferenced -/
  | fault
  /-- not possible now -/
  | illegal
deriving DecidableEq, Repr

/-- update of a function -/
def upd {α : Type} (f : Nat → α) (i : Nat) (v : α) : Nat → α := fun j => if j = i then v else f j

/-- the plugin has been activated, `foreigners_support.cpp:30-39` -/
def State.init : State where
  st := .operational
  kids := []
  own := [.call, .unsub, .ext]
  uns := []
  active := true
  deact := false
  fp := []
  table := []
  queue := []
  chan _ := []
  sub _ := false
  log := []

/-- `lifetime_plugin_t::unsubscribe(info)`, `lifetime.cpp:57-73`, for a subscription of the plugin (not `FOREIGN`, internal address) -/
def mark (h : H) (s : State) : State :=
  if h ∈ s.uns then s else { s with uns := h :: s.uns, queue := s.queue ++ [.off h] }

def markAll : List H → State → State
  | [], s => s
  | h :: l, s => markAll l (mark h s)

/-- `plugin_base_t::deactivate`, `plugin_base.cpp:36-52`: in reverse order; `commit_plugin_deactivation`, `actor_base.cpp:84-93` -/
def baseDeactivate (s : State) : State :=
  if s.active then
    if s.own = [] then { s with deact := false, active := false } else markAll s.own.reverse s
  else s

/-- the part of `deactivate_plugins` for the plugin, `actor_base.cpp:74-82`, and its `deactivate`, `foreigners_support.cpp:41-47`. The
loop over the foreign points (43-45) changes their state to `UNSUBSCRIBING` and sends nothing, as they are `FOREIGN`
(`lifetime.cpp:62-71`); nobody else asks for the state of these infos -/
def deactivate (s : State) : State :=
  let s1 := { s with log := .deactivated :: s.log }
  if s1.active then baseDeactivate { s1 with deact := true } else s1

/-- `on_subscription_external`, `foreigners_support.cpp:73-79`, with `supervisor_t::subscribe`, `supervisor.cpp:90-105`, and `materialize`,
`subscription.cpp:25-45` -/
def onExt (x : Nat) (s : State) : Except Err State :=
  if H.ext ∈ s.own then
    if s.active then .ok { s with fp := s.fp ++ [x], table := s.table ++ [x], log := .confirmed x :: s.log } else .error .fault
  else .ok { s with log := .unheard x :: s.log }

/-- `on_unsubscription`, `foreigners_support.cpp:81-94`, with `subscription_t::forget`, `subscription.cpp:75-104` -/
def onCommit (x : Nat) (s : State) : Except Err State :=
  if H.unsub ∈ s.own then
    if s.active = true ∧ x ∈ s.fp ∧ x ∈ s.table then
      let s1 := { s with fp := s.fp.erase x, table := s.table.erase x, log := .removed x :: s.log }
      if s1.fp = [] ∧ s1.st = .shuttingDown then .ok (baseDeactivate { s1 with log := .emptied :: s1.log }) else .ok s1
    else .error .fault
  else .ok { s with log := .forgotten x :: s.log }

/-- `on_call`, `foreigners_support.cpp:49-71` -/
def onCall (k : Nat) (s : State) : Except Err State :=
  if H.call ∈ s.own then
    if s.active then .ok (if k ∈ s.kids then { s with log := .called k :: s.log } else s) else .error .fault
  else .ok (if k ∈ s.kids then { s with log := .lost k :: s.log } else s)

/-- `forget_subscription`, `plugin_base.cpp:65-83`, by way of `lifetime.cpp:102-103, 112-128` and `actor_base.cpp:195-204, 224-233` -/
def onOff (h : H) (s : State) : Except Err State :=
  if h ∈ s.own then
    if s.active then
      let s1 := { s with own := s.own.erase h }
      .ok (if s1.own = [] then { s1 with deact := false, active := false } else s1)
    else .error .fault
  else .ok s

/-- the external handlers of the address, `delivery.cpp:41-46` -/
def passAll (u : Nat) : List Nat → State → State
  | [], s => s
  | x :: l, s => passAll u l { s with log := .passed u x :: s.log }

/-- the front message of the queue is processed, `supervisor.h:447-466`, `subscription.cpp:65-73` -/
def take (s : State) : Except Err State :=
  match s.queue with
  | [] => .ok s
  | m :: rest =>
    let s1 := { s with queue := rest }
    match m with
    | .ext x => onExt x s1
    | .commit x => onCommit x s1
    | .call k => onCall k s1
    | .off h => onOff h s1
    | .user u => .ok (passAll u s1.table s1)

/-- what happens -/
inductive Op where
  /-- a foreign actor subscribes to an address of the supervisor, `supervisor.cpp:94-98` -/
  | sub (x : Nat)
  /-- a foreign actor has removed its subscription, `plugin_base.cpp:87-95` -/
  | leave (x : Nat)
  /-- a loop passes a message for a child of the supervisor on, `delivery.cpp:41-46` -/
  | sendCall (l k : Nat)
  /-- a message for the address -/
  | sendUser (l u : Nat)
  /-- a message from locality `l` is moved to the queue -/
  | arrive (l : Nat)
  /-- the loop takes a message -/
  | take
  | create (k : Nat)
  /-- `shutdown_start`, `actor_base.cpp:105-106` -/
  | shutdown
  /-- a child has shut down -/
  | kidGone (k : Nat)
  /-- `init_shutdown_plugin_t::handle_shutdown`, `init_shutdown.cpp:70-73`: the child manager, a later plugin, has agreed (C72) -/
  | deactivate
  /-- `shutdown_finish`, `actor_base.cpp:121-145` -/
  | finish
deriving DecidableEq, Repr

/-- `src`: the locality of the actor of a subscription -/
def step (src : Nat → Nat) (s : State) : Op → Except Err State
  | .sub x =>
    if s.sub x then .error .illegal
    else .ok { s with sub := upd s.sub x true, chan := upd s.chan (src x) (s.chan (src x) ++ [.ext x]), log := .asked x :: s.log }
  | .leave x =>
    if s.sub x then
      .ok { s with sub := upd s.sub x false, chan := upd s.chan (src x) (s.chan (src x) ++ [.commit x]), log := .left x :: s.log }
    else .error .illegal
  | .sendCall l k => .ok { s with chan := upd s.chan l (s.chan l ++ [.call k]) }
  | .sendUser l u => .ok { s with chan := upd s.chan l (s.chan l ++ [.user u]) }
  | .arrive l =>
    match s.chan l with
    | [] => .ok s
    | m :: rest => .ok { s with chan := upd s.chan l rest, queue := s.queue ++ [m] }
  | .take => take s
  | .create k => if s.st = .operational ∧ k ∉ s.kids then .ok { s with kids := k :: s.kids } else .error .illegal
  | .shutdown => if s.st = .operational then .ok { s with st := .shuttingDown } else .error .illegal
  | .kidGone k => if k ∈ s.kids then .ok { s with kids := s.kids.erase k } else .error .illegal
  | .deactivate =>
    if s.st = .shuttingDown ∧ s.kids = [] ∧ .deactivated ∉ s.log then .ok (deactivate s) else .error .illegal
  | .finish =>
    if s.st = .shuttingDown ∧ .deactivated ∈ s.log ∧ s.active = false then
      if s.deact then .error .fault else .ok { s with st := .shutDown }
    else .error .illegal

def run (src : Nat → Nat) : State → List Op → Except Err State
  | s, [] => .ok s
  | s, op :: ops =>
    match step src s op with
    | .error e => .error e
    | .ok s1 => run src s1 ops

end Verif.Farewell
