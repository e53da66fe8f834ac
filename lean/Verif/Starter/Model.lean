import Verif.Basic.ActorState
/-!
# The starter plugin of an actor

The handlers of an actor are subscribed by `starter_plugin_t::subscribe_actor`, usually in `configure`; the plugin keeps the actor from completing
its initialization until the subscriptions are confirmed. The model is one actor: its starter plugin and the polling of the plugins.

Sources: `src/rotor/plugin/starter.cpp`, `include/rotor/supervisor.h:428-443` (`subscribe_actor`), `src/rotor/supervisor.cpp:90-105` (`subscribe`),
`src/rotor/plugin/foreigners_support.cpp:77-83`, `src/rotor/actor_base.cpp:97-103`, `147-168`, `206-222`, `src/rotor/plugin/init_shutdown.cpp:45-52`.

Simplifications:
* a subscription point, that is a handler and an address, is a number;
* the other plugins are answers of an oracle, those in front of the starter and those behind it (there are none in the lists of the library,
  `actor_base.h:70-78`); user code called by them may subscribe handlers;
* the negative answers other plugins give to the init request are the operation `fail`, the shutdown is the operation `shut`;
* an unsubscription is one step (see `Verif.Net` for the protocol).
-/

namespace Verif.Starter
open Verif

/-- observable events, newest first in the log -/
inductive Ev where
  /-- `subscribe_actor` -/
  | subscribed (p : Nat)
  /-- the owner of the address delivers to the handler from now on -/
  | attached (p : Nat)
  /-- a `subscription_confirmation_t` arrives at the actor -/
  | confirmed (p : Nat)
  /-- .. and after an unsubscription no longer -/
  | dropped (p : Nat)
  /-- the positive answer to the init request -/
  | replied
  /-- `on_start` -/
  | started
deriving DecidableEq, Repr

structure State where
  /-- `state` of the actor; whether `init_request` is set -/
  st : AState
  req : Bool
  /-- the reactions INIT, SUBSCRIPTION, START of the plugin -/
  inits : Bool
  subs : Bool
  starts : Bool
  /-- `starter_plugin_t::tracked`, `configured` -/
  tracked : List Nat
  configured : Bool
  /-- the subscriptions in effect -/
  attached : Nat → Bool
  /-- `external_subscription_t` and `subscription_confirmation_t` under way -/
  ext : List Nat
  conf : List Nat
  log : List Ev
  /-- an init request has arrived; a second one is the subject of C71 -/
  asked : Bool

inductive Err where
  /-- a failed assertion -/
  | fault
  /-- not possible in this state -/
  | illegal
deriving DecidableEq, Repr

/-- after `activate`, `starter.cpp:27-35`, `address_maker.cpp:48`; subscriptions made there are operations `subscribe` -/
def State.init : State := ⟨.initializing, false, true, true, true, [], false, fun _ => false, [], [], [], false⟩

/-- which points have an address of the own locality -/
abbrev Cfg := Nat → Bool

def upd (f : Nat → Bool) (i : Nat) (v : Bool) : Nat → Bool := fun j => if j = i then v else f j

/-- `subscribe_actor`, `supervisor.h:433-443`, with `subscribe`, `supervisor.cpp:90-105` -/
def subscribe (own : Cfg) (p : Nat) (σ : State) : Except Err State :=
  if p ∈ σ.tracked then .error .fault
  else if own p then
    .ok { σ with tracked := σ.tracked ++ [p], attached := upd σ.attached p true, conf := σ.conf ++ [p], log := .attached p :: .subscribed p :: σ.log }
  else
    .ok { σ with tracked := σ.tracked ++ [p], ext := σ.ext ++ [p], log := .subscribed p :: σ.log }

def subscribeAll (own : Cfg) : List Nat → State → Except Err State
  | [], σ => .ok σ
  | p :: l, σ =>
    match subscribe own p σ with
    | .error e => .error e
    | .ok σ1 => subscribeAll own l σ1

/-- what the other plugins and `configure` do in a pass of `init_continue`: the handlers subscribed in front of the starter, and whether all agree there;
the handlers `configure` subscribes; the same behind -/
structure Vote where
  front : List Nat
  before : Bool
  cfg : List Nat
  behind : List Nat
  after : Bool
deriving DecidableEq, Repr

/-- `handle_init`, `starter.cpp:55-65`, `message` is not null; the answer -/
def handleInit (own : Cfg) (v : Vote) (σ : State) : Except Err (State × Bool) :=
  if σ.configured then .ok (σ, σ.tracked.isEmpty)
  else
    match subscribeAll own v.cfg { σ with configured := true } with
    | .error e => .error e
    | .ok σ1 => .ok (if σ1.tracked.isEmpty then { σ1 with inits := false, subs := false } else σ1, σ1.tracked.isEmpty)

/-- the starter's turn and the rest of the loop, `actor_base.cpp:153-167`, with `init_finish`, 97-101 -/
def fromStarter (own : Cfg) (v : Vote) (σ : State) : Except Err State :=
  let rest (σ : State) : Except Err State :=
    match subscribeAll own v.behind σ with
    | .error e => .error e
    | .ok σ1 => .ok (if v.after then { σ1 with st := .initialized, req := false, log := .replied :: σ1.log } else σ1)
  if σ.inits then
    match handleInit own v σ with
    | .error e => .error e
    | .ok (σ1, true) => rest { σ1 with inits := false }
    | .ok (σ1, false) => .ok σ1
  else rest σ

/-- `init_continue`, `actor_base.cpp:147-168` -/
def initContinue (own : Cfg) (v : Vote) (σ : State) : Except Err State :=
  if σ.st ≠ .initializing ∨ σ.req = false then .error .fault
  else
    match subscribeAll own v.front σ with
    | .error e => .error e
    | .ok σ1 => if v.before then fromStarter own v σ1 else .ok σ1

/-- `on_subscription`, `actor_base.cpp:206-222`, with `handle_subscription`, `starter.cpp:42-53` -/
def onConfirm (own : Cfg) (p : Nat) (v : Vote) (σ : State) : Except Err State :=
  if σ.subs then
    let σ1 := { σ with tracked := σ.tracked.erase p }
    if σ1.configured ∧ σ1.tracked = [] ∧ σ1.st = .initializing then
      match initContinue own v σ1 with
      | .error e => .error e
      | .ok σ2 => .ok { σ2 with subs := false }
    else .ok σ1
  else .ok σ

inductive Op where
  /-- the init request arrives, `init_shutdown.cpp:45-52` -/
  | init (v : Vote)
  /-- `foreigners_support.cpp:77-83` -/
  | attach (p : Nat)
  | confirm (p : Nat) (v : Vote)
  /-- another plugin has made progress and calls `init_continue` -/
  | poll (v : Vote)
  /-- user code subscribes a handler -/
  | subscribe (p : Nat)
  | drop (p : Nat)
  /-- another plugin answers the init request with an error, for example `link_client.cpp:72-78` -/
  | fail
  /-- the actor begins to shut down, `shutdown_start` -/
  | shut
  /-- `deactivate`, `starter.cpp:37-40` -/
  | deactivate
  /-- `on_start`, `starter.cpp:72-86` -/
  | start
deriving DecidableEq, Repr

def step (own : Cfg) (σ : State) : Op → Except Err State
  | .init v =>
    if σ.req = true ∨ σ.asked = true then .error .illegal
    else if σ.st = .initializing then initContinue own v { σ with req := true, asked := true }
    else .ok { σ with req := true, asked := true }
  | .attach p =>
    if p ∈ σ.ext then
      .ok { σ with ext := σ.ext.erase p, conf := σ.conf ++ [p], attached := upd σ.attached p true, log := .attached p :: σ.log }
    else .error .illegal
  | .confirm p v =>
    if p ∈ σ.conf then onConfirm own p v { σ with conf := σ.conf.erase p, log := .confirmed p :: σ.log } else .error .illegal
  | .poll v => if σ.st = .initializing ∧ σ.req = true then initContinue own v σ else .error .illegal
  | .subscribe p => subscribe own p σ
  | .drop p => if σ.attached p then .ok { σ with attached := upd σ.attached p false, log := .dropped p :: σ.log } else .error .illegal
  | .fail => if σ.req then .ok { σ with req := false } else .error .illegal
  | .shut => if σ.st.rank < AState.shuttingDown.rank then .ok { σ with st := .shuttingDown } else .error .illegal
  | .deactivate => if σ.st = .shuttingDown then .ok { σ with tracked := [] } else .error .illegal
  | .start =>
    if σ.st = .initialized then
      .ok { σ with st := if σ.starts then .operational else σ.st, starts := false, log := if σ.starts then .started :: σ.log else σ.log }
    else .ok σ

def run (own : Cfg) (σ : State) : List Op → Except Err State
  | [] => .ok σ
  | o :: os =>
    match step own σ o with
    | .error e => .error e
    | .ok σ1 => run own σ1 os

end Verif.Starter
