import Verif.Basic.ActorState
/-!
# Life cycle of one actor and the polling of its plugins

Sources: `src/rotor/actor_base.cpp` (35-46, 95-193, 270-274), `src/rotor/plugin/init_shutdown.cpp:45-73`,
`src/rotor/plugin/address_maker.cpp:36-49`, `src/rotor/plugin/starter.cpp:67-86`,
`src/rotor/plugin/link_client.cpp:74-78`, `src/rotor/plugin/link_server.cpp:84-90`,
`src/rotor/plugin/registry.cpp:107-116`.

The plugins are a list of any length; what they answer in `handle_init` / `handle_shutdown` and which
reactions they (or user code called by them) switch meanwhile is an arbitrary function of the history.

Simplifications:
* `handle_shutdown` does not call `shutdown_continue` of the same actor again (only the child manager
  of supervisors does, see `Verif.ChildManager`);
* deactivation of the plugins and the subscriptions are in `Verif.Lifetime`; timers and requests that
  are cancelled by `shutdown_finish` are in `Verif.Requests`;
* a message that arrives after SHUT_DOWN is not delivered: no subscription is left then
  (`Verif.Lifetime`, C32).
-/

namespace Verif.Lifecycle
open Verif

/-- `reaction_t::INIT` and `reaction_t::SHUTDOWN`, `include/rotor/plugin/plugin_base.h:27-34` -/
inductive Phase where
  | init | shut
deriving DecidableEq, Repr

/-- what goes to the supervisor in `shutdown_start` -/
inductive Trigger where
  | escalation | childDown
deriving DecidableEq, Repr

/-- observable events, newest first in the log -/
inductive Ev where
  | became (st : AState)
  /-- a plugin is polled -/
  | ask (ph : Phase) (i : Nat)
  /-- and has answered -/
  | answer (ph : Phase) (i : Nat) (ans : Bool)
  /-- a plugin takes part (again), `reaction_on` -/
  | joined (ph : Phase) (i : Nat)
  /-- a plugin does no longer take part, `reaction_off` by itself -/
  | left (ph : Phase) (i : Nat)
  | gotInit (r : Nat)
  /-- a shutdown request or, for a root supervisor, a shutdown trigger (`r` is none) -/
  | gotShut (r : Option Nat) (reason : Option Nat)
  | replyInit (r : Nat) (ok : Bool)
  | replyShut (r : Nat) (ok : Bool)
  /-- a shutdown trigger for the supervisor itself, with the reason of the actor -/
  | trigger (t : Trigger) (reason : Option Nat)
deriving DecidableEq, Repr

/-- an init request has arrived -/
def Ev.isRequest : Ev → Bool
  | .gotInit _ => true
  | _ => false

/-- side effects of a plugin's callback on reactions, `plugin_base.h:157-160` -/
inductive Eff where
  | on (ph : Phase) (i : Nat)
  | off (ph : Phase) (i : Nat)
deriving DecidableEq, Repr

/-- behaviour of the plugins: the answer and the side effects -/
abbrev Env := Phase → Nat → List Ev → Bool × List Eff

/-- configuration: number of plugins, reactions after activation, flags (`actor_base.cpp:15-29`),
whether a reason is a failure (`root()->ec` is set) -/
structure Cfg where
  n : Nat
  reacts : Phase → Nat → Bool
  escalate : Bool
  autoShutdown : Bool
  spawned : Bool
  failure : Nat → Bool

/-- the relevant fields of `actor_base_t` -/
structure State where
  st : AState
  react : Phase → Nat → Bool
  initReq : Option Nat
  shutReq : Option Nat
  reason : Option Nat
  log : List Ev

inductive Err where
  /-- a failed assertion or a null pointer -/
  | fault
  /-- not done by the library: second activation -/
  | illegal
deriving DecidableEq, Repr

/-- construction, `actor_base.cpp:15-29`: state NEW -/
def State.init : State := ⟨.new, fun _ _ => false, none, none, none, []⟩

/-- `reaction_on` / `reaction_off` -/
def setReact (ph : Phase) (i : Nat) (b : Bool) (s : State) : State :=
  { s with react := fun p j => if p = ph ∧ j = i then b else s.react p j }

def applyEffs : List Eff → State → State
  | [], s => s
  | .on ph i :: l, s => applyEffs l { setReact ph i true s with log := .joined ph i :: s.log }
  | .off ph i :: l, s => applyEffs l { setReact ph i false s with log := .left ph i :: s.log }

/-- the loop of `init_continue` (`actor_base.cpp:153-163`) and of `shutdown_continue` (177-188) over the
plugins still to be asked; true if `in_progress` reaches 0 -/
def pass (env : Env) (ph : Phase) : List Nat → State → State × Bool
  | [], s => (s, true)
  | i :: l, s =>
    if s.react ph i then
      let r := env ph i s.log
      let s1 := applyEffs r.2 { s with log := .ask ph i :: s.log }
      let s2 := { s1 with log := .answer ph i r.1 :: s1.log }
      if r.1 then pass env ph l (setReact ph i false s2) else (s2, false)
    else pass env ph l s

/-- direct order for `init_continue`, reverse order for `shutdown_continue` -/
def order (c : Cfg) : Phase → List Nat
  | .init => List.range c.n
  | .shut => (List.range c.n).reverse

def become (st : AState) (s : State) : State := { s with st := st, log := .became st :: s.log }

/-- `init_finish`, `actor_base.cpp:97-101` -/
def initFinish (s : State) : Except Err State :=
  match s.initReq with
  | none => .error .fault
  | some r => .ok (become .initialized { s with initReq := none, log := .replyInit r true :: s.log })

/-- `init_continue`, `actor_base.cpp:147-168` -/
def initContinue (c : Cfg) (env : Env) (s : State) : Except Err State :=
  if s.st ≠ .initializing then .error .fault
  else if s.initReq = none then .error .fault
  else
    let r := pass env .init (order c .init) s
    if r.2 then initFinish r.1 else .ok r.1

/-- `assign_shutdown_reason`, `actor_base.cpp:270-274` -/
def assignReason (reason : Option Nat) (s : State) : State :=
  if s.reason = none then { s with reason := reason } else s

/-- the two conditions of `shutdown_start`, `actor_base.cpp:107-118` -/
def triggers (c : Cfg) (reason : Option Nat) : List Ev :=
  if c.spawned then []
  else
    (if c.autoShutdown then [.trigger .childDown reason] else []) ++
    (match reason with
     | some x => if c.escalate ∧ c.failure x = true then [.trigger .escalation reason] else []
     | none => [])

/-- `shutdown_start`, `actor_base.cpp:105-119` -/
def shutdownStart (c : Cfg) (s : State) : State :=
  let s1 := become .shuttingDown s
  { s1 with log := triggers c s1.reason ++ s1.log }

/-- `shutdown_finish`, `actor_base.cpp:121-145` -/
def shutdownFinish (s : State) : State :=
  match s.shutReq with
  | some r => become .shutDown { s with shutReq := none, log := .replyShut r true :: s.log }
  | none => become .shutDown s

/-- `shutdown_continue`, `actor_base.cpp:172-193` -/
def shutdownContinue (c : Cfg) (env : Env) (s : State) : Except Err State :=
  if s.st ≠ .shuttingDown then .error .fault
  else
    let r := pass env .shut (order c .shut) s
    if r.2 then .ok (shutdownFinish r.1) else .ok r.1

/-- what happens to the actor -/
inductive Op where
  /-- `do_initialize`: the plugins are activated (`actor_base.cpp:33, 54-58`) -/
  | activate
  /-- an init request arrives -/
  | initRequest (r : Nat)
  /-- a start message arrives -/
  | start
  /-- a shutdown request arrives; for a root supervisor (no request) `r` is none -/
  | shutRequest (r : Option Nat) (reason : Option Nat)
  /-- a plugin has made progress and calls `init_continue` / `shutdown_continue` -/
  | progress (ph : Phase)
  /-- a link was refused (`link_client.cpp:74-78`) -/
  | linkRefused
  /-- a registration or discovery has failed (`registry.cpp:107-112`) -/
  | registryFailed
  /-- a client did not confirm unlinking in time (`link_server.cpp:84-90`) -/
  | unlinkFailed
  /-- reactions are switched outside of polling -/
  | effect (e : Eff)
deriving DecidableEq, Repr

/-- messages are delivered as long as the actor has subscriptions -/
def State.listens (s : State) : Prop := s.st ≠ .new ∧ s.st ≠ .shutDown

instance (s : State) : Decidable s.listens := by unfold State.listens; infer_instance

/-- one of them -/
def step (c : Cfg) (env : Env) (s : State) : Op → Except Err State
  | .activate =>
    -- `address_maker_plugin_t::activate`, `address_maker.cpp:36-49` calls `init_start` (`actor_base.cpp:95`)
    if s.st ≠ .new then .error .illegal else .ok (become .initializing { s with react := c.reacts })
  | .initRequest r =>
    -- `init_shutdown_plugin_t::on_init`, `init_shutdown.cpp:45-52`; `plugin_base_t::activate` commits the activation of
    -- the plugin, which fails its assertion when that has been done by an earlier request (`actor_base.cpp:67`, C71)
    if s.listens then
      let s1 := { s with initReq := some r, log := .gotInit r :: s.log }
      if s1.st = .initializing then
        if s.log.any Ev.isRequest then .error .fault else initContinue c env s1
      else .ok s1
    else .ok s
  | .start =>
    -- `starter_plugin_t::on_start`, `starter.cpp:72-86`, with `handle_start` 67-70 and `on_start` `actor_base.cpp:103`
    if s.st = .initialized then .ok (become .operational s) else .ok s
  | .shutRequest r reason =>
    -- `init_shutdown_plugin_t::on_shutdown`, `init_shutdown.cpp:54-64`; for a root `child_manager.cpp:392-398`
    if s.listens ∧ (r = none → s.st ≠ .shuttingDown) then
      let s1 := { s with shutReq := if r = none then s.shutReq else r, log := .gotShut r reason :: s.log }
      shutdownContinue c env (shutdownStart c (assignReason reason s1))
    else .ok s
  | .progress .init => initContinue c env s
  | .progress .shut => shutdownContinue c env s
  | .linkRefused =>
    if s.listens then
      match s.initReq with
      | some r => .ok { s with initReq := none, log := .replyInit r false :: s.log }
      | none => .ok s
    else .ok s
  | .registryFailed =>
    if s.listens then
      match s.initReq with
      | some r => .ok { s with log := .replyInit r false :: s.log }
      | none => .error .fault
    else .ok s
  | .unlinkFailed =>
    if s.listens then
      match s.shutReq with
      | some r => .ok { s with log := .replyShut r false :: s.log }
      | none => .ok s
    else .ok s
  | .effect e => if s.listens then .ok (applyEffs [e] s) else .ok s

def run (c : Cfg) (env : Env) : State → List Op → Except Err State
  | s, [] => .ok s
  | s, op :: l =>
    match step c env s op with
    | .error e => .error e
    | .ok s1 => run c env s1 l

end Verif.Lifecycle
