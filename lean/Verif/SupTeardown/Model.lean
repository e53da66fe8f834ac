import Verif.Basic.ActorState
/-!
# How a supervisor is taken apart

Sources: `src/rotor/plugin/child_manager.cpp` (84-91, 93-163, 293-346, 363-423, 425-441), `src/rotor/plugin/lifetime.cpp:46-133`,
`src/rotor/plugin/plugin_base.cpp:30-97`, `src/rotor/actor_base.cpp` (74-93, 121-145, 172-204, 224-244),
`src/rotor/plugin/init_shutdown.cpp:54-73`, `src/rotor/supervisor.cpp:113-117`, `src/rotor/address_mapping.cpp:13-60`, `include/rotor/supervisor.h:71-90, 511-565`,
`src/rotor/plugin/foreigners_support.cpp:81-94`.

A supervisor is an actor with a child manager. The child manager keeps a record of the supervisor itself and of every
child, and the supervisor subscribes, on behalf of itself and of its children, to the responses of their requests (the
"mapped" subscriptions). Its shutdown is more involved than that of an ordinary actor (`Verif.Lifetime`): the child
manager does not give up its subscriptions together with the other plugins, but when the last mapped subscription is
gone; removing a record starts another round of `shutdown_continue`, possibly inside of the round that removes it.

Simplifications:
* the plugins between the lifetime plugin and the starter are arbitrary, as in `Verif.Lifetime`; only the child manager
  and the plugin for subscribers of other localities are singled out; of the latter only that it may be deactivated early, the rest
  is in `Verif.Farewell`. External and late subscriptions are in `Verif.Lifetime`, here all are internal and made before the plugins
  are deactivated;
* a request is sent as soon as it is built (otherwise `C44_two_builders_counterexample`);
* before the shutdown the state is `operational` (what happens while initializing is in `Verif.Lifecycle`, `Verif.Children`);
  records of spawners, restarts and timers are in `Verif.Spawner` and `Verif.Children`;
* messages of the actor to itself other than those for the removal of subscriptions do not matter for the order (C04);
* a child makes no request after it has confirmed its shutdown.
-/

namespace Verif.SupTeardown
open Verif

/-- a subscription. `plug p k`: the `k`-th one plugin `p` makes for itself; `user k`: made by the starter for the user;
`anon k`: `actor_base_t::subscribe` (tag `ANONYMOUS`); `map a ty k`: for responses of type `ty` to requests of `a` (tag
`SUPERVISOR`, `supervisor.h:544-565`), `a = 0`: the supervisor itself -/
inductive Sub where
  | plug (p k : Nat)
  | user (k : Nat)
  | anon (k : Nat)
  | map (a ty k : Nat)
deriving DecidableEq, Repr

/-- `n`: number of plugins; `life`: position of the lifetime plugin, followed by init_shutdown; `cm`: position of the child
manager; `fgn`: position of the plugin for subscribers of other localities, it has no SHUTDOWN reaction
(`foreigners_support.h`); the starter is the last one (`supervisor.h:77-90`). `cnt`: how many subscriptions the plugins make for themselves
when they are activated; `votes`: who has the SHUTDOWN reaction -/
structure Cfg where
  n : Nat
  life : Nat
  cm : Nat
  fgn : Nat
  cnt : Nat → Nat
  votes : Nat → Bool
  hcm1 : life + 1 < cm
  hcm2 : cm + 1 < n
  hlife : cnt life = 3
  hcnt : 0 < cnt cm
  hstart : 0 < cnt (n - 1)
  hbefore : ∀ i, i < life → votes i = false
  hvlife : votes life = true
  hvshut : votes (life + 1) = true
  hvcm : votes cm = true
  hf1 : life + 1 < fgn
  hf2 : fgn + 1 < n
  hf3 : fgn ≠ cm
  hvf : votes fgn = false

/-- position of `init_shutdown_plugin_t` -/
def Cfg.shut (c : Cfg) : Nat := c.life + 1
/-- position of `starter_plugin_t` -/
def Cfg.starter (c : Cfg) : Nat := c.n - 1

/-- what a plugin subscribes for itself -/
def core (c : Cfg) (p : Nat) : List Sub := (List.range (c.cnt p)).map (fun k => .plug p k)

/-- the handler `lifetime_plugin_t::on_unsubscription` (it is the first one, `lifetime.cpp:38-41`) -/
def hInt (c : Cfg) : Sub := .plug c.life 0

/-- the plugin that has the subscription among its `own_subscriptions` -/
def owner (c : Cfg) : Sub → Option Nat
  | .plug p _ => some p
  | .user _ => some c.starter
  | _ => none

/-- tags other than `PLUGIN` -/
def np : Sub → Bool
  | .anon _ => true
  | .map _ _ _ => true
  | _ => false

/-- the actor a mapped subscription belongs to -/
def mapOf : Sub → Option Nat
  | .map a _ _ => some a
  | _ => none

/-- events, newest first in the log -/
inductive Ev where
  | answer (p : Nat) (ans : Bool)
  /-- a subscription is made -/
  | made (x : Sub)
  /-- the subscription is removed -/
  | removed (x : Sub)
  /-- a child is created / has confirmed its shutdown / its record is removed (0: the record of the supervisor itself) -/
  | created (a : Nat)
  | confirmed (a : Nat)
  | gone (a : Nat)
  /-- `shutdown_finish` -/
  | reply
deriving DecidableEq, Repr

/-- `own`: `own_subscriptions` of the plugins (these and the table of subscriptions are changed together); `points`:
`lifetime_plugin_t::points`; `uns`: the subscriptions that are `UNSUBSCRIBING`; `active`: `plugin->actor` is not null;
`deact`: the set `deactivating_plugins`; `react`: SHUTDOWN reaction; `lifeNull`: `actor->lifetime` is null; `queue`:
unsubscription messages of the supervisor to itself; `mapping`: `address_mapping`; `selfRec`: the child manager has the record
of the supervisor itself; `kids`: the children it has records of; `asked`: a shutdown request was sent to the child; `conf`:
the child has confirmed; `next`: identity of the next subscription -/
structure State where
  st : AState
  own : Nat → List Sub
  points : List Sub
  uns : List Sub
  active : Nat → Bool
  deact : Nat → Bool
  react : Nat → Bool
  lifeNull : Bool
  queue : List Sub
  mapping : List Sub
  selfRec : Bool
  kids : List Nat
  asked : List Nat
  conf : List Nat
  next : Nat
  log : List Ev

inductive Err where
  /-- failed assertion, exception out of a noexcept function, null or invalid pointer -/
  | fault
  /-- `shutdown_continue` is nested more deeply than the model provides for -/
  | deep
  /-- not possible now -/
  | illegal
deriving DecidableEq, Repr

/-- `handle_shutdown` of the other plugins: what they answer -/
abbrev Env := List Ev → Bool

/-- update of a function -/
def upd {α : Type} (f : Nat → α) (i : Nat) (v : α) : Nat → α := fun j => if j = i then v else f j

/-- all plugins are activated: `actor_base.cpp:54-58`; the child manager has made the record of the supervisor,
`child_manager.cpp:66-82` -/
def State.init (c : Cfg) : State where
  st := .operational
  own p := if p < c.n then core c p else []
  points := (List.range c.n).flatMap (core c)
  uns := []
  active p := decide (p < c.n)
  deact _ := false
  react p := decide (p < c.n) && c.votes p
  lifeNull := false
  queue := []
  mapping := []
  selfRec := true
  kids := []
  asked := []
  conf := []
  next := 0
  log := ((List.range c.n).flatMap (core c)).map .made

/-- `lifetime_plugin_t::unsubscribe(info)`, `lifetime.cpp:57-73` -/
def mark (x : Sub) (s : State) : State :=
  if x ∈ s.uns then s else { s with uns := x :: s.uns, queue := s.queue ++ [x] }

def markAll : List Sub → State → State
  | [], s => s
  | x :: l, s => markAll l (mark x s)

/-- `plugin_base_t::deactivate`, `plugin_base.cpp:36-52` with `commit_plugin_deactivation`, `actor_base.cpp:84-93` -/
def baseDeactivate (p : Nat) (s : State) : Except Err State :=
  if s.active p then
    if s.own p = [] then
      .ok { s with deact := upd s.deact p false, active := upd s.active p false, react := upd s.react p false }
    else if s.lifeNull then .error .fault
    else .ok (markAll (s.own p).reverse s)
  else .ok s

/-- `active_actors`, `child_manager.cpp:476-487` (without spawners) -/
def actors (s : State) : Nat := s.kids.length + (if s.selfRec then 1 else 0)

/-- `remove_child`, `child_manager.cpp:93-163`; `cont` is `shutdown_continue` of the supervisor; `init_continue` (162) at the
end uses the actor of the plugin -/
def removeChild (c : Cfg) (cont : State → Except Err State) (a : Nat) (s : State) : Except Err State :=
  if (a = 0 ∧ s.selfRec = true) ∨ (a ≠ 0 ∧ a ∈ s.kids) then
    let s1 := if a = 0 then { s with selfRec := false, log := .gone 0 :: s.log }
      else { s with kids := s.kids.erase a, log := .gone a :: s.log }
    if s1.st = .shuttingDown ∧ actors s1 ≤ 1 then
      match cont s1 with
      | .error e => .error e
      | .ok s2 => if s2.active c.cm then .ok s2 else .error .fault
    else .ok s1
  else .error .fault

/-- `child_manager_plugin_t::deactivate`, `child_manager.cpp:84-91` -/
def cmDeactivate (c : Cfg) (cont : State → Except Err State) (s : State) : Except Err State :=
  if s.mapping = [] then
    if actors s = 1 then
      match removeChild c cont 0 s with
      | .error e => .error e
      | .ok s1 => baseDeactivate c.cm s1
    else baseDeactivate c.cm s
  else .ok s

/-- the loop in `deactivate_plugins`, `actor_base.cpp:74-82`; `lifetime_plugin_t::deactivate` does nothing
(`lifetime.cpp:46-48`) -/
def deactAll (c : Cfg) (cont : State → Except Err State) : List Nat → State → Except Err State
  | [], s => .ok s
  | p :: ps, s =>
    if s.active p then
      let s1 := { s with deact := upd s.deact p true }
      if p = c.life then deactAll c cont ps s1
      else
        match (if p = c.cm then cmDeactivate c cont s1 else baseDeactivate p s1) with
        | .error e => .error e
        | .ok s2 => deactAll c cont ps s2
    else deactAll c cont ps s

/-- plugins in reverse order -/
def Cfg.order (c : Cfg) : List Nat := (List.range c.n).reverse

/-- `ready_to_shutdown`, `lifetime.cpp:130-133`: the size of `deactivating_plugins` is one -/
def ready (c : Cfg) (s : State) : Bool := decide ((c.order.filter s.deact).length = 1)

/-- `lifetime_plugin_t::unsubscribe()`, `lifetime.cpp:81-98`; `actor` is dereferenced by `send` and `ready_to_shutdown` -/
def lifeUnsub (c : Cfg) (s : State) : Except Err State :=
  let l := s.points.filter np
  let s1 := { markAll l.reverse s with points := l }
  if s.active c.life then
    if l = [] ∧ ready c s1 = true then
      match baseDeactivate c.life s1 with
      | .error e => .error e
      | .ok s2 => if s2.active c.life then .ok { s2 with lifeNull := true } else .error .fault
    else .ok s1
  else if l = [] ∨ s1.queue ≠ s.queue then .error .fault
  else .ok s1

/-- the supervisor requests something: `request_builder_t`, `supervisor.h:511-565`. If there is no mapped subscription of `a` for
the type of the response, one is made; `address_mapping_t::set`, `address_mapping.cpp:13-17` -/
def request (a ty : Nat) (s : State) : State :=
  if s.mapping.any (fun x => match x with | .map b t _ => b == a && t == ty | _ => false) then s
  else
    let x := Sub.map a ty s.next
    { s with next := s.next + 1, points := s.points ++ [x], mapping := s.mapping ++ [x], log := .made x :: s.log }

/-- the type of the responses to shutdown requests -/
def shutTy : Nat := 0

/-- `request_shutdown` for all records, `child_manager.cpp:397-423`: requests to those children that have got none -/
def askAll (s : State) : State :=
  if s.kids.all (fun a => decide (a ∈ s.asked)) then s
  else { request 0 shutTy s with asked := s.asked ++ s.kids.filter (fun a => decide (a ∉ s.asked)) }

/-- `child_manager_plugin_t::handle_shutdown`, `child_manager.cpp:378-395` -/
def cmVote (s : State) : Except Err (State × Bool) :=
  if s.selfRec then .ok (askAll s, decide (actors s = 1)) else .error .fault

/-- `handle_shutdown`: `lifetime.cpp:50-55`, `init_shutdown.cpp:70-73`, the child manager, or another plugin -/
def vote (c : Cfg) (env : Env) (cont : State → Except Err State) (p : Nat) (s : State) : Except Err (State × Bool) :=
  if p = c.life then
    if s.points = [] ∧ s.own c.life = [] then .ok (s, true)
    else
      match lifeUnsub c s with
      | .error e => .error e
      | .ok s1 => .ok (s1, false)
  else if p = c.shut then
    match deactAll c cont c.order s with
    | .error e => .error e
    | .ok s1 => .ok (s1, true)
  else if p = c.cm then cmVote s
  else .ok ({ s with log := .answer p (env s.log) :: s.log }, env s.log)

/-- the loop in `shutdown_continue`, `actor_base.cpp:177-188` -/
def pass (c : Cfg) (env : Env) (cont : State → Except Err State) : List Nat → State → Except Err (State × Bool)
  | [], s => .ok (s, true)
  | p :: ps, s =>
    if s.react p then
      match vote c env cont p s with
      | .error e => .error e
      | .ok (s1, true) => pass c env cont ps { s1 with react := upd s1.react p false }
      | .ok (s1, false) => .ok (s1, false)
    else pass c env cont ps s

/-- `shutdown_finish`, `actor_base.cpp:121-145` -/
def finish (c : Cfg) (s : State) : Except Err State :=
  if c.order.filter s.deact = [] then .ok { s with st := .shutDown, log := .reply :: s.log } else .error .fault

/-- `shutdown_continue`, `actor_base.cpp:172-193`; `cont`: calls of it that are nested in this one -/
def shutdownContinue (c : Cfg) (env : Env) (cont : State → Except Err State) (s : State) : Except Err State :=
  if s.st = .shuttingDown then
    match pass c env cont c.order s with
    | .error e => .error e
    | .ok (s1, true) => finish c s1
    | .ok (s1, false) => .ok s1
  else .error .fault

/-- `shutdown_continue` with at most `k` levels -/
def sc (c : Cfg) (env : Env) : Nat → State → Except Err State
  | 0 => fun _ => .error .deep
  | k + 1 => shutdownContinue c env (sc c env k)

/-- two levels are enough (`C72_no_fault`) -/
def depth : Nat := 2

/-- `plugin_base_t::forget_subscription(point)` when it was found, `plugin_base.cpp:65-83` -/
def forget (c : Cfg) (env : Env) (p : Nat) (x : Sub) (s : State) : Except Err State :=
  let s1 := { s with own := upd s.own p ((s.own p).erase x), log := .removed x :: s.log }
  if (s.own p).erase x = [] then
    let s2 := { s1 with deact := upd s1.deact p false }
    if s.st = .shuttingDown then
      match sc c env depth s2 with
      | .error e => .error e
      | .ok s3 => .ok { s3 with active := upd s3.active p false }
    else .ok { s2 with active := upd s2.active p false }
  else .ok s1

/-- `child_manager_plugin_t::handle_unsubscription`, `child_manager.cpp:425-438`, for a mapped subscription of `a`;
`address_mapping_t::remove` (`address_mapping.cpp:31-45`) throws when there is none of `a` -/
def cmUnsub (c : Cfg) (env : Env) (a : Nat) (x : Sub) (s : State) : Except Err State :=
  if s.active c.cm = true ∧ s.mapping.any (fun y => mapOf y == some a) = true then
    let s1 := { s with mapping := s.mapping.erase x }
    match (if s1.mapping.any (fun y => mapOf y == some a) then .ok s1 else removeChild c (sc c env depth) a s1) with
    | .error e => .error e
    | .ok s2 => if s2.active c.cm then
        (if actors s2 = 0 ∨ s2.mapping = [] then baseDeactivate c.cm s2 else .ok s2)
      else .error .fault
  else .error .fault

/-- `lifetime_plugin_t::handle_unsubscription`, `lifetime.cpp:112-128`, for a subscription with another tag than `PLUGIN` -/
def lifeForget (c : Cfg) (x : Sub) (s : State) : Except Err State :=
  if x ∈ s.points ∧ s.active c.life = true then
    let s1 := { s with points := s.points.erase x, log := .removed x :: s.log }
    if s1.points = [] then baseDeactivate c.life s1 else .ok s1
  else .error .fault

/-- the front message is delivered: `on_unsubscription` (`lifetime.cpp:102-103`, `actor_base.cpp:195-204, 224-233`): the plugins
are asked from the last to the first; a mapped subscription is first seen by the child manager, then by the lifetime plugin.
A message nobody is subscribed to is dropped (C01) -/
def confirm (c : Cfg) (env : Env) (s : State) : Except Err State :=
  match s.queue with
  | [] => .ok s
  | x :: rest =>
    let s1 := { s with queue := rest }
    if hInt c ∈ s.own c.life then
      match x with
      | .plug p k => if .plug p k ∈ s.own p then forget c env p (.plug p k) s1 else .ok s1
      | .user k => if .user k ∈ s.own c.starter then forget c env c.starter (.user k) s1 else .ok s1
      | .anon k => lifeForget c (.anon k) s1
      | .map a ty k =>
        match cmUnsub c env a (.map a ty k) s1 with
        | .error e => .error e
        | .ok s2 => lifeForget c (.map a ty k) s2
    else .ok s1

/-- the part of `on_shutdown_confirm` that concerns the record, `child_manager.cpp:335-352`; `each_subscription`,
`address_mapping.h:65-74` -/
def kidGone (c : Cfg) (env : Env) (a : Nat) (s : State) : Except Err State :=
  let s0 := { s with conf := a :: s.conf, log := .confirmed a :: s.log }
  if s0.mapping.any (fun y => mapOf y == some a) then
    .ok (markAll (s0.mapping.filter (fun y => mapOf y == some a)) s0)
  else removeChild c (sc c env depth) a s0

/-- `supervisor_t::on_child_shutdown`, `supervisor.cpp:113-117` (it is virtual; the one of the library) -/
def onChildShutdown (c : Cfg) (env : Env) (s : State) : Except Err State :=
  if s.st = .shuttingDown then sc c env depth s else .ok s

/-- `on_shutdown_confirm`, `child_manager.cpp:335-358`, for a child -/
def kidConfirm (c : Cfg) (env : Env) (a : Nat) (s : State) : Except Err State :=
  match kidGone c env a s with
  | .error e => .error e
  | .ok s1 => onChildShutdown c env s1

/-- what happens -/
inductive Op where
  /-- the shutdown begins: a shutdown request of the parent (`init_shutdown.cpp:54-64`) or, for the root, a trigger
  (`child_manager.cpp:369-378`) -/
  | shutdown
  /-- plugin `p` calls `shutdown_continue`, e.g. `resources.cpp:78-82`, `link_server.cpp:84-106` -/
  | cont (p : Nat)
  /-- plugin `p` switches its SHUTDOWN reaction on, e.g. `resources.cpp:62-64` -/
  | join (p : Nat)
  /-- the front message of the queue is processed -/
  | confirm
  /-- the user subscribes, by the starter or anonymously, before the plugins are deactivated -/
  | subscribe (byStarter : Bool)
  /-- the user unsubscribes (`actor_base.h:228`), before the plugins are deactivated -/
  | unsubscribe (x : Sub)
  /-- a child is created before the shutdown, `child_manager.cpp:175-200` -/
  | create (a : Nat)
  /-- `a` (the supervisor, or a child that has not confirmed its shutdown) makes a request with a response of type `ty` -/
  | request (a ty : Nat)
  /-- the child is asked to shut down, `child_manager.cpp:293-297, 397-405` -/
  | ask (a : Nat)
  /-- the response to the shutdown request of the child arrives -/
  | kidConfirm (a : Nat)
  /-- the last subscriber of another locality leaves while the supervisor shuts down: the plugin for them is deactivated at
  once, `foreigners_support.cpp:81-94`; it still has its own subscriptions, otherwise it would not have got the message -/
  | foreignLeft
deriving DecidableEq, Repr

def step (c : Cfg) (env : Env) (s : State) : Op → Except Err State
  | .shutdown => if s.st.rank < AState.shuttingDown.rank then sc c env depth { s with st := .shuttingDown } else .error .illegal
  | .cont p =>
    if s.st = .shuttingDown ∧ p < c.n ∧ s.active p = true ∧ p ≠ c.life ∧ p ≠ c.shut ∧ p ≠ c.cm then sc c env depth s
    else .error .illegal
  | .join p =>
    if s.react c.shut = true ∧ c.shut < p ∧ p < c.n ∧ p ≠ c.cm ∧ p ≠ c.fgn then .ok { s with react := upd s.react p true }
    else .error .illegal
  | .confirm => confirm c env s
  | .subscribe b =>
    if s.react c.shut = true then
      let x : Sub := if b then .user s.next else .anon s.next
      let s1 := { s with next := s.next + 1, points := s.points ++ [x], log := .made x :: s.log }
      .ok (if b then { s1 with own := upd s.own c.starter (s.own c.starter ++ [x]) } else s1)
    else .error .illegal
  | .unsubscribe x =>
    if s.react c.shut = true then
      match x with
      | .user k => if .user k ∈ s.own c.starter then .ok (mark (.user k) s) else .error .illegal
      | .anon k => if .anon k ∈ s.points then .ok (mark (.anon k) s) else .error .illegal
      | _ => .error .illegal
    else .error .illegal
  | .create a =>
    if s.st.rank < AState.shuttingDown.rank ∧ a ≠ 0 ∧ a ∉ s.kids ∧ a ∉ s.asked ∧ a ∉ s.conf then
      .ok { s with kids := a :: s.kids, log := .created a :: s.log }
    else .error .illegal
  | .request a ty =>
    if s.react c.shut = true ∧ (a = 0 ∨ (a ∈ s.kids ∧ a ∉ s.conf)) then .ok (request a ty s) else .error .illegal
  | .ask a =>
    if s.react c.shut = true ∧ a ∈ s.kids then
      (if a ∈ s.asked then .ok s else .ok { request 0 shutTy s with asked := s.asked ++ [a] })
    else .error .illegal
  | .kidConfirm a =>
    if a ∈ s.kids ∧ a ∈ s.asked ∧ a ∉ s.conf then kidConfirm c env a s else .error .illegal
  | .foreignLeft =>
    if s.st = .shuttingDown ∧ s.own c.fgn ≠ [] then baseDeactivate c.fgn s else .error .illegal

def run (c : Cfg) (env : Env) : State → List Op → Except Err State
  | s, [] => .ok s
  | s, op :: ops =>
    match step c env s op with
    | .error e => .error e
    | .ok s1 => run c env s1 ops

end Verif.SupTeardown
