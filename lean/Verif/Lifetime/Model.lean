import Verif.Basic.ActorState
/-!
# Subscriptions of an actor and their removal when it shuts down

Sources: `src/rotor/plugin/lifetime.cpp:31-133`, `src/rotor/plugin/plugin_base.cpp:30-97`,
`src/rotor/actor_base.cpp` (74-93, 121-145, 172-204, 224-244), `src/rotor/plugin/init_shutdown.cpp:54-73`,
`src/rotor/plugin/starter.cpp:27-40`, `include/rotor/supervisor.h:401-443`,
`include/rotor/actor_base.h:70-78, 228`.

An ordinary actor (not a supervisor) with any number of plugins. The lifetime plugin is followed by
the init_shutdown plugin, the starter is the last one; all others (links, registry, resources, plugins of
the user) subscribe to messages when they are activated, take part in the shutdown or not, and agree or
refuse in `handle_shutdown` as an arbitrary function of the history. `actor_base_t::subscribe` makes
anonymous subscriptions; the starter makes subscriptions for the user.

Simplifications:
* requests for unsubscription go from the actor to itself: a FIFO queue (C04), messages between them do
  not matter; a message is dropped if nobody is subscribed to it (C01);
* removal from the subscription table is modelled in `Verif.Subscription`, here a subscription is in the
  table or not; what the supervisor of a foreign address does is in `Verif.Net`;
* a subscription made by the user has its own handler and address (a second one for the same handler and
  address is not distinguishable from it for `find`);
* timers and requests cancelled by `shutdown_finish` are in `Verif.Requests`, the supervisor being told in
  `shutdown_start` is in `Verif.Lifecycle`;
* `handle_shutdown` of the other plugins makes no subscriptions.
-/

namespace Verif.Lifetime
open Verif

/-- a subscription. `owner`: the plugin that has made it, none: anonymous; `user`: made on behalf of the user
(by the starter or anonymously), not by the plugin for itself; `uid`: identity; `ext`: to an address of
another locality -/
structure Sub where
  owner : Option Nat
  user : Bool
  uid : Nat
  ext : Bool
deriving DecidableEq, Repr

/-- `n`: number of plugins; `life`: position of the lifetime plugin; `cnt`: how many subscriptions the plugins make
for themselves when they are activated; `votes`: who has the SHUTDOWN reaction. The order of the plugins is
`actor_base.h:70-78`; the address maker (before the lifetime plugin) has no SHUTDOWN reaction
(`address_maker.cpp:36-49`), the lifetime plugin makes three subscriptions (`lifetime.cpp:39-41`), the starter
one (`starter.cpp:34`) and has no SHUTDOWN reaction (`starter.cpp:31-33`) -/
structure Cfg where
  n : Nat
  life : Nat
  cnt : Nat → Nat
  votes : Nat → Bool
  hn : life + 2 < n
  hlife : cnt life = 3
  hstart : 0 < cnt (n - 1)
  hbefore : ∀ i, i < life → votes i = false
  hvlife : votes life = true
  hvshut : votes (life + 1) = true

/-- position of `init_shutdown_plugin_t` -/
def Cfg.shut (c : Cfg) : Nat := c.life + 1
/-- position of `starter_plugin_t` -/
def Cfg.starter (c : Cfg) : Nat := c.n - 1

/-- what a plugin subscribes for itself -/
def core (c : Cfg) (p : Nat) : List Sub := (List.range (c.cnt p)).map (fun k => ⟨some p, false, k, false⟩)

/-- the handler `lifetime_plugin_t::on_unsubscription` -/
def hInt (c : Cfg) : Sub := ⟨some c.life, false, 0, false⟩
/-- the handler `lifetime_plugin_t::on_unsubscription_external` -/
def hExt (c : Cfg) : Sub := ⟨some c.life, false, 1, false⟩

/-- events, newest first in the log -/
inductive Ev where
  | answer (p : Nat) (ans : Bool)
  /-- a subscription is made -/
  | made (x : Sub)
  /-- the subscription is removed -/
  | removed (x : Sub)
  /-- `shutdown_finish` replies to the shutdown request -/
  | reply
deriving DecidableEq, Repr

/-- `own`: `own_subscriptions` of the plugins; `points`: `lifetime_plugin_t::points`; `uns`: the subscriptions that are
`UNSUBSCRIBING`; `active`: `plugin->actor` is not null; `deact`: `deactivating_plugins`; `react`: SHUTDOWN reaction;
`lifeNull`: `actor->lifetime` is null; `queue`: unsubscription messages of the actor to itself; `live`: the subscriptions
in the table; `next`: identity of the next subscription of the user -/
structure State where
  st : AState
  own : Nat → List Sub
  points : List Sub
  uns : List Sub
  active : Nat → Bool
  deact : List Nat
  react : Nat → Bool
  lifeNull : Bool
  queue : List Sub
  live : List Sub
  next : Nat
  log : List Ev

inductive Err where
  /-- failed assertion, null or invalid pointer -/
  | fault
  /-- not possible now -/
  | illegal
deriving DecidableEq, Repr

/-- `handle_shutdown` of the other plugins: what they answer -/
abbrev Env := List Ev → Bool

/-- update of a function -/
def upd {α : Type} (f : Nat → α) (i : Nat) (v : α) : Nat → α := fun j => if j = i then v else f j

/-- all plugins are activated: `actor_base.cpp:54-58` -/
def State.init (c : Cfg) : State where
  st := .operational
  own p := if p < c.n then core c p else []
  points := (List.range c.n).flatMap (core c)
  uns := []
  active p := decide (p < c.n)
  deact := []
  react p := decide (p < c.n) && c.votes p
  lifeNull := false
  queue := []
  live := (List.range c.n).flatMap (core c)
  next := 0
  log := ((List.range c.n).flatMap (core c)).map .made

/-- `lifetime_plugin_t::unsubscribe(info)`, `lifetime.cpp:57-73` -/
def mark (x : Sub) (s : State) : State :=
  if x ∈ s.uns then s else { s with uns := x :: s.uns, queue := s.queue ++ [x] }

def markAll : List Sub → State → State
  | [], s => s
  | x :: l, s => markAll l (mark x s)

/-- `plugin_base_t::deactivate`, `plugin_base.cpp:36-52` with `commit_plugin_deactivation`, `actor_base.cpp:84-93` -/
def baseDeactivate (p : Nat) (s : State) : Except Err State :=
  if s.active p then
    if s.own p = [] then
      .ok { s with deact := s.deact.erase p, active := upd s.active p false, react := upd s.react p false }
    else if s.lifeNull then .error .fault
    else .ok (markAll (s.own p).reverse s)
  else .ok s

/-- the loop in `deactivate_plugins`, `actor_base.cpp:74-82`; `lifetime_plugin_t::deactivate` does nothing
(`lifetime.cpp:46-48`) -/
def deactAll (c : Cfg) : List Nat → State → Except Err State
  | [], s => .ok s
  | p :: ps, s =>
    if s.active p then
      let s1 := { s with deact := if p ∈ s.deact then s.deact else s.deact ++ [p] }
      if p = c.life then deactAll c ps s1
      else
        match baseDeactivate p s1 with
        | .error e => .error e
        | .ok s2 => deactAll c ps s2
    else deactAll c ps s

/-- plugins in reverse order -/
def Cfg.order (c : Cfg) : List Nat := (List.range c.n).reverse

def anon (x : Sub) : Bool := x.owner.isNone

/-- `lifetime_plugin_t::unsubscribe()`, `lifetime.cpp:81-98, 130-133`; `actor` is dereferenced by `send` and
`ready_to_shutdown` -/
def lifeUnsub (c : Cfg) (s : State) : Except Err State :=
  let l := s.points.filter anon
  let s1 := { markAll l.reverse s with points := l }
  if s.active c.life then
    if l = [] ∧ s1.deact.length = 1 then
      match baseDeactivate c.life s1 with
      | .error e => .error e
      | .ok s2 => if s2.active c.life then .ok { s2 with lifeNull := true } else .error .fault
    else .ok s1
  else if l = [] ∨ s1.queue ≠ s.queue then .error .fault
  else .ok s1

/-- `handle_shutdown`: `lifetime.cpp:50-55`, `init_shutdown.cpp:70-73`, or another plugin -/
def vote (c : Cfg) (env : Env) (p : Nat) (s : State) : Except Err (State × Bool) :=
  if p = c.life then
    if s.points = [] ∧ s.own c.life = [] then .ok (s, true)
    else
      match lifeUnsub c s with
      | .error e => .error e
      | .ok s1 => .ok (s1, false)
  else if p = c.shut then
    match deactAll c c.order s with
    | .error e => .error e
    | .ok s1 => .ok (s1, true)
  else .ok ({ s with log := .answer p (env s.log) :: s.log }, env s.log)

/-- the loop in `shutdown_continue`, `actor_base.cpp:177-188` -/
def pass (c : Cfg) (env : Env) : List Nat → State → Except Err (State × Bool)
  | [], s => .ok (s, true)
  | p :: ps, s =>
    if s.react p then
      match vote c env p s with
      | .error e => .error e
      | .ok (s1, true) => pass c env ps { s1 with react := upd s1.react p false }
      | .ok (s1, false) => .ok (s1, false)
    else pass c env ps s

/-- `shutdown_finish`, `actor_base.cpp:121-145` -/
def finish (s : State) : Except Err State :=
  if s.deact = [] then .ok { s with st := .shutDown, log := .reply :: s.log } else .error .fault

/-- `shutdown_continue`, `actor_base.cpp:172-193` -/
def shutdownContinue (c : Cfg) (env : Env) (s : State) : Except Err State :=
  if s.st = .shuttingDown then
    match pass c env c.order s with
    | .error e => .error e
    | .ok (s1, true) => finish s1
    | .ok (s1, false) => .ok s1
  else .error .fault

/-- `plugin_base_t::forget_subscription(point)` when it was found, `plugin_base.cpp:65-83` -/
def forget (c : Cfg) (env : Env) (p : Nat) (x : Sub) (s : State) : Except Err State :=
  let s1 := { s with own := upd s.own p ((s.own p).erase x), live := s.live.erase x, log := .removed x :: s.log }
  if (s.own p).erase x = [] then
    let s2 := { s1 with deact := s1.deact.erase p }
    if s.st = .shuttingDown then
      match shutdownContinue c env s2 with
      | .error e => .error e
      | .ok s3 => .ok { s3 with active := upd s3.active p false }
    else .ok { s2 with active := upd s2.active p false }
  else .ok s1

/-- an anonymous subscription: `lifetime_plugin_t::handle_unsubscription`, `lifetime.cpp:116-123` -/
def forgetAnon (c : Cfg) (x : Sub) (s : State) : Except Err State :=
  if x ∈ s.points ∧ s.active c.life then
    let s1 := { s with points := s.points.erase x, live := s.live.erase x, log := .removed x :: s.log }
    if s1.points = [] then baseDeactivate c.life s1 else .ok s1
  else .error .fault

/-- the front message is delivered: `on_unsubscription`, `on_unsubscription_external` (`lifetime.cpp:102-106`,
`actor_base.cpp:195-204, 224-244`). An external one is offered to the last plugin first, which has to know it
(`plugin_base.cpp:88-94`); an internal one is taken by the plugin that has it, or by the lifetime plugin -/
def confirm (c : Cfg) (env : Env) (s : State) : Except Err State :=
  match s.queue with
  | [] => .ok s
  | x :: rest =>
    let s1 := { s with queue := rest }
    if x.ext then
      if hExt c ∈ s.live then
        if x ∈ s.own c.starter then forget c env c.starter x s1 else .error .fault
      else .ok s1
    else if hInt c ∈ s.live then
      match x.owner with
      | none => forgetAnon c x s1
      | some p => if x ∈ s.own p then forget c env p x s1 else .ok s1
    else .ok s1

/-- `actor_base_t::subscribe` or `starter_plugin_t::subscribe_actor`, `supervisor.h:401-410, 429-443`,
`initate_subscription` (`lifetime.cpp:108-110`) -/
def subscribe (c : Cfg) (byStarter ext : Bool) (s : State) : Except Err State :=
  let x : Sub := ⟨if byStarter then some c.starter else none, true, s.next, ext⟩
  if s.lifeNull ∨ (byStarter ∧ ¬ s.active c.starter) then .error .fault
  else
    let s1 := { s with next := s.next + 1, points := s.points ++ [x], live := s.live ++ [x], log := .made x :: s.log }
    .ok (if byStarter then { s1 with own := upd s.own c.starter (s.own c.starter ++ [x]) } else s1)

/-- what happens -/
inductive Op where
  /-- a shutdown request arrives, `init_shutdown.cpp:54-64` -/
  | request
  /-- plugin `p` calls `shutdown_continue`, e.g. `resources.cpp:78-82`, `link_server.cpp:84-106` -/
  | cont (p : Nat)
  /-- plugin `p` switches its SHUTDOWN reaction on, e.g. `resources.cpp:62-64` -/
  | join (p : Nat)
  /-- the front message of the queue is processed -/
  | confirm
  /-- the user subscribes, by the starter or anonymously, before the plugins are deactivated -/
  | subscribe (byStarter ext : Bool)
  /-- the user unsubscribes (`actor_base.h:228`), before the plugins are deactivated -/
  | unsubscribe (x : Sub)
  /-- both, when the plugins have been deactivated -/
  | lateSubscribe (byStarter ext : Bool)
  | lateUnsubscribe (x : Sub)
deriving DecidableEq, Repr

def step (c : Cfg) (env : Env) (s : State) : Op → Except Err State
  | .request => if s.st.rank < AState.shuttingDown.rank then shutdownContinue c env { s with st := .shuttingDown } else .error .illegal
  | .cont p =>
    if s.st = .shuttingDown ∧ s.active p = true ∧ p ≠ c.life ∧ p ≠ c.shut then shutdownContinue c env s else .error .illegal
  | .join p =>
    if s.react c.shut = true ∧ c.shut < p ∧ p < c.n then .ok { s with react := upd s.react p true } else .error .illegal
  | .confirm => confirm c env s
  | .subscribe b e => if s.react c.shut then subscribe c b e s else .error .illegal
  | .unsubscribe x =>
    if s.react c.shut = true ∧ x.user = true ∧ x ∈ s.points then .ok (mark x s) else .error .illegal
  | .lateSubscribe b e =>
    if s.react c.shut = false ∧ s.st = .shuttingDown then subscribe c b e s else .error .illegal
  | .lateUnsubscribe x =>
    if s.react c.shut = false ∧ s.st = .shuttingDown ∧ x.user = true ∧ x ∈ s.live then
      (if s.lifeNull ∨ x ∉ s.points then .error .fault else .ok (mark x s))
    else .error .illegal

def run (c : Cfg) (env : Env) : State → List Op → Except Err State
  | s, [] => .ok s
  | s, op :: ops =>
    match step c env s op with
    | .error e => .error e
    | .ok s1 => run c env s1 ops

end Verif.Lifetime
