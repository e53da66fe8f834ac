import Verif.Basic.AMap
import Verif.Basic.ActorState
/-!
# The registry plugin of an actor

An actor registers and discovers names while it initializes, through `registry_plugin_t`. The model is one actor: its
`registry_plugin_t`, the part of its `link_client_plugin_t` the former uses, and the polling of the plugins
(`init_continue`, `shutdown_continue`). The registry, the servers, and the supervisor are the environment: they answer a request at
most once (see `Verif.Requests`), a timeout is an answer with an error.

Sources: `src/rotor/plugin/registry.cpp`, `include/rotor/plugin/registry.h`, `src/rotor/plugin/link_client.cpp:50-90`,
`135-171`, `src/rotor/actor_base.cpp:97-101`, `147-193`.

Simplifications:
* names, addresses, and variables of the user that receive an address are numbers;
* the supervisor has a registry (`registry.cpp:60`, `123` assert it);
* a callback of the user does nothing but what the operation `poke` does (at any time): write one of the variables;
* `unlink_queue` and `unlink_reaction` of the link client are left out (see `Verif.Link`): the operation `forget` removes an established link;
* a handler stays until the actor is SHUT_DOWN; an answer that comes when the handler is gone already is one that comes after `finish`;
* the other plugins are answers of an oracle: those behind (`resources`, `starter`, own ones), and those before (`link_server`,
  `init_shutdown`, `lifetime`), and whether the actor has clients.
-/

namespace Verif.RegPlugin
open Verif

/-- what the user asks for in `configure` of the plugin: `register_name(name, address)`, `discover_name(name, variable, delayed).callback(..)`.
(`link()` sets `link_on_discovery`, which nobody reads, and `operational_only`, which is left to the server.) -/
inductive Want where
  | reg (n : Nat) (a : Nat)
  | disc (n : Nat) (v : Nat) (delayed : Bool) (cb : Bool)
deriving DecidableEq, Repr

structure Conf where
  /-- the address of the registry -/
  reg : Nat
  /-- the user's code for the registry plugin -/
  wants : List Want
  /-- the links the user asks for in `configure` of the link client -/
  links : List Nat

/-- `registry_plugin_t::state_t`, `registry.h:137`; UNREGISTERING is set only just before the map is cleared -/
inductive RegSt where
  | registering | operational
deriving DecidableEq, Repr

/-- `register_info_t`, `registry.h:138-141` -/
structure Reg where
  a : Nat
  st : RegSt
deriving DecidableEq, Repr

/-- `discovery_task_t::state_t`, `registry.h:49`; LINKING and OPERATIONAL are not used -/
inductive TaskSt where
  | passive | discovering | cancelling
deriving DecidableEq, Repr

/-- `discovery_task_t`, `registry.h:44-89` -/
structure Task where
  v : Nat
  delayed : Bool
  cb : Bool
  st : TaskSt
deriving DecidableEq, Repr

/-- `state = state_t::DISCOVERING`, `registry.cpp:261` -/
def Task.going (t : Task) : Task := { t with st := .discovering }
/-- `state = state_t::CANCELLING`, `registry.cpp:278` -/
def Task.dropping (t : Task) : Task := { t with st := .cancelling }

/-- the callback of a link: none, `on_link` of the plugin (`registry.cpp:126`), the one of a task (`registry.cpp:213-223`), which holds a pointer to
the task -/
inductive LinkCb where
  | user | registry | task (n : Nat)
deriving DecidableEq, Repr

/-- `server_record_t`, `link_client.h:83-87` -/
structure Srv where
  operational : Bool
  cb : LinkCb
deriving DecidableEq, Repr

inductive Phase where
  | discovering | linking
deriving DecidableEq, Repr

/-- what is observed, from outside or by the user -/
inductive Ev where
  /-- the answer to the init request -/
  | answer (ok : Bool)
  /-- answers to requests -/
  | regRes (n : Nat) (ok : Bool)
  | discRes (n : Nat) (a : Option Nat)
  | linkRes (a : Nat) (ok : Bool)
  /-- link requests -/
  | linkReq (a : Nat) (cb : LinkCb)
  /-- the callback of a task, and the value of its variable then -/
  | called (n : Nat) (ph : Phase) (ok : Bool) (val : Option Nat)
  /-- messages to the registry: registration, discovery, deregistration, cancellation -/
  | register (n : Nat) (a : Nat)
  | discover (n : Nat) (delayed : Bool)
  | dereg (n : Nat)
  | cancel (n : Nat)
  /-- the shutdown request has come -/
  | shut
deriving DecidableEq, Repr

structure State where
  st : AState
  /-- `init_request`, and INIT and SHUTDOWN reactions of the link client and the registry plugin -/
  initReq : Bool
  rInitL : Bool
  rInitR : Bool
  rShutR : Bool
  rShutL : Bool
  /-- CONFIGURED of the link client, CONFIGURED, LINKING, LINKED of the registry plugin -/
  confL : Bool
  confR : Bool
  linking : Bool
  linked : Bool
  /-- `register_map`, `discovery_map`, `aliases_map`, `servers_map` -/
  regs : AMap Nat Reg
  disc : AMap Nat Task
  al : AMap (Option Nat) (List Nat)
  srv : AMap Nat Srv
  /-- the user's variables -/
  vars : Nat → Option Nat
  /-- requests without an answer: registration, discovery, link -/
  qReg : List Nat
  qDisc : List Nat
  qLink : List Nat
  /-- newest first -/
  log : List Ev

def State.init : State where
  st := .initializing
  initReq := false
  rInitL := true
  rInitR := true
  rShutR := true
  rShutL := true
  confL := false
  confR := false
  linking := false
  linked := false
  regs := []
  disc := []
  al := []
  srv := []
  vars := fun _ => none
  qReg := []
  qDisc := []
  qLink := []
  log := []

inductive Err where
  /-- a failed assertion -/
  | assertion
  /-- `at` in a `noexcept` function -/
  | terminate
  /-- use of an object that does not exist any more -/
  | dangling
  /-- not possible now -/
  | illegal
deriving DecidableEq, Repr

/-- the other plugins and the clients -/
structure Ora where
  next : Bool
  agree : Bool
  clients : Bool

/-- an event -/
def State.ev (σ : State) (e : Ev) : State := { σ with log := e :: σ.log }

/-- `link_client_plugin_t::link`, `link_client.cpp:50-57` -/
def link (a : Nat) (cb : LinkCb) (σ : State) : Except Err State :=
  if σ.srv.find a ≠ none then .error .assertion
  else .ok { σ with rInitL := true, qLink := σ.qLink ++ [a], srv := σ.srv.set a ⟨false, cb⟩, log := .linkReq a cb :: σ.log }

/-- `link_registry`, `registry.cpp:118-127` -/
def linkRegistry (c : Conf) (σ : State) : Except Err State := link c.reg .registry { σ with linking := true }

/-- the beginning of `register_name` and `discover_name`, `registry.cpp:62-65`, `74-77` -/
def needRegistry (c : Conf) (σ : State) : Except Err State :=
  if σ.linked then .error .assertion
  else if σ.linking then .ok σ else linkRegistry c σ

/-- `register_name`, `registry.cpp:58-68`, `discover_name`, `registry.cpp:70-81` -/
def want (c : Conf) (w : Want) (σ : State) : Except Err State :=
  match w with
  | .reg n a =>
    if σ.regs.find n ≠ none then .error .assertion
    else
      match needRegistry c σ with
      | .error e => .error e
      | .ok σ1 => .ok { σ1 with regs := σ1.regs.set n ⟨a, .registering⟩ }
  | .disc n v delayed cb =>
    if σ.disc.find n ≠ none then .error .assertion
    else
      match needRegistry c σ with
      | .error e => .error e
      | .ok σ1 => .ok { σ1 with disc := σ1.disc.set n ⟨v, delayed, cb, .passive⟩ }

def wants (c : Conf) : List Want → State → Except Err State
  | [], σ => .ok σ
  | w :: ws, σ =>
    match want c w σ with
    | .error e => .error e
    | .ok σ1 => wants c ws σ1

/-- the user's links -/
def links : List Nat → State → Except Err State
  | [], σ => .ok σ
  | a :: as, σ =>
    match link a .user σ with
    | .error e => .error e
    | .ok σ1 => links as σ1

/-- `has_registering`, `registry.cpp:183-186` -/
def hasRegistering (σ : State) : Bool := σ.regs.any (fun p => decide (p.2.st = .registering))

/-- `not_linking`, `link_client.cpp:140-142` -/
def notLinking (σ : State) : Bool := σ.srv.all (fun p => p.2.operational)

/-- `handle_init` of the link client, first part, `link_client.cpp:136-139` -/
def confClient (c : Conf) (σ : State) : Except Err State :=
  if σ.confL then .ok σ else links c.links { σ with confL := true }

/-- `handle_init` of the registry plugin, first part, `registry.cpp:147-150` -/
def confRegistry (c : Conf) (σ : State) : Except Err State :=
  if σ.confR then .ok σ else wants c c.wants { σ with confR := true }

/-- `init_finish`, `actor_base.cpp:97-101` -/
def initFinish (σ : State) : State := { σ with initReq := false, st := .initialized, log := .answer true :: σ.log }

/-- the plugins behind -/
def pollRest (o : Ora) (σ : State) : State := if o.next then initFinish σ else σ

/-- the registry plugin in `init_continue`, `registry.cpp:146-152` -/
def pollRegistry (c : Conf) (o : Ora) (σ : State) : Except Err State :=
  if σ.rInitR then
    match confRegistry c σ with
    | .error e => .error e
    | .ok σ1 => if σ1.disc.isEmpty ∧ hasRegistering σ1 = false then .ok (pollRest o { σ1 with rInitR := false }) else .ok σ1
  else .ok (pollRest o σ)

/-- `init_continue`, `actor_base.cpp:147-168`, with `handle_init` of the link client, `link_client.cpp:135-143` -/
def initContinue (c : Conf) (o : Ora) (σ : State) : Except Err State :=
  if σ.st = .initializing ∧ σ.initReq = true then
    if σ.rInitL then
      match confClient c σ with
      | .error e => .error e
      | .ok σ1 => if notLinking σ1 then pollRegistry c o { σ1 with rInitL := false } else .ok σ1
    else pollRegistry c o σ
  else .error .assertion

/-- `continue_init`, `registry.cpp:107-116` -/
def continueInit (c : Conf) (ok : Bool) (o : Ora) (σ : State) : Except Err State :=
  if σ.initReq then (if ok then initContinue c o σ else .ok (σ.ev (.answer false))) else .error .assertion

/-- the tasks that go on when the shutdown begins: `do_cancel`, `registry.cpp:272-282` -/
def waits (t : Task) : Bool := t.delayed && decide (t.st = .discovering)

/-- what the shutdown does with the names: those registered are deregistered, the delayed discoveries are cancelled, the rest is forgotten,
`registry.cpp:155-174` -/
def shutNames (σ : State) : State :=
  { σ with
    log := ((σ.disc.filter (fun p : Nat × Task => waits p.2)).map (fun p : Nat × Task => Ev.cancel p.1)).reverse ++
      (((σ.regs.filter (fun p : Nat × Reg => decide (p.2.st = RegSt.operational))).map (fun p : Nat × Reg => Ev.dereg p.1)).reverse ++ σ.log)
    regs := []
    disc := (σ.disc.filter (fun p : Nat × Task => waits p.2)).map (fun p : Nat × Task => (p.1, p.2.dropping)) }

/-- `handle_shutdown` of the registry plugin, `registry.cpp:154-181` -/
def shutRegistry (σ : State) : State × Bool :=
  if (shutNames σ).disc.isEmpty then ({ shutNames σ with al := [] }, true) else (shutNames σ, false)

/-- `handle_shutdown` of the link client, `link_client.cpp:145-171`; requests that have no answer are discarded (`discard_request`) -/
def shutClient (o : Ora) (σ : State) : State × Bool :=
  if σ.srv.isEmpty then (σ, true)
  else if o.clients then (σ, false)
  else ({ σ with srv := [], qLink := [] }, true)

/-- the link client in `shutdown_continue` -/
def pollClientDown (o : Ora) (σ : State) : State :=
  if σ.rShutL then
    match shutClient o σ with
    | (σ1, true) => { σ1 with rShutL := false }
    | (σ1, false) => σ1
  else σ

/-- `shutdown_continue`, `actor_base.cpp:172-193`. The plugins before do not matter: they end in `finish` -/
def shutdownContinue (o : Ora) (σ : State) : Except Err State :=
  if σ.st = .shuttingDown then
    if o.agree then
      if σ.rShutR then
        match shutRegistry σ with
        | (σ1, true) => .ok (pollClientDown o { σ1 with rShutR := false })
        | (σ1, false) => .ok σ1
      else .ok (pollClientDown o σ)
    else .ok σ
  else .error .assertion

/-- the names erased by `post_discovery`, `registry.cpp:240-248`: those of the address in the task's variable, or the task itself -/
def eraseNames (n : Nat) (t : Task) (σ : State) : AMap Nat Task :=
  match σ.al.find (σ.vars t.v) with
  | some names => σ.disc.filter (fun p => !names.contains p.1)
  | none => σ.disc.erase n

/-- `post_discovery`, `registry.cpp:234-258` -/
def postDiscovery (c : Conf) (n : Nat) (ok : Bool) (o : Ora) (σ : State) : Except Err State :=
  match σ.disc.find n with
  | none => .error .assertion
  | some t =>
    let σ1 := { σ with disc := eraseNames n t σ }
    if σ1.disc.isEmpty ∨ ok = false then
      if σ1.st = .initializing then continueInit c ok o σ1 else shutdownContinue o σ1
    else .ok σ1

/-- `on_registration`, `registry.cpp:83-97` -/
def onRegistration (c : Conf) (n : Nat) (ok : Bool) (o : Ora) (σ : State) : Except Err State :=
  match σ.regs.find n with
  | none => .error .assertion
  | some r =>
    let σ1 := { σ with regs := if ok then σ.regs.set n { r with st := .operational } else σ.regs.erase n }
    if hasRegistering σ1 = false ∨ ok = false then continueInit c ok o σ1 else .ok σ1

/-- the address is stored, and the callback is called, `registry.cpp:199-204` -/
def store (n : Nat) (t : Task) (a : Nat) (σ : State) : State :=
  let σ1 := { σ with vars := fun x => if x = t.v then some a else σ.vars x }
  if t.cb then σ1.ev (.called n .discovering true (σ1.vars t.v)) else σ1

/-- linking in `on_discovery`, `registry.cpp:208-229` -/
def linkTask (n : Nat) (t : Task) (a : Nat) (σ : State) : Except Err State :=
  match σ.al.find (σ.vars t.v) with
  | some names => .ok { σ with al := σ.al.set (σ.vars t.v) (names ++ [n]) }
  | none =>
    match link a (.task n) σ with
    | .error e => .error e
    | .ok σ1 => .ok { σ1 with al := σ1.al.set (some a) [n] }

/-- `process_discovery` and `on_discovery`, `registry.cpp:188-232` -/
def onDiscovery (c : Conf) (n : Nat) (res : Option Nat) (o : Ora) (σ : State) : Except Err State :=
  match σ.disc.find n with
  | none => .error .assertion
  | some t =>
    match res with
    | some a =>
      let σ1 := store n t a σ
      if σ1.st = .initializing then linkTask n t a σ1 else postDiscovery c n true o σ1
    | none => postDiscovery c n false o σ

/-- `on_link`, `registry.cpp:129-144`, with `do_discover`, `registry.cpp:260-270` -/
def onLink (ok : Bool) (σ : State) : State :=
  if ok then
    { σ with
      linked := true
      linking := false
      qReg := σ.qReg ++ σ.regs.keys
      qDisc := σ.qDisc ++ σ.disc.keys
      disc := σ.disc.map (fun p : Nat × Task => (p.1, p.2.going))
      log := (σ.disc.map (fun p : Nat × Task => Ev.discover p.1 p.2.delayed)).reverse ++
        ((σ.regs.map (fun p : Nat × Reg => Ev.register p.1 p.2.a)).reverse ++ σ.log) }
  else { σ with linked := true, linking := false }

/-- the callbacks of all names of an address, `registry.cpp:216-221`; `at` may throw -/
def callAll (ok : Bool) : List Nat → State → Except Err State
  | [], σ => .ok σ
  | n :: ns, σ =>
    match σ.disc.find n with
    | none => .error .terminate
    | some t => callAll ok ns (if t.cb then σ.ev (.called n .linking ok (σ.vars t.v)) else σ)

/-- the callback of a task's link, `registry.cpp:213-223` -/
def onTaskLink (c : Conf) (n : Nat) (ok : Bool) (o : Ora) (σ : State) : Except Err State :=
  match σ.disc.find n with
  | none => .error .dangling
  | some t =>
    match σ.al.find (σ.vars t.v) with
    | none => .error .terminate
    | some names =>
      match callAll ok names σ with
      | .error e => .error e
      | .ok σ1 => postDiscovery c n ok o σ1

def runCb (c : Conf) (cb : LinkCb) (ok : Bool) (o : Ora) (σ : State) : Except Err State :=
  match cb with
  | .user => .ok σ
  | .registry => .ok (onLink ok σ)
  | .task n => onTaskLink c n ok o σ

/-- the end of `on_link_response`, `link_client.cpp:74-89`: the record must still be there -/
def linkEnd (c : Conf) (a : Nat) (ok : Bool) (o : Ora) (σ : State) : Except Err State :=
  if ok then
    match σ.srv.find a with
    | none => .error .dangling
    | some r =>
      let σ1 := { σ with srv := σ.srv.set a { r with operational := true } }
      if σ1.initReq then initContinue c o σ1 else .ok σ1
  else .ok (if σ.initReq then { σ with initReq := false, log := .answer false :: σ.log } else σ)

/-- `on_link_response`, `link_client.cpp:59-90` -/
def onLinkResponse (c : Conf) (a : Nat) (ok : Bool) (o1 o2 : Ora) (σ : State) : Except Err State :=
  match σ.srv.find a with
  | none => .error .assertion
  | some r =>
    match runCb c r.cb ok o1 (if ok then σ else { σ with srv := σ.srv.erase a }) with
    | .error e => .error e
    | .ok σ1 => linkEnd c a ok o2 σ1

inductive Op where
  /-- the init request arrives -/
  | init (o : Ora)
  /-- another plugin calls `init_continue`, `shutdown_continue` -/
  | contInit (o : Ora)
  | contShut (o : Ora)
  /-- the shutdown request arrives; the shutdown is complete -/
  | shut (o : Ora)
  | finish
  /-- the actor is started -/
  | start
  /-- answers -/
  | regRes (n : Nat) (ok : Bool) (o : Ora)
  | discRes (n : Nat) (res : Option Nat) (o : Ora)
  | linkRes (a : Nat) (ok : Bool) (o1 o2 : Ora)
  /-- an established link is undone -/
  | forget (a : Nat)
  /-- the user writes to a variable -/
  | poke (v : Nat) (x : Option Nat)

/-- a request is answered -/
def rm (l : List Nat) (n : Nat) : List Nat := l.erase n

def step (c : Conf) (σ : State) : Op → Except Err State
  | .init o =>
    if σ.initReq = false ∧ (∀ b, Ev.answer b ∉ σ.log) then
      let σ1 := { σ with initReq := true }
      if σ.st = .initializing then initContinue c o σ1 else .ok σ1
    else .error .illegal
  | .contInit o => if σ.st = .initializing ∧ σ.initReq = true then initContinue c o σ else .error .illegal
  | .contShut o => if σ.st = .shuttingDown then shutdownContinue o σ else .error .illegal
  | .shut o =>
    if σ.st.rank < AState.shuttingDown.rank then shutdownContinue o { σ with st := .shuttingDown, log := .shut :: σ.log } else .error .illegal
  | .finish => if σ.st = .shuttingDown ∧ σ.rShutL = false then .ok { σ with st := .shutDown } else .error .illegal
  | .start => if σ.st = .initialized then .ok { σ with st := .operational } else .error .illegal
  | .regRes n ok o =>
    if n ∈ σ.qReg then
      if σ.st = .shutDown then .ok { σ with qReg := rm σ.qReg n }
      else onRegistration c n ok o { σ with qReg := rm σ.qReg n, log := .regRes n ok :: σ.log }
    else .error .illegal
  | .discRes n res o =>
    if n ∈ σ.qDisc then
      if σ.st = .shutDown then .ok { σ with qDisc := rm σ.qDisc n }
      else onDiscovery c n res o { σ with qDisc := rm σ.qDisc n, log := .discRes n res :: σ.log }
    else .error .illegal
  | .linkRes a ok o1 o2 =>
    if a ∈ σ.qLink then
      if σ.st = .shutDown then .ok { σ with qLink := rm σ.qLink a }
      else onLinkResponse c a ok o1 o2 { σ with qLink := rm σ.qLink a, log := .linkRes a ok :: σ.log }
    else .error .illegal
  | .forget a =>
    match σ.srv.find a with
    | some r => if r.operational then .ok { σ with srv := σ.srv.erase a } else .error .illegal
    | none => .error .illegal
  | .poke v x => .ok { σ with vars := fun y => if y = v then x else σ.vars y }

end Verif.RegPlugin
