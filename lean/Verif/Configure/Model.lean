import Verif.Basic.ActorState
/-!
# Activation and configuration of the plugins of an actor

Sources: `src/rotor/actor_base.cpp:26-29,54-72,95-101,147-168`, `src/rotor/plugin/plugin_base.cpp:30-34`,
`include/rotor/plugin/plugin_base.h:16,139-153,188`, `src/rotor/plugin/init_shutdown.cpp:32-51`, and `activate` and `handle_init` of the
plugins: `address_maker.cpp:36-49`, `child_manager.cpp:65-82`, `link_client.cpp:41-48,135-143`, `link_server.cpp:31-40`,
`registry.cpp:48-56,146-152`, `resources.cpp:30-48`, `starter.cpp:27-35,55-65`, `lifetime.cpp:31-44`, `locality.cpp:31-43`,
`delivery.cpp:28-32`, `foreigners_support.cpp:30-39`.

The plugins are the numbers below `n`, in the order of the list (`plugin_storage_t`); what they answer and what user code in `configure` does is an
arbitrary function of the history.

Simplifications:
* a plugin that has disagreed and is content now calls `init_continue` (operation `cont`); when it does is the subject of the areas of the plugins.
  They all do it in handlers of messages; `release` of `resources_plugin_t`, which user code may call in `configure`, does not do it while the plugins
  are polled (`resources.cpp:75`), and is a separate operation otherwise;
* negative answers to init requests are in `Verif.Link` and `Verif.RegPlugin`;
* nobody calls `commit_plugin_activation` with `false`.
-/

namespace Verif.Configure
open Verif

/-- `config_phase_t`, `plugin_base.h:16` -/
inductive Phase where
  | preinit | initializing
deriving DecidableEq, Repr

/-- what `activate` and `handle_init` of a plugin do -/
structure Kind where
  /-- `reaction_on(reaction_t::INIT)` in `activate` -/
  reacts : Bool
  /-- `configure` before `plugin_base_t::activate` -/
  early : Bool
  /-- `configure` after `plugin_base_t::activate` -/
  atOnce : Bool
  /-- `configure` in the first `handle_init` -/
  late : Bool
  /-- `init_start` at the end of `activate` -/
  maker : Bool
  /-- `plugin_base_t::activate` is called by the handler of the init request -/
  byRequest : Bool
deriving DecidableEq, Repr

/-- `address_maker.cpp:36-49` -/
def addressMaker : Kind := ⟨false, false, true, false, true, false⟩
/-- `lifetime.cpp:31-44` -/
def lifetime : Kind := ⟨true, false, false, false, false, false⟩
/-- `init_shutdown.cpp:32-51` -/
def initShutdown : Kind := ⟨true, false, false, false, false, true⟩
/-- `link_server.cpp:31-40` -/
def linkServer : Kind := ⟨false, false, false, false, false, false⟩
/-- `link_client.cpp:41-48,135-143` -/
def linkClient : Kind := ⟨true, false, false, true, false, false⟩
/-- `registry.cpp:48-56,146-152` -/
def registry : Kind := ⟨true, false, false, true, false, false⟩
/-- `resources.cpp:30-48` -/
def resources : Kind := ⟨true, true, false, true, false, false⟩
/-- `starter.cpp:27-35,55-65` -/
def starter : Kind := ⟨true, true, false, true, false, false⟩
/-- `child_manager.cpp:65-82` -/
def childManager : Kind := ⟨true, false, true, false, false, false⟩
/-- `locality.cpp:31-43`, `delivery.cpp:28-32`, `foreigners_support.cpp:30-39` -/
def passive : Kind := ⟨false, false, false, false, false, false⟩

/-- the plugins of the library -/
inductive Plugin where
  | addressMaker | locality | delivery | lifetime | initShutdown | foreigners | childManager | linkServer | linkClient | registry | resources | starter
deriving DecidableEq, Repr

def kindOf : Plugin → Kind
  | .addressMaker => addressMaker
  | .locality | .delivery | .foreigners => passive
  | .lifetime => lifetime
  | .initShutdown => initShutdown
  | .childManager => childManager
  | .linkServer => linkServer
  | .linkClient => linkClient
  | .registry => registry
  | .resources => resources
  | .starter => starter

/-- `actor_base_t::plugins_list_t`, `include/rotor/actor_base.h:70-79` -/
def actorList : List Plugin := [.addressMaker, .lifetime, .initShutdown, .linkServer, .linkClient, .registry, .resources, .starter]

def actorPlugins : List Kind := actorList.map kindOf

/-- `supervisor_t::plugins_list_t`, `include/rotor/supervisor.h:77-90` -/
def supervisorList : List Plugin :=
  [.addressMaker, .locality, .delivery, .lifetime, .initShutdown, .foreigners, .childManager, .linkServer, .linkClient, .registry, .resources, .starter]

def supervisorPlugins : List Kind := supervisorList.map kindOf

/-- the plugins of the actor -/
structure Cfg where
  n : Nat
  kind : Nat → Kind

/-- an actor with the given list of plugins -/
def ofList (l : List Kind) : Cfg := ⟨l.length, fun p => l.getD p passive⟩

/-- observable events, newest first in the log -/
inductive Ev where
  /-- `actor->configure(plugin)`, the plugin being in phase `ph` -/
  | conf (p : Nat) (ph : Phase)
  /-- the init request has been accepted -/
  | request
  /-- the answer of `handle_init` -/
  | agree (p : Nat)
  | disagree (p : Nat)
  | became (st : AState)
deriving DecidableEq, Repr

/-- user code and the plugins: the answer of `handle_init`, and the plugins that `configure` makes take part (again) in the initialization
(`acquire`, `link`) -/
structure Env where
  vote : List Ev → Bool
  acts : List Ev → List Nat

/-- `st`, `req`: `state` and `init_request` of the actor; `live`: the plugins are activated; `activating`: `activating_plugins`; for the plugins
`phase`, `configured` and the INIT bit of `reaction` -/
structure State where
  st : AState
  req : Bool
  live : Bool
  activating : List Nat
  phase : Nat → Phase
  configured : Nat → Bool
  react : Nat → Bool
  log : List Ev

/-- the constructor, `actor_base.cpp:11-29` -/
def State.init (c : Cfg) : State := ⟨.new, false, false, List.range c.n, fun _ => .preinit, fun _ => false, fun _ => false, []⟩

inductive Err where
  /-- a failed assertion -/
  | fault
  /-- cannot happen now -/
  | illegal
deriving DecidableEq, Repr

/-- `f` with the value at `p` replaced -/
def upd {α : Type} (f : Nat → α) (p : Nat) (v : α) : Nat → α := fun q => if q = p then v else f q

/-- `plugin_base_t::activate`, `plugin_base.cpp:30-34`, with `commit_plugin_activation`, `actor_base.cpp:60-69` -/
def baseActivate (p : Nat) (s : State) : Except Err State :=
  if p ∈ s.activating then .ok { s with activating := s.activating.erase p, phase := upd s.phase p .initializing } else .error .fault

/-- `actor->configure(*this)` with the code of the user -/
def configure (env : Env) (p : Nat) (s : State) : State :=
  let log := .conf p (s.phase p) :: s.log
  { s with log := log, react := fun q => s.react q || (env.acts log).contains q }

/-- `activate` of plugin `p` -/
def activate (c : Cfg) (env : Env) (p : Nat) (s : State) : Except Err State :=
  let k := c.kind p
  let s1 := if k.early then configure env p s else s
  let s2 := if k.reacts then { s1 with react := upd s1.react p true } else s1
  match (if k.byRequest then .ok s2 else baseActivate p s2) with
  | .error e => .error e
  | .ok s3 =>
    let s4 := if k.atOnce then configure env p s3 else s3
    .ok (if k.maker then { s4 with st := .initializing } else s4)

/-- `activate_plugins`, `actor_base.cpp:54-58`, up to plugin `p` -/
def activateUpTo (c : Cfg) (env : Env) : Nat → State → Except Err State
  | 0, s => .ok s
  | p + 1, s => match activateUpTo c env p s with
    | .error e => .error e
    | .ok s1 => activate c env p s1

/-- `handle_init` of plugin `p` -/
def handleInit (c : Cfg) (env : Env) (p : Nat) (s : State) : State × Bool :=
  let s1 := if (c.kind p).late ∧ s.configured p = false then configure env p { s with configured := upd s.configured p true } else s
  (s1, env.vote s1.log)

/-- the loop of `init_continue`, `actor_base.cpp:153-163`, from plugin `p` on with `k` plugins left -/
def poll (c : Cfg) (env : Env) : Nat → Nat → State → State × Bool
  | 0, _, s => (s, true)
  | k + 1, p, s =>
    if s.react p then
      let (s1, v) := handleInit c env p s
      if v then poll c env k (p + 1) { s1 with react := upd s1.react p false, log := .agree p :: s1.log }
      else ({ s1 with log := .disagree p :: s1.log }, false)
    else poll c env k (p + 1) s

/-- `init_continue`, `actor_base.cpp:147-168`, with `init_finish`, `97-101` -/
def initContinue (c : Cfg) (env : Env) (s : State) : Except Err State :=
  if s.st = .initializing ∧ s.req = true then
    let (s1, v) := poll c env c.n 0 s
    .ok (if v then { s1 with req := false, st := .initialized, log := .became .initialized :: s1.log } else s1)
  else .error .fault

/-- the first plugin below `n` that is activated by the request -/
def receiver (c : Cfg) : Option Nat := (List.range c.n).find? (fun p => (c.kind p).byRequest)

/-- `init_shutdown_plugin_t::on_init`, `init_shutdown.cpp:44-51` -/
def onInit (c : Cfg) (env : Env) (s : State) : Except Err State :=
  match receiver c with
  | none => .ok s
  | some p =>
    if s.st = .initializing then
      match baseActivate p { s with req := true, log := .request :: s.log } with
      | .error e => .error e
      | .ok s1 => initContinue c env s1
    else .ok { s with req := true }

inductive Op where
  /-- `do_initialize`, `actor_base.cpp:33` -/
  | activate
  /-- an init request arrives -/
  | initRequest
  /-- a plugin calls `init_continue` in the handler of a message -/
  | cont
  /-- a plugin takes part (again), `reaction_on` -/
  | join (p : Nat)
  /-- user code releases the last resource outside of `configure`, `resources.cpp:67-77` -/
  | release
  /-- `shutdown_start` -/
  | shutdown
deriving DecidableEq, Repr

def step (c : Cfg) (env : Env) (s : State) : Op → Except Err State
  | .activate => if s.live then .error .illegal else activateUpTo c env c.n { s with live := true }
  | .initRequest => if s.live then onInit c env s else .error .illegal
  | .cont => if s.live ∧ s.st = .initializing ∧ s.req = true then initContinue c env s else .error .illegal
  | .join p => if s.live then .ok { s with react := upd s.react p true } else .error .illegal
  | .release => if s.live ∧ s.st = .initializing then initContinue c env s else .error .illegal
  | .shutdown => if s.live then .ok { s with st := .shuttingDown } else .error .illegal

def run (c : Cfg) (env : Env) (s : State) : List Op → Except Err State
  | [] => .ok s
  | op :: ops => match step c env s op with
    | .error e => .error e
    | .ok s1 => run c env s1 ops

/-- `with_casted<Plugin>(fn, desired)`, `plugin_base.h:146-153`: whether `fn` is called when plugin `q` in phase `ph` hands itself over; `desired`: the
set of bits -/
def casted (p : Nat) (desired : Phase → Bool) (q : Nat) (ph : Phase) : Bool := desired ph && p == q

end Verif.Configure
