/-!
# How reasons of shutdowns travel through a tree of supervisors

Sources: `src/rotor/actor_base.cpp:35-46, 105-119, 270-279`, `src/rotor/supervisor.cpp:76-88`,
`src/rotor/plugin/child_manager.cpp:93-163, 213-312, 362-417`, `src/rotor/plugin/init_shutdown.cpp:54-64`,
`src/rotor/plugin/link_client.cpp:101-126`, `src/rotor/extended_error.cpp:28-42`.

Simplifications:
* messages of the tree are delivered in any order, and a response or request may get lost; what is proved holds for
  every order, in particular for the one of `Verif.Net`;
* the supervisor asks its children one by one, at any time of its shutdown (`Verif.Children` has the order); actors exist
  from the beginning, with their places in the tree; an instance made by a spawner is a new actor;
* when an init request is answered with an error, and which error, is a choice (links, registry, timeouts, user code);
* the text `context` of an error is the actor whose identity it is; the request in an error is left out.
-/

namespace Verif.Reasons

/-- the codes the library uses on the way (`error_code.h:20-63`), and those of users; `user 0` has the value 0 -/
inductive Code where
  | normal | supervisorShutdown | childDown | childInitFailed | initFailed | unlinkRequested | failureEscalation
  | user (n : Nat)
deriving DecidableEq, Repr

/-- `(bool)ec`: an error code with the value 0 is no error; `shutdown_code_t::normal` is 0 (`error_code.h:39`) -/
def Code.bad : Code → Bool
  | .normal => false
  | .user 0 => false
  | _ => true

/-- `extended_error_t` (`extended_error.h:27-66`) -/
inductive Err where
  | leaf (ctx : Nat) (code : Code)
  | wrap (ctx : Nat) (code : Code) (next : Err)
deriving DecidableEq, Repr

/-- `extended_error_t::root`, `extended_error.cpp:28-37` -/
def Err.root : Err → Err
  | .leaf x c => .leaf x c
  | .wrap _ _ n => n.root

def Err.code : Err → Code
  | .leaf _ c => c
  | .wrap _ c _ => c

inductive Phase where
  | initializing | operational | shuttingDown
deriving DecidableEq, Repr

inductive Msg where
  /-- `shutdown_trigger_t` for `victim`, to the supervisor `sup` -/
  | trigger (sup victim : Nat) (e : Err)
  /-- `shutdown_request_t` -/
  | request (a : Nat) (e : Err)
  /-- init response with an error, to the supervisor of `a`, or to `a` itself if it is the root -/
  | initFailed (a : Nat) (e : Err)
deriving DecidableEq, Repr

/-- `par`: supervisor of an actor, `none` for the root; `policySelf`: `supervisor_policy_t::shutdown_self`; `escalate`, `auto`:
flags of the actor (`actor_config.h`); `spawned`: made by a spawner -/
structure Cfg where
  par : Nat → Option Nat
  policySelf : Nat → Bool
  escalate : Nat → Bool
  auto : Nat → Bool
  spawned : Nat → Bool

/-- `st`, `reason`, `initReq` (holds its init request) of every actor; `asked p a`: the record of the actor `a` in
the child manager of `p` (its supervisor, or itself) has `shutdown != none`; `why`: the reason in the shutdown request; `started`: flag of the record; `causes`: history of errors with
which user code or a failed operation began something, and `dropped`: errors made by the library in place of one it knows, each
with the actor concerned -/
structure State where
  st : Nat → Phase
  reason : Nat → Option Err
  initReq : Nat → Bool
  asked : Nat → Nat → Bool
  why : Nat → Option Err
  started : Nat → Bool
  msgs : List Msg
  causes : List (Nat × Err)
  dropped : List (Nat × Err)

def State.init : State :=
  ⟨fun _ => .initializing, fun _ => none, fun _ => true, fun _ _ => false, fun _ => none, fun _ => false, [], [], []⟩

def upd {α : Type} (f : Nat → α) (a : Nat) (v : α) : Nat → α := fun b => if b = a then v else f b

def mark (f : Nat → Nat → Bool) (p v : Nat) : Nat → Nat → Bool := fun q w => f q w || (q == p && w == v)

def State.put (m : Msg) (s : State) : State := { s with msgs := s.msgs ++ [m] }

/-- who gets the trigger: the supervisor of the actor, itself for the root (`actor_base.cpp:44`, `supervisor.cpp:78, 86`) -/
def up (c : Cfg) (a : Nat) : Nat := (c.par a).getD a

/-- `do_shutdown` with a reason, `actor_base.cpp:35-46`, `supervisor.cpp:76-88` -/
def doShutdown (c : Cfg) (a : Nat) (e : Err) (s : State) : State :=
  if s.st a = .shuttingDown then s else s.put (.trigger (up c a) a e)

/-- `actor_base_t::shutdown_start`, `actor_base.cpp:105-119`, after `assign_shutdown_reason` (270-274), both called from
`init_shutdown_plugin_t::on_shutdown` (`init_shutdown.cpp:54-64`) and, for the root, from `request_shutdown`
(`child_manager.cpp:393-397`) -/
def shutdownStart (c : Cfg) (a : Nat) (e : Err) (s : State) : State :=
  let r := (s.reason a).getD e
  let s := { s with reason := upd s.reason a (some r), st := upd s.st a .shuttingDown }
  match c.par a with
  | none => s
  | some p =>
    if c.spawned a then s else
    let s := if c.escalate a && r.root.code.bad then s.put (.trigger p p (.wrap a .failureEscalation r)) else s
    if c.auto a then s.put (.trigger p p (.wrap a .childDown r)) else s

/-- `request_shutdown` of one record, `child_manager.cpp:379-411`, by the supervisor `p` for `v` -/
def requestShutdown (c : Cfg) (p v : Nat) (e : Err) (s : State) : State :=
  if s.asked p v then s
  else if v = p then
    match c.par p with
    | some _ => let s1 := doShutdown c p e s
                { s1 with asked := mark s1.asked p v }
    | none =>
      if s.st p = .shuttingDown then { s with asked := mark s.asked p v }
      else
        let s1 := shutdownStart c p e s
        { s1 with asked := mark s1.asked p v, why := upd s1.why p (some e) }
  else { s with asked := mark s.asked p v, msgs := s.msgs ++ [.request v (.wrap p .supervisorShutdown e)] }

/-- `child_manager_plugin_t::on_init` with an error, `child_manager.cpp:252-289` -/
def onInitFailed (c : Cfg) (a : Nat) (e : Err) (s : State) : State :=
  let p := up c a
  if s.st p = .initializing && c.policySelf p then
    if s.initReq p then
      if a = p then doShutdown c p e s
      else { s with initReq := upd s.initReq p false, msgs := s.msgs ++ [.initFailed p (.wrap p .failureEscalation e)] }
    else doShutdown c p (.wrap p .childInitFailed e) s
  else doShutdown c a (.wrap p .initFailed e) s

/-- delivery of a message -/
def deliver (c : Cfg) (m : Msg) (s : State) : State :=
  match m with
  | .trigger p v e => requestShutdown c p v e s
  | .request a e =>
    let s1 := shutdownStart c a e s
    { s1 with why := upd s1.why a (some e) }
  | .initFailed a e => onInitFailed c a e s

/-- `remove_child`, first part: the supervisor `p` is initializing, `child_manager.cpp:102-122` -/
def lostInInit (c : Cfg) (p v : Nat) (s : State) : State :=
  if s.st p = .initializing && !s.started v then
    if c.policySelf p then
      if s.initReq p then
        { s with
          initReq := upd s.initReq p false, msgs := s.msgs ++ [.initFailed p (.leaf p .failureEscalation)],
          dropped := (p, .leaf p .failureEscalation) :: s.dropped }
      else s
    else
      let s1 := doShutdown c p (.leaf p .childDown) s
      { s1 with dropped := (p, .leaf p .childDown) :: s1.dropped }
  else s

/-- `remove_child`, second part: the spawner of the child escalates if `esc`, `child_manager.cpp:125-143` -/
def lostSpawned (c : Cfg) (p v : Nat) (esc : Bool) (s : State) : State :=
  match s.reason v with
  | none => s
  | some r =>
    if s.st p ≠ .shuttingDown && c.spawned v && esc then s.put (.trigger p p (.wrap p .failureEscalation r)) else s

/-- `remove_child` of the child `v` by its supervisor `p`, `child_manager.cpp:93-163` -/
def removeChild (c : Cfg) (p v : Nat) (esc : Bool) (s : State) : State := lostSpawned c p v esc (lostInInit c p v s)

inductive Op where
  /-- user code shuts an actor down, with or without a reason -/
  | shutdown (a : Nat) (e : Option Err)
  /-- the init request of the actor is answered with an error; `reset`: it is reset as well (not so for a timeout) -/
  | failInit (a : Nat) (e : Err) (reset : Bool)
  /-- the initialization ends well -/
  | initOk (a : Nat)
  | start (a : Nat)
  /-- the factory of a spawner fails, `child_manager.cpp:227-241` -/
  | factoryFails (p : Nat)
  /-- the server `b` of the actor asks for unlinking, `link_client.cpp:119-123` -/
  | unlink (a b : Nat)
  /-- `handle_shutdown` of the child manager of `p`, `child_manager.cpp:362-377`, for the child `v` -/
  | askChild (p v : Nat)
  | removeChild (p v : Nat) (esc : Bool)
  | deliver (n : Nat)
  /-- a message gets lost -/
  | lose (n : Nat)
deriving DecidableEq, Repr

/-- one step; what is not possible does nothing -/
def step (c : Cfg) (s : State) : Op → State
  | .shutdown a e =>
    let r := e.getD (.leaf a .normal)
    { doShutdown c a r s with causes := (a, r) :: s.causes }
  | .failInit a e reset =>
    { s with
      causes := (a, e) :: s.causes, msgs := s.msgs ++ [.initFailed a e],
      initReq := if reset then upd s.initReq a false else s.initReq }
  | .initOk a => if s.st a = .initializing then { s with st := upd s.st a .operational, initReq := upd s.initReq a false } else s
  | .start a => { s with started := upd s.started a true }
  | .factoryFails p =>
    if s.st p = .initializing && c.policySelf p then
      if s.initReq p then
        { s with
          initReq := upd s.initReq p false, msgs := s.msgs ++ [.initFailed p (.leaf p .failureEscalation)],
          causes := (p, .leaf p .failureEscalation) :: s.causes }
      else { doShutdown c p (.leaf p .childInitFailed) s with causes := (p, .leaf p .childInitFailed) :: s.causes }
    else s
  | .unlink a b =>
    if s.st b = .shuttingDown then
      { doShutdown c a (.leaf a .unlinkRequested) s with dropped := (a, .leaf a .unlinkRequested) :: s.dropped }
    else s
  | .askChild p v =>
    if c.par v = some p && s.st p = .shuttingDown then
      match s.why p with
      | none => s
      | some e => requestShutdown c p v e s
    else s
  | .removeChild p v esc => if c.par v = some p then removeChild c p v esc s else s
  | .deliver n => match s.msgs[n]? with
    | none => s
    | some m => deliver c m { s with msgs := s.msgs.eraseIdx n }
  | .lose n => { s with msgs := s.msgs.eraseIdx n }

def run (c : Cfg) (s : State) : List Op → State
  | [] => s
  | op :: ops => run c (step c s op) ops

end Verif.Reasons
