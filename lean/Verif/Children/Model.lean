import Verif.Basic.AMap
import Verif.Basic.ActorState
import Verif.Spawner.Model
/-!
# A supervisor and its children

Sources: `src/rotor/plugin/child_manager.cpp:65-508`, `src/rotor/detail/child_info.cpp:12-82`,
`include/rotor/detail/child_info.h:36-116`, `src/rotor/supervisor.cpp` (53-67, 76-88, 111-117, 121-144),
`src/rotor/actor_base.cpp` (35-46, 95-193), `src/rotor/plugin/init_shutdown.cpp:45-73`,
`src/rotor/plugin/starter.cpp:67-86`, `include/rotor/supervisor.h:531-565`.

One supervisor with any number of children and spawners; the children are actors or supervisors. The messages to the
supervisor are in one queue (`q`), first in first out; the messages of a child are put into it in their order but
possibly later (`out`: a child may live in another locality); the messages to a child arrive in their order (`to`).

Simplifications:
* the other plugins of the supervisor are oracles (`Ora`): those behind the child manager (link server, link client,
  registry, resources, starter) agree or not in `init_continue` and `shutdown_continue` and may create children when they
  are asked for the initialization; those before it agree at once to the initialization, and after the child manager has
  agreed to the shutdown they take an arbitrary time (`Op.finish`);
* user code creates children and spawners at any time between two messages (`Op.create`, `Op.spawn`) and shuts any actor
  down at any time;
* the own record of the supervisor in `actors_map` is apart (`selfShut`); its removal at the end of the shutdown is part of
  `Op.finish` (what happens there is in `Verif.SupTeardown`, C72);
* the subscriptions the supervisor holds on behalf of a child (`address_mapping`, C44) delay its removal: one message
  `unsub` stands for the last of them;
* `cancel_init` for the supervisor itself is modelled only for a root supervisor; otherwise the identifier of the request
  belongs to another locality and is looked up in the wrong map;
* callbacks of cancelled timers run in the loop over the actors (`child_manager.cpp:411-421`) and continue the shutdown
  inside of it; here the shutdown is continued only after the loop;
* a shutdown request that times out terminates the program (`system_context.cpp:27-34`): it does not occur;
* `on_child_init`, `on_child_shutdown` are those of `supervisor_t`; the shutdown reasons are in `Verif.Lifecycle` and
  `Verif.ExtendedError`.
-/

namespace Verif.Children
open Verif

/-- `shutdown_state_t`, `child_info.h:20` -/
inductive Shut where
  | none | sent | confirmed
deriving DecidableEq, Repr

/-- `child_info_t`, `child_info.h:75-115`; `act`: there is an instance, it has the address the record is found with; `fac`: with
factory -/
structure Rec where
  act : Bool
  fac : Bool
  cfg : Spawner.Cfg
  info : Spawner.Info
  initialized : Bool
  started : Bool
  shut : Shut
deriving DecidableEq, Repr

/-- a child. `ireq`: it keeps an init request; `asked`: has got it; `ans`: has answered it; `want`: has called `do_shutdown` -/
structure Kid where
  born : Bool
  st : AState
  ireq : Bool
  asked : Bool
  ans : Bool
  want : Bool
deriving DecidableEq, Repr

def Kid.no : Kid := ⟨false, .initializing, false, false, false, false⟩

/-- after `do_initialize`, `child_manager.cpp:178` -/
def Kid.new : Kid := ⟨true, .initializing, false, false, false, false⟩

/-- messages to the supervisor about a child or spawner; `initErr` is made by the timer of the init request -/
inductive KM where
  | create | spawn | initRes (ok : Bool) | initErr | trigger | shutRes | unsub
deriving DecidableEq, Repr

/-- messages to the supervisor; the last four are about itself -/
inductive SMsg where
  | kid (a : Nat) (m : KM)
  | trigSelf
  | initReqSelf
  | initResSelf (ok : Bool)
  | initErrSelf
  | startSelf
deriving DecidableEq, Repr

/-- messages to a child -/
inductive Dn where
  | initReq | start | shutReq
deriving DecidableEq, Repr

/-- what the user configures: no parent; `synchronize_start`; policy `shutdown_self` (otherwise `shutdown_failed`) -/
structure Conf where
  root : Bool
  sync : Bool
  selfPolicy : Bool

/-- `initReq`: the init request of the supervisor is kept; `selfIA`: a root supervisor's init request to itself is active; `rInit`:
INIT reaction of the child manager; `closed`: the child manager has agreed to the shutdown; `iA`, `sA`: the init and shutdown
requests to a child that are active; `nShut`, `nInit`, `nStart`: requests and start messages sent to a child; `initOks`,
`initFails`: answers to the init request of the supervisor; `wants`: calls of its `do_shutdown` that have an effect; `starts`: it
becomes operational -/
structure State where
  st : AState
  initReq : Bool
  selfIA : Bool
  selfShut : Shut
  rInit : Bool
  closed : Bool
  recs : AMap Nat Rec
  q : List SMsg
  kid : Nat → Kid
  to : Nat → List Dn
  out : Nat → List KM
  iA : Nat → Bool
  sA : Nat → Bool
  nShut : Nat → Nat
  nInit : Nat → Nat
  nStart : Nat → Nat
  initOks : Nat
  initFails : Nat
  wants : Nat
  starts : Nat
  nx : Nat

/-- `activate`, `child_manager.cpp:65-82`; a root supervisor asks itself to initialize, `supervisor.cpp:53-59` -/
def State.init (c : Conf) : State where
  st := .initializing
  initReq := false
  selfIA := c.root
  selfShut := .none
  rInit := true
  closed := false
  recs := []
  q := if c.root then [.initReqSelf] else []
  kid _ := Kid.no
  to _ := []
  out _ := []
  iA _ := false
  sA _ := false
  nShut _ := 0
  nInit _ := 0
  nStart _ := 0
  initOks := 0
  initFails := 0
  wants := 0
  starts := 0
  nx := 0

inductive Err where
  /-- assertion or `at`: no such record -/
  | noRecord
  /-- the record has no actor -/
  | nullActor
  /-- assertions in `init_continue` and `shutdown_continue` of the actor -/
  | wrongState
  /-- not possible now -/
  | illegal
deriving DecidableEq, Repr

/-- `agree`, `next`: the plugins behind the child manager agree to the shutdown, to the initialization; `late`: number of children
created when they are asked for the latter; `abnormal`, `answer`, `now`: as in `Verif.Spawner`; `later`: there are subscriptions on
behalf of the child; `fac`: the factory does not throw -/
structure Ora where
  agree : Bool
  next : Bool
  late : Nat
  abnormal : Bool
  answer : Bool
  now : Int
  later : Bool
  fac : Bool

def upd {α : Type} (f : Nat → α) (i : Nat) (v : α) : Nat → α := fun j => if j = i then v else f j

/-- `actors_map[a]->…` -/
def State.setRec (σ : State) (a : Nat) (r : Rec) : State := { σ with recs := σ.recs.set a r }

/-! ## creation -/

/-- `child_info_t` of a child that is not spawned, `child_info.h:41-56` -/
def Rec.manual (now : Int) : Rec where
  act := true
  fac := false
  cfg := ⟨.normalOnly, 15, 0, false⟩
  info := Spawner.spawnAttempt ⟨.normalOnly, 15, 0, false⟩ ⟨0, true, false, 0⟩ now
  initialized := false
  started := false
  shut := .none

/-- the part of `create_child` common to both branches, `child_manager.cpp:176-200` -/
def addKid (r : Rec) (σ : State) : State :=
  { σ with
    recs := σ.recs.set σ.nx r
    q := σ.q ++ [.kid σ.nx .create]
    kid := upd σ.kid σ.nx Kid.new
    rInit := if σ.st = .initializing then true else σ.rInit
    nx := σ.nx + 1 }

/-- `create_child` without spawner, `child_manager.cpp:191-199` -/
def createChild (now : Int) (σ : State) : State := addKid (.manual now) σ

def createN (now : Int) : Nat → State → State
  | 0, σ => σ
  | n + 1, σ => createN now n (createChild now σ)

/-- `create_child` of a spawner's instance, `child_manager.cpp:184-190`: the record moves -/
def createSpawned (a : Nat) (r : Rec) (σ : State) : State :=
  addKid { r with act := true } { σ with recs := σ.recs.erase a }

/-- `child_manager_plugin_t::spawn`, `child_manager.cpp:483-491` -/
def spawn (cfg : Spawner.Cfg) (σ : State) : State :=
  { σ with
    recs := σ.recs.set σ.nx { act := false, fac := true, cfg := cfg, info := ⟨0, true, false, 0⟩, initialized := false, started := false, shut := .none }
    q := σ.q ++ [.kid σ.nx .spawn]
    nx := σ.nx + 1 }

/-! ## the supervisor itself -/

/-- `has_initializing`, `child_manager.cpp:454-468` -/
def hasInit (σ : State) : Bool :=
  σ.recs.any (fun p => p.2.act && decide ((σ.kid p.1).st.rank ≤ AState.initializing.rank) && !p.2.initialized)

/-- `active_actors() > 1`, `child_manager.cpp:470-481`: another record than the own is alive -/
def othersAlive (σ : State) : Bool :=
  σ.recs.any (fun p => p.2.act || p.2.info.timer || (p.2.info.active && decide (σ.st.rank ≤ AState.shuttingDown.rank)))

/-- `init_finish`, `actor_base.cpp:97-101` -/
def initFinish (c : Conf) (σ : State) : State :=
  { σ with
    st := .initialized
    initReq := false
    initOks := σ.initOks + 1
    q := if c.root then σ.q ++ [.initResSelf true] else σ.q }

/-- an error reply to the init request of the supervisor, `child_manager.cpp:112-114` -/
def failInit (c : Conf) (σ : State) : State :=
  { σ with
    initReq := false
    initFails := σ.initFails + 1
    q := if c.root then σ.q ++ [.initResSelf false] else σ.q }

/-- `actor_base_t::init_continue`, `actor_base.cpp:147-168`, with `handle_init`, `child_manager.cpp:360` -/
def actorInitContinue (c : Conf) (o : Ora) (σ : State) : Except Err State :=
  if σ.st = .initializing ∧ σ.initReq = true then
    if σ.rInit = true ∧ hasInit σ = true then .ok σ
    else
      let σ1 := createN o.now o.late { σ with rInit := false }
      if o.next then .ok (initFinish c σ1) else .ok σ1
  else .error .wrongState

/-- `child_manager_plugin_t::init_continue`, `child_manager.cpp:166-174` -/
def initContinue (c : Conf) (o : Ora) (σ : State) : Except Err State :=
  if σ.st = .initializing ∧ σ.initReq = true ∧ hasInit σ = false then actorInitContinue c o { σ with rInit := false } else .ok σ

/-- `supervisor_t::do_shutdown`, `supervisor.cpp:76-88` -/
def doShutdownSelf (c : Conf) (σ : State) : State :=
  if σ.st.rank < AState.shuttingDown.rank then
    { σ with wants := σ.wants + 1, q := if c.root then σ.q ++ [.trigSelf] else σ.q }
  else σ

/-- `do_shutdown` of a child called by its supervisor, `actor_base.cpp:35-46` -/
def doShutdownKid (a : Nat) (σ : State) : State :=
  if (σ.kid a).st.rank < AState.shuttingDown.rank then { σ with q := σ.q ++ [.kid a .trigger] } else σ

/-- `cancel_init`, `child_manager.cpp:322-333` -/
def cancelInit (a : Nat) (σ : State) : State :=
  if (σ.kid a).ireq then { σ with iA := upd σ.iA a false } else σ

/-- is the child asked by `request_shutdown`? -/
def asks (r : Rec) : Bool := r.act && decide (r.shut = .none)

/-- the record after `request_shutdown`; the callback of a cancelled timer is `on_spawn_timer`, `child_manager.cpp:493-500` -/
def askRec (r : Rec) : Rec :=
  if r.act then (if r.shut = .none then { r with shut := .sent } else r)
  else if r.info.timer then { r with info := { r.info with timer := false, active := false } }
  else r

/-- `request_shutdown(child_state, reason)` for a child, `child_manager.cpp:379-409` -/
def askKid (a : Nat) (r : Rec) (σ : State) : State :=
  if asks r then
    { σ with
      recs := σ.recs.set a { r with shut := .sent }
      iA := if (σ.kid a).ireq then upd σ.iA a false else σ.iA
      to := upd σ.to a (σ.to a ++ [.shutReq])
      sA := upd σ.sA a true
      nShut := upd σ.nShut a (σ.nShut a + 1) }
  else σ

def asksOf (σ : State) (a : Nat) : Bool :=
  match σ.recs.find a with
  | some r => asks r
  | none => false

/-- `request_shutdown(reason)`, `child_manager.cpp:411-421`: all of them -/
def askAll (σ : State) : State :=
  { σ with
    recs := σ.recs.map (fun p => (p.1, askRec p.2))
    iA := fun a => if asksOf σ a && (σ.kid a).ireq then false else σ.iA a
    to := fun a => if asksOf σ a then σ.to a ++ [.shutReq] else σ.to a
    sA := fun a => if asksOf σ a then true else σ.sA a
    nShut := fun a => if asksOf σ a then σ.nShut a + 1 else σ.nShut a }

/-- `handle_shutdown`, `child_manager.cpp:362-377` -/
def handleShutdown (σ : State) : State :=
  let σ1 := askAll { σ with selfShut := .confirmed }
  if othersAlive σ1 then σ1 else { σ1 with closed := true }

/-- `actor_base_t::shutdown_continue`, `actor_base.cpp:172-193` -/
def shutdownContinue (o : Ora) (σ : State) : Except Err State :=
  if σ.st = .shuttingDown then
    if o.agree then (if σ.closed then .ok σ else .ok (handleShutdown σ)) else .ok σ
  else .error .wrongState

/-! ## messages about children -/

/-- the policy in `remove_child`, `child_manager.cpp:102-122` -/
def removePolicy (c : Conf) (r : Rec) (σ : State) : State :=
  if σ.st = .initializing ∧ r.started = false then
    if c.selfPolicy then (if σ.initReq then failInit c σ else σ) else doShutdownSelf c σ
  else σ

/-- the record and the next instance in `remove_child`, `child_manager.cpp:124-157` -/
def removeRec (a : Nat) (r : Rec) (o : Ora) (σ : State) : State :=
  if σ.st.rank ≤ AState.operational.rank ∧ r.fac = true then
    let n := Spawner.nextSpawn r.cfg r.info o.abnormal o.answer o.now
    match n.2 with
    | .now => { σ with recs := σ.recs.set a { r with act := false, info := n.1 }, q := σ.q ++ [.kid a .spawn] }
    | .escalate => { σ with recs := σ.recs.erase a, q := σ.q ++ [.trigSelf] }
    | .after _ => { σ with recs := σ.recs.set a { r with act := false, info := { n.1 with timer := true } } }
    | .no => { σ with recs := σ.recs.erase a }
  else { σ with recs := σ.recs.erase a }

/-- `remove_child`, `child_manager.cpp:93-164` -/
def removeChild (c : Conf) (a : Nat) (o : Ora) (σ : State) : Except Err State :=
  match σ.recs.find a with
  | none => .error .noRecord
  | some r =>
    if r.act then
      let σ1 := removeRec a r o (cancelInit a (removePolicy c r σ))
      if σ1.st = .shuttingDown ∧ othersAlive σ1 = false then
        match shutdownContinue o σ1 with
        | .error e => .error e
        | .ok σ2 => initContinue c o σ2
      else initContinue c o σ1
    else .error .nullActor

/-- `on_create`, `child_manager.cpp:202-208` -/
def onCreate (a : Nat) (σ : State) : Except Err State :=
  match σ.recs.find a with
  | none => .error .noRecord
  | some _ =>
    .ok { σ with to := upd σ.to a (σ.to a ++ [.initReq]), iA := upd σ.iA a true, nInit := upd σ.nInit a (σ.nInit a + 1) }

/-- `spawn_attempt`, `child_info.cpp:12-24` -/
def attempt (r : Rec) (now : Int) : Rec :=
  { r with info := Spawner.spawnAttempt r.cfg r.info now, initialized := false, started := false, shut := .none }

/-- `on_spawn`, `child_manager.cpp:210-253`; as in `Verif.Spawner` a factory that throws has not created an actor -/
def onSpawn (c : Conf) (a : Nat) (o : Ora) (σ : State) : Except Err State :=
  match σ.recs.find a with
  | none => .error .noRecord
  | some r0 =>
    if r0.info.active then
      let r := attempt r0 o.now
      if o.fac then .ok (createSpawned a r σ)
      else if σ.st = .initializing ∧ c.selfPolicy = true then
        let σ1 := if σ.initReq then failInit c σ else doShutdownSelf c σ
        .ok (σ1.setRec a { r with info := { r.info with active := false } })
      else if r.cfg.policy = .always ∨ r.cfg.policy = .failOnly then
        .ok (σ.setRec a { r with info := { r.info with timer := true } })
      else .ok (σ.setRec a { r with info := { r.info with active := false } })
    else .ok σ

/-- `on_init` with an error from another actor, `child_manager.cpp:266-289` -/
def onInitErr (c : Conf) (a : Nat) (σ : State) : Except Err State :=
  if σ.st = .initializing ∧ c.selfPolicy = true then
    .ok (if σ.initReq then failInit c σ else doShutdownSelf c σ)
  else
    match σ.recs.find a with
    | none => .ok (doShutdownSelf c σ)
    | some r => if r.act then .ok (doShutdownKid a σ) else .error .nullActor

/-- `on_init` without error from another actor, `child_manager.cpp:260-262`, `290-305` -/
def onInitOk (c : Conf) (a : Nat) (o : Ora) (σ : State) : Except Err State :=
  let σ1 :=
    match σ.recs.find a with
    | none => σ
    | some r =>
      if c.sync then σ.setRec a { r with initialized := true }
      else
        { σ with
          recs := σ.recs.set a { r with initialized := true, started := true }
          to := upd σ.to a (σ.to a ++ [.start])
          nStart := upd σ.nStart a (σ.nStart a + 1) }
  if hasInit σ then .ok σ1 else initContinue c o σ1

/-- `on_shutdown_trigger`, `child_manager.cpp:312-316`, for a child -/
def onTrigger (a : Nat) (σ : State) : Except Err State :=
  match σ.recs.find a with
  | none => .error .noRecord
  | some r => if r.shut = .none ∧ r.act = false then .error .nullActor else .ok (askKid a r σ)

/-- `on_child_shutdown`, `supervisor.cpp:113-117` -/
def continueIf (o : Ora) (σ : State) : Except Err State :=
  if σ.st = .shuttingDown then shutdownContinue o σ else .ok σ

/-- `on_shutdown_confirm`, `child_manager.cpp:335-358` -/
def onShutRes (c : Conf) (a : Nat) (o : Ora) (σ : State) : Except Err State :=
  match σ.recs.find a with
  | none => .error .noRecord
  | some r =>
    if r.act then
      let σ1 := σ.setRec a { r with shut := .confirmed }
      if o.later then continueIf o { σ1 with q := σ1.q ++ [.kid a .unsub] }
      else
        match removeChild c a o σ1 with
        | .error e => .error e
        | .ok σ2 => continueIf o σ2
    else .error .nullActor

/-- a response reaches the supervisor first, which drops it if the request is not active, `supervisor.h:544-561` -/
def onKid (c : Conf) (a : Nat) (m : KM) (o : Ora) (σ : State) : Except Err State :=
  match m with
  | .create => onCreate a σ
  | .spawn => onSpawn c a o σ
  | .initRes ok =>
    if σ.iA a then
      if ok then onInitOk c a o { σ with iA := upd σ.iA a false } else onInitErr c a { σ with iA := upd σ.iA a false }
    else .ok σ
  | .initErr => onInitErr c a σ
  | .trigger => onTrigger a σ
  | .shutRes => if σ.sA a then onShutRes c a o { σ with sA := upd σ.sA a false } else .ok σ
  | .unsub => removeChild c a o σ

/-! ## messages about itself -/

/-- `shutdown_start`, `actor_base.cpp:105-106` -/
def startShutdown (σ : State) : State := { σ with st := .shuttingDown }

/-- `on_shutdown_trigger` for itself, `child_manager.cpp:379-409` -/
def onTrigSelf (c : Conf) (o : Ora) (σ : State) : Except Err State :=
  if σ.selfShut = .none then
    if c.root then
      let σ1 := { σ with selfIA := if σ.initReq then false else σ.selfIA }
      if σ.st = .shuttingDown then .ok { σ1 with selfShut := .sent }
      else
        match shutdownContinue o (askAll (startShutdown { σ1 with selfShut := .confirmed })) with
        | .error e => .error e
        | .ok σ2 => .ok { σ2 with selfShut := .sent }
    else .ok { doShutdownSelf c σ with selfShut := .sent }
  else .ok σ

/-- `on_init` of `init_shutdown_plugin_t`, `init_shutdown.cpp:45-52` -/
def onInitReq (c : Conf) (o : Ora) (σ : State) : Except Err State :=
  let σ1 := { σ with initReq := true }
  if σ.st = .initializing then actorInitContinue c o σ1 else .ok σ1

/-- `on_init` of a root supervisor's own response, `child_manager.cpp:255-310` -/
def onInitResSelf (c : Conf) (ok : Bool) (o : Ora) (σ : State) : Except Err State :=
  if ok then
    let σ1 := if σ.st.rank ≤ AState.operational.rank then { σ with q := σ.q ++ [.startSelf] } else σ
    if hasInit σ then .ok σ1 else initContinue c o σ1
  else .ok (doShutdownSelf c σ)

/-- `starter_plugin_t::on_start`, `starter.cpp:72-86`, with `handle_start`, `child_manager.cpp:440-452` -/
def onStart (c : Conf) (σ : State) : State :=
  if σ.st = .initialized then
    if c.sync then
      { σ with
        st := .operational
        starts := σ.starts + 1
        recs := σ.recs.map (fun p => (p.1, { p.2 with started := true }))
        to := fun a => if σ.recs.find a ≠ none then σ.to a ++ [.start] else σ.to a
        nStart := fun a => if σ.recs.find a ≠ none then σ.nStart a + 1 else σ.nStart a }
    else { σ with st := .operational, starts := σ.starts + 1 }
  else σ

def handle (c : Conf) (m : SMsg) (o : Ora) (σ : State) : Except Err State :=
  match m with
  | .kid a m => onKid c a m o σ
  | .trigSelf => onTrigSelf c o σ
  | .initReqSelf => onInitReq c o σ
  | .initResSelf ok => if σ.selfIA then onInitResSelf c ok o { σ with selfIA := false } else .ok σ
  | .initErrSelf => onInitResSelf c false o σ
  | .startSelf => .ok (onStart c σ)

/-! ## children -/

/-- a message reaches the child; `lost`: its subscriptions are gone already -/
def kidRecv (a : Nat) (lost : Bool) (σ : State) : Except Err State :=
  match σ.to a with
  | [] => .ok σ
  | m :: t =>
    let σ1 := { σ with to := upd σ.to a t }
    let k := σ.kid a
    if k.born = false ∨ k.st = .shutDown ∨ (lost = true ∧ k.st = .shuttingDown) then .ok σ1
    else
      match m with
      | .initReq => .ok { σ1 with kid := upd σ.kid a { k with ireq := true, asked := true } }
      | .start => .ok (if k.st = .initialized then { σ1 with kid := upd σ.kid a { k with st := .operational } } else σ1)
      | .shutReq => .ok { σ1 with kid := upd σ.kid a { k with st := .shuttingDown } }

inductive Op where
  | create (now : Int)
  | spawn (cfg : Spawner.Cfg)
  /-- the supervisor processes a message -/
  | recv (o : Ora)
  /-- a message gets lost, since the subscriptions of the child manager are undone -/
  | drop
  /-- a spawn timer fires -/
  | fired (a : Nat)
  /-- somebody shuts the supervisor down -/
  | down
  /-- a child shuts the supervisor down in its `shutdown_start` (C39), `actor_base.cpp:107-118` -/
  | escalate
  /-- the parent's requests and its start message -/
  | pInit (o : Ora)
  | pStart
  | pShut (o : Ora)
  /-- another plugin calls `init_continue`, `shutdown_continue` -/
  | contInit (o : Ora)
  | cont (o : Ora)
  /-- the timer of a root supervisor's own init request -/
  | initTmoSelf
  | finish
  /-- the child: gets a message; answers its init request (`keep`: and does not forget it); calls `do_shutdown`; completes its
  shutdown; its messages arrive -/
  | kidRecv (a : Nat) (lost : Bool)
  | kidInit (a : Nat) (ok keep : Bool)
  | kidDown (a : Nat)
  | kidShut (a : Nat)
  | flush (a : Nat)
  /-- the timer of an init request -/
  | initTmo (a : Nat)

def step (c : Conf) (σ : State) : Op → Except Err State
  | .create now => .ok (createChild now σ)
  | .spawn cfg => .ok (spawn cfg σ)
  | .recv o =>
    match σ.q with
    | [] => .ok σ
    | m :: t => if σ.st = .shutDown then .ok { σ with q := t } else handle c m o { σ with q := t }
  | .drop => if σ.closed then .ok { σ with q := σ.q.tail } else .error .illegal
  | .fired a =>
    match σ.recs.find a with
    | none => .error .illegal
    | some r =>
      if r.info.timer then
        let σ1 := σ.setRec a { r with info := { r.info with timer := false } }
        if σ.st.rank ≤ AState.operational.rank then .ok { σ1 with q := σ.q ++ [.kid a .spawn] } else .ok σ1
      else .error .illegal
  | .down => .ok (doShutdownSelf c σ)
  | .escalate => .ok { σ with q := σ.q ++ [.trigSelf] }
  | .pInit o => if c.root = false ∧ σ.initReq = false ∧ σ.initOks + σ.initFails = 0 then onInitReq c o σ else .error .illegal
  | .pStart => if c.root = false then .ok (onStart c σ) else .error .illegal
  | .pShut o =>
    if c.root = false ∧ σ.st.rank < AState.shuttingDown.rank then shutdownContinue o (startShutdown σ) else .error .illegal
  | .contInit o => if σ.st = .initializing ∧ σ.initReq = true then actorInitContinue c o σ else .error .illegal
  | .cont o => if σ.st = .shuttingDown then shutdownContinue o σ else .error .illegal
  | .initTmoSelf => if σ.selfIA then .ok { σ with selfIA := false, q := σ.q ++ [.initErrSelf] } else .error .illegal
  | .finish => if σ.closed = true ∧ σ.st = .shuttingDown then .ok { σ with st := .shutDown } else .error .illegal
  | .kidRecv a lost => kidRecv a lost σ
  | .kidInit a ok keep =>
    let k := σ.kid a
    if k.born = true ∧ k.ireq = true ∧ k.st.rank ≤ AState.shuttingDown.rank ∧ (ok = true → k.st = .initializing) then
      .ok { σ with
        kid := upd σ.kid a { k with ireq := if ok then false else keep, ans := true, st := if ok then .initialized else k.st }
        out := upd σ.out a (σ.out a ++ [.initRes ok]) }
    else .error .illegal
  | .kidDown a =>
    let k := σ.kid a
    if k.born = true ∧ k.st.rank < AState.shuttingDown.rank then
      .ok { σ with kid := upd σ.kid a { k with want := true }, out := upd σ.out a (σ.out a ++ [.trigger]) }
    else .error .illegal
  | .kidShut a =>
    let k := σ.kid a
    if k.born = true ∧ k.st = .shuttingDown then
      .ok { σ with kid := upd σ.kid a { k with st := .shutDown }, out := upd σ.out a (σ.out a ++ [.shutRes]) }
    else .error .illegal
  | .flush a =>
    match σ.out a with
    | [] => .ok σ
    | m :: t => .ok { σ with q := σ.q ++ [.kid a m], out := upd σ.out a t }
  | .initTmo a =>
    if σ.iA a then .ok { σ with iA := upd σ.iA a false, q := σ.q ++ [.kid a .initErr] } else .error .illegal

def run (c : Conf) : State → List Op → Except Err State
  | σ, [] => .ok σ
  | σ, op :: ops =>
    match step c σ op with
    | .error e => .error e
    | .ok σ1 => run c σ1 ops

end Verif.Children
