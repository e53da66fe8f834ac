import Verif.Basic.AMap
import Verif.Basic.ActorState

/-!
# Message delivery between any number of localities

Modelled: `supervisor_t::put` and the dispatch loop (`include/rotor/supervisor.h:182-184`, `445-469`), local
delivery with wrapping for foreign handlers (`src/rotor/plugin/delivery.cpp:39-50`), the execution of such
wrapped calls and the subscription protocol between localities
(`src/rotor/plugin/foreigners_support.cpp:49-94`), subscribing and unsubscribing
(`src/rotor/supervisor.cpp:90-109`, `src/rotor/subscription.cpp:25-45, 64-104`,
`src/rotor/plugin/lifetime.cpp:57-128`, `src/rotor/plugin/plugin_base.cpp:65-97`).

Simplifications:
* one inbound queue per locality: `enqueue` of every supervisor of the locality goes there (true for the
  asio, ev, wx and fltk backends; in the thread backend the messages for nested supervisors are lost, see
  `Verif.ThreadLoop`). How the loop is woken up is not part of this model, the scheduler takes the steps in
  any order.
* the tables of `subscription_t` are functions here; the two-level map is in `Verif.Subscription`.
* library messages (`external_subscription_t` and so on) are handed to the plugin that handles them
  directly, the subscriptions of the plugins themselves are not modelled; the response of the delivery
  loop to a handler that changes the very list that is being iterated is the outcome `iter`.
* a handler is subscribed at most once to an address (`starter_plugin_t::subscribe_actor` asserts it,
  `supervisor.h:438-439`); a second subscription is the outcome `illegal`. Handlers are told apart by their
  identity; the code compares signatures, see `Verif.HandlerId`.
* routed messages are in `Verif.Routing`, `redirect` counts as sending a new message.
* the state of an actor and its presence in `alive_actors` change arbitrarily, and so does the point in time
  when `lifetime_plugin_t` forgets the entries of the plugins.
-/

namespace Verif.Net
open Verif

/-- the fixed part: where actors and addresses live; `addrOf`: main address of an actor; `supAddr`,
`supActor`: main address / actor of the supervisor of the locality -/
structure Cfg where
  locA : Nat → Nat
  locD : Nat → Nat
  addrOf : Nat → Nat
  supAddr : Nat → Nat
  supActor : Nat → Nat
  hOf : ∀ a, locD (addrOf a) = locA a
  hSup : ∀ l, locD (supAddr l) = l
  hAct : ∀ l, locA (supActor l) = l

/-- `handler_base_t`: the actor, the method and the type of message it handles -/
structure Handler where
  actor : Nat
  num : Nat
  ty : Nat
  deriving DecidableEq, Repr

/-- a message sent by user code; `uid` stands for the identity of the message object -/
structure Orig where
  uid : Nat
  src : Option Nat
  dest : Nat
  ty : Nat
  deriving DecidableEq, Repr

/-- contents of a message -/
inductive Body where
  | user (ty : Nat)
  /-- `handler_call_t` -/
  | call (h : Handler) (o : Orig)
  /-- `external_subscription_t` -/
  | extSub (h : Handler) (addr : Nat)
  /-- `unsubscription_confirmation_t` / `external_unsubscription_t`, from the actor to itself -/
  | unsub (h : Handler) (addr : Nat)
  /-- `commit_unsubscription_t` -/
  | commit (h : Handler) (addr : Nat)
  /-- `subscription_confirmation_t` -/
  | confirm (h : Handler) (addr : Nat)
  deriving DecidableEq, Repr

/-- `src`: the actor that has sent it; none for a message that was put into the inbound queue of a
supervisor directly (`enqueue`): from outside of the actor system, and for `handler_call_t` -/
structure Msg where
  uid : Nat
  src : Option Nat
  dest : Nat
  body : Body
  deriving DecidableEq, Repr

/-- `joint_handlers_t`, `include/rotor/subscription.h` -/
structure Joint where
  ext : List Handler
  int : List Handler
  deriving DecidableEq, Repr

/-- a subscription that is not yet undone: `anon`: made with
`actor_base_t::subscribe`, not by a plugin; `leaving`: state `UNSUBSCRIBING` -/
structure Point where
  anon : Bool
  leaving : Bool
  deriving DecidableEq, Repr

/-- observable events, newest first in the log -/
inductive Ev where
  /-- an actor (or a plugin of it) sends a message -/
  | sent (m : Msg)
  /-- the loop of locality `l` takes a message from its queue -/
  | took (l : Nat) (m : Msg)
  /-- the loop of locality `l` runs the handler -/
  | exec (l : Nat) (h : Handler) (o : Orig)
  deriving DecidableEq, Repr

/-- `queue`: `locality_leader->queue`; `inb`: the inbound queue of the locality; `subs`: `mine_handlers` of
the locality of the address; `points`: the subscriptions that exist (in `own_subscriptions` of a plugin or
anonymous in `lifetime_plugin_t::points`); `listed`: `lifetime_plugin_t::points`, where the subscriptions of
plugins stay when they are undone until `lifetime_plugin_t::unsubscribe()` removes them (with the
flag whether the entry is anonymous);
`foreign`: `foreign_points` of the supervisors; `alive`: `alive_actors`; `st`: actor states -/
structure State where
  next : Nat
  queue : Nat → List Msg
  inb : Nat → List Msg
  subs : Nat → Nat → Joint
  points : AMap (Handler × Nat) Point
  foreign : List (Handler × Nat)
  alive : Nat → Bool
  st : Nat → AState
  listed : List ((Handler × Nat) × Bool)
  log : List Ev

inductive Err where
  /-- failed assertion, `end()` dereferenced -/
  | fault
  /-- the list of recipients changed while it was being iterated -/
  | iter
  /-- an anonymous subscription to an address of another locality is undone: `assert` in
  `plugin_base.cpp:91` -/
  | anon
  /-- user code broke a precondition -/
  | illegal
  deriving DecidableEq, Repr

/-- update of a function -/
def upd {α : Type} (f : Nat → α) (i : Nat) (v : α) : Nat → α := fun j => if j = i then v else f j

/-- `send` (`supervisor.h:367-369`) and `put` (`supervisor.h:182-184`): into the queue of the leader -/
def send (c : Cfg) (a dest : Nat) (body : Body) (s : State) : State :=
  let m : Msg := ⟨s.next, some a, dest, body⟩
  { s with next := s.next + 1, queue := upd s.queue (c.locA a) (s.queue (c.locA a) ++ [m]), log := .sent m :: s.log }

/-- `enqueue` of a supervisor of locality `l` -/
def enqueue (l : Nat) (m : Msg) (s : State) : State := { s with inb := upd s.inb l (s.inb l ++ [m]) }

def setSubs (s : State) (addr ty : Nat) (j : Joint) : State :=
  { s with subs := fun a t => if a = addr ∧ t = ty then j else s.subs a t }

/-- what user code can do -/
inductive Act where
  | send (dest ty : Nat)
  | subscribe (h : Handler) (addr : Nat) (anon : Bool)
  | unsubscribe (h : Handler) (addr : Nat)
  deriving DecidableEq, Repr

/-- the behaviour of the handlers: arbitrary, may depend on everything that has happened -/
abbrev Env := List Ev → List Act

/-- `supervisor_t::subscribe` (`supervisor.cpp:90-105`) of a handler of the calling actor:
`materialize` (`subscription.cpp:25-45`), then the confirmation or the forwarding, then
`initate_subscription` (`lifetime.cpp:108-110`) -/
def subscribe (c : Cfg) (a : Nat) (h : Handler) (addr : Nat) (anon : Bool) (s : State) : Except Err State :=
  if h.actor ≠ a ∨ (s.points.find (h, addr)).isSome then .error .illegal
  else
    let s1 := { s with points := s.points.set (h, addr) ⟨anon, false⟩, listed := s.listed ++ [((h, addr), anon)] }
    if c.locD addr = c.locA a then
      let j := s.subs addr h.ty
      .ok (send c a (c.addrOf a) (.confirm h addr) (setSubs s1 addr h.ty { j with int := j.int ++ [h] }))
    else .ok (send c a (c.supAddr (c.locD addr)) (.extSub h addr) s1)

/-- `lifetime_plugin_t::unsubscribe`, `lifetime.cpp:57-79`; the entry of a subscription that is already
undone is still found (and is `UNSUBSCRIBING`). Simplification: for an entry that `dropPlugin` has removed
the overload by handler and address fails its assertion (`lifetime.cpp:77`); this is not distinguished from
the overload by info that plugins use -/
def unsubscribe (c : Cfg) (a : Nat) (h : Handler) (addr : Nat) (s : State) : Except Err State :=
  if h.actor ≠ a then .error .illegal
  else match s.points.find (h, addr) with
    | none => if (h, addr) ∈ s.listed.map (·.1) then .ok s else .error .illegal
    | some p =>
      if p.leaving then .ok s
      else .ok (send c a (c.addrOf a) (.unsub h addr) { s with points := s.points.set (h, addr) { p with leaving := true } })

/-- user code of actor `a` -/
def runActs (c : Cfg) (a : Nat) : List Act → State → Except Err State
  | [], s => .ok s
  | .send dest ty :: l, s => runActs c a l (send c a dest (.user ty) s)
  | .subscribe h addr anon :: l, s =>
    match subscribe c a h addr anon s with
    | .error e => .error e
    | .ok s1 => runActs c a l s1
  | .unsubscribe h addr :: l, s =>
    match unsubscribe c a h addr s with
    | .error e => .error e
    | .ok s1 => runActs c a l s1

/-- `handler->call(message)` in the loop of locality `l` -/
def callHandler (c : Cfg) (env : Env) (l : Nat) (h : Handler) (o : Orig) (s : State) : Except Err State :=
  let s1 := { s with log := .exec l h o :: s.log }
  runActs c h.actor (env s1.log) s1

/-- the loop over external handlers, `delivery.cpp:41-46` -/
def wrapAll (c : Cfg) (o : Orig) : List Handler → State → State
  | [], s => s
  | h :: hs, s =>
    let l := c.locA h.actor
    wrapAll c o hs (enqueue l ⟨s.next, none, c.supAddr l, .call h o⟩ { s with next := s.next + 1 })

/-- the loop over internal handlers, `delivery.cpp:47-49`; `j`: the lists when the loop began -/
def callAll (c : Cfg) (env : Env) (l : Nat) (o : Orig) (j : Joint) : List Handler → State → Except Err State
  | [], s => .ok s
  | h :: hs, s =>
    match callHandler c env l h o s with
    | .error e => .error e
    | .ok s1 => if s1.subs o.dest o.ty = j then callAll c env l o j hs s1 else .error .iter

/-- `foreigners_support_plugin_t::on_call`, `foreigners_support.cpp:49-71` -/
def onCall (c : Cfg) (env : Env) (l : Nat) (h : Handler) (o : Orig) (s : State) : Except Err State :=
  if s.alive h.actor = true ∧ (s.st h.actor).rank < AState.shutDown.rank ∧ (h, o.dest) ∈ s.listed.map (·.1) then
    callHandler c env l h o s
  else .ok s

/-- `on_subscription_external`, `foreigners_support.cpp:73-79` -/
def onExtSub (c : Cfg) (l : Nat) (h : Handler) (addr : Nat) (s : State) : Except Err State :=
  if c.locD addr ≠ l then .error .fault
  else
    let j := s.subs addr h.ty
    let s1 := send c (c.supActor l) (c.addrOf h.actor) (.confirm h addr) (setSubs s addr h.ty { j with ext := j.ext ++ [h] })
    .ok { s1 with foreign := s1.foreign ++ [(h, addr)] }

/-- `on_unsubscription` (`_external`) of the actor: `lifetime.cpp:112-128`, `plugin_base.cpp:65-97`,
`subscription.cpp:75-104`. The plugin that owns the subscription takes the message
(`actor_base.cpp:195-204, 224-244`), so that the entry in `lifetime_plugin_t::points` stays; for an
anonymous one it is erased (`lifetime.cpp:116-119`) -/
def onUnsub (c : Cfg) (h : Handler) (addr : Nat) (s : State) : Except Err State :=
  match s.points.find (h, addr) with
  | none => .error .fault
  | some p =>
    let s1 := { s with points := s.points.erase (h, addr), listed := if p.anon then s.listed.erase ((h, addr), true) else s.listed }
    if c.locD addr = c.locA h.actor then
      let j := s.subs addr h.ty
      if h ∈ j.int then .ok (setSubs s1 addr h.ty { j with int := j.int.erase h }) else .error .fault
    else if p.anon then .error .anon
    else .ok (send c h.actor (c.supAddr (c.locD addr)) (.commit h addr) s1)

/-- `foreigners_support_plugin_t::on_unsubscription`, `foreigners_support.cpp:81-94` with
`subscription.cpp:75-104` -/
def onCommit (h : Handler) (addr : Nat) (s : State) : Except Err State :=
  if (h, addr) ∈ s.foreign then
    let j := s.subs addr h.ty
    if h ∈ j.ext then
      .ok { setSubs s addr h.ty { j with ext := j.ext.erase h } with foreign := s.foreign.erase (h, addr) }
    else .error .fault
  else .error .fault

/-- one turn of the loop in `process()`, `supervisor.h:447-466` -/
def take (c : Cfg) (env : Env) (l : Nat) (s : State) : Except Err State :=
  match s.queue l with
  | [] => .ok s
  | m :: rest =>
    let s1 := { s with queue := upd s.queue l rest, log := .took l m :: s.log }
    if c.locD m.dest ≠ l then .ok (enqueue (c.locD m.dest) m s1)
    else match m.body with
      | .user ty =>
        let j := s1.subs m.dest ty
        callAll c env l ⟨m.uid, m.src, m.dest, ty⟩ j j.int (wrapAll c ⟨m.uid, m.src, m.dest, ty⟩ j.ext s1)
      | .call h o => onCall c env l h o s1
      | .extSub h addr => onExtSub c l h addr s1
      | .unsub h addr => onUnsub c h addr s1
      | .commit h addr => onCommit h addr s1
      | .confirm _ _ => .ok s1

/-- the loop moves one message from the inbound queue to its queue -/
def poll (l : Nat) (s : State) : State :=
  match s.inb l with
  | [] => s
  | m :: rest => { s with inb := upd s.inb l rest, queue := upd s.queue l (s.queue l ++ [m]) }

/-- the scheduler's choices -/
inductive Op where
  | take (l : Nat)
  | poll (l : Nat)
  /-- user code runs outside of message handlers (initialization, timers) -/
  | act (a : Nat) (l : List Act)
  /-- somebody outside of the actor system calls `enqueue` for an address -/
  | outside (dest ty : Nat)
  /-- the state of an actor / its presence in `alive_actors` changes -/
  | life (a : Nat) (alive : Bool) (st : AState)
  /-- `lifetime_plugin_t::unsubscribe()` drops the entries of plugins (`lifetime.cpp:81-92`), during the
  shutdown of the actor; what it unsubscribes is up to `act` -/
  | dropPlugin (a : Nat)
  deriving DecidableEq, Repr

def step (c : Cfg) (env : Env) (s : State) : Op → Except Err State
  | .take l => take c env l s
  | .poll l => .ok (poll l s)
  | .act a l => runActs c a l s
  | .outside dest ty => .ok (enqueue (c.locD dest) ⟨s.next, none, dest, .user ty⟩ { s with next := s.next + 1 })
  | .life a alive st => .ok { s with alive := fun x => if x = a then alive else s.alive x, st := fun x => if x = a then st else s.st x }
  | .dropPlugin a => .ok { s with listed := s.listed.filter (fun e => decide (e.1.1.actor ≠ a) || e.2) }

def run (c : Cfg) (env : Env) : State → List Op → Except Err State
  | s, [] => .ok s
  | s, op :: ops =>
    match step c env s op with
    | .error e => .error e
    | .ok s1 => run c env s1 ops

/-- nobody is subscribed, nothing is queued -/
def State.init : State :=
  ⟨0, fun _ => [], fun _ => [], fun _ _ => ⟨[], []⟩, [], [], fun _ => false, fun _ => .new, [], []⟩

end Verif.Net
