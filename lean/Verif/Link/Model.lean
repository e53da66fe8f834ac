import Verif.Basic.AMap
import Verif.Basic.ActorState
/-!
# Links between actors

Sources: `src/rotor/plugin/link_client.cpp:41-171`, `src/rotor/plugin/link_server.cpp:31-133`,
`src/rotor/actor_base.cpp` (95-103, 147-193), `src/rotor/plugin/init_shutdown.cpp:45-64`,
`src/rotor/plugin/starter.cpp:67-86`, `src/rotor/supervisor.cpp:121-144`, `include/rotor/supervisor.h:531-565`.

Any number of actors, each with both plugins; any of them may be linked with any other (or itself). Messages
between them are in transit for an arbitrary time; the order between two given actors is kept (C05; responses
keep it because the supervisor moves them to the front of the queue, `supervisor.h:556-559`).

Simplifications:
* the messages from a client to a server and those from a server to a client are in separate queues, one pair
  for each pair of roles, and so are the errors made by expired request timers: more interleavings than there are;
* request identifiers are unique (C13) and compared only for one pair of actors: one number is used for all
  requests sent by one call of `notify_shutdown`;
* the other plugins are oracles (`Ora`): those behind the link client (registry, resources, starter) agree or not in
  `init_continue` and `shutdown_continue` and may ask for links themselves. Those before the link server are asked
  after it at shutdown and agree at once to initialization;
* a shutdown triggered by `do_shutdown` (`link_client.cpp:121-122`) is a shutdown request that may come at any time
  anyway (`Op.shutdown`);
* links are asked for in `configure` (at the first `handle_init`) or later, and not after the shutdown has begun;
* callbacks of links are not modelled here (the registry plugin uses them: `Verif.RegistryPlugin`), a callback that
  links again while `on_link_response` holds an iterator of the map is excluded.
-/

namespace Verif.Link
open Verif

/-- `link_server_plugin_t::link_info_t`, `link_server.h:64-73` -/
inductive CPh where
  /-- with the request to be answered -/
  | pending (rid : Nat) (op : Bool)
  | operational
  /-- with the request sent -/
  | unlinking (u : Nat)
deriving DecidableEq, Repr

/-- `link_client_plugin_t::server_record_t`, `link_client.h:82-87` -/
inductive SPh where
  | linking (rid : Nat)
  | operational
deriving DecidableEq, Repr

/-- from a client to a server -/
inductive Up where
  | linkReq (rid : Nat) (op : Bool)
  | unlinkRes (u : Nat)
  | notify
deriving DecidableEq, Repr

/-- from a server to a client -/
inductive Dn where
  | linkRes (rid : Nat) (ok : Bool)
  | unlinkReq (u : Nat)
deriving DecidableEq, Repr

/-- what happened between a client and a server -/
inductive PEv where
  /-- the client asks, in which state -/
  | asked (rid : Nat) (st : AState)
  /-- the server keeps the request until it is started -/
  | queued (rid : Nat)
  /-- the server answers, in which state, and whether the request was for the operational state only -/
  | answered (rid : Nat) (ok op : Bool) (st : AState)
  /-- the client knows the answer -/
  | known (rid : Nat) (ok : Bool)
  /-- the server drops a request that was waiting, on behalf of the client -/
  | withdrawn (rid : Nat)
  /-- the server drops its record of the client -/
  | freed
  /-- the request arrives when nobody is subscribed to it any more -/
  | lost (rid : Nat)
  /-- the server asks to be unlinked -/
  | unlinkAsked (u : Nat)
  /-- the client drops the server as it was asked to -/
  | unlinked (u : Nat)
  /-- the client drops the server because of its own shutdown -/
  | left
deriving DecidableEq, Repr

/-- an actor. `initReq`, `shutReq`: the requests are kept; `rInit`: INIT reaction of the link client; `rClient`: its
SHUTDOWN reaction; `closed`: the SHUTDOWN reaction of the link server is off, both plugins have agreed to the shutdown; `deafC`, `deafS`: subscriptions of the
plugins are undone; `kept`: unlink requests the user deals with; `asked`: an init request has arrived; `inits`: answers to it;
`shutErr`: shutdown requests answered with an error -/
structure Actor where
  st : AState
  clients : AMap Nat CPh
  servers : AMap Nat SPh
  unlinkQ : AMap Nat Nat
  kept : List (Nat × Nat)
  initReq : Bool
  shutReq : Bool
  rInit : Bool
  rClient : Bool
  closed : Bool
  deafC : Bool
  deafS : Bool
  asked : Bool
  inits : List Bool
  shutErr : Nat

/-- plugins are activated: `link_client.cpp:41-48`, `link_server.cpp:31-39` -/
def Actor.init : Actor where
  st := .initializing
  clients := []
  servers := []
  unlinkQ := []
  kept := []
  initReq := false
  shutReq := false
  rInit := true
  rClient := true
  closed := false
  deafC := false
  deafS := false
  asked := false
  inits := []
  shutErr := 0

/-- `up c s`, `dn s c`: messages in transit; `lreq c s`: active link requests of `c` to `s`; `ureq s c`: active unlink requests;
`ltmo c s`, `utmo s c`: error responses made by timers; `hist c s`: newest first -/
structure State where
  act : Nat → Actor
  up : Nat → Nat → List Up
  dn : Nat → Nat → List Dn
  lreq : Nat → Nat → List Nat
  ureq : Nat → Nat → List Nat
  ltmo : Nat → Nat → List Nat
  utmo : Nat → Nat → List Nat
  hist : Nat → Nat → List PEv
  nx : Nat

def State.init : State where
  act _ := .init
  up _ _ := []
  dn _ _ := []
  lreq _ _ := []
  ureq _ _ := []
  ltmo _ _ := []
  utmo _ _ := []
  hist _ _ := []
  nx := 0

inductive Err where
  /-- assertion in `link`: the actor is linked with the server already -/
  | twice
  /-- assertion in `init_continue` -/
  | initCont
  /-- assertion in `on_link_response`: no record -/
  | noRecord
  /-- assertion in `discard_request`: not active -/
  | discard
  /-- assertion in `cancel_timer`: no timer -/
  | timer
  /-- assertion in `on_unlink_response`: no such client -/
  | noClient
  /-- not possible now -/
  | illegal
deriving DecidableEq, Repr

/-- `agree`: the plugins behind the link client agree to the shutdown; `next`: they agree to the initialization; `late`: links
they ask for while they are asked; `unl`: result of `actor_base_t::on_unlink`; `handled`: `unlink_reaction` takes the request -/
structure Ora where
  agree : Bool
  next : Bool
  late : List (Nat × Bool)
  unl : Bool
  handled : Bool

def upd {α : Type} (f : Nat → α) (i : Nat) (v : α) : Nat → α := fun j => if j = i then v else f j
def upd2 {α : Type} (f : Nat → Nat → α) (i j : Nat) (v : α) : Nat → Nat → α := fun a b => if a = i ∧ b = j then v else f a b

/-- change of an actor -/
def State.mod (σ : State) (a : Nat) (f : Actor → Actor) : State := { σ with act := upd σ.act a (f (σ.act a)) }

/-! ## the client -/

/-- `link_client_plugin_t::link`, `link_client.cpp:50-57` -/
def link (c s : Nat) (op : Bool) (σ : State) : Except Err State :=
  if (σ.act c).servers.find s = none then
    let σ1 := σ.mod c (fun a => { a with servers := a.servers.set s (.linking σ.nx), rInit := true })
    let σ2 := { σ1 with up := upd2 σ.up c s (σ.up c s ++ [Up.linkReq σ.nx op]), lreq := upd2 σ.lreq c s (σ.nx :: σ.lreq c s) }
    .ok { σ2 with hist := upd2 σ.hist c s (PEv.asked σ.nx (σ.act c).st :: σ.hist c s), nx := σ.nx + 1 }
  else .error .twice

def linkAll (c : Nat) : List (Nat × Bool) → State → Except Err State
  | [], σ => .ok σ
  | (s, op) :: l, σ =>
    match link c s op σ with
    | .error e => .error e
    | .ok σ1 => linkAll c l σ1

def isLinking (p : Nat × SPh) : Bool :=
  match p.2 with
  | .linking _ => true
  | .operational => false

/-- `init_finish`, `actor_base.cpp:97-101` -/
def initFinish (c : Nat) (σ : State) : State :=
  σ.mod c (fun a => { a with initReq := false, st := .initialized, inits := true :: a.inits })

/-- `init_continue`, `actor_base.cpp:147-168`, with `handle_init`, `link_client.cpp:135-143` -/
def initContinue (c : Nat) (o : Ora) (σ : State) : Except Err State :=
  if (σ.act c).st = .initializing ∧ (σ.act c).initReq = true then
    if (σ.act c).rInit = true ∧ (σ.act c).servers.any isLinking = true then .ok σ
    else
      match linkAll c o.late (σ.mod c (fun a => { a with rInit := false })) with
      | .error e => .error e
      | .ok σ2 => if o.next then .ok (initFinish c σ2) else .ok σ2
  else .error .initCont

/-- `on_link_response`, `link_client.cpp:59-90` -/
def onLinkRes (c s rid : Nat) (ok : Bool) (o : Ora) (σ : State) : Except Err State :=
  match (σ.act c).servers.find s with
  | none => .error .noRecord
  | some _ =>
    let σ1 := { σ with hist := upd2 σ.hist c s (.known rid ok :: σ.hist c s) }
    if ok then
      let σ2 := σ1.mod c (fun a => { a with servers := a.servers.set s .operational })
      if (σ.act c).initReq then initContinue c o σ2 else .ok σ2
    else
      let σ2 := σ1.mod c (fun a => { a with servers := a.servers.erase s })
      if (σ.act c).initReq then .ok (σ2.mod c (fun a => { a with initReq := false, inits := false :: a.inits })) else .ok σ2

/-- the loop of `try_forget_links`, `link_client.cpp:102-116`: the first request of each server is answered -/
def tryForget (c : Nat) (σ : State) : State :=
  if (σ.act c).clients = [] then
    let hit := fun s => (σ.act c).servers.find s ≠ none ∧ (σ.act c).unlinkQ.find s ≠ none
    let σ1 := σ.mod c (fun a => { a with servers := a.servers.filter (fun p => (a.unlinkQ.find p.1).isNone) })
    { σ1 with
      up := fun a b => if a = c ∧ hit b then σ.up a b ++ [.unlinkRes (((σ.act c).unlinkQ.find b).getD 0)] else σ.up a b
      hist := fun a b => if a = c ∧ hit b then .unlinked (((σ.act c).unlinkQ.find b).getD 0) :: σ.hist a b else σ.hist a b }
  else σ

/-- does `try_forget_links` forget a link? -/
def forgets (c : Nat) (σ : State) : Bool :=
  decide ((σ.act c).clients = []) && (σ.act c).servers.any (fun p => ((σ.act c).unlinkQ.find p.1).isSome)

/-! ## the server -/

/-- `notify_shutdown`, `link_server.cpp:123-133` -/
def notifyShutdown (s : Nat) (σ : State) : State :=
  let op := fun c => (σ.act s).clients.find c = some .operational
  let σ1 := σ.mod s (fun a => { a with clients := a.clients.map (fun p => (p.1, if p.2 = .operational then .unlinking σ.nx else p.2)) })
  { σ1 with
    dn := fun a b => if a = s ∧ op b then σ.dn a b ++ [.unlinkReq σ.nx] else σ.dn a b
    ureq := fun a b => if a = s ∧ op b then σ.nx :: σ.ureq a b else σ.ureq a b
    hist := fun a b => if b = s ∧ op a then .unlinkAsked σ.nx :: σ.hist a b else σ.hist a b
    nx := σ.nx + 1 }

/-- the record of a server whose request is not active any more -/
def expired (c : Nat) (σ : State) (s : Nat) : Bool :=
  match (σ.act c).servers.find s with
  | some (.linking rid) => decide (rid ∉ σ.lreq c s)
  | _ => false

/-- the loop in `link_client_plugin_t::handle_shutdown`, `link_client.cpp:152-161`; `discard_request` asserts that the request is
active (`supervisor.cpp:140-144`) -/
def leaveAll (c : Nat) (σ : State) : Except Err State :=
  if (σ.act c).servers.any (fun p => expired c σ p.1) then .error .discard
  else
    let σ1 := σ.mod c (fun a => { a with servers := [] })
    .ok { σ1 with
      up := fun a b => if a = c ∧ (σ.act c).servers.find b ≠ none then σ.up a b ++ [.notify] else σ.up a b
      lreq := fun a b =>
        if a = c then
          match (σ.act c).servers.find b with
          | some (.linking rid) => (σ.lreq a b).erase rid
          | _ => σ.lreq a b
        else σ.lreq a b
      hist := fun a b => if a = c ∧ (σ.act c).servers.find b ≠ none then .left :: σ.hist a b else σ.hist a b }

/-- `link_client_plugin_t::handle_shutdown`, `link_client.cpp:145-171` -/
def clientVote (c : Nat) (σ : State) : Except Err (State × Bool) :=
  if (σ.act c).servers = [] then .ok (σ, true)
  else
    let σ1 := tryForget c σ
    if (σ1.act c).clients = [] then
      match leaveAll c σ1 with
      | .error e => .error e
      | .ok σ2 => .ok (σ2, true)
    else
      let σ2 := notifyShutdown c σ1
      .ok (σ2, decide ((σ2.act c).servers = []))

/-- `link_server_plugin_t::handle_shutdown`, `link_server.cpp:108-111`; afterwards the plugins before it are asked -/
def serverVote (s : Nat) (σ : State) : State :=
  if (σ.act s).closed then σ
  else
    let σ1 := notifyShutdown s σ
    if (σ1.act s).clients = [] then σ1.mod s (fun a => { a with closed := true }) else σ1

/-- `shutdown_continue`, `actor_base.cpp:172-193`; all callers check the state -/
def shutdownContinue (a : Nat) (o : Ora) (σ : State) : Except Err State :=
  if (σ.act a).st = .shuttingDown then
    if o.agree then
      if (σ.act a).rClient then
        match clientVote a σ with
        | .error e => .error e
        | .ok (σ1, true) => .ok (serverVote a (σ1.mod a (fun a => { a with rClient := false })))
        | .ok (σ1, false) => .ok σ1
      else .ok (serverVote a σ)
    else .ok σ
  else .error .illegal

/-- `if (state == SHUTTING_DOWN) shutdown_continue()` -/
def continueIf (a : Nat) (o : Ora) (σ : State) : Except Err State :=
  if (σ.act a).st = .shuttingDown then shutdownContinue a o σ else .ok σ

/-- `forget_link`, `link_client.cpp:92-126` -/
def forgetLink (c s u : Nat) (o : Ora) (σ : State) : Except Err State :=
  if (σ.act c).servers.find s = none then .ok σ
  else
    let σ1 := σ.mod c (fun a => { a with unlinkQ := a.unlinkQ ++ [(s, u)] })
    if forgets c σ1 && o.unl then continueIf c o (tryForget c σ1) else .ok (tryForget c σ1)

/-- `on_link_request`, `link_server.cpp:41-64` -/
def onLinkReq (s c rid : Nat) (op : Bool) (σ : State) : State :=
  let a := σ.act s
  if AState.operational.rank < a.st.rank ∨ a.clients.find c ≠ none then
    { σ with
      dn := upd2 σ.dn s c (σ.dn s c ++ [.linkRes rid false])
      hist := upd2 σ.hist c s (.answered rid false op a.st :: σ.hist c s) }
  else if op = true ∧ a.st.rank < AState.operational.rank then
    let σ1 := σ.mod s (fun a => { a with clients := a.clients.set c (.pending rid op) })
    { σ1 with hist := upd2 σ.hist c s (.queued rid :: σ.hist c s) }
  else
    let σ1 := σ.mod s (fun a => { a with clients := a.clients.set c .operational })
    { σ1 with
      dn := upd2 σ.dn s c (σ.dn s c ++ [.linkRes rid true])
      hist := upd2 σ.hist c s (.answered rid true op a.st :: σ.hist c s) }

/-- `on_unlink_notify`, `link_server.cpp:66-82`; `cancel_timer` asserts that the timer is there (`actor_base.cpp:257-260`) -/
def onNotify (s c : Nat) (o : Ora) (σ : State) : Except Err State :=
  let σ1 := σ.mod s (fun a => { a with clients := a.clients.erase c })
  match (σ.act s).clients.find c with
  | none => .ok σ
  | some (.unlinking u) =>
    if u ∈ σ.ureq s c then
      continueIf s o { σ1 with
        ureq := upd2 σ.ureq s c ((σ.ureq s c).erase u)
        hist := upd2 σ.hist c s (.freed :: σ.hist c s) }
    else .error .timer
  | some (.pending rid _) => continueIf s o { σ1 with hist := upd2 σ.hist c s (.freed :: .withdrawn rid :: σ.hist c s) }
  | some .operational => continueIf s o { σ1 with hist := upd2 σ.hist c s (.freed :: σ.hist c s) }

/-- `on_unlink_response` without error, `link_server.cpp:92-105` -/
def onUnlinkRes (s c : Nat) (o : Ora) (σ : State) : Except Err State :=
  match (σ.act s).clients.find c with
  | none => .error .noClient
  | some _ =>
    let σ1 := σ.mod s (fun a => { a with clients := a.clients.erase c })
    continueIf s o { σ1 with hist := upd2 σ.hist c s (.freed :: σ.hist c s) }

/-- a message from the client `c` is processed by the server `s`. A response goes first to the supervisor, which drops it if the
request is not active (`supervisor.h:544-561`) -/
def recvUp (c s : Nat) (o : Ora) (σ : State) : Except Err State :=
  match σ.up c s with
  | [] => .ok σ
  | m :: t =>
    let σ1 := { σ with up := upd2 σ.up c s t }
    match m with
    | .linkReq rid op =>
      if (σ.act s).deafS then .ok { σ1 with hist := upd2 σ.hist c s (.lost rid :: σ.hist c s) }
      else .ok (onLinkReq s c rid op σ1)
    | .unlinkRes u =>
      if u ∈ σ.ureq s c then
        let σ2 := { σ1 with ureq := upd2 σ.ureq s c ((σ.ureq s c).erase u) }
        if (σ.act s).deafS then .ok σ2 else onUnlinkRes s c o σ2
      else .ok σ1
    | .notify => if (σ.act s).deafS then .ok σ1 else onNotify s c o σ1

/-- a message from the server `s` is processed by the client `c` -/
def recvDn (s c : Nat) (o : Ora) (σ : State) : Except Err State :=
  match σ.dn s c with
  | [] => .ok σ
  | m :: t =>
    let σ1 := { σ with dn := upd2 σ.dn s c t }
    match m with
    | .linkRes rid ok =>
      if rid ∈ σ.lreq c s then
        let σ2 := { σ1 with lreq := upd2 σ.lreq c s ((σ.lreq c s).erase rid) }
        if (σ.act c).deafC then .ok σ2 else onLinkRes c s rid ok o σ2
      else .ok σ1
    | .unlinkReq u =>
      if (σ.act c).deafC then .ok σ1
      else if o.handled then .ok (σ1.mod c (fun a => { a with kept := a.kept ++ [(s, u)] }))
      else forgetLink c s u o σ1

/-- the error made by the timer of a link request -/
def recvLTmo (c s : Nat) (o : Ora) (σ : State) : Except Err State :=
  match σ.ltmo c s with
  | [] => .ok σ
  | rid :: t =>
    let σ1 := { σ with ltmo := upd2 σ.ltmo c s t }
    if (σ.act c).deafC then .ok σ1 else onLinkRes c s rid false o σ1

/-- the error made by the timer of an unlink request: `on_unlink_response` with an error, `link_server.cpp:84-96`; without a
shutdown request it looks for an empty address -/
def recvUTmo (s c : Nat) (σ : State) : Except Err State :=
  match σ.utmo s c with
  | [] => .ok σ
  | _ :: t =>
    let σ1 := { σ with utmo := upd2 σ.utmo s c t }
    if (σ.act s).deafS then .ok σ1
    else if (σ.act s).shutReq then .ok (σ1.mod s (fun a => { a with shutErr := a.shutErr + 1 }))
    else .error .noClient

/-- the record of a client after `handle_start`, `link_server.cpp:115-118` -/
def started : CPh → CPh
  | .pending _ _ => .operational
  | x => x

/-- `handle_start`, `link_server.cpp:113-121`, after the starter has made the actor operational (`starter.cpp:67-86`) -/
def onStart (s : Nat) (σ : State) : State :=
  let σ1 := σ.mod s (fun a => { a with st := .operational, clients := a.clients.map (fun p => (p.1, started p.2)) })
  { σ1 with
    dn := fun a b =>
      if a = s then
        match (σ.act s).clients.find b with
        | some (.pending rid _) => σ.dn a b ++ [.linkRes rid true]
        | _ => σ.dn a b
      else σ.dn a b
    hist := fun a b =>
      if b = s then
        match (σ.act s).clients.find a with
        | some (.pending rid op) => .answered rid true op .operational :: σ.hist a b
        | _ => σ.hist a b
      else σ.hist a b }

inductive Op where
  /-- the init request arrives, the links asked for in `configure` -/
  | init (a : Nat) (links : List (Nat × Bool)) (o : Ora)
  /-- another plugin calls `init_continue` -/
  | contInit (a : Nat) (o : Ora)
  | link (c s : Nat) (op : Bool)
  | start (a : Nat)
  /-- a shutdown request arrives (`req = false`: a root supervisor shuts itself down) -/
  | shutdown (a : Nat) (req : Bool) (o : Ora)
  /-- another plugin calls `shutdown_continue` -/
  | cont (a : Nat) (o : Ora)
  | up (c s : Nat) (o : Ora)
  | dn (s c : Nat) (o : Ora)
  /-- the user goes on with an unlink request it has kept, `forget_link` -/
  | forget (c s u : Nat) (o : Ora)
  /-- timers expire, their errors arrive -/
  | timeoutL (c s rid : Nat)
  | ltmo (c s : Nat) (o : Ora)
  | timeoutU (s c u : Nat)
  | utmo (s c : Nat)
  /-- the plugins lose their subscriptions -/
  | deafC (a : Nat)
  | deafS (a : Nat)
  /-- `shutdown_finish`, `actor_base.cpp:121-145` -/
  | finish (a : Nat)

def step (σ : State) : Op → Except Err State
  | .init a links o =>
    if (σ.act a).st = .initializing ∧ (σ.act a).asked = false then
      match linkAll a links (σ.mod a (fun a => { a with initReq := true, asked := true })) with
      | .error e => .error e
      | .ok σ1 => initContinue a o σ1
    else if AState.operational.rank < (σ.act a).st.rank ∧ (σ.act a).asked = false then
      .ok (σ.mod a (fun a => { a with initReq := true, asked := true }))
    else .error .illegal
  | .contInit a o =>
    if (σ.act a).st = .initializing ∧ (σ.act a).initReq = true then initContinue a o σ else .error .illegal
  | .link c s op =>
    if ((σ.act c).st = .initializing ∧ (σ.act c).initReq = true) ∨ (σ.act c).st = .initialized ∨ (σ.act c).st = .operational then
      link c s op σ
    else .error .illegal
  | .start a => if (σ.act a).st = .initialized then .ok (onStart a σ) else .error .illegal
  | .shutdown a req o =>
    if (σ.act a).st.rank < AState.shuttingDown.rank then
      shutdownContinue a o (σ.mod a (fun a => { a with st := .shuttingDown, shutReq := req }))
    else .error .illegal
  | .cont a o => if (σ.act a).st = .shuttingDown then shutdownContinue a o σ else .error .illegal
  | .up c s o => recvUp c s o σ
  | .dn s c o => recvDn s c o σ
  | .forget c s u o =>
    if (s, u) ∈ (σ.act c).kept ∧ (σ.act c).deafC = false then
      forgetLink c s u o (σ.mod c (fun a => { a with kept := a.kept.erase (s, u) }))
    else .error .illegal
  | .timeoutL c s rid =>
    if rid ∈ σ.lreq c s then
      .ok { σ with lreq := upd2 σ.lreq c s ((σ.lreq c s).erase rid), ltmo := upd2 σ.ltmo c s (σ.ltmo c s ++ [rid]) }
    else .error .illegal
  | .ltmo c s o => recvLTmo c s o σ
  | .timeoutU s c u =>
    if u ∈ σ.ureq s c then
      .ok { σ with ureq := upd2 σ.ureq s c ((σ.ureq s c).erase u), utmo := upd2 σ.utmo s c (σ.utmo s c ++ [u]) }
    else .error .illegal
  | .utmo s c => recvUTmo s c σ
  | .deafC a => if (σ.act a).closed = true then .ok (σ.mod a (fun a => { a with deafC := true })) else .error .illegal
  | .deafS a => if (σ.act a).closed = true then .ok (σ.mod a (fun a => { a with deafS := true })) else .error .illegal
  | .finish a =>
    if (σ.act a).closed = true ∧ (σ.act a).deafC = true ∧ (σ.act a).deafS = true then
      let σ1 := σ.mod a (fun a => { a with st := .shutDown })
      .ok { σ1 with lreq := fun x y => if x = a then [] else σ.lreq x y, ureq := fun x y => if x = a then [] else σ.ureq x y }
    else .error .illegal

def run : State → List Op → Except Err State
  | σ, [] => .ok σ
  | σ, op :: ops =>
    match step σ op with
    | .error e => .error e
    | .ok σ1 => run σ1 ops

end Verif.Link
