/-!
# Model of boost.asio supervisors run by several threads

Sources: `include/rotor/asio/forwarder.hpp:113-217`, `src/rotor/asio/supervisor_asio.cpp` (`start` 38, `shutdown` 40, timers 42-66,
`enqueue` 81-91, `do_process` 105-133), `src/rotor/plugin/locality.cpp:31-43`, `include/rotor/supervisor.h` (`put` 182, `process` 445-469),
`src/rotor/plugin/delivery.cpp:39-50`, `src/rotor/plugin/foreigners_support.cpp:49-71`, `src/rotor/subscription.cpp:25-45`.

Any number of threads run the same `io_context`. What is taken from boost.asio: a strand executes the closures that were deferred to it
one after the other and in the order of the `defer`s, a thread executes one closure at a time. Which strand a closure goes to, and what it
touches, is up to rotor.

Simplifications:
* supervisors and actors exist from the beginning: strands, parents and supervisors of actors are arbitrary;
* what handlers and callbacks do is a choice: the messages they send and the asynchronous operations they start; which handlers are subscribed
  to a message is a choice too (`Verif.Subscription`), and so is whether the recipient of a foreign call is still alive and subscribed
  (`foreigners_support.cpp:58-69`, C07);
* `enqueue` is one step here (push and `defer`; `Verif.AsioLoop` has them as two), how long `do_process` polls is a choice;
* a timer that is not in the map any more does nothing (line 57), whether it is there is a choice (`Verif.LoopTimers`);
* `next_route` (C08) and the return value of `process` are left out.
-/

namespace Verif.Strands

/-- `strand`: the strand of a supervisor (`supervisor_asio.h:123`), its address carries it as locality (`supervisor_asio.cpp:36`); `parent`: supervisors
are numbered in the order of creation; `supOf`: the supervisor of an actor (`actor_base.h:455`) -/
structure Topo where
  strand : Nat → Nat
  parent : Nat → Option Nat
  supOf : Nat → Nat
  older : ∀ s p, parent s = some p → p < s

/-- `locality_leader`, `locality.cpp:35-37`; `fuel` bounds the depth -/
def Topo.leaderF (T : Topo) : Nat → Nat → Nat
  | 0, s => s
  | fuel + 1, s =>
    match T.parent s with
    | some p => if T.strand p = T.strand s then T.leaderF fuel p else s
    | none => s

/-- a supervisor has at most as many supervisors above it as there are older ones (`leader_eq`) -/
def Topo.leader (T : Topo) (s : Nat) : Nat := T.leaderF (s + 1) s

/-- a message. `user m s`: to an address of supervisor `s`; `hcall m a`: `payload::handler_call_t` for the handler of actor `a`, to the address of its
supervisor (`delivery.cpp:42-45`) -/
inductive Msg where
  | user (m s : Nat)
  | hcall (m a : Nat)
deriving DecidableEq, Repr

/-- the supervisor of the destination -/
def Msg.dest (T : Topo) : Msg → Nat
  | .user _ s => s
  | .hcall _ a => T.supOf a

/-- a closure of a strand -/
inductive Task where
  /-- the result of operation `c` for actor `a`; `err`: the handler of errors is called. `forwarder.hpp:135-143, 163-172, 191-194, 212-216`, and, for a
  supervisor itself, `supervisor_asio.cpp:38, 40` -/
  | fwd (c a : Nat) (err : Bool)
  /-- the expired timer of actor `a`, `supervisor_asio.cpp:53-63` -/
  | timer (a : Nat)
  /-- `do_process` after `enqueue`, `supervisor_asio.cpp:87-90` -/
  | process (s : Nat)
deriving DecidableEq, Repr

/-- what the closure does -/
inductive Pc where
  /-- a callback (forwarded call or timer) of actor `a` -/
  | callback (a : Nat)
  /-- `supervisor_asio.cpp:114-116` -/
  | moving
  /-- in `process`, `supervisor.h:447` -/
  | proc
  /-- in the loop of `delivery.cpp:47-49`, before the next handler -/
  | deliver (hs : List Nat)
  /-- in the handler of actor `a` -/
  | handler (a : Nat) (hs : List Nat)
  /-- `supervisor_asio.cpp:124-128` -/
  | polling
deriving DecidableEq, Repr

/-- a closure being executed. `sup`: its `do_process` is called; `own`: that of `supervisor_asio_t`, otherwise that of the base class
(`forwarder.hpp:137, 142, 165, 171, 193, 215`); `last`: nothing follows after `process` -/
structure Exec where
  sup : Nat
  own : Bool
  last : Bool
  pc : Pc
deriving DecidableEq, Repr

/-- `called`: callback for operation `c` of actor `a`; `done`: the operation has been completed with or without error -/
inductive Ev where
  | done (c a : Nat) (ec : Bool)
  | called (c a : Nat) (err : Bool)
  | handled (a : Nat) (m : Msg)
deriving DecidableEq, Repr

/-- `tasks`: the closures of a strand; `exec`: what it executes; `threads`: which strand a thread is in; `io`: operations that have not completed, they
hold their actor but not its supervisor; `gone`: supervisors that do not exist any more -/
structure State where
  tasks : Nat → List Task
  exec : Nat → Option Exec
  threads : Nat → Option Nat
  queue : Nat → List Msg
  inbound : Nat → List Msg
  io : List (Nat × Nat)
  gone : Nat → Bool
  cur : Nat → Msg
  log : List Ev

def upd {α : Type} (f : Nat → α) (i : Nat) (v : α) : Nat → α := fun j => if j = i then v else f j

/-- nothing has been done -/
def State.init : State where
  tasks _ := []
  exec _ := none
  threads _ := none
  queue _ := []
  inbound _ := []
  io := []
  gone _ := false
  cur _ := .user 0 0
  log := []

inductive Err where
  /-- a supervisor is used that does not exist any more -/
  | dangling
  /-- not possible now -/
  | illegal
deriving DecidableEq, Repr

/-- the supervisor and its locality leader exist: both are raw pointers (`actor_base.h:455`, `address.hpp:35`, `supervisor.h:295`) -/
def exist (T : Topo) (s : Nat) (σ : State) : Bool := !σ.gone s && !σ.gone (T.leader s)

/-- `asio::defer(strand, ...)` -/
def defer (k : Nat) (t : Task) (σ : State) : State := { σ with tasks := upd σ.tasks k (σ.tasks k ++ [t]) }

/-- `supervisor_asio_t::enqueue`, lines 81-91 -/
def enqueue (T : Topo) (s : Nat) (m : Msg) (σ : State) : Except Err State :=
  if exist T s σ then
    .ok (defer (T.strand s) (.process s) { σ with inbound := upd σ.inbound (T.leader s) (σ.inbound (T.leader s) ++ [m]) })
  else .error .dangling

/-- `forwarder_t::operator()`, `forwarder.hpp:130-144` and the like: run by any thread and not in a strand -/
def forward (T : Topo) (c a : Nat) (ec : Bool) (σ : State) : Except Err State :=
  let sup := T.supOf a
  if σ.gone sup then .error .dangling
  else if ec then .ok (defer (T.strand sup) (.fwd c a true) { σ with log := .done c a ec :: σ.log })
  else .ok (defer (T.strand sup) (.fwd c a false) { σ with log := .done c a ec :: σ.log })

/-- `supervisor->put(message)`, `supervisor.h:182, 367-369`: actor `a` sends -/
def put (T : Topo) (a : Nat) (m : Msg) (σ : State) : Except Err State :=
  let l := T.leader (T.supOf a)
  if exist T (T.supOf a) σ then .ok { σ with queue := upd σ.queue l (σ.queue l ++ [m]) } else .error .dangling

/-- the closure of the strand and its thread have finished -/
def finish (k t : Nat) (σ : State) : Except Err State :=
  if σ.threads t = some k then .ok { σ with exec := upd σ.exec k none, threads := upd σ.threads t none } else .error .illegal

def setPc (k : Nat) (e : Exec) (pc : Pc) (σ : State) : State := { σ with exec := upd σ.exec k (some { e with pc := pc }) }

/-- the first statements of a closure; `there`: the timer is in the map -/
def start (T : Topo) (k t : Nat) (there : Bool) (σ : State) : Task → State
  | .fwd c a err => { σ with
      log := .called c a err :: σ.log,
      threads := upd σ.threads t (some k),
      exec := upd σ.exec k (some ⟨T.supOf a, false, true, .callback a⟩) }
  | .timer a =>
    if there then { σ with
      threads := upd σ.threads t (some k),
      exec := upd σ.exec k (some ⟨T.supOf a, true, false, .callback a⟩) }
    else σ
  | .process s => { σ with
      threads := upd σ.threads t (some k),
      exec := upd σ.exec k (some ⟨s, true, false, .moving⟩) }

/-- the external handlers, `delivery.cpp:41-46` -/
def deliverExternal (T : Topo) (m : Nat) : List Nat → State → Except Err State
  | [], σ => .ok σ
  | a :: l, σ =>
    match enqueue T (T.supOf a) (.hcall m a) σ with
    | .error e => .error e
    | .ok σ' => deliverExternal T m l σ'

/-- one message is taken from the queue, `supervisor.h:448-466`; `subs`: the actors whose handlers are subscribed to it; `alive`: what
`foreigners_support.cpp:58-68` finds. The division into internal and external handlers is `subscription.cpp:30, 41` -/
def dispatch (T : Topo) (k : Nat) (e : Exec) (subs : List Nat) (alive : Bool) (σ : State) : Except Err State :=
  let l := T.leader e.sup
  match σ.queue l with
  | [] => .error .illegal
  | msg :: q =>
    let σ := { σ with queue := upd σ.queue l q, cur := upd σ.cur k msg }
    if T.strand (msg.dest T) = T.strand l then
      match msg with
      | .user m _ =>
        let ext := subs.filter (fun a => T.strand (T.supOf a) ≠ T.strand l)
        let int := subs.filter (fun a => T.strand (T.supOf a) = T.strand l)
        match deliverExternal T m ext σ with
        | .error err => .error err
        | .ok σ' => .ok (setPc k e (.deliver int) σ')
      | .hcall _ a => .ok (setPc k e (.deliver (if alive then [a] else [])) σ)
    else enqueue T (msg.dest T) msg σ

inductive Label where
  /-- the running code of strand `k` sends a message -/
  | send (k : Nat) (m : Msg)
  /-- actor `a` starts operation `c` with a forwarder as callback -/
  | begin (c a : Nat)
  /-- operation `c` of actor `a` completes: its callback is called -/
  | complete (c a : Nat) (ec : Bool)
  /-- a timer of actor `a` expires, `supervisor_asio.cpp:50-53` -/
  | expire (a : Nat)
  /-- a message comes from elsewhere -/
  | enqueue (s : Nat) (m : Msg)
  /-- thread `t` takes the next closure of strand `k` -/
  | take (k t : Nat) (there : Bool)
  /-- the callback returns -/
  | back (k : Nat)
  | pop (k t : Nat)
  | dispatch (k : Nat) (subs : List Nat) (alive : Bool)
  /-- the next handler is called, or there are no more -/
  | call (k : Nat)
  /-- the handler returns -/
  | handled (k : Nat)
  /-- the queue is empty; `poll`: `supervisor_asio.cpp:122-123` -/
  | return (k t : Nat) (poll : Bool)
  /-- `supervisor_asio.cpp:124, 129` -/
  | leave (k t : Nat)
  /-- supervisor `s` is destroyed: nothing refers to it -/
  | destroy (s : Nat)
deriving DecidableEq, Repr

/-- the code of which actor is running -/
def Pc.running : Pc → Option Nat
  | .callback a => some a
  | .handler a _ => some a
  | _ => none

/-- closures with an intrusive pointer to the supervisor: `supervisor_asio.cpp:48, 53, 86-87`; a forwarder has one to the actor (if that is
the supervisor itself, `destroy` is possible later than here) -/
def Task.holds (T : Topo) (s : Nat) : Task → Bool
  | .process s' => s' == s
  | .timer a => T.supOf a == s
  | .fwd _ _ _ => false

/-- no closure that is in its strand or executed there holds supervisor `s` -/
def free (T : Topo) (s : Nat) (σ : State) : Bool :=
  ((σ.tasks (T.strand s)).all (fun t => !t.holds T s)) &&
    (match σ.exec (T.strand s) with | some e => !(e.own && e.sup == s) | none => true)

/-- the closure that strand `k` executes goes on -/
def onExec (T : Topo) (σ : State) (k : Nat) (f : Exec → Except Err State) : Except Err State :=
  match σ.exec k with
  | some e => if exist T e.sup σ then f e else .error .dangling
  | none => .error .illegal

def step (T : Topo) (σ : State) : Label → Except Err State
  | .send k m => onExec T σ k (fun e =>
    match e.pc.running with
    | some a => put T a m σ
    | none => .error .illegal)
  | .begin c a => .ok { σ with io := (c, a) :: σ.io }
  | .complete c a ec =>
    if (c, a) ∈ σ.io then forward T c a ec { σ with io := σ.io.erase (c, a) } else .error .illegal
  | .expire a => .ok (defer (T.strand (T.supOf a)) (.timer a) σ)
  | .enqueue s m => enqueue T s m σ
  | .take k t there =>
    match σ.threads t, σ.exec k, σ.tasks k with
    | none, none, task :: ts => .ok (start T k t there { σ with tasks := upd σ.tasks k ts } task)
    | _, _, _ => .error .illegal
  | .back k => onExec T σ k (fun e =>
    match e.pc with
    | .callback _ => .ok (setPc k e (if e.own then .moving else .proc) σ)
    | _ => .error .illegal)
  | .pop k t => onExec T σ k (fun e =>
    let l := T.leader e.sup
    if e.pc = .moving ∨ e.pc = .polling then
      match σ.inbound l with
      | m :: ms => .ok { σ with inbound := upd σ.inbound l ms, queue := upd σ.queue l (σ.queue l ++ [m]) }
      | [] =>
        if e.pc = .polling then .ok σ
        else if σ.queue l = [] then finish k t σ
        else .ok (setPc k e .proc σ)
    else .error .illegal)
  | .dispatch k subs alive => onExec T σ k (fun e =>
    if e.pc = .proc then dispatch T k e subs alive σ else .error .illegal)
  | .call k => onExec T σ k (fun e =>
    match e.pc with
    | .deliver (a :: hs) => .ok { setPc k e (.handler a hs) σ with log := .handled a (σ.cur k) :: σ.log }
    | .deliver [] => .ok (setPc k e .proc σ)
    | _ => .error .illegal)
  | .handled k => onExec T σ k (fun e =>
    match e.pc with
    | .handler _ hs => .ok (setPc k e (.deliver hs) σ)
    | _ => .error .illegal)
  | .return k t poll => onExec T σ k (fun e =>
    if e.pc = .proc ∧ σ.queue (T.leader e.sup) = [] then
      if poll = true ∧ e.last = false then .ok (setPc k { e with last := true } .polling σ)
      else finish k t σ
    else .error .illegal)
  | .leave k t => onExec T σ k (fun e =>
    if e.pc = .polling then
      if σ.queue (T.leader e.sup) = [] then finish k t σ
      else .ok (setPc k e .proc σ)
    else .error .illegal)
  | .destroy s => if free T s σ then .ok { σ with gone := upd σ.gone s true } else .error .illegal

def run (T : Topo) (σ : State) : List Label → Except Err State
  | [] => .ok σ
  | l :: ls =>
    match step T σ l with
    | .error e => .error e
    | .ok σ' => run T σ' ls

end Verif.Strands
