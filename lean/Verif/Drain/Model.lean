/-!
# Messages left in the queues of a supervisor that is destroyed

Modelled: the destructor of `handler_call_t` (`src/rotor/messages.cpp:13-20`), `~supervisor_t` (`src/rotor/supervisor.cpp:34-39`) with the
destructor of its member `queue` (`include/rotor/supervisor.h:273-274`), `~system_context_t` (`src/rotor/system_context.cpp:43-50`), the end of a turn of
the dispatch loop (`include/rotor/supervisor.h:445-469`), the wrapping for foreign handlers (`src/rotor/plugin/delivery.cpp:41-46`), and where
`enqueue` puts a message: into the inbound queue of the supervisor itself (`src/rotor/thread/supervisor_thread.cpp:25-30`) or of the locality leader
(`src/rotor/asio/supervisor_asio.cpp:81-84`, `src/rotor/ev/supervisor_ev.cpp:70-75`).

The destructor of a wrapped call looks whether it is the last that refers to the message and whether that has a second destination. If so it calls `enqueue`,
which is pure virtual in `supervisor_t` (`supervisor.h:174`), of the supervisor of the handler's actor; the handler holds the actor
(`src/rotor/handler.cpp:34-42`), but nothing holds the supervisor (`actor_base.h:455`).

Simplifications:
* a wrapped call is referred to once (user code does not get to see it);
* when a supervisor is destroyed is not part of the model (`Verif.SupRefs` counts the references to supervisors): it may be at any time when its loop
  is not in a turn; nobody sends to a supervisor from then on (see `Verif.MsgCount`);
* every step is atomic (what two holders do that read the counter at the same time is in `Verif.Routing`);
* after the hop a message is one without second destination; how it gets to the second address is in `Verif.Net`;
* wx has no inbound queue, its closures hold the supervisor; `enqueue` of fltk uses the root supervisor as the others do the leader.
-/

namespace Verif.Drain

/-- `plain m`: the message `m` itself; `call m s`: `handler_call_t` with `orig_message` `m` for a handler of an actor of supervisor `s` -/
inductive Msg where
  | plain (m : Nat)
  | call (m s : Nat)
deriving DecidableEq, Repr

def Msg.of : Msg → Nat
  | .plain m => m
  | .call m _ => m

/-- `box s`: the supervisor into whose inbound queue `enqueue` of `s` puts messages; `root s`: the root supervisor of its context;
`locks`: `enqueue` uses a mutex of the context (the thread backend, `supervisor_thread.cpp:28-29`) -/
structure Cfg where
  box : Nat → Nat
  root : Nat → Nat
  locks : Bool

/-- `dying`: the body of `~supervisor_t` is running, or members are being destroyed: the destructors of derived classes have been called -/
inductive Phase where
  | alive
  | dying
  | gone
deriving DecidableEq, Repr

inductive Ev where
  /-- a message was created, with a second destination or not -/
  | sent (m : Nat) (r : Bool)
  /-- it was sent to its second destination -/
  | hop (m : Nat)
  /-- it was destroyed; with the second destination still to go to, or not -/
  | freed (m : Nat) (r : Bool)
deriving DecidableEq, Repr

/-- `route`: `next_route` is set; `vars`: references of user code; `inb`, `queue`: `inbound_queue` and `queue` of the supervisors; `cur`: what a loop is
working on; `closing`: the destructor of the context with this root supervisor has begun; log: newest first -/
structure State where
  next : Nat
  route : Nat → Bool
  vars : List Nat
  inb : List (Nat × Msg)
  queue : List (Nat × Msg)
  cur : List (Nat × Msg)
  phase : Nat → Phase
  closing : Nat → Bool
  log : List Ev

def State.init : State where
  next := 0
  route _ := false
  vars := []
  inb := []
  queue := []
  cur := []
  phase _ := .alive
  closing _ := false
  log := []

inductive Err where
  /-- `enqueue` of a supervisor whose derived class has been destroyed: pure virtual function -/
  | pureVirtual
  /-- a supervisor that has been destroyed -/
  | dangling
  /-- a mutex that has been destroyed -/
  | mutex
  /-- not possible now -/
  | illegal
deriving DecidableEq, Repr

def upd {α : Type} (f : Nat → α) (i : Nat) (v : α) : Nat → α := fun j => if j = i then v else f j

/-- is it a reference to `m`? -/
def isOf (m : Nat) (e : Nat × Msg) : Bool := decide (e.2.of = m)

/-- `use_count()` -/
def refs (σ : State) (m : Nat) : Nat :=
  σ.vars.count m + σ.inb.countP (isOf m) + σ.queue.countP (isOf m) + σ.cur.countP (isOf m)

/-- the first one of supervisor `l` -/
def first (l : Nat) (q : List (Nat × Msg)) : Option Msg := (q.find? fun e => decide (e.1 = l)).map (·.2)

/-- `intrusive_ptr_release`; the reference has been taken out of the state already -/
def release (m : Nat) (σ : State) : State :=
  if refs σ m = 0 then { σ with log := .freed m (σ.route m) :: σ.log } else σ

/-- `sup.enqueue(std::move(orig_message))`, `messages.cpp:16-18`. Simplification: the inbound queue of the leader (`box`) counts as destroyed from the beginning of its destructor,
not from the end of the body of `~supervisor_t` -/
def hop (c : Cfg) (m s : Nat) (σ : State) : Except Err State :=
  match σ.phase s with
  | .gone => .error .dangling
  | .dying => .error .pureVirtual
  | .alive =>
    if σ.phase (c.box s) ≠ .alive then .error .dangling
    else if c.locks = true ∧ σ.closing (c.root s) = true then .error .mutex
    else .ok { σ with route := upd σ.route m false, inb := σ.inb ++ [(c.box s, .plain m)], log := .hop m :: σ.log }

/-- the last reference to a message or wrapped call in a queue goes away: `~handler_call_t`, `messages.cpp:13-20`; the reference has been taken out of the state
already, so that `use_count() == 1` says that there is no other -/
def drop (c : Cfg) (e : Msg) (σ : State) : Except Err State :=
  match e with
  | .plain m => .ok (release m σ)
  | .call m s => if σ.route m = true ∧ refs σ m = 0 then hop c m s σ else .ok (release m σ)

inductive Op where
  /-- somebody sends a message through supervisor `s` (`enqueue`); `r`: with a second destination, `message.h:145-151` -/
  | send (s : Nat) (r : Bool)
  /-- from the inbound queue to the queue of supervisor `l` -/
  | move (l : Nat)
  /-- the loop takes a message, `supervisor.h:448-451` -/
  | take (l : Nat)
  /-- a wrapped call for a foreign handler, of an actor of `s`; `delivery.cpp:42-45` -/
  | wrap (l s : Nat)
  /-- the message is delivered to a handler, which keeps a pointer to it -/
  | keep (l : Nat)
  /-- such a pointer is dropped -/
  | forget (m : Nat)
  /-- the end of a turn, `supervisor.h:457-462` -/
  | done (l : Nat)
  /-- the destructor of supervisor `s` begins -/
  | destroy (s : Nat)
  /-- it takes one more message from the inbound queue, or from `queue` when that is empty -/
  | pop (s : Nat)
  /-- it ends -/
  | finish (s : Nat)
  /-- the destructor of the context begins; members of derived classes have been destroyed -/
  | close (r : Nat)
  /-- it takes one more message from the inbound queue of the root supervisor, `system_context.cpp:45-48` -/
  | drain (r : Nat)
deriving DecidableEq, Repr

def step (c : Cfg) (σ : State) : Op → Except Err State
  | .send s r =>
    if σ.phase s = .alive ∧ σ.phase (c.box s) = .alive ∧ σ.closing (c.root s) = false then
      .ok { σ with
        next := σ.next + 1
        route := upd σ.route σ.next r
        inb := σ.inb ++ [(c.box s, .plain σ.next)]
        log := .sent σ.next r :: σ.log }
    else .error .illegal
  | .move l =>
    match first l σ.inb with
    | some e => if σ.phase l = .alive then .ok { σ with inb := σ.inb.erase (l, e), queue := σ.queue ++ [(l, e)] } else .error .illegal
    | none => .error .illegal
  | .take l =>
    match first l σ.queue with
    | some e =>
      if σ.phase l = .alive ∧ first l σ.cur = none then .ok { σ with queue := σ.queue.erase (l, e), cur := (l, e) :: σ.cur }
      else .error .illegal
    | none => .error .illegal
  | .wrap l s =>
    match first l σ.cur with
    | some (.plain m) =>
      if σ.phase s = .alive ∧ σ.phase (c.box s) = .alive ∧ σ.closing (c.root s) = false then
        .ok { σ with inb := σ.inb ++ [(c.box s, .call m s)] }
      else .error .illegal
    | _ => .error .illegal
  | .keep l =>
    match first l σ.cur with
    | some e => .ok { σ with vars := e.of :: σ.vars }
    | none => .error .illegal
  | .forget m => if m ∈ σ.vars then .ok (release m { σ with vars := σ.vars.erase m }) else .error .illegal
  | .done l =>
    match first l σ.cur with
    | some e =>
      let σ1 := { σ with cur := σ.cur.erase (l, e) }
      match e with
      | .plain m =>
        if σ1.route m = true ∧ refs σ1 m = 0 then
          .ok { σ1 with route := upd σ1.route m false, queue := σ1.queue ++ [(l, .plain m)], log := .hop m :: σ1.log }
        else .ok (release m σ1)
      | .call m s => drop c (.call m s) σ1
    | none => .error .illegal
  | .destroy s =>
    if σ.phase s = .alive ∧ first s σ.cur = none then .ok { σ with phase := upd σ.phase s .dying } else .error .illegal
  | .pop s =>
    if σ.phase s = .dying then
      match first s σ.inb with
      | some e => drop c e { σ with inb := σ.inb.erase (s, e) }
      | none =>
        match first s σ.queue with
        | some e => drop c e { σ with queue := σ.queue.erase (s, e) }
        | none => .error .illegal
    else .error .illegal
  | .finish s =>
    if σ.phase s = .dying ∧ first s σ.inb = none ∧ first s σ.queue = none then .ok { σ with phase := upd σ.phase s .gone } else .error .illegal
  | .close r => .ok { σ with closing := upd σ.closing r true }
  | .drain r =>
    if σ.closing r = true ∧ σ.phase r = .alive then
      match first r σ.inb with
      | some e => drop c e { σ with inb := σ.inb.erase (r, e) }
      | none => .error .illegal
    else .error .illegal

def run (c : Cfg) (σ : State) : List Op → Except Err State
  | [] => .ok σ
  | op :: ops =>
    match step c σ op with
    | .error e => .error e
    | .ok σ' => run c σ' ops

end Verif.Drain
