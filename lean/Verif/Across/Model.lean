import Verif.Basic.AMap
/-!
# Requests between event loops

Sources: `include/rotor/supervisor.h:182-184` (`put`), `336-344` (`next_request_id`), `445-469` (`process`), `511-565`
(`request_builder_t`), `593-613` (`make_response`, `reply_to`), `include/rotor/request.hpp:20-33, 222-276, 301-313`,
`src/rotor/supervisor.cpp:121-144, 165-171`, `src/rotor/actor_base.cpp:121-145`, and `enqueue` with the transfer of the inbound queue of every backend
(`src/rotor/thread/supervisor_thread.cpp:25-30`, `src/rotor/thread/system_context_thread.cpp:33-67`, `src/rotor/asio/supervisor_asio.cpp:69-97`,
`src/rotor/ev/supervisor_ev.cpp:63-83, 142-178`).

`Verif.Requests` has one locality with all details of timers; here are any number of localities, each with its own counter of numbers. So equal numbers of
different localities are under way at the same time.

Simplifications:
* one inbound queue per locality (as in `Verif.Net`); messages are moved from it to the queue of the locality in order;
* the address for responses of `(actor, response type)` is represented by the supervisor in whose `request_map` its handler looks
  (`supervisor.h:543-556`; that it is found is C44, and that it is subscribed while the actor lives is C32);
* whoever has a request message can reply to it, as often as they like: a reply to any request made is possible at any time;
* the timer of a request may expire at any time; the end of an actor takes back its requests (C14);
* numbers do not wrap around (C13);
* every address has one subscriber, its actor (subscriptions are C01, C54);
* `src` and `seq` of a message are ghosts: who sent it, and as which of their messages.
-/

namespace Verif.Across

open Verif

structure Cfg where
  /-- the supervisor of an actor -/
  supOf : Nat → Nat
  /-- the locality of an actor or supervisor -/
  loc : Nat → Nat

inductive Body where
  /-- the request `n` of the supervisor `s`, for the actor `b` -/
  | request (s n b : Nat)
  /-- a reply to the request `n`, at the address for responses, which `s` handles, `supervisor.h:593-613` -/
  | reply (s n x : Nat)
  /-- the response for `o`; `none` is the error `request_timeout` -/
  | response (s n o : Nat) (p : Option Nat)
  | other (b x : Nat)
deriving DecidableEq, Repr

structure Msg where
  body : Body
  src : Option Nat
  seq : Nat
deriving DecidableEq, Repr

/-- the actor or supervisor to whom the address of the message belongs -/
def Msg.to (m : Msg) : Nat :=
  match m.body with
  | .request _ _ b => b
  | .reply s _ _ => s
  | .response _ _ o _ => o
  | .other b _ => b

inductive Ev where
  /-- `a` made the request `n` of `s`, the response should go to `o` -/
  | made (s n a o : Nat)
  | replied (b i s n x : Nat)
  | resolved (s n : Nat) (p : Option Nat)
  /-- taken back with the end of `a` -/
  | stopped (a s n : Nat)
  /-- the handler of the actor runs -/
  | got (m : Msg)
deriving DecidableEq, Repr

structure State where
  /-- `last_req_id` of the locality leaders -/
  last : Nat → Nat
  /-- `request_map` of the supervisors: source and origin -/
  pend : Nat → AMap Nat (Nat × Nat)
  queue : Nat → List Msg
  inbound : Nat → List Msg
  /-- ghost: how many messages an actor has sent -/
  sent : Nat → Nat
  log : List Ev

def State.init : State :=
  { last := fun _ => 0, pend := fun _ => [], queue := fun _ => [], inbound := fun _ => [], sent := fun _ => 0, log := [] }

def upd {α : Type} (f : Nat → α) (k : Nat) (v : α) : Nat → α := fun x => if x = k then v else f x

/-- `put`, `supervisor.h:182-184`: the actor `b` sends a message -/
def push (c : Cfg) (b : Nat) (m : Body) (σ : State) : State :=
  { σ with queue := upd σ.queue (c.loc b) (σ.queue (c.loc b) ++ [⟨m, some b, σ.sent b⟩]), sent := upd σ.sent b (σ.sent b + 1) }

/-- `request_builder_t`, `supervisor.h:511-541` -/
def request (c : Cfg) (a b o : Nat) (σ : State) : State :=
  let s := c.supOf a
  let n := σ.last (c.loc s) + 1
  push c a (.request s n b)
    { σ with last := upd σ.last (c.loc s) n, pend := upd σ.pend s ((n, (a, o)) :: σ.pend s), log := .made s n a o :: σ.log }

/-- `uplift_last_message`, `supervisor.cpp:165-171` -/
def uplift (q : List Msg) : List Msg := q.getLast?.toList ++ q.dropLast

/-- the handler at the address for responses, `supervisor.h:543-560`, `discard_request` (`supervisor.cpp:140-144`); the message is already taken from
the queue -/
def onReply (L s n x : Nat) (m : Msg) (σ : State) : State :=
  match AMap.find (σ.pend s) n with
  | none => σ
  | some (_, o) =>
    { σ with
      pend := upd σ.pend s (AMap.erase (σ.pend s) n)
      queue := upd σ.queue L (uplift (σ.queue L ++ [⟨.response s n o (some x), m.src, m.seq⟩]))
      log := .resolved s n (some x) :: σ.log }

/-- one turn of the loop in `process`, `supervisor.h:445-469` -/
def turn (c : Cfg) (L : Nat) (σ : State) : State :=
  match σ.queue L with
  | [] => σ
  | m :: rest =>
    let σ1 := { σ with queue := upd σ.queue L rest }
    if c.loc m.to = L then
      match m.body with
      | .reply s n x => onReply L s n x m σ1
      | _ => { σ1 with log := .got m :: σ1.log }
    else { σ1 with inbound := upd σ1.inbound (c.loc m.to) (σ1.inbound (c.loc m.to) ++ [m]) }

/-- the transfer of the inbound queue -/
def take (L : Nat) (σ : State) : State :=
  { σ with queue := upd σ.queue L (σ.queue L ++ σ.inbound L), inbound := upd σ.inbound L [] }

/-- `on_request_trigger`, `supervisor.cpp:121-138` -/
def expire (c : Cfg) (s n : Nat) (σ : State) : State :=
  match AMap.find (σ.pend s) n with
  | none => σ
  | some (_, o) =>
    { σ with
      pend := upd σ.pend s (AMap.erase (σ.pend s) n)
      queue := upd σ.queue (c.loc s) (σ.queue (c.loc s) ++ [⟨.response s n o none, none, 0⟩])
      log := .resolved s n none :: σ.log }

/-- `shutdown_finish`, `actor_base.cpp:121-145`: the requests of an actor are cancelled -/
def stop (c : Cfg) (a : Nat) (σ : State) : State :=
  let s := c.supOf a
  { σ with
    pend := upd σ.pend s ((σ.pend s).filter (fun p => decide (p.2.1 ≠ a)))
    log := ((σ.pend s).filter (fun p => decide (p.2.1 = a))).map (fun p => Ev.stopped a s p.1) ++ σ.log }

inductive Op where
  | request (a b o : Nat)
  | send (a b x : Nat)
  /-- `b` replies to the request `n` of `s` -/
  | reply (b s n x : Nat)
  | turn (L : Nat)
  | take (L : Nat)
  | expire (s n : Nat)
  | stop (a : Nat)
deriving DecidableEq, Repr

def isMade (s n : Nat) : Ev → Bool
  | .made s' n' _ _ => decide (s' = s ∧ n' = n)
  | _ => false

/-- a reply to a request that was not made is not possible: it takes the request message -/
def step (c : Cfg) (σ : State) : Op → State
  | .request a b o => request c a b o σ
  | .send a b x => push c a (.other b x) σ
  | .reply b s n x =>
    if σ.log.any (isMade s n) then push c b (.reply s n x) { σ with log := .replied b (σ.sent b) s n x :: σ.log } else σ
  | .turn L => turn c L σ
  | .take L => take L σ
  | .expire s n => expire c s n σ
  | .stop a => stop c a σ

def run (c : Cfg) (σ : State) (ops : List Op) : State := ops.foldl (step c) σ

end Verif.Across
