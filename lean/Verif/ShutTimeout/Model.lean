/-!
# Model of a supervisor whose children do not confirm their shutdown in time

Sources: `src/rotor/plugin/child_manager.cpp` (`deactivate` 84-91, `remove_child` 93-164, `on_shutdown_trigger` 312-316, `on_shutdown_fail`
318-320, `on_shutdown_confirm` 335-358, `handle_shutdown` 362-377, `request_shutdown` 379-421, `handle_unsubscription` 423-438),
`src/rotor/supervisor.cpp` (`on_request_trigger` 121-138, `discard_request` 140-144), `include/rotor/supervisor.h` (`send` 531-541,
`install_handler` 543-565), `src/rotor/actor_base.cpp` (`do_shutdown` 35-46, `shutdown_start` 105, `shutdown_finish` 121-127),
`src/rotor/system_context.cpp` (`on_error` 28-35).

One supervisor with any number of children, in its own or in other localities. The messages to the supervisor are in one queue (`q`), first in
first out; the messages of a child are put into it in their order but possibly later (`out`). A request for shutdown that times out is given to
`system_context_t::on_error`: the default one terminates the program (`lenient = false`), but the method is virtual, and the tests of the project
and programs that want to survive override it by one that returns (`lenient = true`).

Simplifications:
* the supervisor is operational at first and the children are too: the initialization is in `Verif.Children`;
* children are created only before the shutdown of the supervisor begins (otherwise see `Verif.Children`, C37);
* `request_shutdown` has the children in the order of their creation (`actors_map` is unordered: the order is arbitrary);
* the shutdown reasons, the own record of the supervisor, and the other plugins are left out: when no child is left they let the supervisor finish
  at an arbitrary time (`Op.finish`); then the subscriptions made on behalf of children are given up;
* the subscriptions the supervisor made on behalf of a child for its requests (`address_mapping`) are one thing (`maps`);
* a spawner makes its next instance at once when the record of the last one is removed while the supervisor is operational: attempts, periods and
  policies are in `Verif.Spawner`.
-/

namespace Verif.ShutTimeout

/-- `shutdown_state_t`, `child_info.h:20` -/
inductive Shut where
  | none | sent | confirmed
deriving DecidableEq, Repr

/-- `child_info_t`; `fac`: it belongs to a spawner -/
structure Rec where
  kid : Nat
  fac : Bool
  shut : Shut
deriving DecidableEq, Repr

/-- the state of a child; `stopping`: it has got the shutdown request (with its identifier) -/
inductive KSt where
  | unborn | operational | stopping (id : Nat) | stopped
deriving DecidableEq, Repr

/-- messages of a child: the shutdown trigger (`actor_base.cpp:44`), the answer to the shutdown request (`actor_base.cpp:124`) -/
inductive Out where
  | trigger
  | reply (id : Nat)
deriving DecidableEq, Repr

/-- messages to the supervisor. `timeout a`: the response made by the timer, with an error -/
inductive QM where
  | kid (a : Nat) (o : Out)
  | timeout (a : Nat)
  | unsub (a : Nat)
  | trigSelf
deriving DecidableEq, Repr

inductive Sup where
  | operational | stopping | stopped
deriving DecidableEq, Repr

structure State where
  sup : Sup
  /-- `actors_map` without the own record -/
  recs : List Rec
  kst : Nat → KSt
  /-- shutdown requests on their way to the children -/
  inbox : Nat → Option Nat
  /-- `request_map`, the shutdown requests only: identifier and child -/
  reqs : List (Nat × Nat)
  nextReq : Nat
  nextKid : Nat
  out : Nat → List Out
  q : List QM
  /-- the children with entries in `address_mapping` -/
  maps : List Nat
  /-- (ghost) calls of `on_error`; children whose request timed out; removed children -/
  errors : List Nat
  fired : List Nat
  removed : List Nat

def State.init : State where
  sup := .operational
  recs := []
  kst := fun _ => .unborn
  inbox := fun _ => none
  reqs := []
  nextReq := 0
  nextKid := 0
  out := fun _ => []
  q := []
  maps := []
  errors := []
  fired := []
  removed := []

/-- the end of the program -/
inductive Fault where
  /-- `std::out_of_range` in a `noexcept` function: `actors_map.at`, lines 314, 337 -/
  | outOfRange
  /-- the assertion of line 95 -/
  | noChild
  /-- `on_error` of `system_context_t` -/
  | fatal
deriving DecidableEq, Repr

def upd {α : Type} (f : Nat → α) (i : Nat) (v : α) : Nat → α := fun j => if j = i then v else f j

/-- `actors_map.find` -/
def find (l : List Rec) (a : Nat) : Option Rec := l.find? (fun r => r.kid == a)

/-- change `shutdown` of a record -/
def mark (l : List Rec) (a : Nat) (s : Shut) : List Rec := l.map (fun r => if r.kid = a then { r with shut := s } else r)

/-- `actors_map.erase` -/
def drop (l : List Rec) (a : Nat) : List Rec := l.filter (fun r => decide (r.kid ≠ a))

/-- `request_shutdown` of one child, lines 379-409, with `send` of the request builder -/
def ask (σ : State) (r : Rec) : State :=
  if r.shut = .none then
    { σ with
      recs := mark σ.recs r.kid .sent
      reqs := σ.reqs ++ [(σ.nextReq, r.kid)]
      inbox := upd σ.inbox r.kid (some σ.nextReq)
      nextReq := σ.nextReq + 1 }
  else σ

/-- a child is born with its record -/
def born (σ : State) (fac : Bool) : State :=
  { σ with recs := σ.recs ++ [⟨σ.nextKid, fac, .none⟩], kst := upd σ.kst σ.nextKid .operational, nextKid := σ.nextKid + 1 }

/-- `remove_child`, lines 93-164 -/
def remove (σ : State) (a : Nat) : Except Fault State :=
  match find σ.recs a with
  | none => .error .noChild
  | some r =>
    let σ₁ := { σ with recs := drop σ.recs a, removed := a :: σ.removed }
    if σ.sup = .operational ∧ r.fac then .ok (born σ₁ true) else .ok σ₁

/-- `on_shutdown_confirm`, lines 335-358 -/
def confirm (lenient : Bool) (σ : State) (a : Nat) (err : Bool) : Except Fault State :=
  match find σ.recs a with
  | none => .error .outOfRange
  | some _ =>
    if err && !lenient then .error .fatal
    else
      let σ₁ := { σ with recs := mark σ.recs a .confirmed, errors := if err then a :: σ.errors else σ.errors }
      if a ∈ σ.maps then .ok { σ₁ with q := σ₁.q ++ [.unsub a] } else remove σ₁ a

/-- one message to the supervisor -/
def handle (lenient : Bool) (σ : State) : QM → Except Fault State
  | .kid a .trigger =>
    match find σ.recs a with
    | none => .error .outOfRange
    | some r => .ok (ask σ r)
  | .kid a (.reply id) =>
    -- the response is delivered at once, `uplift_last_message`
    if (id, a) ∈ σ.reqs then confirm lenient { σ with reqs := σ.reqs.filter (fun p => decide (p ≠ (id, a))) } a false else .ok σ
  | .timeout a => confirm lenient σ a true
  | .unsub a => remove { σ with maps := σ.maps.filter (fun b => decide (b ≠ a)) } a
  | .trigSelf => if σ.sup = .operational then .ok (σ.recs.foldl ask { σ with sup := .stopping }) else .ok σ

inductive Op where
  /-- a child is created, or a spawner with its first instance -/
  | create (fac : Bool)
  /-- a child calls `do_shutdown` -/
  | kidShutdown (a : Nat)
  /-- somebody shuts the supervisor down -/
  | supShutdown
  /-- a child makes a request to somebody, `supervisor.h:511-527,543-565` -/
  | request (a : Nat)
  /-- the shutdown request arrives at the child, `shutdown_start` -/
  | asked (a : Nat)
  /-- the child finishes its shutdown, `shutdown_finish` -/
  | kidFinish (a : Nat)
  /-- the next message of a child arrives in the queue of the supervisor -/
  | arrive (a : Nat)
  /-- the timer of a request, `on_request_trigger` -/
  | timer (id : Nat)
  /-- the supervisor handles the next message; when it is shut down it has no subscriptions any more -/
  | process
  /-- the other plugins of the supervisor have finished, the subscriptions on behalf of children are given up -/
  | finish
deriving DecidableEq, Repr

/-- operations that are not possible change nothing -/
def step (lenient : Bool) (σ : State) : Op → Except Fault State
  | .create fac => if σ.sup = .operational then .ok (born σ fac) else .ok σ
  | .kidShutdown a => if σ.kst a = .operational then .ok { σ with out := upd σ.out a (σ.out a ++ [.trigger]) } else .ok σ
  | .supShutdown => .ok { σ with q := σ.q ++ [.trigSelf] }
  | .request a =>
    match σ.kst a with
    | .operational | .stopping _ => if a ∈ σ.maps then .ok σ else .ok { σ with maps := σ.maps ++ [a] }
    | _ => .ok σ
  | .asked a =>
    match σ.kst a, σ.inbox a with
    | .operational, some id => .ok { σ with kst := upd σ.kst a (.stopping id), inbox := upd σ.inbox a none }
    | _, _ => .ok σ
  | .kidFinish a =>
    match σ.kst a with
    | .stopping id => .ok { σ with kst := upd σ.kst a .stopped, out := upd σ.out a (σ.out a ++ [.reply id]) }
    | _ => .ok σ
  | .arrive a =>
    match σ.out a with
    | [] => .ok σ
    | o :: os => .ok { σ with out := upd σ.out a os, q := σ.q ++ [.kid a o] }
  | .timer id =>
    match σ.reqs.find? (fun p => p.1 == id) with
    | none => .ok σ
    | some p => .ok { σ with reqs := σ.reqs.filter (fun x => decide (x ≠ p)), q := σ.q ++ [.timeout p.2], fired := p.2 :: σ.fired }
  | .process =>
    match σ.q with
    | [] => .ok σ
    | m :: q => if σ.sup = .stopped then .ok { σ with q := q } else handle lenient { σ with q := q } m
  | .finish =>
    if σ.sup = .stopping ∧ σ.recs = [] then
      -- `handle_unsubscription`, lines 424-430: `remove_child` for each child that is left in `address_mapping`
      if σ.maps = [] then .ok { σ with sup := .stopped } else .error .noChild
    else .ok σ

def run (lenient : Bool) (σ : State) : List Op → Except Fault State
  | [] => .ok σ
  | o :: os =>
    match step lenient σ o with
    | .error f => .error f
    | .ok σ' => run lenient σ' os

end Verif.ShutTimeout
