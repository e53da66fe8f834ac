/-!
# Calls of tagged handlers

Sources: `src/rotor/handler.cpp:12-70`, `include/rotor/handler.h:121-206, 243-271`, `src/rotor/subscription_point.cpp:16-44`, `src/rotor/subscription.cpp:47-62`,
`src/rotor/supervisor.cpp:90-105, 119`, `src/rotor/thread/supervisor_thread.cpp:32-44`, `src/rotor/plugin/delivery.cpp:40-50`,
`src/rotor/plugin/foreigners_support.cpp:49-72`.

The subscriptions of the actors of one supervisor, to addresses of its own locality or to addresses of another one. The supervisor is the leader of
its locality (for the others `tag` fails, C03). Nobody unsubscribes and everybody is operational: `on_call` looks only whether the point is there.
Handlers do not dispatch messages themselves (`do_process` is not called from a handler).
-/

namespace Verif.Intercept

/-- a handler of the user: its actor, the type of its messages, `handler_type` (all handlers with one are equal, `handler.h:137-139`) and its code -/
structure Base where
  actor : Nat
  ty : Nat
  sig : Nat
  body : Nat
deriving DecidableEq, Repr

structure Msg where
  id : Nat
  ty : Nat
deriving DecidableEq, Repr

/-- `handler_t` and `handler_intercepted_t` with its `backend` and `tag`, `handler.h:182-199` -/
inductive H where
  | plain (b : Base)
  | tagged (backend : H) (tag : Nat)
deriving DecidableEq, Repr

/-- `tags::io`, `subscription_point.cpp:18-22` -/
def io : Nat := 0

/-- the handler at the bottom. The constructor of `handler_intercepted_t` copies the actor and the `handler_type` of its backend, `handler.cpp:49-50` -/
def H.base : H → Base
  | .plain b => b
  | .tagged h _ => h.base

/-- `operator==`, `handler.h:137-139` -/
def H.same (a b : H) : Bool := a.base.sig == b.base.sig && a.base.actor == b.base.actor

/-- `message_type`, `handler.h:268`, `handler.cpp:71` -/
def H.messageType : H → Nat
  | .plain b => b.ty
  | .tagged h _ => h.messageType

/-- `upgrade`, `handler.cpp:44-47, 64-69` -/
def H.upgrade (h : H) (t : Nat) : H :=
  match h with
  | .plain b => .tagged (.plain b) t
  | .tagged h' t' => if t = t' then .tagged h' t' else .tagged (.tagged h' t') t

/-- `select`, `handler.h:251-253`, `handler.cpp:60` -/
def H.select : H → Msg → Bool
  | .plain b, m => m.ty == b.ty
  | .tagged h _, m => h.select m

/-- which `intercept` the supervisor has: that of `supervisor_t`, that of `supervisor_thread_t`, or one of the user, which calls the continuation as
often as it likes, depending on the tag -/
inductive Sup where
  | basic
  | thread
  | custom (times : Nat → Nat)

inductive Event where
  /-- the body has run; `blocking`: the flag `intercepting` of the context at that moment -/
  | ran (body : Nat) (m : Nat) (blocking : Bool)
  /-- `intercept` has been called -/
  | told (tag : Nat) (m : Nat)
  /-- `ctx->check()` -/
  | checked
deriving DecidableEq, Repr

/-- a subscription. `mine`: the handler in the `subscription_info_t` of the actor; `table`: the handler in the table that delivers, that of the own
locality or that of the locality of the address -/
structure Sub where
  foreign : Bool
  mine : H
  table : H
deriving DecidableEq, Repr

/-- log newest first; `inflight`: `handler_call_t` messages from other localities -/
structure State where
  subs : List Sub
  inflight : List (Nat × H × Msg)
  intercepting : Bool
  log : List Event
deriving DecidableEq, Repr

def State.init : State := ⟨[], [], false, []⟩

/-- `call_no_check`, `handler.h:255-259`, `handler.cpp:62` -/
def noCheck (σ : State) : H → Msg → State
  | .plain b, m => { σ with log := .ran b.body m.id σ.intercepting :: σ.log }
  | .tagged h _, m => noCheck σ h m

/-- calls the continuation `n` times -/
def repeatCont (n : Nat) (k : State → State) (σ : State) : State :=
  match n with
  | 0 => σ
  | n + 1 => repeatCont n k (k σ)

/-- `intercept`, `supervisor.cpp:119`, `supervisor_thread.cpp:32-44`; `k` is the continuation, `handler.cpp:22-31` -/
def intercept (sup : Sup) (t : Nat) (m : Msg) (k : State → State) (σ : State) : State :=
  let σ := { σ with log := .told t m.id :: σ.log }
  match sup with
  | .basic => k σ
  | .thread =>
    if t = io then
      let σ1 := k { σ with intercepting := true, log := .checked :: σ.log }
      { σ1 with intercepting := false, log := .checked :: σ1.log }
    else k σ
  | .custom times => repeatCont (times t) k σ

/-- `call`, `handler.h:243-249`, `handler.cpp:52-58` -/
def call (sup : Sup) (σ : State) (h : H) (m : Msg) : State :=
  match h with
  | .plain b => if m.ty = b.ty then noCheck σ (.plain b) m else σ
  | .tagged h' t => if H.select (.tagged h' t) m then intercept sup t m (fun σ => noCheck σ (.tagged h' t) m) σ else σ

inductive Op where
  /-- `supervisor_t::subscribe`, `supervisor.cpp:90-105`: for a foreign address the point is copied into `external_subscription_t`, and the table of
  the other locality gets its handler, `foreigners_support.cpp:74-80` -/
  | subscribe (b : Base) (foreign : Bool)
  /-- `subscription_info_t::tag`, `subscription_point.cpp:39-44` with `subscription_t::update`, `subscription.cpp:47-62` -/
  | tag (i : Nat) (t : Nat)
  /-- a message of the address is delivered, `delivery.cpp:40-50`, at the own locality or at the foreign one -/
  | deliver (i : Nat) (m : Msg)
  /-- the first of the messages from other localities is handled, `foreigners_support.cpp:49-72` -/
  | onCall
deriving DecidableEq, Repr

def step (sup : Sup) (σ : State) : Op → State
  | .subscribe b foreign => { σ with subs := σ.subs ++ [⟨foreign, .plain b, .plain b⟩] }
  | .tag i t => match σ.subs[i]? with
    | some s =>
      let h := s.mine.upgrade t
      { σ with subs := σ.subs.set i (if s.foreign then { s with mine := h } else { s with mine := h, table := h }) }
    | none => σ
  | .deliver i m => match σ.subs[i]? with
    | some s => if s.foreign then { σ with inflight := σ.inflight ++ [(i, s.table, m)] } else call sup σ s.table m
    | none => σ
  | .onCall => match σ.inflight with
    | (i, h, m) :: rest =>
      let σ := { σ with inflight := rest }
      match σ.subs[i]? with
      | some s => if h.same s.mine then call sup σ h m else σ
      | none => σ
    | [] => σ

def run (sup : Sup) (σ : State) (ops : List Op) : State := ops.foldl (step sup) σ

end Verif.Intercept
