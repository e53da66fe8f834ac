/-!
# Which handler is meant: subscribing and unsubscribing by name

Sources: `include/rotor/handler.h:115-172, 230-366`, `src/rotor/handler.cpp:33-46`,
`src/rotor/subscription_point.cpp:24-37`, `include/rotor/supervisor.h:189-193, 393-443, 502-509`,
`include/rotor/actor_base.h:228`, `src/rotor/supervisor.cpp:90-109`, `src/rotor/plugin/lifetime.cpp:57-79, 107-128`,
`src/rotor/plugin/plugin_base.cpp:65-97`, `src/rotor/plugin/starter.cpp:42-53`.

The actors of one locality subscribe handlers - methods and lambdas - to addresses of the locality and
unsubscribe them again, with the handler object or with the method.  A handler object is compared with
others by the address of `typeid(Handler).name()` and the actor (`handler.h:137-139`).

Simplifications:
* the actors are not shutting down (see `Verif.Lifetime`), the addresses are of the own locality (see
  `Verif.Net`);
* subscription messages of an actor to itself are one FIFO queue for all actors (C04, C05), nobody consumes
  them in between; the removal from the two-level table is in `Verif.Subscription`, here the table is one list
  in the order of the subscriptions;
* handlers are not tagged (see `Verif.Subscription`); a tagged handler compares equal to the original;
* of the plugins only the starter subscribes for the user.
-/

namespace Verif.HandlerId

/-- the code of a handler: the method `num` of the class `cls`, or a lambda -/
inductive Body where
  | method (cls num : Nat)
  | lambda (num : Nat)
deriving DecidableEq, Repr

/-- what `typeid(Handler).name()` distinguishes.  For a method `Handler` is `void (cls::*)(ty &) noexcept`
(`handler.h:270-271`).  For a lambda `Handler` is the first parameter of `lambda_holder_t`, and that is the type
of the message (`handler.h:33, 324-331, 363-366`) -/
inductive Sig where
  | method (cls ty : Nat)
  | lambda (ty : Nat)
deriving DecidableEq, Repr

/-- `handler_base_t` (`handler.h:121-132`): identity of the object, actor, code and the type of messages -/
structure Handler where
  obj : Nat
  actor : Nat
  body : Body
  ty : Nat
deriving DecidableEq, Repr

/-- `handler_type` -/
def Handler.sig (h : Handler) : Sig :=
  match h.body with
  | .method cls _ => .method cls h.ty
  | .lambda _ => .lambda h.ty

/-- `handler_base_t::operator==`, `handler.h:137-139` -/
def sameHandler (a b : Handler) : Bool := decide (a.sig = b.sig) && decide (a.actor = b.actor)

/-- `owner_tag_t`, the two that matter here (`subscription_point.h:39-44`) -/
inductive Tag where
  | anon
  | plugin
deriving DecidableEq, Repr

/-- `subscription_info_t` (`subscription_point.h:49-121`) -/
structure Info where
  h : Handler
  addr : Nat
  tag : Tag
deriving DecidableEq, Repr

/-- `subscription_point_t::operator==`, `subscription_point.cpp:24-26`, also the predicate of
`subscription_container_t::find` (29-31) -/
def samePoint (a b : Info) : Bool := decide (a.addr = b.addr) && sameHandler a.h b.h

/-- `subscription_container_t::find`, `subscription_point.cpp:28-37`: the last one -/
def findLast (p : Info) (l : List Info) : Option Info := l.reverse.find? (samePoint p)

/-- `erase` of the entry found by `findLast` -/
def eraseLast (p : Info) (l : List Info) : List Info := (l.reverse.eraseP (samePoint p)).reverse

/-- messages of the subscription protocol -/
inductive Msg where
  /-- `subscription_confirmation_t` -/
  | sub (i : Info)
  /-- `unsubscription_confirmation_t` -/
  | unsub (i : Info)
deriving DecidableEq, Repr

/-- `points`: `lifetime_plugin_t::points` of every actor; `own`, `tracked`: `own_subscriptions` and `tracked` of the
starter of every actor; `table`: the subscription table; `marked`: subscriptions in the state `UNSUBSCRIBING`;
`next`: the next handler object -/
structure State where
  points : Nat → List Info
  own : Nat → List Info
  tracked : Nat → List Info
  table : List Info
  marked : List Info
  queue : List Msg
  next : Nat

def State.init : State := ⟨fun _ => [], fun _ => [], fun _ => [], [], [], [], 0⟩

/-- update of a function -/
def upd {α : Type} (f : Nat → α) (a : Nat) (v : α) : Nat → α := fun b => if b = a then v else f b

/-- `supervisor_t::subscribe` for an address of the locality, `supervisor.cpp:90-105`, with `materialize` -/
def subscribe (i : Info) (s : State) : State :=
  { s with
    table := s.table ++ [i], queue := s.queue ++ [.sub i],
    points := upd s.points i.h.actor (s.points i.h.actor ++ [i]), next := s.next + 1 }

/-- `actor_base_t::subscribe`, `supervisor.h:401-410`; a new handler object is made -/
def subAnon (a : Nat) (b : Body) (ty addr : Nat) (s : State) : State :=
  subscribe ⟨⟨s.next, a, b, ty⟩, addr, .anon⟩ s

/-- `starter_plugin_t::subscribe_actor`, `supervisor.h:434-443`; `none`: the assertion fails -/
def subActor (a : Nat) (b : Body) (ty addr : Nat) (s : State) : Option State :=
  let i : Info := ⟨⟨s.next, a, b, ty⟩, addr, .plugin⟩
  let s1 := subscribe i s
  if (s.tracked a).countP (fun j => samePoint j i) = 0 then
    some { s1 with tracked := upd s1.tracked a (s1.tracked a ++ [i]), own := upd s1.own a (s1.own a ++ [i]) }
  else none

/-- `lifetime_plugin_t::unsubscribe(info)`, `lifetime.cpp:57-73` -/
def unsubInfo (i : Info) (s : State) : State :=
  if i ∈ s.marked then s else { s with marked := i :: s.marked, queue := s.queue ++ [.unsub i] }

/-- `lifetime_plugin_t::unsubscribe(h, addr)` of the lifetime plugin of actor `life`, `lifetime.cpp:75-79`; `none`: the
assertion fails, and otherwise the end iterator is dereferenced -/
def unsubPoint (life : Nat) (h : Handler) (addr : Nat) (s : State) : Option State :=
  match findLast ⟨h, addr, .anon⟩ (s.points life) with
  | none => none
  | some i => some (unsubInfo i s)

/-- `actor_base_t::unsubscribe(const handler_ptr_t &)`, `actor_base.h:228`: the lifetime plugin of the actor, its main
address `mainAddr` -/
def unsubObj (mainAddr : Nat → Nat) (h : Handler) (s : State) : Option State :=
  unsubPoint h.actor h (mainAddr h.actor) s

/-- `actor_base_t::unsubscribe(Handler &&, addr)`, `supervisor.h:502-509` with `unsubscribe_actor` (189-193): a new handler
object is made, and the lifetime plugin of the supervisor `supOf a` is asked -/
def unsubName (supOf : Nat → Nat) (a : Nat) (b : Body) (ty addr : Nat) (s : State) : Option State :=
  (unsubPoint (supOf a) ⟨s.next, a, b, ty⟩ addr s).map (fun s1 => { s1 with next := s1.next + 1 })

/-- `subscription_t::forget`, `subscription.cpp:75-104`: the entry with this handler object is removed -/
def forget (i : Info) (s : State) : State :=
  { s with table := s.table.filter (fun j => !(decide (j.addr = i.addr) && decide (j.h.obj = i.h.obj))) }

/-- the actor handles a message of the protocol: `starter_plugin_t::handle_subscription` (`starter.cpp:42-53`),
for an unsubscription the plugins are asked from the last one, the starter, to the first (`actor_base.cpp:195-204,
224-233`): `plugin_base_t::handle_unsubscription` and `forget_subscription` (`plugin_base.cpp:65-97`) of the starter, then
`lifetime_plugin_t::handle_unsubscription` (`lifetime.cpp:110-128`); `none`: the end iterator is dereferenced -/
def handle (m : Msg) (s : State) : Option State :=
  match m with
  | .sub p => some { s with tracked := upd s.tracked p.h.actor ((s.tracked p.h.actor).eraseP (fun j => samePoint j p)) }
  | .unsub p =>
    let a := p.h.actor
    match findLast p (s.own a) with
    | some i => some { forget i s with own := upd s.own a (eraseLast p (s.own a)) }
    | none =>
      match p.tag with
      | .plugin => some s
      | .anon =>
        match findLast p (s.points a) with
        | none => none
        | some i => some { forget i s with points := upd s.points a (eraseLast p (s.points a)) }

/-- the check of `foreigners_support_plugin_t::on_call` whether the handler of a foreign call is still subscribed,
`foreigners_support.cpp:60-68` -/
def stillSubscribed (h : Handler) (addr : Nat) (s : State) : Bool :=
  (findLast ⟨h, addr, .anon⟩ (s.points h.actor)).isSome

/-- what actors do, and the loop -/
inductive Op where
  | subAnon (a : Nat) (b : Body) (ty addr : Nat)
  | subActor (a : Nat) (b : Body) (ty addr : Nat)
  | unsubObj (h : Handler)
  | unsubName (a : Nat) (b : Body) (ty addr : Nat)
  | turn
deriving DecidableEq, Repr

/-- the fixed part: main addresses, and the supervisors (`supervisor_t` is its own one, `supervisor.cpp:25-32`) -/
structure Cfg where
  mainAddr : Nat → Nat
  supOf : Nat → Nat

def step (c : Cfg) (s : State) : Op → Option State
  | .subAnon a b ty addr => some (subAnon a b ty addr s)
  | .subActor a b ty addr => subActor a b ty addr s
  | .unsubObj h => unsubObj c.mainAddr h s
  | .unsubName a b ty addr => unsubName c.supOf a b ty addr s
  | .turn => match s.queue with
    | [] => some s
    | m :: q => handle m { s with queue := q }

def run (c : Cfg) (s : State) : List Op → Option State
  | [] => some s
  | op :: ops => match step c s op with
    | none => none
    | some s1 => run c s1 ops

end Verif.HandlerId
