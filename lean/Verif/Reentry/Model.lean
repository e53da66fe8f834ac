import Verif.Basic.AMap

/-!
# Tables that user code changes while the library walks over them

Three functions call user code while they hold an iterator into a container which that code may
change: the delivery of a message to its local handlers, the expiry of a timer and the answer to
a link request.  The other models treat the containers as values; here a container has an
identity of its memory, so that the use of an iterator after its invalidation is an outcome.

* a `std::vector` has a capacity and an allocation; growing beyond the capacity moves it to
  another allocation, by any growth rule;
* an `unordered_map` has a number of buckets and an epoch; an insertion beyond the number of
  buckets (the maximal load factor is 1) rehashes, by any growth rule, which invalidates the
  iterators (and keeps the references);
* user code is any function from the state to a list of operations.
-/

namespace Verif.Reentry

/-- a handler (`handler_base_t *`) -/
abbrev Handler := Nat
/-- address and message type, `subscription_key_t` (`include/rotor/subscription.h:71-77`) -/
abbrev Key := Nat

/-- `std::vector<handler_base_t *>` (`include/rotor/subscription.h:35`). -/
structure Vec where
  items : List Handler
  cap : Nat
  /-- the allocation the elements live in -/
  buf : Nat
deriving Repr, DecidableEq

/-- `joint_handlers_t` (`include/rotor/subscription.h:40-45`). -/
structure Joint where
  internal : Vec
  external : Vec
deriving Repr, DecidableEq

/-- What happened, newest first in `St.log`. -/
inductive Ev where
  /-- the message was wrapped and handed to the supervisor of the handler -/
  | enqueued (h : Handler)
  /-- `handler->call(message)` -/
  | called (h : Handler)
  /-- `materialize` of an internal (`true`) or external handler -/
  | added (k : Key) (h : Handler) (internal : Bool)
  /-- `forget` -/
  | removed (k : Key) (h : Handler) (internal : Bool)
deriving Repr, DecidableEq

/-- Undefined behaviour. -/
inductive Fault where
  /-- an element of an allocation that was given back is read -/
  | dangling
  /-- an element behind the end of the vector is read -/
  | pastEnd
  /-- `forget` of a subscription that is not in the table (`subscription.cpp:81, 99`) -/
  | noEntry
  /-- an iterator of an `unordered_map` is used after a rehash, or after its element was erased -/
  | invalidIterator
deriving Repr, DecidableEq

/-- The table of the locality leader. -/
structure St where
  /-- `mine_handlers` (`include/rotor/subscription.h:90`) -/
  map : AMap Key Joint
  /-- the next allocation -/
  fresh : Nat
  log : List Ev
deriving Repr, DecidableEq

/-- `handlers.emplace_back(handler.get())` (`subscription.cpp:41`): in place while there is
capacity, otherwise in a new allocation. -/
def Vec.push (grow : Nat → Nat) (fresh : Nat) (v : Vec) (h : Handler) : Vec :=
  if v.items.length < v.cap then { v with items := v.items ++ [h] }
  else { items := v.items ++ [h], cap := grow v.cap, buf := fresh }

/-- `handlers.erase(handler_it)` (`subscription.cpp:100`): never moves the allocation. -/
def Vec.drop (v : Vec) (h : Handler) : Vec := { v with items := v.items.erase h }

/-- What a handler may do to the table: `supervisor_t::subscribe` (`supervisor.cpp:90-105`) and
`supervisor_t::commit_unsubscription` (`supervisor.cpp:107-109`). Sending messages does not touch
the table. -/
inductive Op where
  | subscribe (k : Key) (h : Handler) (internal : Bool)
  | forget (k : Key) (h : Handler) (internal : Bool)
deriving Repr, DecidableEq

/-- `try_emplace` of an empty entry (`subscription.cpp:38`). -/
def getJoint (s : St) (k : Key) : Joint :=
  match s.map.find k with
  | some j => j
  | none => { internal := { items := [], cap := 0, buf := s.fresh }
              external := { items := [], cap := 0, buf := s.fresh + 1 } }

/-- `subscription_t::materialize` for an internal address (`subscription.cpp:34-42`); the list of
infos is in the model `Subscription`. -/
def subscribe (grow : Nat → Nat) (s : St) (k : Key) (h : Handler) (internal : Bool) : St :=
  let j := getJoint s k
  let j' := if internal then { j with internal := j.internal.push grow (s.fresh + 2) h }
    else { j with external := j.external.push grow (s.fresh + 2) h }
  { map := s.map.set k j', fresh := s.fresh + 3, log := .added k h internal :: s.log }

/-- `subscription_t::forget` (`subscription.cpp:75-104`): the entry goes with its last handler. -/
def forget (s : St) (k : Key) (h : Handler) (internal : Bool) : Except Fault St :=
  match s.map.find k with
  | none => .error .noEntry
  | some j =>
    if h ∈ (if internal then j.internal.items else j.external.items) then
      let j' := if internal then { j with internal := j.internal.drop h }
        else { j with external := j.external.drop h }
      let m := if j'.internal.items = [] ∧ j'.external.items = [] then s.map.erase k
        else s.map.set k j'
      .ok { s with map := m, log := .removed k h internal :: s.log }
    else .error .noEntry

/-- one operation of a handler -/
def runOp (grow : Nat → Nat) (s : St) : Op → Except Fault St
  | .subscribe k h i => .ok (subscribe grow s k h i)
  | .forget k h i => forget s k h i

/-- all operations of a handler -/
def runOps (grow : Nat → Nat) (s : St) : List Op → Except Fault St
  | [] => .ok s
  | o :: r => match runOp grow s o with
    | .ok s' => runOps grow s' r
    | .error f => .error f

/-- the user code: what a handler does in which state -/
abbrev Env := Handler → St → List Op

/-- `handler->call(message)` (`plugin/delivery.cpp:48`). -/
def call (grow : Nat → Nat) (env : Env) (s : St) (h : Handler) : Except Fault St :=
  runOps grow { s with log := .called h :: s.log } (env h s)

/-- The loop `for (auto &handler : local_recipients.internal)` (`plugin/delivery.cpp:47-49`) at
position `i`: `local_recipients` is a reference to the entry, the range-for holds the address of
the next element (`buf`, `i`) and of the end (`buf`, `n`) since it began. Written by recursion on
the number of steps `n - i` left. -/
def loop (grow : Nat → Nat) (env : Env) (k : Key) (buf : Nat) (i : Nat) : Nat → St → Except Fault St
  | 0, s => .ok s
  | m + 1, s =>
    match s.map.find k with
    | none => .error .dangling
    | some j =>
      if j.internal.buf = buf then
        match j.internal.items[i]? with
        | none => .error .pastEnd
        | some h => match call grow env s h with
          | .ok s' => loop grow env k buf (i + 1) m s'
          | .error f => .error f
      else .error .dangling

/-- `local_delivery_t::delivery` (`plugin/delivery.cpp:39-50`) of a message with the key `k`, and
`get_recipients` (`subscription.cpp:64-73`): first every external handler gets its wrapped
message (no user code runs), then the internal ones are called. -/
def deliver (grow : Nat → Nat) (env : Env) (s : St) (k : Key) : Except Fault St :=
  match s.map.find k with
  | none => .ok s
  | some j =>
    let s := { s with log := (j.external.items.map Ev.enqueued).reverse ++ s.log }
    loop grow env k j.internal.buf 0 j.internal.items.length s

/-! ## Iterators of `unordered_map` -/

/-- `std::unordered_map<Nat, …>`: of every element only the identity of its node is kept. -/
structure UMap where
  entries : AMap Nat Nat
  buckets : Nat
  /-- number of rehashes so far -/
  epoch : Nat
  /-- the next node -/
  node : Nat
deriving Repr, DecidableEq

/-- an iterator: the element, its node, and the epoch in which it was obtained -/
structure Iter where
  key : Nat
  node : Nat
  epoch : Nat
deriving Repr, DecidableEq

/-- `map.emplace(key, …)`: no effect if the key is there; rehashes if there would be more
elements than buckets. -/
def UMap.insert (grow : Nat → Nat) (m : UMap) (key : Nat) : UMap :=
  match m.entries.find key with
  | some _ => m
  | none =>
    let m' := { m with entries := (key, m.node) :: m.entries, node := m.node + 1 }
    if m.entries.length + 1 > m.buckets then
      { m' with buckets := grow m.buckets, epoch := m.epoch + 1 }
    else m'

/-- `map.erase(key)`: invalidates only the iterators to this element. -/
def UMap.remove (m : UMap) (key : Nat) : UMap := { m with entries := m.entries.erase key }

/-- `map.find(key)` -/
def UMap.find (m : UMap) (key : Nat) : Option Iter :=
  (m.entries.find key).map fun n => { key := key, node := n, epoch := m.epoch }

/-- may the iterator be used? -/
def UMap.valid (m : UMap) (it : Iter) : Bool :=
  decide (it.epoch = m.epoch) && decide (m.entries.find it.key = some it.node)

/-- what a callback may do to the map, also through further callbacks -/
inductive MapOp where
  | insert (key : Nat)
  | remove (key : Nat)
deriving Repr, DecidableEq

/-- one such step -/
def UMap.op (grow : Nat → Nat) (m : UMap) : MapOp → UMap
  | .insert k => m.insert grow k
  | .remove k => m.remove k

/-- the effect of a callback -/
def UMap.ops (grow : Nat → Nat) (m : UMap) (l : List MapOp) : UMap := l.foldl (UMap.op grow) m

/-- `actor_base_t::on_timer_trigger` (`actor_base.cpp:262-268`) on `timers_map`: find, call the
handler of the timer (which may start timers, `supervisor.h:378-385`, and cancel others, whose
own triggers erase them), then `timers_map.erase(it)`. The callback is `cb`. -/
def onTimerTrigger (grow : Nat → Nat) (cb : UMap → List MapOp) (m : UMap) (id : Nat) :
    Except Fault UMap :=
  match m.find id with
  | none => .ok m
  | some it =>
    let m' := m.ops grow (cb m)
    if m'.valid it then .ok (m'.remove id) else .error .invalidIterator

/-- `link_client_plugin_t::on_link_response` without an error (`link_client.cpp:59-90`) on
`servers_map`: find, call the callback of the user (which may ask for other links,
`link_client.cpp:50-57`), then `it->second.state = OPERATIONAL`. The result is the map and the
node that was written. -/
def onLinkResponse (grow : Nat → Nat) (cb : UMap → List MapOp) (m : UMap) (addr : Nat) :
    Except Fault (UMap × Option Nat) :=
  match m.find addr with
  | none => .ok (m, none)
  | some it =>
    let m' := m.ops grow (cb m)
    if m'.valid it then .ok (m', some it.node) else .error .invalidIterator

end Verif.Reentry
