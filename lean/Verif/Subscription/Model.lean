import Verif.Basic.AMap

/-!
# Model of `subscription_t` (the supervisor's subscription table)

Source: `src/rotor/subscription.cpp`, `include/rotor/subscription.h`,
`src/rotor/subscription_point.cpp`, `src/rotor/handler.cpp`.
-/

namespace Verif.Subscription
open Verif

/-- identity of a `handler_base_t` object (pointer comparison in C++) -/
abbrev HandlerId := Nat
/-- identity of an `address_t` object -/
abbrev AddrId := Nat
/-- `const void *` message type, `include/rotor/subscription.h:32` -/
abbrev TypeId := Nat
/-- the `locality` pointer of an address, `include/rotor/address.hpp` -/
abbrev Loc := Nat
/-- identity of a `subscription_info_t` object -/
abbrev InfoId := Nat

/-- Immutable attributes of the objects: `handler->message_type()` (`src/rotor/handler.cpp:71`, a
constant of the handler class), the locality of the address of the handler's actor and the
locality of an address (`include/rotor/address.hpp`, `same_locality` compares them).
Simplification: attributes are functions of the object identity instead of object fields. -/
structure World where
  msgType : HandlerId → TypeId
  handlerLoc : HandlerId → Loc
  addrLoc : AddrId → Loc

/-- `subscription_info_t`, `include/rotor/subscription_point.h:84-118`.
Simplification: owner and state are not used by the table and are left out (see `Lifetime`). -/
structure Info where
  handler : HandlerId
  addr : AddrId
  internalAddress : Bool
  internalHandler : Bool
deriving DecidableEq, Repr

/-- `joint_handlers_t`, `include/rotor/subscription.h:40-45` -/
structure Joint where
  internal : List HandlerId
  external : List HandlerId
deriving DecidableEq, Repr

/-- `subscription_t`, `include/rotor/subscription.h:30-91`.  `heap` holds all the
`subscription_info_t` objects ever created; an `InfoId` is an index into it (the objects are
shared between the table and the lifetime plugin and are mutated by `update`). -/
structure Table where
  mainLoc : Loc
  heap : List Info
  infos : AMap AddrId (List InfoId)
  mine : AMap (AddrId × TypeId) Joint
deriving Repr

/-- undefined behaviour / failed assertion -/
inductive Fault where
  | assertFailed   -- `assert(it != end)`
  | eraseEnd       -- `vector::erase(end())`
  | derefEnd       -- `it->second` with `it == end()`
  | badInfo        -- the info object does not exist
deriving DecidableEq, Repr

/-- `std::find_if` followed by `erase`; `none` when nothing is found (`end()`) -/
def eraseIf {α : Type} (p : α → Bool) : List α → Option (List α)
  | [] => none
  | x :: r => if p x then some r else (eraseIf p r).map (x :: ·)

/-- `std::find` followed by assignment through the iterator; `none` for `end()` -/
def replaceIf {α : Type} (p : α → Bool) (y : α) : List α → Option (List α)
  | [] => none
  | x :: r => if p x then some (y :: r) else (replaceIf p y r).map (x :: ·)

/-- the empty table with the main address set by `delivery_plugin_base_t::activate`
(`src/rotor/plugin/delivery.cpp:33-34`) -/
def Table.empty (loc : Loc) : Table := ⟨loc, [], [], []⟩

/-- `handlers = internal_handler ? joint.internal : joint.external` -/
def Joint.get (j : Joint) (int : Bool) : List HandlerId := if int then j.internal else j.external

/-- assignment to the selected list of `joint_handlers_t` -/
def Joint.put (j : Joint) (int : Bool) (l : List HandlerId) : Joint :=
  if int then { j with internal := l } else { j with external := l }

/-- `subscription_t::materialize`, `src/rotor/subscription.cpp:25-45` -/
def Table.materialize (w : World) (t : Table) (h : HandlerId) (a : AddrId) : Table × InfoId :=
  let internalAddress := decide (w.addrLoc a = t.mainLoc)
  let internalHandler := decide (w.handlerLoc h = t.mainLoc)
  let id := t.heap.length
  let t1 := { t with heap := t.heap ++ [⟨h, a, internalAddress, internalHandler⟩] }
  if internalAddress then
    let infoList := (t1.infos.find a).getD []  -- `operator[]` default-constructs
    let joint := (t1.mine.find (a, w.msgType h)).getD ⟨[], []⟩  -- `try_emplace` default-constructs
    ({ t1 with
        infos := t1.infos.set a (infoList ++ [id])
        mine := t1.mine.set (a, w.msgType h)
          (joint.put internalHandler (joint.get internalHandler ++ [h])) }, id)
  else (t1, id)

/-- `subscription_t::update`, `src/rotor/subscription.cpp:47-62`; `id` is the info object (the
`point` reference is the info itself, `src/rotor/subscription_point.cpp:43`) -/
def Table.update (w : World) (t : Table) (id : InfoId) (newHandler : HandlerId) : Except Fault Table :=
  match t.heap[id]? with
  | none => .error .badInfo
  | some info =>
    let internalAddress := decide (w.addrLoc info.addr = t.mainLoc)
    let internalHandler := decide (w.handlerLoc info.handler = t.mainLoc)
    let heap' := t.heap.set id { info with handler := newHandler }
    if internalAddress then
      match t.mine.find (info.addr, w.msgType info.handler) with
      | none => .error .assertFailed
      | some joint =>
        match replaceIf (fun x => x == info.handler) newHandler (joint.get internalHandler) with
        | none => .error .assertFailed
        | some l =>
          .ok { t with heap := heap'
                       mine := t.mine.set (info.addr, w.msgType info.handler) (joint.put internalHandler l) }
    else .ok { t with heap := heap' }

/-- `subscription_t::get_recipients`, `src/rotor/subscription.cpp:64-73` -/
def Table.getRecipients (t : Table) (a : AddrId) (ty : TypeId) : Option Joint := t.mine.find (a, ty)

/-- `item->handler.get()` of the objects in the info list -/
def Table.handlerOf (t : Table) (id : InfoId) : Option HandlerId := (t.heap[id]?).map (·.handler)

/-- `subscription_t::forget`, `src/rotor/subscription.cpp:75-104` -/
def Table.forget (w : World) (t : Table) (id : InfoId) : Except Fault Table :=
  match t.heap[id]? with
  | none => .error .badInfo
  | some info =>
    if info.internalAddress then
      match t.infos.find info.addr with
      | none => .error .assertFailed
      | some infoList =>
        match eraseIf (fun x => t.handlerOf x == some info.handler) infoList with
        | none => .error .eraseEnd
        | some infoList' =>
          let infos' := if infoList' = [] then t.infos.erase info.addr else t.infos.set info.addr infoList'
          let key := (info.addr, w.msgType info.handler)
          match t.mine.find key with
          | none => .error .derefEnd
          | some joint =>
            match eraseIf (fun x => x == info.handler) (joint.get info.internalHandler) with
            | none => .error .assertFailed
            | some l =>
              let joint' := joint.put info.internalHandler l
              let mine' :=
                if joint'.get info.internalHandler = [] ∧ joint'.get (!info.internalHandler) = []
                then t.mine.erase key else t.mine.set key joint'
              .ok { t with infos := infos', mine := mine' }
    else .ok t

/-- The calls a locality makes on its subscription table: `subscribe`
(`src/rotor/supervisor.cpp:90-105`), `commit_unsubscription` (`:107-109`) and
`subscription_info_t::tag` (`src/rotor/subscription_point.cpp:39-44`); the handler produced by
`handler->upgrade(tag)` is the second argument of `tag`. -/
inductive Op where
  | subscribe (h : HandlerId) (a : AddrId)
  | forget (id : InfoId)
  | tag (id : InfoId) (h' : HandlerId)
deriving DecidableEq, Repr

/-- one call -/
def Table.step (w : World) (t : Table) : Op → Except Fault Table
  | .subscribe h a => .ok (t.materialize w h a).1
  | .forget id => t.forget w id
  | .tag id h' => t.update w id h'

/-- a history of calls, starting from a given table -/
def Table.run (w : World) (t : Table) : List Op → Except Fault Table
  | [] => .ok t
  | op :: ops => match t.step w op with
    | .error e => .error e
    | .ok t' => t'.run w ops

/-! ## Several supervisors in one locality -/

/-- The supervisors of one locality: every `supervisor_t` has its own `subscription_map` member
(`include/rotor/supervisor.h:283`), but subscriptions go to the one of the locality leader
(`src/rotor/supervisor.cpp:93`, `:108`), while `tag` goes to the one of the supervisor of the
handler's actor (`src/rotor/subscription_point.cpp:41-43`).  `supOf h` is that supervisor.  The
info objects are shared, so all tables see the same heap. -/
structure Locality where
  leader : Nat
  loc : Loc
  tables : Nat → Table

/-- all the tables empty -/
def Locality.init (leader : Nat) (loc : Loc) : Locality := ⟨leader, loc, fun _ => Table.empty loc⟩

/-- writes the table of supervisor `s`; the shared heap of info objects is propagated to all -/
def Locality.putTable (l : Locality) (s : Nat) (t : Table) : Locality :=
  { l with tables := fun i => if i = s then t else { l.tables i with heap := t.heap } }

/-- one call, routed to the table the code uses -/
def Locality.step (w : World) (supOf : HandlerId → Nat) (l : Locality) : Op → Except Fault Locality
  | .subscribe h a => .ok (l.putTable l.leader ((l.tables l.leader).materialize w h a).1)
  | .forget id => match (l.tables l.leader).forget w id with
    | .error e => .error e
    | .ok t => .ok (l.putTable l.leader t)
  | .tag id h' => match (l.tables l.leader).heap[id]? with
    | none => .error .badInfo
    | some info => match (l.tables (supOf info.handler)).update w id h' with
      | .error e => .error e
      | .ok t => .ok (l.putTable (supOf info.handler) t)

/-- a history of calls in a locality -/
def Locality.run (w : World) (supOf : HandlerId → Nat) (l : Locality) : List Op → Except Fault Locality
  | [] => .ok l
  | op :: ops => match l.step w supOf op with
    | .error e => .error e
    | .ok l' => l'.run w supOf ops

end Verif.Subscription
