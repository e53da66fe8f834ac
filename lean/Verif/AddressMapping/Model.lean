import Verif.Basic.AMap

/-!
# Model of the response addresses (NAT) of a supervisor

Sources: `src/rotor/address_mapping.cpp`, `include/rotor/address_mapping.h`,
`include/rotor/supervisor.h:511-565` (request builder),
`src/rotor/plugin/child_manager.cpp:335-358,423-438` (cleaning up after a child).
-/

namespace Verif.AddressMapping

/-- `subscription_info_t` of a response handler: handler object, address, message type -/
structure Info where
  handler : Nat
  addr : Nat
  ty : Nat
deriving DecidableEq, Repr

/-- `address_mapping_t::actor_map`, `include/rotor/address_mapping.h:67-69` -/
abbrev Nat' := AMap Nat (AMap Nat Info)

/-- the supervisor: `address_mapping`, the response subscriptions it holds on behalf of its actors
(owner tag `SUPERVISOR`, kept in its lifetime plugin), and the allocator of addresses and handlers -/
structure State where
  nat : Nat'
  subs : List (Nat × Info)
  next : Nat
deriving Repr

/-- `unordered_map::at` of a missing key throws in a `noexcept` function -/
inductive Fault where
  | terminate
deriving DecidableEq, Repr

/-- `address_mapping_t::set`, `src/rotor/address_mapping.cpp:13-17` (`operator[]`, `try_emplace`) -/
def set (m : Nat') (actor : Nat) (info : Info) : Nat' :=
  let pm := (m.find actor).getD []
  m.set actor (if (pm.find info.ty).isSome then pm else pm.set info.ty info)

/-- `address_mapping_t::get_mapped_address`, `src/rotor/address_mapping.cpp:19-29` -/
def getMapped (m : Nat') (actor ty : Nat) : Option Nat :=
  match m.find actor with
  | none => none
  | some pm => (pm.find ty).map (·.addr)

/-- the loop of `remove`: erases the first entry with this handler and address -/
def removeFirst (pm : AMap Nat Info) (handler addr : Nat) : AMap Nat Info :=
  match pm with
  | [] => []
  | (k, i) :: r => if i.handler = handler ∧ i.addr = addr then r else (k, i) :: removeFirst r handler addr

/-- `address_mapping_t::remove`, `src/rotor/address_mapping.cpp:31-45` -/
def remove (m : Nat') (actor handler addr : Nat) : Except Fault Nat' :=
  match m.find actor with
  | none => .error .terminate
  | some pm =>
    let pm' := removeFirst pm handler addr
    if pm' = [] then .ok (m.erase actor) else .ok (m.set actor pm')

/-- `has_subscriptions`, `src/rotor/address_mapping.cpp:54-57` -/
def hasSubscriptions (m : Nat') (actor : Nat) : Bool := (m.find actor).isSome

/-- `request_builder_t` (the part concerned with the response address) -/
structure Builder where
  actor : Nat
  ty : Nat
  addr : Nat
  install : Bool
deriving DecidableEq, Repr

/-- constructor of `request_builder_t`, `include/rotor/supervisor.h:511-529` -/
def build (s : State) (actor ty : Nat) : State × Builder :=
  match getMapped s.nat actor ty with
  | some a => (s, ⟨actor, ty, a, false⟩)
  | none => ({ s with next := s.next + 1 }, ⟨actor, ty, s.next, true⟩)

/-- `request_builder_t::send`, `include/rotor/supervisor.h:531-534,543-565`: installs the response
handler; the rest of `send` is in `Verif.Requests` -/
def send (s : State) (b : Builder) : State :=
  if b.install then
    let info : Info := ⟨s.next, b.addr, b.ty⟩
    { nat := set s.nat b.actor info, subs := s.subs ++ [(b.actor, info)], next := s.next + 1 }
  else s

/-- the usual `request<...>(...).send(timeout)`; the result is the private address -/
def request (s : State) (actor ty : Nat) : State × Nat :=
  ((send (build s actor ty).1 (build s actor ty).2), (build s actor ty).2.addr)

/-- the confirmation of an unsubscription of a response handler reaches the supervisor:
`child_manager_plugin_t::handle_unsubscription`, `child_manager.cpp:423-438`; the lifetime plugin
then drops the point (`src/rotor/plugin/lifetime.cpp:112-123`) -/
def unsubscribed (s : State) (actor : Nat) (info : Info) : Except Fault State :=
  match remove s.nat actor info.handler info.addr with
  | .error e => .error e
  | .ok m => .ok { s with nat := m, subs := s.subs.erase (actor, info) }

/-- the unsubscriptions started when the shutdown of `actor` is confirmed:
`child_manager.cpp:348-350`, `address_mapping.h:50-55` -/
def eachSubscription (s : State) (actor : Nat) : List Info := ((s.nat.find actor).getD []).map (·.2)

/-- what happens to the supervisor -/
inductive Op where
  | request (actor ty : Nat)
  | unsubscribed (actor : Nat) (info : Info)
deriving DecidableEq, Repr

/-- one event; the trace records the address used by each request -/
def step (s : State) : Op → Except Fault (State × List (Nat × Nat × Nat))
  | .request a ty => .ok ((request s a ty).1, [(a, ty, (request s a ty).2)])
  | .unsubscribed a i => match unsubscribed s a i with
    | .error e => .error e
    | .ok s' => .ok (s', [])

def run (s : State) : List Op → Except Fault (State × List (Nat × Nat × Nat))
  | [] => .ok (s, [])
  | op :: ops => match step s op with
    | .error e => .error e
    | .ok (s', tr) => match run s' ops with
      | .error e => .error e
      | .ok (s'', tr') => .ok (s'', tr ++ tr')

/-- a fresh supervisor -/
def State.empty : State := ⟨[], [], 0⟩

end Verif.AddressMapping
