import Verif.Basic.AMap

/-!
# Model of the registry actor

Source: `src/rotor/registry.cpp`, `include/rotor/registry.h:26-100`.
-/

namespace Verif.Registry
open Verif

/-- service name (`std::string`) -/
abbrev Name := Nat
/-- service address -/
abbrev Addr := Nat

/-- The part of a request message the registry looks at: `payload.id` and `payload.origin`
(`include/rotor/request.hpp:20-33`); replies go to the request, so the pair also identifies the
request a reply belongs to. -/
structure Req where
  id : Nat
  origin : Addr
deriving DecidableEq, Repr

/-- a stored `discovery_promise_t` message -/
structure Promise where
  req : Req
  name : Name
deriving DecidableEq, Repr

/-- error codes used by the registry, `include/rotor/error_code.h` -/
inductive Err where
  | alreadyRegistered | unknownService | cancelled
deriving DecidableEq, Repr

/-- replies sent by the registry (`reply_to`, `reply_with_error`) -/
inductive Reply where
  | registration (r : Req) (e : Option Err)                 -- registration_response_t
  | discovery (r : Req) (res : Except Err Addr)             -- discovery_response_t
  | future (r : Req) (res : Except Err Addr)                -- discovery_future_t
deriving Repr

/-- `registry_t`, `include/rotor/registry.h:52-100`.  `registered_names_t` (a `std::set`) is a list
without duplicates. -/
structure State where
  registered : AMap Name Addr
  reverse : AMap Addr (List Name)
  promises : List Promise
deriving Repr

/-- a fresh registry -/
def State.init : State := ⟨[], [], []⟩

/-- `std::out_of_range` thrown by `reverse_map.at` in a `noexcept` function: the program terminates -/
inductive Fault where
  | terminate
deriving DecidableEq, Repr

/-- `std::set::insert` -/
def setInsert (n : Name) (l : List Name) : List Name := if n ∈ l then l else n :: l

/-- the loop of `on_reg`, `src/rotor/registry.cpp:42-49`: find the next promise for the name,
reply, erase, go on from there -/
def answerPromises (name : Name) (addr : Addr) : List Promise → List Reply × List Promise
  | [] => ([], [])
  | p :: ps =>
    let (out, rest) := answerPromises name addr ps
    if p.name = name then (.future p.req (.ok addr) :: out, rest) else (out, p :: rest)

/-- `registry_t::on_reg`, `src/rotor/registry.cpp:27-50` -/
def State.onReg (s : State) (r : Req) (name : Name) (addr : Addr) : State × List Reply :=
  match s.registered.find name with
  | some _ => (s, [.registration r (some .alreadyRegistered)])
  | none =>
    let registered := s.registered.set name addr
    let names := (s.reverse.find addr).getD []      -- `reverse_map[service_addr]`
    let reverse := s.reverse.set addr (setInsert name names)
    let (out, promises) := answerPromises name addr s.promises
    (⟨registered, reverse, promises⟩, .registration r none :: out)

/-- `registry_t::on_dereg`, `src/rotor/registry.cpp:52-61` -/
def State.onDereg (s : State) (addr : Addr) : State × List Reply :=
  match s.reverse.find addr with
  | none => (s, [])
  | some names =>
    ({ s with registered := names.foldl (fun m n => m.erase n) s.registered
              reverse := s.reverse.erase addr }, [])

/-- `registry_t::on_dereg_service`, `src/rotor/registry.cpp:63-72`; the emptied set of names stays
in the reverse map -/
def State.onDeregService (s : State) (name : Name) : Except Fault (State × List Reply) :=
  match s.registered.find name with
  | none => .ok (s, [])
  | some addr =>
    match s.reverse.find addr with
    | none => .error .terminate
    | some names =>
      .ok ({ s with reverse := s.reverse.set addr (names.erase name)
                    registered := s.registered.erase name }, [])

/-- `registry_t::on_discovery`, `src/rotor/registry.cpp:74-85` -/
def State.onDiscovery (s : State) (r : Req) (name : Name) : State × List Reply :=
  match s.registered.find name with
  | some addr => (s, [.discovery r (.ok addr)])
  | none => (s, [.discovery r (.error .unknownService)])

/-- `registry_t::on_promise`, `src/rotor/registry.cpp:87-97` -/
def State.onPromise (s : State) (r : Req) (name : Name) : State × List Reply :=
  match s.registered.find name with
  | some addr => (s, [.future r (.ok addr)])
  | none => ({ s with promises := s.promises ++ [⟨r, name⟩] }, [])

/-- `std::find_if` from the back and `erase`: the removed promise and the remaining list -/
def eraseLast (p : Promise → Bool) : List Promise → Option (Promise × List Promise)
  | [] => none
  | x :: r => match eraseLast p r with
    | some (y, r') => some (y, x :: r')
    | none => if p x then some (x, r) else none

/-- `registry_t::on_cancel`, `src/rotor/registry.cpp:99-113` -/
def State.onCancel (s : State) (id : Nat) (source : Addr) : State × List Reply :=
  match eraseLast (fun p => p.req.id == id && p.req.origin == source) s.promises with
  | none => (s, [])
  | some (p, rest) => ({ s with promises := rest }, [.future p.req (.error .cancelled)])

/-- the messages the registry handles (`configure`, `src/rotor/registry.cpp:12-25`) -/
inductive Msg where
  | register (r : Req) (name : Name) (addr : Addr)
  | deregister (addr : Addr)
  | deregisterName (name : Name)
  | discover (r : Req) (name : Name)
  | promise (r : Req) (name : Name)
  | cancel (id : Nat) (source : Addr)
deriving Repr, DecidableEq

/-- one message -/
def State.step (s : State) : Msg → Except Fault (State × List Reply)
  | .register r n a => .ok (s.onReg r n a)
  | .deregister a => .ok (s.onDereg a)
  | .deregisterName n => s.onDeregService n
  | .discover r n => .ok (s.onDiscovery r n)
  | .promise r n => .ok (s.onPromise r n)
  | .cancel id a => .ok (s.onCancel id a)

/-- a history of messages; all replies in order -/
def State.run (s : State) : List Msg → Except Fault (State × List Reply)
  | [] => .ok (s, [])
  | m :: ms => match s.step m with
    | .error e => .error e
    | .ok (s1, out) => match s1.run ms with
      | .error e => .error e
      | .ok (s2, out') => .ok (s2, out ++ out')

end Verif.Registry
