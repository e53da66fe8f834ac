import Verif.Texts.Model

/-!
# Model of the identities of actors and of the texts of errors

Sources: `src/rotor/plugin/address_maker.cpp:36-72`, `src/rotor/error_code.cpp:11-60`, `include/rotor/error_code.h:21-44, 78-88`,
`src/rotor/actor_base.cpp:281-284` (`make_error`), `src/rotor/extended_error.cpp:13-42`.

Simplifications:
* what an address looks like as a number (`operator<<(const void *)`) depends on the standard library: it is a parameter;
* an error is given with the list of the errors below it (`next`), which cannot be done for errors that are made to refer to themselves: these are
  the matter of `Verif.ExtendedError`;
* `error_code` is a pair of a category and a value; categories of the user have arbitrary texts;
* `set_identity` is called in `configure` only.
-/

namespace Verif.Naming

open Verif.Texts (Text)

/-! ## Codes -/

/-- `error_code_t`, `include/rotor/error_code.h:21-34` -/
inductive ErrCode where
  | success | cancelled | requestTimeout | supervisorDefined | alreadyRegistered | actorMisconfigured | actorNotLinkable | alreadyLinked
  | failureEscalation | registrationFailed | discoveryFailed | unknownService
deriving DecidableEq, Repr

/-- `shutdown_code_t`, `include/rotor/error_code.h:37-44` -/
inductive ShutCode where
  | normal | supervisorShutdown | childDown | childInitFailed | initFailed | unlinkRequested
deriving DecidableEq, Repr

/-- `static_cast<int>(e)`, `error_code.h:79`: the enumerators are numbered in their order -/
def ErrCode.value : ErrCode → Int
  | .success => 0 | .cancelled => 1 | .requestTimeout => 2 | .supervisorDefined => 3 | .alreadyRegistered => 4 | .actorMisconfigured => 5
  | .actorNotLinkable => 6 | .alreadyLinked => 7 | .failureEscalation => 8 | .registrationFailed => 9 | .discoveryFailed => 10
  | .unknownService => 11

/-- `static_cast<int>(e)`, `error_code.h:84` -/
def ShutCode.value : ShutCode → Int
  | .normal => 0 | .supervisorShutdown => 1 | .childDown => 2 | .childInitFailed => 3 | .initFailed => 4 | .unlinkRequested => 5

def ErrCode.all : List ErrCode :=
  [.success, .cancelled, .requestTimeout, .supervisorDefined, .alreadyRegistered, .actorMisconfigured, .actorNotLinkable, .alreadyLinked,
   .failureEscalation, .registrationFailed, .discoveryFailed, .unknownService]

def ShutCode.all : List ShutCode := [.normal, .supervisorShutdown, .childDown, .childInitFailed, .initFailed, .unlinkRequested]

/-- the cases of `error_code_category::message`, `error_code.cpp:15-39` -/
def ErrCode.text : ErrCode → Text
  | .success => c!"success"
  | .cancelled => c!"request has been cancelled"
  | .requestTimeout => c!"request timeout"
  | .supervisorDefined => c!"supervisor is already defined"
  | .alreadyRegistered => c!"service name is already registered"
  | .actorMisconfigured => c!"actor is misconfigured"
  | .actorNotLinkable => c!"actor is not linkeable"
  | .alreadyLinked => c!"already linked"
  | .failureEscalation => c!"failure escalation"
  | .unknownService => c!"the requested service name is not registered"
  | .discoveryFailed => c!"discovery has been failed"
  | .registrationFailed => c!"registration has been failed"

/-- the cases of `shutdown_code_category::message`, `error_code.cpp:45-57` -/
def ShutCode.text : ShutCode → Text
  | .normal => c!"normal shutdown"
  | .supervisorShutdown => c!"actor shutdown has been requested by supervisor"
  | .childInitFailed => c!"supervisor shutdown due to child init failure"
  | .childDown => c!"supervisor shutdown due to child shutdown policy"
  | .initFailed => c!"actor shutdown due to init failure"
  | .unlinkRequested => c!"actor shutdown due to unlink request"

/-- `error_code_category::message`, `error_code.cpp:14-41` -/
def errMessage (c : Int) : Text :=
  match ErrCode.all.find? (fun e => e.value == c) with
  | some e => e.text
  | none => c!"unknown"

/-- `shutdown_code_category::message`, `error_code.cpp:44-59` -/
def shutMessage (c : Int) : Text :=
  match ShutCode.all.find? (fun e => e.value == c) with
  | some e => e.text
  | none => c!"unknown shutdown reason"

/-- the categories: the two of the library (`error_code.cpp:66-69`), and others with a number and their texts -/
inductive Cat where
  | error
  | shutdown
  | other (n : Nat)
deriving DecidableEq, Repr

/-- `std::error_code` -/
structure Code where
  cat : Cat
  value : Int
deriving DecidableEq, Repr

/-- `make_error_code`, `error_code.h:78-80` -/
def ErrCode.code (e : ErrCode) : Code := ⟨.error, e.value⟩

/-- `make_error_code`, `error_code.h:83-85` -/
def ShutCode.code (e : ShutCode) : Code := ⟨.shutdown, e.value⟩

/-- `std::error_code::message` -/
def Code.message (others : Nat → Int → Text) (c : Code) : Text :=
  match c.cat with
  | .error => errMessage c.value
  | .shutdown => shutMessage c.value
  | .other n => others n c.value

/-! ## Identities -/

/-- `address_maker_plugin_t::set_identity`, `address_maker.cpp:58-68`; the result is the new `identity` -/
def setIdentity (addrText : Nat → Text) (addr : Nat) (name : Text) (append : Bool) : Text :=
  if !append then name else name ++ [' '] ++ addrText addr

/-- `address_maker_plugin_t::activate`, `address_maker.cpp:36-49`: `calls` are the calls of `set_identity` in `configure`, `sup`: the actor is a
supervisor (`generate_identity`, lines 70-72); the result is the identity the actor has from `init_start` on -/
def activate (addrText : Nat → Text) (addr : Nat) (sup : Bool) (calls : List (Text × Bool)) : Text :=
  let identity := calls.foldl (fun _ c => setIdentity addrText addr c.1 c.2) []
  if identity = [] then setIdentity addrText addr (if sup then c!"supervisor" else c!"actor") true else identity

/-- an actor after `activate`: its number, its address and its identity; what it is and what `configure` did (for the properties only) -/
structure Actor where
  id : Nat
  addr : Nat
  identity : Text
  sup : Bool
  calls : List (Text × Bool)
deriving DecidableEq, Repr

/-- `actors`: those that have been activated and not yet been destroyed; `addrs`: the addresses that exist -/
structure State where
  actors : List Actor
  addrs : List Nat

inductive Label where
  /-- an actor is created and activated; `addr` is where the new address is put (line 40) -/
  | activate (id addr : Nat) (sup : Bool) (calls : List (Text × Bool))
  /-- a further address is made, `actor_base_t::create_address`, `actor_base.cpp:246` -/
  | address (addr : Nat)
  /-- an actor is destroyed; others may hold its address -/
  | destroy (id : Nat)
  /-- nobody holds the address any more: the memory may be used again -/
  | free (addr : Nat)

def step (addrText : Nat → Text) (σ : State) : Label → Option State
  | .activate id addr sup calls =>
    if addr ∈ σ.addrs ∨ id ∈ σ.actors.map (·.id) then none
    else
      some { σ with actors := { id := id, addr := addr, identity := activate addrText addr sup calls, sup := sup, calls := calls } :: σ.actors,
                    addrs := addr :: σ.addrs }
  | .address addr => if addr ∈ σ.addrs then none else some { σ with addrs := addr :: σ.addrs }
  | .destroy id => some { σ with actors := σ.actors.filter (·.id ≠ id) }
  | .free addr => if addr ∈ σ.actors.map (·.addr) then none else some { σ with addrs := σ.addrs.filter (· ≠ addr) }

def run (addrText : Nat → Text) (σ : State) : List Label → Option State
  | [] => some σ
  | l :: ls =>
    match step addrText σ l with
    | none => none
    | some σ' => run addrText σ' ls

/-! ## Errors -/

/-- the fields of `extended_error_t` that are shown, `extended_error.h:37-48`; `request`: what the stringifier says about the request -/
structure Err where
  context : Text
  ec : Code
  request : Option Text
deriving DecidableEq, Repr

/-- `actor_base_t::make_error`, `actor_base.cpp:281-284`: the context is the identity of the actor; `next`: the errors below -/
def makeError (identity : Text) (ec : Code) (next : List Err) (request : Option Text) : List Err :=
  { context := identity, ec := ec, request := request } :: next

/-- the first part of `extended_error_t::message`, `extended_error.cpp:14-19`; `strf`: with a stringifier -/
def own (others : Nat → Int → Text) (strf : Bool) (e : Err) : Text :=
  e.context ++ [' '] ++ e.ec.message others ++
    (match e.request with | some r => if strf then c!" [" ++ r ++ c!"]" else [] | none => [])

/-- `extended_error_t::message`, `extended_error.cpp:13-25`: the stringifier is not passed on to the nested call -/
def message (others : Nat → Int → Text) (strf : Bool) : List Err → Text
  | [] => []
  | [e] => own others strf e
  | e :: next => own others strf e ++ c!" <- " ++ message others false next

end Verif.Naming
