/-!
# Request identities on a counter of limited width

`next_request_id` (`/repo/include/rotor/supervisor.h:336-344`) with its wrap-around: `request_id_t` is
`std::uint64_t`, so the modulus `M` is `2^64` in the code; the theorems hold for every modulus.
`Verif.Requests` treats the overflow of the counter as an outcome of its own; here the overflow is what
the model is about, and everything else is left out.
-/

namespace Verif.RequestIds

/-- where an identity is in use: a pending request of a supervisor (its `request_map`), or a timer of an
actor started with `start_timer` (the actor's `timers_map`) -/
inductive Holder
  | req (sup : Nat)
  | timer (actor : Nat)
  deriving Repr, DecidableEq

/-- `last`: `last_req_id` of the locality leader (`supervisor.h:277`, shared by all supervisors of the
locality through `locality_leader`); `used`: the identities in use, with what uses them, newest first -/
structure State where
  last : Nat
  used : List (Holder × Nat)

/-- the keys of the leader's `request_map` -/
def leaderMap (leader : Nat) (s : State) : List Nat :=
  (s.used.filter (fun x => x.1 == .req leader)).map (·.2)

/-- the loop `AGAIN: ... goto AGAIN` of `next_request_id`, `supervisor.h:336-344`: increment modulo `M`,
again while the value is a key of the leader's `request_map`. The fuel counts the iterations; `none` stands
for "not finished within the fuel". -/
def nextId (M : Nat) (map : List Nat) : Nat → Nat → Option Nat
  | 0, _ => none
  | f + 1, last =>
    let id := (last + 1) % M
    if id ∈ map then nextId M map f id else some id

/-- what happens: a request is sent by an actor of a supervisor (`request_builder_t::send`,
`supervisor.h:511-565`), an actor starts a timer (`supervisor.h:386-392`), or a use ends (reply, timeout,
expiration, cancellation) -/
inductive Op
  | draw (h : Holder)
  | done (h : Holder) (id : Nat)
  deriving Repr, DecidableEq

/-- one step; `M` iterations are more than the loop ever needs when it ends at all, as it visits every
value once -/
def step (M leader : Nat) (s : State) : Op → Option State
  | .draw h =>
    match nextId M (leaderMap leader s) M s.last with
    | none => none
    | some id => some ⟨id, (h, id) :: s.used⟩
  | .done h id => some { s with used := s.used.erase (h, id) }

/-- a history -/
def run (M leader : Nat) : State → List Op → Option State
  | s, [] => some s
  | s, op :: ops =>
    match step M leader s op with
    | none => none
    | some s' => run M leader s' ops

end Verif.RequestIds
