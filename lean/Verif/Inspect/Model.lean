/-!
# Plain and inspected dispatch loops

Modelled: `delivery_plugin_t<local_delivery_t>::process()` and
`delivery_plugin_t<inspected_local_delivery_t>::process()` (`include/rotor/supervisor.h:445-498`), the two
`delivery` functions and `discard` (`src/rotor/plugin/delivery.cpp:39-50, 114-135`), with the reference
counts of the messages. Everything else (handlers, other supervisors, the subscription tables) is
arbitrary.

Simplifications: `dump_message` reads the environment variable, the level table and the stringifier; here it
is an arbitrary function from the world to a line that may be printed. The loop runs with fuel: a run that
does not end is cut after any number of turns.
-/

namespace Verif.Inspect

/-- what the loops can see and change: `queue` of the locality leader (message identities), address and
`next_route` of every message, reference counts, the number of `enqueue` calls to other supervisors with
their messages, and `rest`: everything else (actors, other threads, …) -/
structure World (σ : Type) where
  queue : List Nat
  addr : Nat → Nat
  route : Nat → Option Nat
  refs : Nat → Nat
  foreign : List (Nat × Nat)
  rest : σ

/-- handlers subscribed to the address of a message -/
structure Joint where
  ext : List Nat
  int : List Nat

/-- what is not part of the loops. `call` is `handler->call(message)`: it gets the reference to the local
variable `message` and so may even change it (`none`: the handler has moved it away). `wrap` is
`make_message<handler_call_t>` and `enqueue`. -/
structure Env (σ : Type) where
  same : Nat → Bool
  recipients : World σ → Nat → Option Joint
  wrap : World σ → Nat → Nat → World σ
  call : World σ → Nat → Option Nat → World σ × Option Nat
  line : String → World σ → Nat → Option String
  /-- `put`, `enqueue`, destruction of the local `message_ptr_t` -/
  release : World σ → Nat → World σ

/-- a null pointer is dereferenced -/
inductive Fault where
  | null

/-- `for (auto &handler : local_recipients.internal) handler->call(message)`, `delivery.cpp:47-49` -/
def callAll {σ : Type} (e : Env σ) : List Nat → World σ → Option Nat → World σ × Option Nat
  | [], w, m => (w, m)
  | h :: hs, w, m => callAll e hs (e.call w h m).1 (e.call w h m).2

/-- `local_delivery_t::delivery`, `delivery.cpp:39-50` -/
def delivery {σ : Type} (e : Env σ) (w : World σ) (m : Nat) (j : Joint) : World σ × Option Nat :=
  callAll e j.int (j.ext.foldl (fun w h => e.wrap w m h) w) (some m)

/-- `message->address = std::move(message->next_route); sup->put(std::move(message))`,
`supervisor.h:459-461` -/
def reroute {σ : Type} (w : World σ) (m r : Nat) : World σ :=
  { w with addr := fun x => if x = m then r else w.addr x, route := fun x => if x = m then none else w.route x, queue := w.queue ++ [m] }

/-- `dest->supervisor.enqueue(std::move(message))`, `supervisor.h:464` -/
def enqueue {σ : Type} (w : World σ) (m : Nat) : World σ := { w with foreign := w.foreign ++ [(w.addr m, m)] }

/-- one turn of the plain loop, `supervisor.h:447-466`; the result says whether `enqueued_messages` grew -/
def turn {σ : Type} (e : Env σ) (w : World σ) (m : Nat) (q : List Nat) : Except Fault (World σ × Nat) :=
  let w0 := { w with queue := q }
  if e.same (w0.addr m) then
    let r := match e.recipients w0 m with
      | some j => delivery e w0 m j
      | none => (w0, some m)
    match r.2 with
    | none => .error .null
    | some m' =>
      match r.1.route m' with
      | some a => if r.1.refs m' = 1 then .ok (reroute r.1 m' a, 0) else .ok (e.release r.1 m', 0)
      | none => .ok (e.release r.1 m', 0)
  else .ok (enqueue w0 m, 1)

/-- one turn of the inspected loop, `supervisor.h:473-495`, `delivery.cpp:126-135`: `ptr` is the plain
pointer taken before the delivery. The printed lines are the last component. -/
def turnInspected {σ : Type} (e : Env σ) (w : World σ) (m : Nat) (q : List Nat) : Except Fault (World σ × Nat × List String) :=
  let w0 := { w with queue := q }
  if e.same (w0.addr m) then
    let j? := e.recipients w0 m
    let r := match j? with
      | some j => (delivery e w0 m j, (e.line ">> " w0 m).toList)
      | none => ((w0, some m), [])
    match r.1.1.route m with
    | some a =>
      if r.1.1.refs m = 1 then
        match r.1.2 with
        | none => .error .null
        | some m' => .ok (reroute r.1.1 m' a, 0, r.2)
      else finish j? r
    | none => finish j? r
  else .ok (enqueue w0 m, 1, [])
where
  /-- the `else if (!local_recipients) discard(…)` branch and the end of the block -/
  finish (j? : Option Joint) (r : (World σ × Option Nat) × List String) : Except Fault (World σ × Nat × List String) :=
    let out := if j?.isNone then (e.line "<DISCARDED> " r.1.1 m).toList else []
    match r.1.2 with
    | some m' => .ok (e.release r.1.1 m', 0, r.2 ++ out)
    | none => .ok (r.1.1, 0, r.2 ++ out)

/-- the plain loop -/
def process {σ : Type} (e : Env σ) : Nat → World σ → Except Fault (World σ × Nat)
  | 0, w => .ok (w, 0)
  | n + 1, w =>
    match w.queue with
    | [] => .ok (w, 0)
    | m :: q =>
      match turn e w m q with
      | .error f => .error f
      | .ok (w1, k) =>
        match process e n w1 with
        | .error f => .error f
        | .ok (w2, k2) => .ok (w2, k + k2)

/-- the inspected loop -/
def processInspected {σ : Type} (e : Env σ) : Nat → World σ → Except Fault (World σ × Nat × List String)
  | 0, w => .ok (w, 0, [])
  | n + 1, w =>
    match w.queue with
    | [] => .ok (w, 0, [])
    | m :: q =>
      match turnInspected e w m q with
      | .error f => .error f
      | .ok (w1, k, o) =>
        match processInspected e n w1 with
        | .error f => .error f
        | .ok (w2, k2, o2) => .ok (w2, k + k2, o ++ o2)

end Verif.Inspect
