import Verif.Basic.ActorState

/-!
# Model of `resources_plugin_t`

Source: `src/rotor/plugin/resources.cpp`, `include/rotor/plugin/resources.h`.
Counters are `std::uint32_t` (arithmetic modulo 2^32), the sum in `has_any` is an `int`.
-/

namespace Verif.Resources

/-- number of values of `std::uint32_t` -/
def u32 : Nat := 2 ^ 32

/-- conversion of an unsigned 32-bit value to `int` -/
def toInt32 (n : Nat) : Int := if n < 2 ^ 31 then n else (n : Int) - 2 ^ 32

/-- `resources_plugin_t`: the vector of counters, the `configured` flag and the two reaction bits
that matter (`include/rotor/plugin/plugin_base.h:27-32,159-162`) -/
structure State where
  counts : List Nat
  configured : Bool
  reactInit : Bool
  reactShutdown : Bool
deriving DecidableEq, Repr

/-- failed assertions / out-of-bounds access -/
inductive Fault where
  | outOfBounds | notAcquired
deriving DecidableEq, Repr

/-- what `release` makes the actor do -/
inductive Cont where
  | none | initContinue | shutdownContinue
deriving DecidableEq, Repr

/-- `activate`, `src/rotor/plugin/resources.cpp:30-40` -/
def State.activated : State := ⟨[], false, true, true⟩

/-- `vector::resize(n)` for `n` greater than the size -/
def grow (l : List Nat) (n : Nat) : List Nat := l ++ List.replicate (n - l.length) 0

/-- `resources_plugin_t::acquire`, `src/rotor/plugin/resources.cpp:54-65`; `id + 1` is computed in
`size_t`, so the largest id overflows it -/
def State.acquire (s : State) (st : AState) (id : Nat) : Except Fault State :=
  if id ≥ s.counts.length ∧ id + 1 ≥ 2 ^ 64 then .error .outOfBounds
  else
    let counts := if id ≥ s.counts.length then grow s.counts (id + 1) else s.counts
    match counts[id]? with
    | none => .error .outOfBounds
    | some v =>
      let s1 := { s with counts := counts.set id ((v + 1) % u32) }
      if st = .initializing then .ok { s1 with reactInit := true }
      else if st.rank ≥ AState.operational.rank then .ok { s1 with reactShutdown := true }
      else .ok s1

/-- `has_any`, `src/rotor/plugin/resources.cpp:92-95`: `std::accumulate(begin, end, 0)`, i.e. each
step adds an `uint32_t` to an `int` and stores the result in an `int` -/
def hasAny (counts : List Nat) : Bool := toInt32 (counts.foldl (fun acc v => (acc + v) % u32) 0) > 0

/-- `has`, `src/rotor/plugin/resources.cpp:86-90` -/
def State.has (s : State) (id : Nat) : Nat := s.counts[id]?.getD 0

/-- `release`, `src/rotor/plugin/resources.cpp:67-84`; `progInit`, `progShutdown` are the bits of the
actor's `continuation_mask` -/
def State.release (s : State) (st : AState) (progInit progShutdown : Bool) (id : Nat) :
    Except Fault (State × Bool × Cont) :=
  match s.counts[id]? with
  | none => .error .outOfBounds
  | some v =>
    if v = 0 then .error .notAcquired
    else
      let s1 := { s with counts := s.counts.set id (v - 1) }
      let acquired := hasAny s1.counts
      let cont :=
        if st = .initializing then
          if !acquired && !progInit then .initContinue else .none
        else if st = .shuttingDown then
          if !acquired && !progShutdown then .shutdownContinue else .none
        else .none
      .ok (s1, acquired, cont)

/-- `handle_init`, `src/rotor/plugin/resources.cpp:42-48`.  Simplification: the second call of the
actor's `configure` is user code and only sets the flag here. -/
def State.handleInit (s : State) : State × Bool := ({ s with configured := true }, !hasAny s.counts)

/-- `handle_shutdown`, `src/rotor/plugin/resources.cpp:50-52` (the base implementation returns
`true`, `src/rotor/plugin/plugin_base.cpp`) -/
def State.handleShutdown (s : State) : Bool := !hasAny s.counts

/-- calls of the user on the plugin; the actor's state at the time of the call is part of it -/
inductive Op where
  | acquire (st : AState) (id : Nat)
  | release (st : AState) (progInit progShutdown : Bool) (id : Nat)
deriving DecidableEq, Repr

/-- one call -/
def State.step (s : State) : Op → Except Fault State
  | .acquire st id => s.acquire st id
  | .release st a b id => match s.release st a b id with
    | .error e => .error e
    | .ok (s', _, _) => .ok s'

/-- a history of calls -/
def State.run (s : State) : List Op → Except Fault State
  | [] => .ok s
  | op :: ops => match s.step op with
    | .error e => .error e
    | .ok s' => s'.run ops

/-- the plugin's turn in `actor_base_t::init_continue`, `src/rotor/actor_base.cpp:153-162`: only a
plugin with the reaction is asked, and the reaction is switched off by a positive answer; the result
tells whether the loop goes on -/
def State.pollInit (s : State) : State × Bool :=
  if s.reactInit then
    if s.handleInit.2 then ({ s.handleInit.1 with reactInit := false }, true) else (s.handleInit.1, false)
  else (s, true)

/-- the plugin's turn in `actor_base_t::shutdown_continue`, `src/rotor/actor_base.cpp:177-187` -/
def State.pollShutdown (s : State) : State × Bool :=
  if s.reactShutdown then
    if s.handleShutdown then ({ s with reactShutdown := false }, true) else (s, false)
  else (s, true)

/-- calls of the user and polls of the actor -/
inductive Call where
  | op (o : Op)
  | pollInit
  | pollShutdown
deriving DecidableEq, Repr

/-- one call or poll -/
def State.stepCall (s : State) : Call → Except Fault State
  | .op o => s.step o
  | .pollInit => .ok s.pollInit.1
  | .pollShutdown => .ok s.pollShutdown.1

/-- a history of calls and polls -/
def State.runCalls (s : State) : List Call → Except Fault State
  | [] => .ok s
  | c :: cs => match s.stepCall c with
    | .error e => .error e
    | .ok s' => s'.runCalls cs

end Verif.Resources
