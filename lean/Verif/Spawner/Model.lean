import Verif.Basic.ActorState

/-!
# Model of one spawner inside a supervisor

Sources: `src/rotor/detail/child_info.cpp`, `include/rotor/detail/child_info.h`,
`src/rotor/plugin/child_manager.cpp` (`remove_child` 93-164, `on_spawn` 210-253, `spawn` 483-491,
`on_spawn_timer` 493-508), `src/rotor/spawner.cpp`.

Seen from one spawner: the rest of the supervisor (its state and policy, the fate of the instances,
the clock) is an arbitrary environment.
-/

namespace Verif.Spawner

/-- `restart_policy_t`, `include/rotor/policy.h:23-39` -/
inductive Policy where
  | always | never | askActor | normalOnly | failOnly
deriving DecidableEq, Repr

/-- `spawn_demand_t`, `include/rotor/detail/child_info.h:22-28` -/
inductive Demand where
  | no | now | escalate | after (d : Int)
deriving DecidableEq, Repr

/-- what the user configures, `include/rotor/spawner.h:38-57` -/
structure Cfg where
  policy : Policy
  period : Int
  maxAttempts : Nat
  escalateFailure : Bool
deriving DecidableEq, Repr

/-- the relevant fields of `child_info_t` (`include/rotor/detail/child_info.h:75-115`) -/
structure Info where
  attempts : Nat
  active : Bool
  /-- `timer_id != 0` -/
  timer : Bool
  last : Int
deriving DecidableEq, Repr

/-- `child_info_t::spawn_attempt`, `src/rotor/detail/child_info.cpp:12-24`; `now` is the wall clock -/
def spawnAttempt (c : Cfg) (i : Info) (now : Int) : Info :=
  let attempts := i.attempts + 1
  let active1 := if c.maxAttempts ≠ 0 ∧ attempts ≥ c.maxAttempts then false else i.active
  let active2 := if c.policy = .never then false else active1
  { attempts := attempts, active := active2, timer := false, last := now }

/-- the lambda `check_failure_escalation`, `src/rotor/detail/child_info.cpp:31-48` -/
def checkEscalation (c : Cfg) (i : Info) (abnormal : Bool) : Info × Bool :=
  if c.escalateFailure then
    if c.maxAttempts ≠ 0 ∧ i.attempts ≥ c.maxAttempts then (i, true)
    else if abnormal then
      if c.policy = .always ∧ i.active = false then ({ i with active := false }, true)
      else if c.policy = .normalOnly then ({ i with active := false }, true)
      else (i, false)
    else (i, false)
  else (i, false)

/-- `child_info_t::next_spawn`, `src/rotor/detail/child_info.cpp:26-82`; `answer` is what the
instance's `should_restart()` returns -/
def nextSpawn (c : Cfg) (i : Info) (abnormal answer : Bool) (now : Int) : Info × Demand :=
  if i.timer then (i, .no)
  else
    let (i1, esc) := checkEscalation c i abnormal
    if esc then (i1, .escalate)
    else if i1.active = false then (i1, .no)
    else if c.policy = .failOnly ∧ abnormal = false then ({ i1 with active := false }, .no)
    else if c.policy = .normalOnly ∧ abnormal = true then ({ i1 with active := false }, .no)
    else if c.policy = .askActor ∧ answer = false then ({ i1 with active := false }, .no)
    else
      let after := now - i1.last
      if after ≥ c.period then (i1, .now) else (i1, .after after)

/-- what the supervisor is told -/
inductive Out where
  /-- the factory was called (at this real time), with success or not -/
  | factory (time : Int) (ok : Bool)
  /-- `shutdown_trigger` for the supervisor with `failure_escalation` -/
  | escalate
  /-- `on_spawn` made the supervisor's own init fail (policy `shutdown_self`) -/
  | supInitFailed
deriving DecidableEq, Repr

/-- the spawner's state: `child_info_t`, whether it still is in `actors_map`, whether there is an
instance, the `spawn_actor` messages for it in the queue, the real time its timer expires, and what
was emitted so far -/
structure State where
  info : Info
  present : Bool
  inst : Bool
  pending : Nat
  deadline : Int
  out : List Out
deriving DecidableEq, Repr

/-- `child_manager_plugin_t::spawn`, `child_manager.cpp:483-491` (called from `spawner_t::spawn`,
`src/rotor/spawner.cpp:46-52`) -/
def State.start : State := ⟨⟨0, true, false, 0⟩, true, false, 1, 0, []⟩

/-- the events; each carries the real (monotonic) time `t` and the wall clock `w` at that moment,
and the state of the supervisor -/
inductive Ev where
  /-- a `spawn_actor` message is processed; `ok`: the factory returns an actor (otherwise it throws);
  `selfPolicy`: the supervisor's policy is `shutdown_self` -/
  | spawn (t w : Int) (st : AState) (selfPolicy ok : Bool)
  /-- the instance is down (`remove_child`) -/
  | down (t w : Int) (st : AState) (abnormal answer : Bool)
  /-- the spawn timer fires -/
  | fired (t w : Int) (st : AState)
  /-- the spawn timer is cancelled -/
  | cancelled (t w : Int) (st : AState)
deriving DecidableEq, Repr

def Ev.time : Ev → Int
  | .spawn t .. => t | .down t .. => t | .fired t .. => t | .cancelled t .. => t
def Ev.wall : Ev → Int
  | .spawn _ w .. => w | .down _ w .. => w | .fired _ w .. => w | .cancelled _ w .. => w
def Ev.sup : Ev → AState
  | .spawn _ _ s .. => s | .down _ _ s .. => s | .fired _ _ s => s | .cancelled _ _ s => s

/-- `child_manager_plugin_t::on_spawn`, `child_manager.cpp:210-253`.  Simplification: a factory that
throws after having created an actor is not considered. -/
def onSpawn (c : Cfg) (s : State) (t w : Int) (st : AState) (selfPolicy ok : Bool) : State :=
  let s := { s with pending := s.pending - 1 }
  if s.info.active = false then s
  else
    let i := spawnAttempt c s.info w
    if ok then { s with info := i, inst := true, out := s.out ++ [.factory t true] }
    else
      let tryNext := c.policy = .always ∨ c.policy = .failOnly
      let selfFails := st = .initializing ∧ selfPolicy = true
      let out := s.out ++ [.factory t false] ++ (if selfFails then [.supInitFailed] else [])
      if tryNext ∧ ¬ selfFails then
        { s with info := { i with timer := true }, deadline := t + c.period, out := out }
      else { s with info := { i with active := false }, out := out }

/-- `remove_child`, `child_manager.cpp:124-157`, the part about the spawner -/
def onDown (c : Cfg) (s : State) (t w : Int) (st : AState) (abnormal answer : Bool) : State :=
  if st.rank ≤ AState.operational.rank then
    let (i, d) := nextSpawn c s.info abnormal answer w
    match d with
    | .now => { s with info := i, inst := false, pending := s.pending + 1 }
    | .escalate => { s with info := i, inst := false, present := false, out := s.out ++ [.escalate] }
    | .after _ => { s with info := { i with timer := true }, inst := false, deadline := t + c.period }
    | .no => { s with info := i, inst := false, present := false }
  else { s with inst := false, present := false }

/-- `on_spawn_timer`, `child_manager.cpp:493-508` -/
def onTimer (s : State) (st : AState) (cancelled : Bool) : State :=
  let i := { s.info with timer := false }
  if cancelled then { s with info := { i with active := false } }
  else if st.rank ≤ AState.operational.rank then { s with info := i, pending := s.pending + 1 }
  else { s with info := i }

/-- one event; `none` if it cannot happen: a message that is not in the queue, an instance that does
not exist, a timer that is not armed or would fire before its deadline (C15).  `on_spawn` asserts
that the spawner is still known. -/
def step (c : Cfg) (s : State) : Ev → Option State
  | .spawn t w st sp ok => if s.pending > 0 ∧ s.present then some (onSpawn c s t w st sp ok) else none
  | .down t w st ab an => if s.inst then some (onDown c s t w st ab an) else none
  | .fired t _ st => if s.info.timer ∧ s.deadline ≤ t then some (onTimer s st false) else none
  | .cancelled _ _ st => if s.info.timer then some (onTimer s st true) else none

def run (c : Cfg) (s : State) : List Ev → Option State
  | [] => some s
  | e :: es => match step c s e with
    | none => none
    | some s' => run c s' es

end Verif.Spawner
