import Verif.Basic.ActorState

/-!
# Model of the external shutdown flag

Source: `src/rotor/supervisor.cpp:69-88,153-162`, `include/rotor/supervisor_config.h:120-132`.
-/

namespace Verif.ShutdownFlag

/-- the supervisor: its state, the poll timer (the time it was armed for) and the `shutdown_trigger`
messages it sent because of the flag (with the time) -/
structure State where
  st : AState
  timer : Option Int
  triggers : List Int
  /-- the times the flag was looked at, and what it was, newest first -/
  polls : List (Int × Bool)
deriving DecidableEq, Repr

/-- what happens to the supervisor -/
inductive Ev where
  /-- `on_start` at time `t` -/
  | start (t : Int)
  /-- the poll timer expires at time `t`, the flag has the value `flag` -/
  | expired (t : Int) (flag : Bool)
  /-- the poll timer is cancelled (`shutdown_finish`, `src/rotor/actor_base.cpp:131-133`) -/
  | cancelled
  /-- the supervisor starts or finishes its shutdown, for whatever reason -/
  | shuttingDown
  | shutDown
deriving DecidableEq, Repr

/-- configuration: whether a flag was given, and the poll period -/
structure Cfg where
  hasFlag : Bool
  period : Int
deriving DecidableEq, Repr

/-- `supervisor_t::do_shutdown`, `src/rotor/supervisor.cpp:76-88` -/
def doShutdown (s : State) (t : Int) : State :=
  if s.st.rank < AState.shuttingDown.rank then { s with triggers := t :: s.triggers } else s

/-- `supervisor_t::on_start`, `src/rotor/supervisor.cpp:69-74` -/
def onStart (c : Cfg) (s : State) (t : Int) : State :=
  let s1 := { s with st := .operational }
  if c.hasFlag then { s1 with timer := some (t + c.period) } else s1

/-- `supervisor_t::on_shutdown_check_timer`, `src/rotor/supervisor.cpp:153-162` -/
def onTimer (c : Cfg) (s : State) (t : Int) (flag cancelled : Bool) : State :=
  let s := { s with timer := none }
  if cancelled then s
  else
    let s := { s with polls := (t, flag) :: s.polls }
    if flag then doShutdown s t else { s with timer := some (t + c.period) }

/-- one event; `none` if it cannot happen: a start of a supervisor that is not initialized, a timer
that is not armed or not due -/
def step (c : Cfg) (s : State) : Ev → Option State
  | .start t => if s.st = .initialized then some (onStart c s t) else none
  | .expired t flag => match s.timer with
    | none => none
    | some d => if d ≤ t then some (onTimer c s t flag false) else none
  | .cancelled => match s.timer with
    | none => none
    | some _ => some (onTimer c s 0 false true)
  | .shuttingDown => if s.st.rank < AState.shuttingDown.rank then some { s with st := .shuttingDown } else none
  | .shutDown => if s.st = .shuttingDown then some { s with st := .shutDown } else none

def run (c : Cfg) (s : State) : List Ev → Option State
  | [] => some s
  | e :: es => match step c s e with
    | none => none
    | some s' => run c s' es

/-- an initialized supervisor -/
def State.init : State := ⟨.initialized, none, [], []⟩

end Verif.ShutdownFlag
