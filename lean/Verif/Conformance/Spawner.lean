import Verif.Spawner.Props
/-!
# The scenarios of `tests/024-supervisor-spawner.cpp` in the model of the spawner

Each `example` replays a section of the project's own test and compares what it checks. They are tests of the model, not proofs of properties.
The tests call the timers by hand; here they fire at their deadline (the default period is 15 s, `spawner.h:34`).
-/

namespace Verif.Spawner.Conformance
open Verif Verif.Spawner

/-- `invocations` of the factory -/
def invocations (s : State) : Nat := s.out.countP (fun o => match o with | .factory _ _ => true | _ => false)

/-- the instances that were started -/
def samples (s : State) : Nat := s.out.countP (fun o => match o with | .factory _ ok => ok | _ => false)

def chk (c : Cfg) (es : List Ev) (p : State → Bool) : Bool := match run c .start es with | some s => p s | none => false

def cfg (p : Policy) (max : Nat := 0) (esc : Bool := false) : Cfg := ⟨p, 15, max, esc⟩

/-- the factory throws: `restart_policy: never` (84-92) -/
example : chk (cfg .never) [.spawn 0 0 .operational false false] (fun s => invocations s = 1 ∧ s.info.timer = false ∧ s.pending = 0) := rfl
/-- `ask_actor` (94-102) -/
example : chk (cfg .askActor) [.spawn 0 0 .operational false false] (fun s => invocations s = 1 ∧ s.info.timer = false ∧ s.pending = 0) := rfl
/-- `normal_only` (104-112) -/
example : chk (cfg .normalOnly) [.spawn 0 0 .operational false false] (fun s => invocations s = 1 ∧ s.info.timer = false ∧ s.pending = 0) := rfl
/-- `fail_only` (114-126): it goes on until the supervisor shuts down -/
example : chk (cfg .failOnly) [.spawn 0 0 .operational false false, .fired 15 15 .operational, .spawn 15 15 .operational false false,
    .fired 30 30 .operational, .spawn 30 30 .operational false false, .fired 45 45 .operational, .spawn 45 45 .operational false false,
    .cancelled 46 46 .shuttingDown] (fun s => invocations s = 4 ∧ s.info.timer = false ∧ s.pending = 0) := rfl
/-- `always` (128-140): the same -/
example : chk (cfg .always) [.spawn 0 0 .operational false false, .fired 15 15 .operational, .spawn 15 15 .operational false false,
    .fired 30 30 .operational, .spawn 30 30 .operational false false, .fired 45 45 .operational, .spawn 45 45 .operational false false,
    .cancelled 46 46 .shuttingDown] (fun s => invocations s = 4 ∧ s.info.timer = false ∧ s.pending = 0) := rfl
/-- `always + max_attempts` (142-151): three invocations, whatever the timers do -/
example : chk (cfg .always 3) [.spawn 0 0 .operational false false, .fired 15 15 .operational, .spawn 15 15 .operational false false,
    .fired 30 30 .operational, .spawn 30 30 .operational false false, .fired 45 45 .operational, .spawn 45 45 .operational false false]
    (fun s => invocations s = 3 ∧ s.info.timer = false ∧ s.pending = 0) := rfl

/-- normal flow, `never` (181-194) -/
example : chk (cfg .never) [.spawn 0 0 .operational false true, .down 1 1 .operational false false]
    (fun s => samples s = 1 ∧ s.info.timer = false ∧ s.pending = 0) := rfl
/-- `always`, two attempts (196-214) -/
example : chk (cfg .always 2) [.spawn 0 0 .operational false true, .down 1 1 .operational false false, .fired 16 16 .operational,
    .spawn 16 16 .operational false true, .down 17 17 .shuttingDown false false]
    (fun s => samples s = 2 ∧ invocations s = 2 ∧ s.info.timer = false ∧ s.pending = 0) := rfl
/-- `normal_only` (216-241) -/
example : chk (cfg .normalOnly) [.spawn 0 0 .operational false true, .down 1 1 .operational false false, .fired 16 16 .operational,
    .spawn 16 16 .operational false true, .down 17 17 .operational true false]
    (fun s => samples s = 2 ∧ invocations s = 2 ∧ s.info.timer = false ∧ s.pending = 0) := rfl
/-- `fail_only` (243-268) -/
example : chk (cfg .failOnly) [.spawn 0 0 .operational false true, .down 1 1 .operational true false, .fired 16 16 .operational,
    .spawn 16 16 .operational false true, .down 17 17 .operational false false]
    (fun s => samples s = 2 ∧ invocations s = 2 ∧ s.info.timer = false ∧ s.pending = 0) := rfl
/-- `ask_actor` (270-299) -/
example : chk (cfg .askActor) [.spawn 0 0 .operational false true, .down 1 1 .operational true true, .fired 16 16 .operational,
    .spawn 16 16 .operational false true, .down 17 17 .operational false false]
    (fun s => samples s = 2 ∧ invocations s = 2 ∧ s.info.timer = false ∧ s.pending = 0) := rfl

/-- the factory throws while a supervisor with the policy `shutdown_self` initializes (383-396) -/
example : chk (cfg .normalOnly) [.spawn 0 0 .initializing true false]
    (fun s => s.out = [.factory 0 false, .supInitFailed] ∧ s.info.timer = false ∧ s.pending = 0) := rfl

/-- escalation, `always` (421-440) -/
example : chk (cfg .always 2 true) [.spawn 0 0 .operational false true, .down 1 1 .operational true false, .fired 16 16 .operational,
    .spawn 16 16 .operational false true, .down 17 17 .operational true false]
    (fun s => samples s = 2 ∧ invocations s = 2 ∧ s.out.getLast? = some .escalate ∧ s.info.timer = false ∧ s.pending = 0) := rfl
/-- `normal_only` (442-461) -/
example : chk (cfg .normalOnly 2 true) [.spawn 0 0 .operational false true, .down 1 1 .operational false false, .fired 16 16 .operational,
    .spawn 16 16 .operational false true, .down 17 17 .operational true false]
    (fun s => samples s = 2 ∧ invocations s = 2 ∧ s.out.getLast? = some .escalate ∧ s.info.timer = false ∧ s.pending = 0) := rfl
/-- `fail_only + max_fails` (463-482) -/
example : chk (cfg .failOnly 2 true) [.spawn 0 0 .operational false true, .down 1 1 .operational true false, .fired 16 16 .operational,
    .spawn 16 16 .operational false true, .down 17 17 .operational true false]
    (fun s => samples s = 2 ∧ invocations s = 2 ∧ s.out.getLast? = some .escalate ∧ s.info.timer = false ∧ s.pending = 0) := rfl

end Verif.Spawner.Conformance
