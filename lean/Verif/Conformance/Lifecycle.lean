import Verif.Lifecycle.Props
/-!
# The scenarios of `tests/012-actor-lifetime.cpp` in the model of the life cycle

Each `example` replays a test of the project and compares what it checks. They are tests of the model, not proofs of properties. The numbers are the
lines of the test.
-/

namespace Verif.Lifecycle.Conformance
open Verif Verif.Lifecycle

/-- an actor with two plugins that take part in both phases -/
def plain : Cfg := ⟨2, fun _ _ => true, false, false, false, fun _ => true⟩
/-- they agree -/
def yes : Env := fun _ _ _ => (true, [])
/-- the second one holds a resource until it has been asked once in each phase -/
def slow : Env := fun ph i log => (i == 0 || log.contains (.answer ph i false), [])

def evs (c : Cfg) (env : Env) (ops : List Op) : Option (List Ev) := match run c env .init ops with | .ok σ => some σ.log.reverse | .error _ => none
def at_ (c : Cfg) (env : Env) (ops : List Op) : Option AState := match run c env .init ops with | .ok σ => some σ.st | .error _ => none

/-- what the test counts: `init_start`, `init_finish`, `on_start`, `shutdown_start`, `shutdown_finish` -/
def phases (l : Option (List Ev)) : Option (List AState) := l.map (fun l => l.filterMap (fun e => match e with | .became s => some s | _ => none))

/-- "actor lifetimes" (96) -/
example : phases (evs plain yes [.activate, .initRequest 1, .start, .shutRequest (some 2) (some 3)]) =
    some [.initializing, .initialized, .operational, .shuttingDown, .shutDown] := rfl

/-- the whole story -/
example : evs plain yes [.activate, .initRequest 1, .start, .shutRequest (some 2) (some 3)] =
    some [.became .initializing, .gotInit 1, .ask .init 0, .answer .init 0 true, .ask .init 1, .answer .init 1 true, .replyInit 1 true, .became .initialized,
      .became .operational, .gotShut (some 2) (some 3), .became .shuttingDown, .ask .shut 1, .answer .shut 1 true, .ask .shut 0, .answer .shut 0 true,
      .replyShut 2 true, .became .shutDown] := rfl

/-- "fail shutdown test" (129): a resource is held; the shutdown is continued when it is released -/
example : at_ plain slow [.activate, .initRequest 1, .progress .init, .start, .shutRequest (some 2) (some 3)] = some .shuttingDown := rfl
example : at_ plain slow [.activate, .initRequest 1, .progress .init, .start, .shutRequest (some 2) (some 3), .progress .shut] = some .shutDown := rfl

/-- "fail initialize test" (175): a resource is held, the actor does not initialize, but it can be shut down -/
example : at_ plain slow [.activate, .initRequest 1] = some .initializing := rfl
example : at_ plain slow [.activate, .initRequest 1, .shutRequest (some 2) (some 3), .progress .shut] = some .shutDown := rfl

/-- "autoshutdown supervisor" (240), "escalate failure" (258): the triggers for the supervisor -/
example : (evs { plain with autoShutdown := true } yes [.activate, .initRequest 1, .start, .shutRequest (some 2) (some 3)]).map (·.contains (.trigger .childDown (some 3))) =
    some true := rfl
example : (evs { plain with escalate := true } yes [.activate, .initRequest 1, .start, .shutRequest (some 2) (some 3)]).map (·.contains (.trigger .escalation (some 3))) =
    some true := rfl

end Verif.Lifecycle.Conformance
