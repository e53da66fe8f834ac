import Verif.ThreadTimers.Props
import Verif.Routing.Props
/-!
# The scenarios of `tests/142-thread_timer.cpp` and `tests/031-next-address.cpp`

Each `example` replays a test of the project and compares what it checks. They are tests of the models, not proofs of properties. The numbers are the
lines of the test; times are milliseconds.
-/

namespace Verif.ThreadTimers.Conformance
open Verif.ThreadTimers

/-- the callbacks do nothing -/
def idle : Env := fun _ _ => []

/-- the callbacks invoked, oldest first, with whether they were cancelled -/
def calls (env : Env) (ops : List Op) : Option (List (Nat × Bool)) :=
  match run 50 env (.init 0) ops with
  | .ok σ => some (σ.log.reverse.filterMap (fun e => match e with | .called id c _ => some (id, c) | _ => none))
  | .error _ => none

/-- "timer" (175): the first timer starts a request, i.e. the timer 3 of 1 ms, which fires; the timer of one minute is cancelled in the shutdown -/
def starter : Env := fun _ log => match log with | .called 1 _ _ :: _ => [.start 1] | _ => []
example : calls starter [.handler [.start 1, .start 60000], .handler [.work 2], .update, .handler [.work 2], .update, .handler [.cancel 2]] =
    some [(1, false), (3, false), (2, true)] := rfl

/-- "correct timeout triggering" (189): the timer of 1 ms fires, the one of the request (9 ms) is cancelled by the reply -/
example : calls idle [.handler [.start 9], .handler [.start 1], .handler [.work 2], .update, .handler [.cancel 1]] = some [(2, false), (1, true)] := rfl

/-- "no I/O tag, incorrect timers" (202): 50 ms pass in a plain handler, so that the timer of 70 ms started then fires before the one of 100 ms started at
first -/
def slow (o : Op) : List Op := [.handler [.start 100, .work 50], o, .handler [.work 1], .update, .handler [.work 20], .update]
example : calls idle (slow (.handler [.start 70])) = some [(2, false)] := rfl
example : calls idle (slow (.handler [.start 70]) ++ [.handler [.cancel 1]]) = some [(2, false), (1, true)] := rfl

/-- "has I/O tag, correct timers" (217): the timer of 7 ms is started by a handler with the tag after 5 ms, and fires after the one of 10 ms -/
example : calls idle [.handler [.start 10, .work 5], .io [.start 7, .start 10, .cancel 3], .handler [.work 6], .update, .handler [.work 2], .update] =
    some [(3, true), (1, false), (2, false)] := rfl

end Verif.ThreadTimers.Conformance

namespace Verif.Routing.Conformance
open Verif.Routing

/-- "delivery to unknown addr" (26), "delivery to local address, then route to destroy address" (58): the loop has the only reference, and sends it on after
the local handlers, if any -/
example : (run .init [.finish 0, .load 0, .act 0]).log = [.hop 0, .finish 0, .start 0] := rfl

/-- "delivery to external subscriber, then route to destroy address" (153): the loop has let go of the message before the other supervisor, which the same
thread runs, calls the handler; the wrapped call sends the message on -/
example : (run .init [.wrap, .finish 0, .load 0, .act 0, .finish 1, .load 1, .act 1]).log = [.hop 1, .finish 1, .finish 0, .start 1, .start 0] := rfl

end Verif.Routing.Conformance
