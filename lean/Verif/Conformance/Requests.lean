import Verif.Requests.Props
import Verif.Resources.Props
/-!
# The scenarios of `tests/017-req-res.cpp` and `tests/015-resources.cpp`

Each `example` replays a test of the project and compares what it checks. They are tests of the models, not proofs of properties. The numbers are the
lines of the test.
-/

namespace Verif.Requests.Conformance
open Verif Verif.Requests

/-- one supervisor (0) with the actors 1, 2 -/
def c : Cfg := ⟨fun _ => 0, 0, 1000⟩
/-- a supervisor 5 with the actor 6 in the same locality -/
def c2 : Cfg := ⟨fun a => if a = 5 ∨ a = 6 then 5 else 0, 0, 1000⟩

/-- no timer callbacks of the user -/
def idle : Env := fun _ => []

def chk (c : Cfg) (ops : List Op) (p : State → Bool) : Bool := match run c 50 idle .init ops with | .ok σ => p σ | .error _ => false

/-- the responses that were delivered to `o`, oldest first -/
def got (o : Nat) (σ : State) : List (Option Nat) :=
  σ.log.reverse.filterMap (fun e => match e with | .delivered _ (.response _ o' r) => if o' = o then some r else none | _ => none)

/-- no request, no timer, no message -/
def clean (σ : State) : Bool := σ.reqs.isEmpty && σ.timers.isEmpty && σ.active.isEmpty && σ.queue.isEmpty

/-- "request-response successful delivery" (445) -/
def asked : List Op := [.act 1 [.request 1], .process]
example : chk c (asked ++ [.arrive (.reply 0 1 5), .process, .process]) (fun σ => got 1 σ == [some 5] && clean σ) := rfl

/-- "request-response successful delivery identical message to 2 actors" (481) -/
example : chk c [.act 1 [.request 1], .act 2 [.request 2], .process, .arrive (.reply 0 1 5), .process, .arrive (.reply 0 2 5), .process, .process, .process, .process]
    (fun σ => got 1 σ == [some 5] && got 2 σ == [some 5] && clean σ) := rfl

/-- "request-response timeout" (509): one timer; the timeout; a reply after it is dropped -/
example : chk c asked (fun σ => σ.timers.length == 1 && got 1 σ == []) := rfl
example : chk c (asked ++ [.fire 0 1, .process]) (fun σ => got 1 σ == [none] && clean σ) := rfl
example : chk c (asked ++ [.fire 0 1, .process, .arrive (.reply 0 1 1), .process, .process]) (fun σ => got 1 σ == [none] && clean σ) := rfl

/-- "request-response successful delivery (supervisor)" (572) -/
example : chk c [.act 0 [.request 0], .process, .arrive (.reply 0 1 5), .process, .process] (fun σ => got 0 σ == [some 5] && clean σ) := rfl

/-- "request-response successful delivery, ref-counted response" (595): the response goes to another address (7) of the actor -/
example : chk c [.act 1 [.request 7], .process, .arrive (.reply 0 1 5), .process, .process] (fun σ => got 7 σ == [some 5] && got 1 σ == [] && clean σ) := rfl

/-- "request-response successful delivery, twice" (619) -/
example : chk c (asked ++ [.arrive (.reply 0 1 5), .process, .process, .act 1 [.request 1], .process, .arrive (.reply 0 2 5), .process, .process])
    (fun σ => got 1 σ == [some 5, some 5] && clean σ) := rfl

/-- "response is sent twice, but received once" (643) -/
example : chk c (asked ++ [.arrive (.reply 0 1 5), .arrive (.reply 0 1 5), .process, .process, .process]) (fun σ => got 1 σ == [some 5] && clean σ) := rfl

/-- "ref-counted response forwarding" (667): the request 1 is passed on as the request 2 with the address 7, and answered with the response to it -/
example : chk c (asked ++ [.act 1 [.request 7], .process, .arrive (.reply 0 2 5), .process, .process, .arrive (.reply 0 1 5), .process, .process])
    (fun σ => got 7 σ == [some 5] && got 1 σ == [some 5] && clean σ) := rfl

/-- "response arrives after requestee shutdown" (714) -/
example : chk c (asked ++ [.finish 1, .arrive (.reply 0 1 5), .process, .process]) (fun σ => got 1 σ == [] && clean σ) := rfl
/-- the same with another supervisor in the locality (744) -/
example : chk c2 [.act 6 [.request 6], .process, .finish 6, .arrive (.reply 5 1 5), .process, .process] (fun σ => got 6 σ == [] && clean σ) := rfl

/-- "request timer should not outlive requestee" (775) -/
example : chk c [.act 1 [.request 0]] (fun σ => σ.active == [(1, 1)] && !σ.timers.isEmpty) := rfl
example : chk c [.act 1 [.request 0], .finish 1] (fun σ => σ.active.isEmpty && σ.timers.isEmpty && σ.reqs.isEmpty) := rfl

/-- "response and regular messages keep send order" (798): the handler replies and sends another message -/
def order (σ : State) : Nat :=
  σ.log.reverse.foldl (fun n e => match e with | .delivered _ (.response ..) => n * 10 | .delivered _ (.other _) => n + 3 | _ => n) 5
example : chk c (asked ++ [.arrive (.reply 0 1 0), .arrive (.other 0), .process, .process, .process]) (fun σ => order σ == 53 && clean σ) := rfl

end Verif.Requests.Conformance

namespace Verif.Resources.Conformance
open Verif Verif.Resources

/-- "release/acquire resources, when other actor is in progress of configuration" (15): acquired and released while the starter is being configured, which
does not make `release` call `init_continue` again; then the plugin agrees -/
example : (match State.activated.acquire .initializing 0 with
    | .ok s => (match s.release .initializing true false 0 with | .ok (s', acquired, cont) => some (s'.counts, acquired, cont, s'.pollInit.2) | .error _ => none)
    | .error _ => none) = some ([0], false, .none, true) := rfl

/-- `tests/010-sup-start_stop.cpp:468`, "acquire resources on shutdown start": the actor does not shut down before the resource is released -/
example : (match State.activated.acquire .shuttingDown 0 with
    | .ok s => (match s.release .shuttingDown false false 0 with
      | .ok (s', acquired, cont) => some (s.pollShutdown.2, acquired, cont, s'.pollShutdown.2) | .error _ => none)
    | .error _ => none) = some (false, false, .shutdownContinue, true) := rfl

end Verif.Resources.Conformance
