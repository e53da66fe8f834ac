import Verif.Registry.Props
import Verif.RegPlugin.SafeCases
/-!
# The scenarios of `tests/030-registry.cpp` in the models of the registry and of the registry plugin

Each `example` replays a test of the project and compares what it checks. They are tests of the models, not proofs of properties. The numbers are the
lines of the test.
-/

namespace Verif.Registry.Conformance
open Verif Verif.Registry

/-- "registry actor (server)" (146): the actor is 9; the replies, in order -/
def replies (ms : List Msg) : Option (List Reply) := match State.init.run ms with | .ok (_, out) => some out | .error _ => none

/-- "discovery non-existing name" (156) -/
example : replies [.discover ⟨1, 9⟩ 5] = some [.discovery ⟨1, 9⟩ (.error .unknownService)] := rfl

/-- "duplicate registration attempt" (166) -/
example : replies [.register ⟨1, 9⟩ 5 9, .register ⟨2, 9⟩ 5 9] = some [.registration ⟨1, 9⟩ none, .registration ⟨2, 9⟩ (some .alreadyRegistered)] := rfl

/-- "reg 2 names, check, unreg on, check" (180) -/
example : replies [.register ⟨1, 9⟩ 1 9, .discover ⟨2, 9⟩ 1, .register ⟨3, 9⟩ 2 9, .discover ⟨4, 9⟩ 2, .register ⟨5, 9⟩ 3 9, .deregisterName 2,
      .discover ⟨6, 9⟩ 2, .deregister 9, .discover ⟨7, 9⟩ 1, .discover ⟨8, 9⟩ 3] =
    some [.registration ⟨1, 9⟩ none, .discovery ⟨2, 9⟩ (.ok 9), .registration ⟨3, 9⟩ none, .discovery ⟨4, 9⟩ (.ok 9), .registration ⟨5, 9⟩ none,
      .discovery ⟨6, 9⟩ (.error .unknownService), .discovery ⟨7, 9⟩ (.error .unknownService), .discovery ⟨8, 9⟩ (.error .unknownService)] := rfl

/-- "promise, register, future" (225) -/
example : replies [.promise ⟨1, 9⟩ 1, .register ⟨2, 9⟩ 1 9] = some [.registration ⟨2, 9⟩ none, .future ⟨1, 9⟩ (.ok 9)] := rfl
/-- "future, register, promise" (232) -/
example : replies [.register ⟨2, 9⟩ 1 9, .promise ⟨1, 9⟩ 1] = some [.registration ⟨2, 9⟩ none, .future ⟨1, 9⟩ (.ok 9)] := rfl
/-- "cancel" (240): the promise is gone -/
example : (match State.init.run [.promise ⟨1, 9⟩ 1, .cancel 1 9] with | .ok (s, out) => some (s.promises, out) | .error _ => none) =
    some ([], [.future ⟨1, 9⟩ (.error .cancelled)]) := rfl

end Verif.Registry.Conformance

namespace Verif.RegPlugin.Conformance
open Verif Verif.RegPlugin

/-- the number of calls of the user's callbacks, all with success -/
def successes (σ : State) : Nat := σ.log.countP (fun e => match e with | .called _ _ true _ => true | _ => false)
def failures (σ : State) : Nat := σ.log.countP (fun e => match e with | .called _ _ false _ => true | _ => false)

/-- the service 1 registers itself (address 7); the registry is 100 -/
def server : Conf := ⟨100, [.reg 1 7], []⟩
example : after server (linkedUp ++ [.regRes 1 true yes]) (fun σ => decide (σ.st = .initialized ∧ Ev.register 1 7 ∈ σ.log)) = true := by decide

/-- "common case (just discover)" (267): the name is found, the server is linked to anyway, the actor initializes, and the variable has the address -/
def finder : Conf := ⟨100, [.disc 1 20 false false], []⟩
example : after finder (linkedUp ++ [.discRes 1 (some 7) yes, .linkRes 7 true yes yes, .start])
    (fun σ => decide (σ.st = .operational ∧ σ.vars 20 = some 7 ∧ successes σ = 0)) = true := by decide

/-- "common case (discover & link)" (293): two successful calls of the callback -/
def linker (delayed : Bool) : Conf := ⟨100, [.disc 1 20 delayed true], []⟩
example : after (linker false) (linkedUp ++ [.discRes 1 (some 7) yes, .linkRes 7 true yes yes, .start])
    (fun σ => decide (σ.st = .operational ∧ σ.vars 20 = some 7 ∧ successes σ = 2 ∧ failures σ = 0)) = true := by decide

/-- "aliasing (discover & link)" (327): two names of one actor, into one variable: four calls, one link -/
def aliases : Conf := ⟨100, [.disc 1 20 false true, .disc 2 20 false true], []⟩
example : after aliases (linkedUp ++ [.discRes 1 (some 7) yes, .discRes 2 (some 7) yes, .linkRes 7 true yes yes, .start])
    (fun σ => decide (σ.st = .operational ∧ σ.vars 20 = some 7 ∧ successes σ = 4 ∧ failures σ = 0 ∧ σ.srv.keys.contains 7 ∧ σ.srv.length = 2)) = true := by
  decide

/-- "common case (promise & link)" (369): nothing before the service registers -/
example : after (linker true) linkedUp (fun σ => decide (σ.st = .initializing ∧ successes σ = 0)) = true := by decide
/-- "successful link" (385) -/
example : after (linker true) (linkedUp ++ [.discRes 1 (some 7) yes, .linkRes 7 true yes yes, .start])
    (fun σ => decide (σ.st = .operational ∧ σ.vars 20 = some 7 ∧ successes σ = 2)) = true := by decide
/-- "cancel promise" (399): the shutdown cancels the promise, the registry answers with an error, and the discovery map is empty -/
example : after (linker true) (linkedUp ++ [.shut yes]) (fun σ => decide (σ.st = .shuttingDown ∧ Ev.cancel 1 ∈ σ.log ∧ σ.disc.length = 1)) = true := by decide
example : after (linker true) (linkedUp ++ [.shut yes, .discRes 1 none yes, .finish]) (fun σ => decide (σ.st = .shutDown ∧ σ.disc.length = 0)) = true := by
  decide

/-- "discovery non-existing name => fail to init" (417) -/
example : after finder (linkedUp ++ [.discRes 1 none yes]) (fun σ => decide (σ.log.head? = some (.answer false))) = true := by decide

/-- "double name registration => fail" (437): the second actor is refused by the registry -/
example : Verif.Registry.Conformance.replies [.register ⟨1, 7⟩ 1 7, .register ⟨2, 8⟩ 1 8] =
    some [.registration ⟨1, 7⟩ none, .registration ⟨2, 8⟩ (some .alreadyRegistered)] := rfl
example : after ⟨100, [.reg 1 8], []⟩ (linkedUp ++ [.regRes 1 false yes]) (fun σ => decide (σ.log.head? = some (.answer false))) = true := by decide

/-- "notify linked clients about going to shutdown" (462): the first actor has registered its name and waits for another one; it is shut down: the name is
deregistered, the promise cancelled; it does not drop its links as long as it has clients -/
def both : Conf := ⟨100, [.reg 1 7, .disc 2 20 true false], []⟩
example : after both (linkedUp ++ [.regRes 1 true yes]) (fun σ => decide (σ.st = .initializing)) = true := by decide
example : after both (linkedUp ++ [.regRes 1 true yes, .shut served]) (fun σ => decide (Ev.dereg 1 ∈ σ.log ∧ Ev.cancel 2 ∈ σ.log)) = true := by decide
example : after both (linkedUp ++ [.regRes 1 true yes, .shut served, .discRes 2 none served]) (fun σ => σ.disc.isEmpty && σ.rShutL) = true := by decide
example : after both (linkedUp ++ [.regRes 1 true yes, .shut served, .discRes 2 none served, .contShut yes, .finish]) (fun σ => decide (σ.st = .shutDown)) = true := by
  decide

end Verif.RegPlugin.Conformance
