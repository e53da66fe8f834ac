import Verif.RegPlugin.Run
/-!
# Concrete executions of the registry plugin, and where the code does not do what one would expect
-/

namespace Verif.RegPlugin

/-- one name is registered, two names are found at two addresses -/
example : after c3 (linkedUp ++ [.discRes 2 (some 50) yes, .regRes 1 true yes, .discRes 3 (some 60) yes, .linkRes 60 true yes yes,
      .linkRes 50 true yes yes])
    (fun σ => decide (σ.st = .initialized ∧ σ.vars 20 = some 50 ∧ σ.vars 30 = some 60 ∧ σ.disc = [] ∧ σ.log.head? = some (.answer true) ∧
      Ev.called 2 .linking true (some 50) ∈ σ.log)) = true := by decide

/-- two names at one address -/
example : after c2 (linkedUp ++ [.discRes 2 (some 50) yes, .discRes 3 (some 50) yes, .linkRes 50 true yes yes])
    (fun σ => decide (σ.st = .initialized ∧ σ.log.countP (fun e => decide (e = .linkReq 50 (.task 2))) = 1 ∧
      Ev.called 2 .linking true (some 50) ∈ σ.log ∧ Ev.called 3 .linking true (some 50) ∈ σ.log)) = true := by decide

/-- a failed registration, discovery, link -/
example : after c3 (linkedUp ++ [.regRes 1 false yes]) (fun σ => decide (σ.log.head? = some (.answer false))) = true := by decide
example : after c3 (linkedUp ++ [.discRes 2 none yes]) (fun σ => decide (σ.log.head? = some (.answer false))) = true := by decide
example : after c3 [.init yes, .linkRes 100 false yes yes] (fun σ => decide (σ.log.head? = some (.answer false))) = true := by decide

/-- the name is deregistered -/
example : after c3 (linkedUp ++ [.discRes 2 (some 50) yes, .regRes 1 true yes, .discRes 3 (some 60) yes, .linkRes 60 true yes yes,
      .linkRes 50 true yes yes, .start, .shut yes, .finish])
    (fun σ => decide (σ.st = .shutDown ∧ Ev.dereg 1 ∈ σ.log)) = true := by decide

/-- a delayed discovery is cancelled -/
example : after c3 (linkedUp ++ [.discRes 2 (some 50) yes, .regRes 1 true yes, .linkRes 50 true yes yes, .shut yes, .discRes 3 none yes, .finish])
    (fun σ => decide (σ.st = .shutDown ∧ Ev.cancel 3 ∈ σ.log ∧ Ev.dereg 1 ∈ σ.log)) = true := by decide

/-- C49: a second name found at an address that is linked already is never reported: nothing is awaited and the actor does not initialize -/
theorem C49_late_counterexample : after c2 (linkedUp ++ [.discRes 2 (some 50) yes, .linkRes 50 true yes yes, .discRes 3 (some 50) yes])
    (fun σ => decide (σ.st = .initializing ∧ σ.initReq = true ∧ σ.qReg = [] ∧ σ.qDisc = [] ∧ σ.qLink = [] ∧
      Ev.answer false ∉ σ.log ∧ Ev.called 3 .linking true (some 50) ∉ σ.log)) = true := by decide

/-- C49, C31: a name has failed and the init request has been answered with an error, then the next answer completes the initialization:
a second answer, and the actor is INITIALIZED -/
theorem C49_revived_counterexample : after c3 (linkedUp ++ [.discRes 2 none yes, .discRes 3 (some 60) yes, .regRes 1 true yes, .linkRes 60 true yes yes])
    (fun σ => decide (σ.st = .initialized ∧ σ.log.head? = some (.answer true) ∧ Ev.answer false ∈ σ.log)) = true := by decide

/-- C49, C31: the link to an address found fails: the init request is answered twice -/
theorem C49_twice_counterexample : after c2 (linkedUp ++ [.discRes 2 (some 50) yes, .linkRes 50 false yes yes])
    (fun σ => decide (σ.log.take 2 = [.answer false, .answer false])) = true := by decide

/-- C49: .. and the next failure finds no init request: an assertion fails -/
theorem C49_answered_counterexample : fails c2 (linkedUp ++ [.discRes 2 (some 50) yes, .linkRes 50 false yes yes, .discRes 3 none yes]) .assertion = true := by
  decide

/-- C49: shutdown while a name is registered: the answer finds no record, an assertion fails; without assertions the registry keeps the name -/
theorem C49_registering_counterexample : fails c3 (linkedUp ++ [.shut served, .regRes 1 true yes]) .assertion = true ∧
    after c3 (linkedUp ++ [.shut yes]) (fun σ => decide (σ.qReg = [1] ∧ Ev.dereg 1 ∉ σ.log)) = true := by decide

/-- C49: shutdown while a name is discovered, not delayed -/
theorem C49_discovering_counterexample : fails c2 (linkedUp ++ [.shut served, .discRes 2 (some 50) yes]) .assertion = true := by decide

/-- C49: shutdown with two delayed discoveries to be cancelled, or with one and another reason to poll the plugins before its answer:
the next poll forgets the tasks that are being cancelled, the answer finds no task -/
theorem C49_cancelled_counterexample : fails cLate (linkedUp ++ [.shut yes, .discRes 2 none yes, .discRes 3 none yes]) .assertion = true ∧
    fails cLate (linkedUp ++ [.shut served, .contShut served, .discRes 2 none served]) .assertion = true := by decide

/-- C49: shutdown while the address found by a delayed discovery is linked: the callback of the link continues the shutdown, which destroys
the record of the link the caller goes on to use -/
theorem C49_destroyed_counterexample : fails cLate (linkedUp ++ [.discRes 2 (some 50) yes, .discRes 3 (some 50) yes, .shut yes, .linkRes 50 true yes yes])
    .dangling = true := by decide

/-- C49: .. if the discovery was not delayed, the task is destroyed at once; with clients the link remains, and its callback uses the task -/
theorem C49_callback_counterexample : fails c2 (linkedUp ++ [.discRes 2 (some 50) yes, .discRes 3 (some 50) yes, .shut served, .linkRes 50 true yes yes])
    .dangling = true := by decide

/-- C49: the delayed discovery to be cancelled succeeds all the same, at an address known by another name: the task is not erased and the
shutdown waits for ever -/
theorem C49_stays_counterexample : after cLate (linkedUp ++ [.discRes 2 (some 50) yes, .linkRes 50 true yes yes, .shut yes, .discRes 3 (some 50) yes])
    (fun σ => decide (σ.st = .shuttingDown ∧ σ.rShutR = true ∧ σ.qReg = [] ∧ σ.qDisc = [] ∧ σ.qLink = [])) = true := by decide

/-- C49: two names with one variable -/
theorem C49_shared_counterexample : fails cShared (linkedUp ++ [.discRes 2 (some 50) yes, .discRes 3 (some 60) yes, .linkRes 50 true yes yes,
    .linkRes 60 true yes yes]) .dangling = true := by decide

/-- C49: a variable overwritten by the user before the link is established -/
theorem C49_poked_counterexample : fails c2 (linkedUp ++ [.discRes 2 (some 50) yes, .poke 20 none, .linkRes 50 true yes yes]) .terminate = true := by decide

/-- C49: a name found at an address the user has linked already -/
theorem C49_linked_counterexample : fails cUser [.init yes, .linkRes 50 true yes yes, .linkRes 100 true yes yes, .discRes 2 (some 50) yes] .assertion = true := by
  decide

/-- C49: an actor with clients is shut down while its init request is open and it waits for the registry: the answer of the registry
continues an initialization that is over -/
theorem C49_down_counterexample : fails c2 [.init yes, .shut served, .linkRes 100 true yes yes] .assertion = true := by decide

end Verif.RegPlugin
