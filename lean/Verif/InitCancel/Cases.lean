import Verif.InitCancel.Props
/-!
# Taking back the request for initialization: cases and counterexamples
-/

namespace Verif.InitCancel
open Verif

/-- a root supervisor 0 with the actor 3, and a supervisor 1 under it with the actors 2 and 4; the supervisor 1 has a locality of its own -/
def two : Cfg where
  parent := fun x => if x = 0 then none else if x = 1 ∨ x = 3 then some 0 else some 1
  isSup := fun x => decide (x = 0 ∨ x = 1)
  loc := fun x => x

/-- the same in one locality -/
def one : Cfg := { two with loc := fun _ => 0 }

/-- everybody is being initialized, and the actor 2 has made a request -/
def busy : List Op := [.create 0, .arrive 0 1, .create 1, .arrive 1 2, .create 2, .arrive 2 1, .request 2]

/-- **C80.** The full claim fails for a supervisor in another locality than its parent, for example in another thread. Somebody
wants the supervisor 1 to shut down while it is being initialized (`shutdown()`, `supervisor_thread.cpp:17-23`, or a child with
`escalate_failure`): the number of the request of its parent, 2, is the number of a request of its actor 2, which is discarded. The
response to it is dropped, and no timeout is there any more. -/
theorem C80_apart_counterexample :
    ∃ σ, run two State.init (busy ++ [.giveUp 1 1, .response 1 2, .expire 1 2]) = .ok σ ∧
      Ev.made 1 2 (.user 2) ∈ σ.log ∧ Ev.ended 1 2 (.user 2) (.givenUp 1) ∈ σ.log ∧ Ev.dropped 1 2 ∈ σ.log ∧
      Ev.ended 1 2 (.user 2) .answered ∉ σ.log ∧ Ev.ended 1 2 (.user 2) .expired ∉ σ.log ∧
      Waits 0 2 (.init 1) σ := by
  refine ⟨_, rfl, ?_, ?_, ?_, ?_, ?_, ?_⟩
  · decide
  · decide
  · decide
  · decide
  · decide
  · rfl

/-- **C80.** If it is the number of a timer, say of the timer after which a spawner makes the next attempt, an assertion fails. -/
theorem C80_assertion_counterexample :
    run two State.init [.create 0, .arrive 0 1, .create 1, .arrive 1 2, .create 2, .start 1, .giveUp 1 1] = .error .assertion := rfl

/-- in one locality the same does no harm: the request of the actor is waited for, and its response comes -/
example : ∃ σ, run one State.init ([.create 0, .arrive 0 1, .create 1, .arrive 1 2, .create 2, .arrive 2 3, .request 2, .giveUp 1 1,
      .giveUp 0 1, .response 1 4]) = .ok σ ∧
    Ev.ended 1 4 (.user 2) .answered ∈ σ.log ∧ Ev.ended 0 2 (.init 1) (.givenUp 1) ∈ σ.log ∧ ends 1 4 σ.log = 1 :=
  ⟨_, rfl, by decide, by decide, by decide⟩

/-- `C80_only_this`: the parent gives up the supervisor 1, the supervisor 1 its child 2 -/
example : ∃ σ, run two State.init (busy ++ [.giveUp 0 1, .giveUp 1 2]) = .ok σ ∧
    Ev.ended 0 2 (.init 1) (.givenUp 1) ∈ σ.log ∧ Ev.ended 1 1 (.init 2) (.givenUp 2) ∈ σ.log ∧ Waits 1 2 (.user 2) σ :=
  ⟨_, rfl, by decide, by decide, rfl⟩

/-- `C80_together`: the hypothesis -/
example : ∀ s p, one.parent s = some p → one.isSup s = true → one.loc p = one.loc s := fun _ _ _ _ => rfl

/-- `C80_others_stay`, `C80_taken_back`: the hypotheses -/
example : ∃ σ, run two State.init busy = .ok σ ∧ (∃ σ', step two σ (.giveUp 1 2) = .ok σ') ∧ ¬ ((2 : Nat) = 1 ∧ Apart two 1) ∧
    σ.held 2 = some 1 ∧ Waits 1 1 (.init 2) σ ∧ Waits 1 2 (.user 2) σ :=
  ⟨_, rfl, ⟨_, rfl⟩, by simp, rfl, rfl, rfl⟩

/-- `C80_self_noop`: the hypotheses, and a root supervisor, for which the request is its own -/
example : ∃ σ, run one State.init [.create 0, .arrive 0 1, .create 1, .arrive 1 2, .create 2, .arrive 2 3] = .ok σ ∧ one.isSup 1 = true ∧ one.parent 1 = some 0 ∧ one.loc 0 = one.loc 1 ∧
    σ.held 1 = some 2 ∧ Waits 0 2 (.init 1) σ := ⟨_, rfl, rfl, rfl, rfl, rfl, rfl⟩

example : ∃ σ σ', run one State.init [.create 0, .arrive 0 1] = .ok σ ∧ step one σ (.giveUp 0 0) = .ok σ' ∧
    Waits 0 1 (.init 0) σ ∧ ¬ Waits 0 1 (.init 0) σ' := ⟨_, _, rfl, rfl, rfl, by simp [Waits]; decide⟩

/-- `C80_apart_early`: the hypotheses -/
example : ∃ σ, run two State.init [.create 0, .arrive 0 1, .create 1, .arrive 1 2, .create 2] = .ok σ ∧ two.isSup 1 = true ∧
    σ.held 1 = some 2 ∧ σ.last (two.loc 1) < 2 ∧ Apart two 1 :=
  ⟨_, rfl, rfl, rfl, by decide, 0, rfl, by decide⟩

/-- `C80_no_fault`: the other assertions are passed: responses, cancelled timers -/
example : ∃ σ, run two State.init (busy ++ [.start 1, .cancel 1 3, .response 1 2, .response 1 2, .reply 2, .response 1 1]) = .ok σ ∧
    Ev.ended 1 3 .timer .cancelled ∈ σ.log ∧ Ev.dropped 1 2 ∈ σ.log ∧ Ev.ended 1 1 (.init 2) .answered ∈ σ.log :=
  ⟨_, rfl, by decide, by decide, by decide⟩

/-- `C80_accounted`, `C80_request_answered`: requests that end by their timeout, with the actor and with the supervisor -/
example : ∃ σ, run two State.init (busy ++ [.request 2, .request 2, .request 4, .expire 1 2, .stop 2, .stop 1]) = .ok σ ∧
    Ev.ended 1 2 (.user 2) .expired ∈ σ.log ∧ Ev.ended 1 3 (.user 2) (.stopped 2) ∈ σ.log ∧
    Ev.ended 1 5 (.user 4) (.stopped 1) ∈ σ.log ∧ ends 1 5 σ.log = 1 ∧ AMap.find (σ.timers 1) 5 = none :=
  ⟨_, rfl, by decide, by decide, by decide, by decide, rfl⟩

/-- `C80_ended`: the hypotheses, with requests of two actors -/
example : ∃ σ, run two State.init (busy ++ [.request 4]) = .ok σ ∧ (∃ σ', step two σ (.stop 2) = .ok σ' ∧ Waits 1 3 (.user 4) σ') ∧
    Waits 1 2 (.user 2) σ := ⟨_, rfl, ⟨_, rfl, rfl⟩, rfl⟩

end Verif.InitCancel
