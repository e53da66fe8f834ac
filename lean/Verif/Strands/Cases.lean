import Verif.Strands.Alive
/-!
# Cases for C65
-/

namespace Verif.Strands

theorem ok_of {r : Except Err State} {p : State → Prop} [DecidablePred p]
    (h : (match r with | .ok σ => decide (p σ) | .error _ => false) = true) : ∃ σ, r = .ok σ ∧ p σ := by
  cases r with
  | ok σ => exact ⟨σ, rfl, by simpa using h⟩
  | error e => cases h

/-- three supervisors, two strands, two threads: the failed operation 8 of actor 2 and the result of operation 7 of actor 1 wait in strand 1, a message
to supervisor 0 is dispatched in strand 0 -/
def script : List Label :=
  [.begin 7 1, .begin 8 2, .complete 8 2 true, .complete 7 1 false, .enqueue 2 (.user 5 2), .enqueue 0 (.user 6 0),
   .take 1 0 true,            -- thread 0: the error of operation 8
   .take 0 1 true, .pop 0 1, .pop 0 1, .dispatch 0 [1, 0] true, .call 0]   -- thread 1: message 6 for actors 1 and 0, handler of actor 0

theorem script_ok : ∃ σ, run topo State.init script = .ok σ ∧
    σ.threads 0 = some 1 ∧ σ.exec 1 = some ⟨2, false, true, .callback 2⟩ ∧ σ.threads 1 = some 0 ∧ σ.exec 0 = some ⟨0, true, false, .handler 0 []⟩ ∧
    calls topo 1 σ.log = [(8, 2, true)] ∧ completed topo 1 σ.log = [(8, 2, true), (7, 1, false)] ∧ waiting (σ.tasks 1) = [(7, 1, false)] :=
  ok_of rfl

/-- two threads execute code of different strands: `C65_exclusive` does not hold for all actors -/
example : ∃ σ, run topo State.init script = .ok σ ∧ Executes σ 0 2 ∧ Executes σ 1 0 := by
  obtain ⟨σ, h, h1, h2, h3, h4, -⟩ := script_ok
  exact ⟨σ, h, ⟨1, _, h1, h2, .inl rfl⟩, ⟨0, _, h3, h4, .inr ⟨[], rfl⟩⟩⟩

/-- the foreign call for actor 1 waits in the inbound queue of its locality, with a closure in strand 1 -/
example : ∃ σ, run topo State.init script = .ok σ ∧ σ.inbound 1 = [.user 5 2, .hcall 6 1] ∧
    σ.tasks 1 = [.fwd 7 1 false, .process 2, .process 1] := ok_of rfl

/-- the callback sends a message, its closure goes on until the queue is empty -/
example : ∃ σ, run topo State.init [.begin 7 1, .complete 7 1 false, .take 1 0 true, .send 1 (.user 9 2), .back 1,
    .dispatch 1 [2] true, .call 1, .handled 1, .call 1, .return 1 0 false] = .ok σ ∧ σ.exec 1 = none ∧ σ.queue 1 = [] ∧
    σ.log = [.handled 2 (.user 9 2), .called 7 1 false, .done 7 1 false] := ok_of rfl

/-- it cannot end earlier -/
example : run topo State.init [.begin 7 1, .complete 7 1 false, .take 1 0 true, .send 1 (.user 9 2), .back 1, .return 1 0 false] =
    .error .illegal := rfl

/-- a careful run: the supervisor is released after the callback, then only others are used -/
example : CarefulRun topo State.init [.begin 7 1, .complete 7 1 false, .take 1 0 true, .back 1, .return 1 0 false, .destroy 1, .enqueue 0 (.user 3 0)] := by
  refine ⟨⟨rfl, rfl⟩, fun _ e => ?_⟩
  cases e
  refine ⟨trivial, fun _ e => ?_⟩
  cases e
  refine ⟨trivial, fun _ e => ?_⟩
  cases e
  refine ⟨trivial, fun _ e => ?_⟩
  cases e
  refine ⟨trivial, fun _ e => ?_⟩
  cases e
  refine ⟨?_, fun _ e => ?_⟩
  · suffices hn : ∀ s, ¬ Needed topo _ s from ⟨fun hu => hn _ hu.needed, fun s hs => absurd hs (hn s)⟩
    intro s hs
    rcases hs with ⟨c, a, h, -⟩ | ⟨k, t, h, -⟩ | ⟨k, e, h, -⟩
    · exact absurd h (by simp [start, defer, setPc, State.init])
    · simp only [start, defer, setPc, State.init, upd] at h
      split at h
      · cases h
      · split at h <;> simp at h
        rename_i h1 h2
        exact absurd (by rw [h2]; rfl) h1
    · simp only [start, defer, setPc, State.init, upd] at h
      split at h
      · cases h
      · cases h
  · cases e
    exact ⟨⟨rfl, rfl⟩, fun _ _ => trivial⟩

/-- the supervisor need not take care of its own timers: their callback holds it -/
example : ∃ σ, run topo State.init [.expire 1, .take 1 0 true] = .ok σ ∧ ¬ Unheld topo σ 1 ∧ Needed topo σ 1 ∧ step topo σ (.destroy 1) = .error .illegal := by
  refine ⟨_, rfl, ?_, .inr (.inr ⟨1, _, rfl, .inl rfl⟩), rfl⟩
  rintro (⟨c, a, h, -⟩ | ⟨k, c, a, err, h, -⟩ | ⟨k, e, h, h1, h2⟩)
  · cases h
  · have h' : Task.fwd c a err ∈ (if k = 1 then [] else if k = 1 then [Task.timer 1] else []) := h
    split at h'
    · cases h'
    · simp at h'
  · have h' : (if k = 1 then some (⟨1, true, false, .callback 1⟩ : Exec) else none) = some e := h
    split at h'
    · injection h' with h'; subst h'; exact h1 ⟨rfl, rfl⟩
    · cases h'

end Verif.Strands
