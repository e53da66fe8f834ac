import Verif.EvLoop.Props

/-!
# C56: what an ev supervisor dispatches, and that it goes on

The statements of `Props.lean` are about the messages of other threads. Here: all messages, and that neither the loop nor a sending thread gets
stuck. `src/rotor/ev/supervisor_ev.cpp:32-52, 70-83, 116-158`.
-/

namespace Verif.EvLoop

/-- what enters the queue with a step: the messages a timer or a handler leaves behind, and those taken from the inbound queue -/
def enters (σ : State) : Label → List Item
  | .timer ms => ms.map .inside
  | .dispatch ms => ms.map .inside
  | .pop => (σ.inbound.take 1).map (fun x => .outside x.m)
  | _ => []

/-- .. with an execution, in order -/
def entered (σ : State) : List Label → List Item
  | [] => []
  | l :: ls => enters σ l ++ (match step σ l with | some σ' => entered σ' ls | none => [])

/-- the supervisor whose watcher the thread is about to mark -/
def between (i : Nat) (b : Option Nat) : List Label → Option Nat
  | [] => b
  | .push j s _ :: ls => between i (if j = i then some s else b) ls
  | .start j s :: ls => between i (if j = i then some s else b) ls
  | .signal j :: ls => between i (if j = i then none else b) ls
  | _ :: ls => between i b ls

theorem entered_step {l : Label} (e : step σ l = some σ') : σ'.taken ++ σ'.queue = σ.taken ++ σ.queue ++ enters σ l := by
  cases l <;> simp only [step] at e <;> (repeat' split at e) <;> simp only [Option.some.injEq, reduceCtorEq] at e <;> (subst e; simp_all [enters])

/-- **C56** All messages of the locality, those of its actors and those of other threads, are dispatched once, in the order in which they enter the
queue: what has been dispatched and what waits is what was there at the beginning and what entered since. -/
theorem C56_ev_each_once {ls : List Label} (h : run (State.init r q) ls = some σ) :
    σ.taken ++ σ.queue = q.map .inside ++ entered (State.init r q) ls := by
  have key : ∀ (ls : List Label) (σ σ' : State), run σ ls = some σ' → σ'.taken ++ σ'.queue = σ.taken ++ σ.queue ++ entered σ ls := by
    intro ls
    induction ls with
    | nil => intro σ σ' e; simp only [run, Option.some.injEq] at e; subst e; simp [entered]
    | cons l ls ih =>
      intro σ σ' e
      simp only [run] at e
      cases hs : step σ l with
      | none => simp [hs] at e
      | some σ₁ =>
        rw [hs] at e
        rw [ih σ₁ σ' e, entered_step hs]
        simp [entered, hs]
  simpa [State.init] using key ls _ _ h

/-- the positions of the threads -/
theorem threads_between {ls : List Label} (h : run (State.init r q) ls = some σ) (i : Nat) : σ.threads i = between i none ls := by
  have key : ∀ (ls : List Label) (σ σ' : State), run σ ls = some σ' → σ'.threads i = between i (σ.threads i) ls := by
    intro ls
    induction ls with
    | nil => intro σ σ' e; simp only [run, Option.some.injEq] at e; subst e; rfl
    | cons l ls ih =>
      intro σ σ' e
      simp only [run] at e
      cases hs : step σ l with
      | none => simp [hs] at e
      | some σ₁ =>
        rw [hs] at e
        rw [ih σ₁ σ' e]
        cases l <;> simp only [step] at hs <;> (repeat' split at hs) <;> simp only [Option.some.injEq, reduceCtorEq] at hs <;>
          (subst hs; simp only [between, upd, eq_comm])
  exact key ls _ _ h

/-- **C56** Nobody gets stuck: a thread outside of `enqueue` can send, one inside finishes and leaves its mark at the watcher of the supervisor it
has sent to; the running callback can always go on, whatever the handlers leave behind. -/
theorem C56_ev_goes_on {ls : List Label} (h : run (State.init r q) ls = some σ) :
    (∀ i s m, between i none ls = none → σ.used s = true → (step σ (.push i s m)).isSome) ∧
    (∀ i s, between i none ls = some s → ∃ σ', step σ (.signal i) = some σ' ∧ σ'.sent s = true) ∧
    (σ.pc = .idle → (step σ .collect).isSome ∧ (∀ ms, (step σ (.timer ms)).isSome) ∧
      ∀ s, σ.fed s = true → σ.active s = true → (step σ (.callback s)).isSome) ∧
    (σ.pc = .moving ∨ (∃ s b, σ.pc = .halting s b) → (step σ .pop).isSome) ∧ (σ.pc = .polling → (step σ .leave).isSome) ∧
    (∀ b, σ.pc = .proc b → if σ.queue = [] then ∀ p, (step σ (.return p)).isSome else ∀ ms, (step σ (.dispatch ms)).isSome) := by
  refine ⟨fun i s m hb hu => ?_, fun i s hb => ?_, fun hp => ⟨?_, fun ms => ?_, fun s hf ha => ?_⟩, fun hp => ?_, fun hp => ?_, fun b hp => ?_⟩
  · rw [← threads_between h] at hb; simp [step, hb, hu]
  · rw [← threads_between h] at hb; simp [step, hb, upd]
  · simp [step, hp]
  · simp [step, hp]
  · simp [step, hp, hf, ha]
  · rcases hp with hp | ⟨s, b, hp⟩ <;> cases hc : σ.inbound <;> simp [step, hp, hc]
  · simp [step, hp]
  · cases hc : σ.queue <;> simp [step, hp, hc]

/-- a message of another thread, a timer, a handler; a second thread about to mark the watcher -/
def mixed : List Label := [.push 3 1 30, .signal 3, .timer [7], .dispatch [8], .dispatch [], .dispatch [], .return false, .collect, .callback 1,
  .push 4 1 40, .pop, .pop, .pop, .dispatch [9]]

example : (run (State.init 1 [1]) mixed).map (fun σ => (σ.taken, σ.queue, σ.threads 3, σ.threads 4)) =
    some ([.inside 1, .inside 7, .inside 8, .outside 30], [.outside 40, .inside 9], none, some 1) := by decide
example : entered (State.init 1 [1]) mixed = [.inside 7, .inside 8, .outside 30, .outside 40, .inside 9] ∧ between 4 none mixed = some 1 ∧
    between 3 none mixed = none := by decide

end Verif.EvLoop
