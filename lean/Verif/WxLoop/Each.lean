import Verif.WxLoop.Props

/-!
# C56: what a wx supervisor dispatches, and that it goes on

The statements of `Props.lean` are about the messages of other threads. Here: all messages, the closures given to `CallAfter`, and that the loop
does not get stuck. `src/rotor/wx/supervisor_wx.cpp:32-45, 49-75`.
-/

namespace Verif.WxLoop

/-- what enters the queue with a step: what a timer or a handler leaves behind, and what a closure of `CallAfter` puts into it -/
def enters (σ : State) : Label → List Item
  | .timer ms => ms.map .inside
  | .dispatch ms => ms.map .inside
  | .next => match σ.pending with
    | .put m :: _ => [.outside m]
    | .down (some m) :: _ => [.inside m]
    | _ => []
  | _ => []

/-- .. with an execution, in order -/
def entered (σ : State) : List Label → List Item
  | [] => []
  | l :: ls => enters σ l ++ (match step σ l with | some σ' => entered σ' ls | none => [])

/-- the closures given to `CallAfter` -/
def given : List Label → List Job
  | [] => []
  | .push m :: ls => .put m :: given ls
  | .down m :: ls => .down m :: given ls
  | _ :: ls => given ls

/-- the closures that have run -/
def begun (σ : State) : List Label → List Job
  | [] => []
  | l :: ls => (match l with | .next => σ.pending.take 1 | _ => []) ++ (match step σ l with | some σ' => begun σ' ls | none => [])

theorem entered_step {l : Label} (e : step σ l = some σ') : σ'.taken ++ σ'.queue = σ.taken ++ σ.queue ++ enters σ l := by
  cases l with
  | next =>
    simp only [step] at e
    split at e
    · cases e
    split at e
    · cases e
    rename_i j js hp
    simp only [Option.some.injEq] at e
    subst e
    cases j with
    | down m => cases m <;> simp [enters, hp, Job.items]
    | _ => simp [enters, hp, Job.items]
  | _ => simp only [step] at e <;> (repeat' split at e) <;> simp only [Option.some.injEq, reduceCtorEq] at e <;> (subst e; simp_all [enters])

/-- **C56** All messages of the locality, those of its actors and those of other threads, are dispatched once, in the order in which they enter the
queue: what has been dispatched and what waits is what was there at the beginning and what entered since. -/
theorem C56_wx_each_once {ls : List Label} (h : run (State.init q) ls = some σ) :
    σ.taken ++ σ.queue = q.map .inside ++ entered (State.init q) ls := by
  have key : ∀ (ls : List Label) (σ σ' : State), run σ ls = some σ' → σ'.taken ++ σ'.queue = σ.taken ++ σ.queue ++ entered σ ls := by
    intro ls
    induction ls with
    | nil => intro σ σ' e; simp only [run, Option.some.injEq] at e; subst e; simp [entered]
    | cons l ls ih =>
      intro σ σ' e
      simp only [run] at e
      cases hs : step σ l with
      | none => simp [hs] at e
      | some σ₁ =>
        rw [hs] at e
        rw [ih σ₁ σ' e, entered_step hs]
        simp [entered, hs]
  simpa [State.init] using key ls _ _ h

/-- **C56** The closures of `CallAfter` run one after the other, each once, in the order of the calls of `enqueue`, `shutdown` and `start`. -/
theorem C56_wx_closures {ls : List Label} (h : run (State.init q) ls = some σ) :
    begun (State.init q) ls ++ σ.pending = .go :: given ls := by
  have key : ∀ (ls : List Label) (σ σ' : State), run σ ls = some σ' → begun σ ls ++ σ'.pending = σ.pending ++ given ls := by
    intro ls
    induction ls with
    | nil => intro σ σ' e; simp only [run, Option.some.injEq] at e; subst e; simp [begun, given]
    | cons l ls ih =>
      intro σ σ' e
      simp only [run] at e
      cases hs : step σ l with
      | none => simp [hs] at e
      | some σ₁ =>
        rw [hs] at e
        have h1 := ih σ₁ σ' e
        simp only [begun, hs, List.append_assoc, h1]
        cases l <;> simp only [step] at hs <;> (repeat' split at hs) <;> simp only [Option.some.injEq, reduceCtorEq] at hs <;>
          (subst hs; simp_all [given])
  exact key ls _ _ h

/-- **C56** Nobody gets stuck: threads can always send and shut down; an idle loop runs the next closure and expired timers; inside `do_process` the
next message is dispatched, whatever its handlers leave behind, or the loop returns. -/
theorem C56_wx_goes_on (σ : State) :
    (∀ m, (step σ (.push m)).isSome) ∧ (∀ m, (step σ (.down m)).isSome) ∧
    (σ.busy = false → (∀ ms, (step σ (.timer ms)).isSome) ∧ (σ.pending ≠ [] → (step σ .next).isSome)) ∧
    (σ.busy = true → if σ.queue = [] then (step σ .done).isSome else ∀ ms, (step σ (.dispatch ms)).isSome) := by
  refine ⟨fun m => rfl, fun m => rfl, fun hb => ⟨fun ms => ?_, fun hp => ?_⟩, fun hb => ?_⟩
  · simp [step, hb]
  · cases hc : σ.pending with
    | nil => exact absurd hc hp
    | cons j js => simp [step, hb, hc]
  · cases hc : σ.queue <;> simp [step, hb, hc]

/-- two threads, a timer, and a shutdown from outside -/
def mixed : List Label := [.push 5, .next, .dispatch [], .done, .timer [2], .down (some 8), .dispatch [3], .dispatch [], .done, .next, .dispatch [],
  .done, .next]

example : (run (State.init [1]) mixed).map (fun σ => (σ.taken, σ.queue, σ.pending)) =
    some ([.inside 1, .inside 2, .inside 3, .outside 5], [.inside 8], []) := by decide
example : entered (State.init [1]) mixed = [.inside 2, .inside 3, .outside 5, .inside 8] ∧ given mixed = [.put 5, .down (some 8)] ∧
    begun (State.init [1]) mixed = [.go, .put 5, .down (some 8)] := by decide

end Verif.WxLoop
