import Verif.AsioLoop.Props

/-!
# C56: what an asio supervisor dispatches, and that it goes on

The statements of `Props.lean` are about the messages of other threads. Here: all messages, the closures of the strand, and that neither the strand
nor a sending thread gets stuck. `src/rotor/asio/supervisor_asio.cpp:38, 53-63, 81-91, 108-132`.
-/

namespace Verif.AsioLoop

/-- what enters the queue with a step: the messages a callback, a forwarded call or a handler leaves behind, and those taken from the inbound queue -/
def enters (σ : State) : Label → List Item
  | .begin ms => match σ.strand with
    | .wake :: _ => []
    | _ => ms.map .inside
  | .dispatch ms => ms.map .inside
  | .pop => (σ.inbound.take 1).map .outside
  | _ => []

/-- .. with an execution, in order -/
def entered (σ : State) : List Label → List Item
  | [] => []
  | l :: ls => enters σ l ++ (match step σ l with | some σ' => entered σ' ls | none => [])

/-- the closures given to the strand -/
def given : List Label → List Job
  | [] => []
  | .defer _ :: ls => .wake :: given ls
  | .post j :: ls => j :: given ls
  | _ :: ls => given ls

/-- the closures that have begun -/
def begun (σ : State) : List Label → List Job
  | [] => []
  | l :: ls => (match l with | .begin _ => σ.strand.take 1 | _ => []) ++ (match step σ l with | some σ' => begun σ' ls | none => [])

/-- the thread has pushed a message and not yet called `defer` -/
def between (i : Nat) (b : Bool) : List Label → Bool
  | [] => b
  | .push j _ :: ls => between i (if j = i then true else b) ls
  | .defer j :: ls => between i (if j = i then false else b) ls
  | _ :: ls => between i b ls

theorem entered_step {l : Label} (e : step σ l = some σ') : σ'.taken ++ σ'.queue = σ.taken ++ σ.queue ++ enters σ l := by
  cases l <;> simp only [step] at e <;> (repeat' split at e) <;> simp only [Option.some.injEq, reduceCtorEq] at e <;> (subst e; simp_all [enters])

/-- **C56** All messages of the locality, those of its actors and those of other threads, are dispatched once, in the order in which they enter the
queue: what has been dispatched and what waits is what was there at the beginning and what entered since. -/
theorem C56_asio_each_once {ls : List Label} (h : run (State.init q) ls = some σ) :
    σ.taken ++ σ.queue = q.map .inside ++ entered (State.init q) ls := by
  have key : ∀ (ls : List Label) (σ σ' : State), run σ ls = some σ' → σ'.taken ++ σ'.queue = σ.taken ++ σ.queue ++ entered σ ls := by
    intro ls
    induction ls with
    | nil => intro σ σ' e; simp only [run, Option.some.injEq] at e; subst e; simp [entered]
    | cons l ls ih =>
      intro σ σ' e
      simp only [run] at e
      cases hs : step σ l with
      | none => simp [hs] at e
      | some σ₁ =>
        rw [hs] at e
        rw [ih σ₁ σ' e, entered_step hs]
        simp [entered, hs]
  simpa [State.init] using key ls _ _ h

/-- **C56** The closures given to the strand run one after the other, each once, in the order in which they were given. -/
theorem C56_asio_closures {ls : List Label} (h : run (State.init q) ls = some σ) :
    begun (State.init q) ls ++ σ.strand = .wake :: given ls := by
  have key : ∀ (ls : List Label) (σ σ' : State), run σ ls = some σ' → begun σ ls ++ σ'.strand = σ.strand ++ given ls := by
    intro ls
    induction ls with
    | nil => intro σ σ' e; simp only [run, Option.some.injEq] at e; subst e; simp [begun, given]
    | cons l ls ih =>
      intro σ σ' e
      simp only [run] at e
      cases hs : step σ l with
      | none => simp [hs] at e
      | some σ₁ =>
        rw [hs] at e
        have h1 := ih σ₁ σ' e
        simp only [begun, hs, List.append_assoc, h1]
        cases l <;> simp only [step] at hs <;> (repeat' split at hs) <;> simp only [Option.some.injEq, reduceCtorEq] at hs <;>
          (subst hs; simp_all [given])
  exact key ls _ _ h

/-- the positions of the threads -/
theorem threads_between {ls : List Label} (h : run (State.init q) ls = some σ) (i : Nat) : σ.threads i = between i false ls := by
  have key : ∀ (ls : List Label) (σ σ' : State), run σ ls = some σ' → σ'.threads i = between i (σ.threads i) ls := by
    intro ls
    induction ls with
    | nil => intro σ σ' e; simp only [run, Option.some.injEq] at e; subst e; rfl
    | cons l ls ih =>
      intro σ σ' e
      simp only [run] at e
      cases hs : step σ l with
      | none => simp [hs] at e
      | some σ₁ =>
        rw [hs] at e
        rw [ih σ₁ σ' e]
        cases l <;> simp only [step] at hs <;> (repeat' split at hs) <;> simp only [Option.some.injEq, reduceCtorEq] at hs <;>
          (subst hs; simp only [between, upd, eq_comm])
  exact key ls _ _ h

/-- **C56** Nobody gets stuck: a thread outside of `enqueue` can send, one inside finishes; a strand with a closure begins with it; the running
closure can always go on, whatever its callback or its handlers leave behind. -/
theorem C56_asio_goes_on {ls : List Label} (h : run (State.init q) ls = some σ) :
    (∀ i m, between i false ls = false → (step σ (.push i m)).isSome) ∧ (∀ i, between i false ls = true → (step σ (.defer i)).isSome) ∧
    (σ.pc = .idle → σ.strand ≠ [] → ∀ ms, (step σ (.begin ms)).isSome) ∧ (σ.pc = .moving → (step σ .pop).isSome) ∧
    (σ.pc = .polling → (step σ .leave).isSome) ∧
    (∀ b, σ.pc = .proc b → if σ.queue = [] then ∀ p, (step σ (.return p)).isSome else ∀ ms, (step σ (.dispatch ms)).isSome) := by
  refine ⟨fun i m hb => ?_, fun i hb => ?_, fun hp hs ms => ?_, fun hp => ?_, fun hp => ?_, fun b hp => ?_⟩
  · rw [← threads_between h] at hb; simp [step, hb]
  · rw [← threads_between h] at hb; simp [step, hb]
  · cases hc : σ.strand with
    | nil => exact absurd hc hs
    | cons j js => cases j <;> simp [step, hp, hc]
  · cases hc : σ.inbound <;> simp [step, hp, hc]
  · simp [step, hp]
  · cases hc : σ.queue <;> simp [step, hp, hc]

/-- a thread between push and defer, a timer and a forwarded call; messages of all kinds -/
def mixed : List Label := [.push 3 30, .post .timer, .begin [7], .pop, .pop, .dispatch [8], .post .call, .dispatch [], .dispatch [], .return false,
  .begin [9], .pop, .dispatch []]

example : (run (State.init [1]) mixed).map (fun σ => (σ.taken, σ.queue, σ.strand, σ.threads 3)) =
    some ([.inside 1, .outside 30, .inside 8, .inside 9], [], [.call], true) := by decide
example : entered (State.init [1]) mixed = [.outside 30, .inside 8, .inside 9] ∧ given mixed = [.timer, .call] ∧ between 3 false mixed = true ∧
    begun (State.init [1]) mixed = [.wake, .timer] := by decide

end Verif.AsioLoop
