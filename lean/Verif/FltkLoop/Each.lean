import Verif.FltkLoop.Refine

/-!
# C69: what a locality of the FLTK backend dispatches, and that it goes on

`src/rotor/fltk/system_context_fltk.cpp:27-58`, `src/rotor/fltk/supervisor_fltk.cpp:32-49, 79-103`.
-/

namespace Verif.FltkLoop

/-- what enters the queue with a step -/
def enters (σ : State) : Op → List Item
  | .fetch => (σ.inbound.take 1).map .outside
  | .dispatch puts => puts.map .inside
  | .runDown puts => puts.map .inside
  | .timer puts => puts.map .timer
  | _ => []

/-- .. with an execution, in order -/
def entered (σ : State) : List Op → List Item
  | [] => []
  | op :: ops => enters σ op ++ (match step σ op with | some σ' => entered σ' ops | none => [])

/-- **C69** All messages, those of other threads, of handlers and of timers, are dispatched once, in the order in which they enter the queue: what has
been dispatched and what waits is what entered. -/
theorem C69_each_once {ops : List Op} (h : run .init ops = some σ) : σ.taken ++ σ.queue = entered .init ops := by
  have key : ∀ (ops : List Op) (σ σ' : State), run σ ops = some σ' → σ'.taken ++ σ'.queue = σ.taken ++ σ.queue ++ entered σ ops := by
    intro ops
    induction ops with
    | nil => intro σ σ' e; simp only [run, Option.some.injEq] at e; subst e; simp [entered]
    | cons op ops ih =>
      intro σ σ' e
      simp only [run] at e
      cases hs : step σ op with
      | none => simp [hs] at e
      | some σ₁ =>
        rw [hs] at e
        have h1 : σ₁.taken ++ σ₁.queue = σ.taken ++ σ.queue ++ enters σ op := by
          cases op <;> simp only [step] at hs <;> (repeat' split at hs) <;> simp only [Option.some.injEq, reduceCtorEq] at hs <;>
            (subst hs; simp_all [enters])
        rw [ih σ₁ σ' e, h1]
        simp [entered, hs]
  simpa [State.init] using key ops _ _ h

/-- **C69** what is recorded as pushed is what the threads pushed; the calls of `start` and `shutdown` and the threads underway are counted -/
theorem C69_counted {ops : List Op} (h : run .init ops = some σ) :
    σ.pushed = ops.filterMap (fun | .push m => some m | _ => none) ∧ σ.pushing + ops.count .add = σ.pushed.length ∧
    σ.starts + ops.count .runStart = ops.count .start ∧ σ.downs + ops.countP (fun | .runDown _ => true | _ => false) = ops.count .down := by
  have key : ∀ (ops : List Op) (σ σ' : State), run σ ops = some σ' →
      σ'.pushed = σ.pushed ++ ops.filterMap (fun | .push m => some m | _ => none) ∧
      σ'.pushing + ops.count .add + σ.pushed.length = σ.pushing + σ'.pushed.length ∧
      σ'.starts + ops.count .runStart = σ.starts + ops.count .start ∧
      σ'.downs + ops.countP (fun | .runDown _ => true | _ => false) = σ.downs + ops.count .down := by
    intro ops
    induction ops with
    | nil => intro σ σ' e; simp only [run, Option.some.injEq] at e; subst e; simp
    | cons op ops ih =>
      intro σ σ' e
      simp only [run] at e
      cases hs : step σ op with
      | none => simp [hs] at e
      | some σ₁ =>
        rw [hs] at e
        obtain ⟨i1, i2, i3, i4⟩ := ih σ₁ σ' e
        rw [i1] at i2 ⊢
        cases op <;> simp only [step] at hs <;> (repeat' split at hs) <;> simp only [Option.some.injEq, reduceCtorEq] at hs <;>
          (subst hs; simp [List.count_cons, List.countP_cons] at i2 i3 i4 ⊢; omega)
  simpa [State.init] using key ops _ _ h

/-- **C69** Nobody gets stuck: threads can send, start and shut down; those that have pushed can finish; an idle loop runs every pending callback and
every timer; a running callback goes on, whatever its handlers put. -/
theorem C69_goes_on {ops : List Op} (h : run .init ops = some σ) :
    (∀ m, (step σ (.push m)).isSome) ∧ (step σ .start).isSome ∧ (step σ .down).isSome ∧ (ops.count .add < σ.pushed.length → (step σ .add).isSome) ∧
    (σ.pc = .idle → (σ.wakes ≠ 0 → (step σ .wake).isSome) ∧ (ops.count .runStart < ops.count .start → (step σ .runStart).isSome) ∧
      (ops.countP (fun | .runDown _ => true | _ => false) < ops.count .down → ∀ puts, (step σ (.runDown puts)).isSome) ∧
      (∀ puts, (step σ (.timer puts)).isSome) ∧ (step σ .process).isSome) ∧
    (∀ n, σ.pc = .fetching n → (step σ .fetch).isSome) ∧ (∀ n, σ.pc = .sub n → (step σ .sub).isSome) ∧
    (∀ r, σ.pc = .proc r → if σ.queue = [] then (step σ .done).isSome else ∀ puts, (step σ (.dispatch puts)).isSome) := by
  obtain ⟨-, h2, h3, h4⟩ := C69_counted h
  refine ⟨fun m => rfl, rfl, rfl, fun hc => ?_, fun hp => ⟨fun hw => ?_, fun hc => ?_, fun hc puts => ?_, fun puts => ?_, ?_⟩, fun n hp => ?_, fun n hp => ?_, fun r hp => ?_⟩
  · have : ¬ σ.pushing = 0 := by omega
    simp [step, this]
  · simp [step, hp, hw]
  · have : ¬ σ.starts = 0 := by omega
    simp [step, hp, this]
  · have : ¬ σ.downs = 0 := by omega
    simp [step, hp, this]
  · simp [step, hp]
  · simp [step, hp]
  · cases hi : σ.inbound <;> simp [step, hp, hi]
  · simp [step, hp]
  · cases hq : σ.queue <;> simp [step, hp, hq]

/-- messages of all kinds -/
def mixed : List Op := [.push 5, .add, .timer [1], .wake, .push 6, .fetch, .fetch, .fetch, .dispatch [2], .dispatch [], .start, .dispatch [], .down, .dispatch [3]]

example : (run .init mixed).map (fun σ => (σ.taken, σ.queue, σ.pushing, σ.starts, σ.downs)) =
    some ([.timer 1, .outside 5, .outside 6, .inside 2], [.inside 3], 1, 1, 1) := by decide
example : entered .init mixed = [.timer 1, .outside 5, .outside 6, .inside 2, .inside 3] := by decide

end Verif.FltkLoop
