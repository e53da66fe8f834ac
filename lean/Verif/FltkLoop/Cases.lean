import Verif.FltkLoop.Props
/-!
# Concrete executions of the FLTK backend
-/

namespace Verif.FltkLoop

def chk (ops : List Op) (p : State → Bool) : Bool := match run .init ops with | some σ => p σ | none => false

/-- C69_order, C69_all_dispatched, C69_none_left_without_timers: two threads; the second message is taken before its sender has counted it -/
example : chk [.push 1, .add, .push 2, .wake, .fetch, .fetch, .fetch, .dispatch [7], .dispatch [], .dispatch [], .done, .sub, .add, .fetch]
    (fun σ => decide (σ.pc = .idle ∧ σ.wakes = 0 ∧ σ.pushing = 0 ∧ σ.pushed = [1, 2] ∧ σ.taken = [.outside 1, .outside 2, .inside 7])) = true := rfl

/-- a message that arrives while the callback of the other is running is taken by the same callback -/
example : chk [.push 1, .add, .wake, .fetch, .fetch, .push 2, .add, .dispatch [], .done, .sub, .fetch, .fetch, .dispatch [], .done, .sub]
    (fun σ => decide (σ.pc = .idle ∧ σ.wakes = 0 ∧ σ.pushed = [1, 2] ∧ outsiders σ.taken = [1, 2])) = true := rfl

/-- the counter is negative: the next sender does not wake up the loop, the one before does -/
example : chk [.push 1, .add, .push 2, .wake, .fetch, .fetch, .fetch, .dispatch [], .dispatch [], .done, .sub, .fetch, .push 3, .add]
    (fun σ => decide (σ.pc = .idle ∧ σ.wakes = 0 ∧ σ.pushing = 1 ∧ σ.inbound = [3] ∧ σ.counter = 0)) = true := rfl
example : chk [.push 1, .add, .push 2, .wake, .fetch, .fetch, .fetch, .dispatch [], .dispatch [], .done, .sub, .fetch, .push 3, .add, .add]
    (fun σ => decide (σ.pc = .idle ∧ σ.wakes = 1 ∧ σ.pushing = 0 ∧ σ.inbound = [3])) = true := rfl

/-- C69_none_left_partial: a message of a timer stays, the next message of another thread takes it along -/
example : chk [.timer [5]] (fun σ => decide (σ.pc = .idle ∧ σ.queue = [.timer 5])) = true := rfl
example : chk [.timer [5], .push 1, .add, .wake, .fetch, .fetch, .dispatch [], .dispatch [], .done, .sub]
    (fun σ => decide (σ.pc = .idle ∧ σ.queue = [] ∧ σ.taken = [.timer 5, .outside 1])) = true := rfl

/-- C69_process_takes_all: the loop of `examples/ping-pong-fltk.cpp:118-121` -/
example : ∃ σ σ', run .init [.timer [5]] = some σ ∧ run σ (Op.process :: [.dispatch [6], .dispatch []] ++ [.done]) = some σ' ∧
    σ'.taken = [.timer 5, .inside 6] := ⟨_, _, rfl, rfl, rfl⟩

/-- C69_timer_counterexample: other timers expire -/
example : ∃ σ σ', run .init [.timer [5]] = some σ ∧ run σ [.timer [6], .timer []] = some σ' ∧ σ'.queue = [.timer 5, .timer 6] ∧ σ'.taken = [] :=
  ⟨_, _, rfl, rfl, rfl, rfl⟩

/-- `start` and `shutdown` process the queue -/
example : chk [.start, .runStart, .done, .down, .timer [4], .runDown [8], .dispatch [], .dispatch [], .done]
    (fun σ => decide (σ.pc = .idle ∧ σ.queue = [] ∧ σ.taken = [.timer 4, .inside 8])) = true := rfl

end Verif.FltkLoop
